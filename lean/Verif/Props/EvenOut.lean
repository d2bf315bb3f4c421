import Verif.Props.Warmer
import Verif.Spec.EvenOut
import Mathlib.Analysis.Convex.Jensen
import Mathlib.Analysis.Convex.Mul
import Mathlib.Analysis.Convex.SpecificFunctions.Basic

/-!
# C161: temperatures only even out
-/

namespace Slide
open Spec

/-! ## Helper lemmas -/

/-- What bodies at the temperatures `p.2` bring in through the conductances `p.1`, with `f` of the temperatures. -/
noncomputable def flowOf (f : ℝ → ℝ) (T : ℝ) (ps : List (ℝ × ℝ)) : ℝ := (ps.map fun p => p.1 * (f p.2 - f T)).sum

theorem flowOf_append (f : ℝ → ℝ) (T : ℝ) (ps qs : List (ℝ × ℝ)) : flowOf f T (ps ++ qs) = flowOf f T ps + flowOf f T qs := by
  simp [flowOf]

theorem sum_div_map (C : ℝ) (ps : List (ℝ × ℝ)) : (ps.map fun p => p.1 / C).sum = (ps.map Prod.fst).sum / C := by
  induction ps with
  | nil => simp
  | cons p ps ih => simp only [List.map_cons, List.sum_cons, ih]; ring

/-- Jensen's inequality for a body that exchanges heat. -/
theorem jensen_body {s : Set ℝ} {f : ℝ → ℝ} (hf : ConvexOn ℝ s f) {C T : ℝ} (hC : 0 < C) (hT : T ∈ s) (ps : List (ℝ × ℝ))
    (hp : ∀ p ∈ ps, 0 ≤ p.1 ∧ p.2 ∈ s) (hs : (ps.map Prod.fst).sum ≤ C) :
    C * f (T + flowOf id T ps / C) ≤ C * f T + flowOf f T ps := by
  have hj := hf.map_add_sum_le (t := Finset.univ) (w := fun i : Fin ps.length => ps[(i : ℕ)].1 / C) (p := fun i => ps[(i : ℕ)].2)
    (v := 1 - (ps.map fun p => p.1 / C).sum) (q := T) (fun i _ => div_nonneg (hp _ (List.getElem_mem _)).1 hC.le)
    (by rw [Fin.sum_univ_fun_getElem ps fun p => p.1 / C]; ring) (fun i _ => (hp _ (List.getElem_mem _)).2)
    (by rw [sum_div_map, sub_nonneg, div_le_one hC]; exact hs) hT
  simp only [smul_eq_mul] at hj
  rw [Fin.sum_univ_fun_getElem ps fun p => p.1 / C * p.2, Fin.sum_univ_fun_getElem ps fun p => p.1 / C * f p.2] at hj
  have key : ∀ g : ℝ → ℝ, (1 - (ps.map fun p => p.1 / C).sum) * g T + (ps.map fun p => p.1 / C * g p.2).sum =
      g T + flowOf g T ps / C := by
    intro g
    clear hj hs hp
    unfold flowOf
    induction ps with
    | nil => simp
    | cons p ps ih =>
      simp only [List.map_cons, List.sum_cons]
      rw [add_div]
      linear_combination ih
  have k1 := key id
  have k2 := key f
  simp only [id] at k1
  rw [k1, k2] at hj
  have := mul_le_mul_of_nonneg_left hj hC.le
  rw [mul_add C (f T), mul_div_cancel₀ _ hC.ne'] at this
  exact this

/-- What the neighbours of a body are to it. -/
def neighPairs (t A : ℚ) (ns : List Neigh) : List (ℝ × ℝ) := ns.map fun n => (((n.K * min n.A A * t : ℚ) : ℝ), (n.T : ℝ))

theorem received_flow (t T A : ℚ) (ns : List Neigh) : ((received t T A ns : ℚ) : ℝ) = flowOf id T (neighPairs t A ns) := by
  unfold received flowOf neighPairs
  induction ns with
  | nil => simp
  | cons n ns ih =>
    simp only [List.map_cons, List.sum_cons, id] at ih ⊢
    push_cast at ih ⊢
    rw [ih]; ring

theorem neighPairs_ok {s : Set ℝ} {t A : ℚ} {ns : List Neigh} (ht : 0 ≤ t) (hA : 0 ≤ A)
    (hn : ∀ n ∈ ns, 0 ≤ n.K ∧ 0 ≤ n.A ∧ (n.T : ℝ) ∈ s) :
    (∀ p ∈ neighPairs t A ns, 0 ≤ p.1 ∧ p.2 ∈ s) ∧
      ((neighPairs t A ns).map Prod.fst).sum ≤ (((ns.map Neigh.K).sum * A * t : ℚ) : ℝ) := by
  unfold neighPairs
  constructor
  · intro p hp
    simp only [List.mem_map] at hp
    obtain ⟨n, h, rfl⟩ := hp
    obtain ⟨a, b, c⟩ := hn n h
    refine ⟨?_, c⟩
    dsimp only
    exact_mod_cast mul_nonneg (mul_nonneg a (le_min b hA)) ht
  · induction ns with
    | nil => simp
    | cons n ns ih =>
      have ih := ih fun x hx => hn x (List.mem_cons_of_mem _ hx)
      obtain ⟨a, b, c⟩ := hn n List.mem_cons_self
      have h1 : n.K * min n.A A * t ≤ n.K * A * t :=
        mul_le_mul_of_nonneg_right (mul_le_mul_of_nonneg_left (min_le_right _ _) a) ht
      simp only [List.map_cons, List.sum_cons] at ih ⊢
      have h2 : ((n.K * min n.A A * t : ℚ) : ℝ) ≤ ((n.K * A * t : ℚ) : ℝ) := by exact_mod_cast h1
      have h3 : (((n.K + (ns.map Neigh.K).sum) * A * t : ℚ) : ℝ) =
          ((n.K * A * t : ℚ) : ℝ) + (((ns.map Neigh.K).sum * A * t : ℚ) : ℝ) := by push_cast; ring
      rw [h3]
      exact add_le_add h2 ih

/-- What the children are to the coolant. -/
def coolPairs (h k A t : ℚ) (n : ℕ) : ℕ → List HTree → List (ℝ × ℝ)
  | _, [] => []
  | i, u :: us =>
    ((((h + (if i = 0 then k else 0) + (if i = n - 1 then k else 0)) * min A u.A * t : ℚ) : ℝ), (u.T : ℝ)) ::
      coolPairs h k A t n (i + 1) us

theorem coolLoop_flow (h k A Tm t : ℚ) (n : ℕ) : ∀ (us : List HTree) (i : ℕ) (e : ℚ),
    ((HTree.coolLoop h k A Tm t n i e us : ℚ) : ℝ) = e + flowOf id Tm (coolPairs h k A t n i us)
  | [], i, e => by simp [HTree.coolLoop, coolPairs, flowOf]
  | u :: us, i, e => by
    rw [HTree.coolLoop, coolPairs, coolLoop_flow h k A Tm t n us]
    simp only [flowOf, List.map_cons, List.sum_cons, id]
    push_cast
    split_ifs <;> push_cast <;> ring

theorem coolPairs_ok {s : Set ℝ} {h k A t : ℚ} {n : ℕ} (hh : 0 ≤ h) (hk : 0 ≤ k) (hA : 0 ≤ A) (ht : 0 ≤ t) :
    ∀ (us : List HTree) (i : ℕ), Areass us → EachTs s us → (∀ p ∈ coolPairs h k A t n i us, 0 ≤ p.1 ∧ p.2 ∈ s) ∧
      ((coolPairs h k A t n i us).map Prod.fst).sum ≤ (((h + 2 * k) * totalArea us * t : ℚ) : ℝ)
  | [], i, _, _ => by simp [coolPairs, totalArea]
  | u :: us, i, ha, hT => by
    rw [Areass] at ha
    rw [EachTs] at hT
    obtain ⟨i1, i2⟩ := coolPairs_ok (n := n) hh hk hA ht us (i + 1) ha.2 hT.2
    have hu := areas_nonneg u ha.1
    have hTu : (u.T : ℝ) ∈ s := by
      cases u with
      | cell c => have := hT.1; rw [EachT] at this; exact this
      | plain T => have := hT.1; rw [EachT] at this; exact this
      | module th cool ks => have := hT.1; rw [EachT] at this; exact this.1
    have c0 : 0 ≤ h + (if i = 0 then k else 0) + (if i = n - 1 then k else 0) := by split_ifs <;> linarith
    have c1 : h + (if i = 0 then k else 0) + (if i = n - 1 then k else 0) ≤ h + 2 * k := by split_ifs <;> linarith
    rw [coolPairs]
    generalize h + (if i = 0 then k else 0) + (if i = n - 1 then k else 0) = c at *
    constructor
    · intro p hp
      rcases List.mem_cons.mp hp with rfl | hp
      · exact ⟨by dsimp only; exact_mod_cast mul_nonneg (mul_nonneg c0 (le_min hA hu)) ht, hTu⟩
      · exact i1 p hp
    · have h1 : c * min A u.A * t ≤ (h + 2 * k) * u.A * t :=
        mul_le_mul_of_nonneg_right (mul_le_mul c1 (min_le_right _ _) (le_min hA hu) (by linarith)) ht
      have h2 : ((c * min A u.A * t : ℚ) : ℝ) ≤ (((h + 2 * k) * u.A * t : ℚ) : ℝ) := by exact_mod_cast h1
      have h3 : (((h + 2 * k) * totalArea (u :: us) * t : ℚ) : ℝ) =
          (((h + 2 * k) * u.A * t : ℚ) : ℝ) + (((h + 2 * k) * totalArea us * t : ℚ) : ℝ) := by
        simp only [totalArea, List.map_cons, List.sum_cons]; push_cast; ring
      simp only [List.map_cons, List.sum_cons]
      rw [h3]
      exact add_le_add h2 i2

/-- What the children receive, child by child (`kidsReceived` with `f` of the temperatures). -/
noncomputable def kidsFlow (f : ℝ → ℝ) (m : Neigh) (k t : ℚ) : ℚ × ℚ → List HTree → ℝ
  | _, [] => 0
  | l, u :: us =>
    flowOf f u.T (neighPairs t u.A [m, ⟨l.1, k, l.2⟩, ⟨(HTree.rightOf m us).1, k, (HTree.rightOf m us).2⟩]) +
      kidsFlow f m k t (u.T, u.A) us

theorem coolFlow_tail (f : ℝ → ℝ) (h k A Tm t : ℚ) (n : ℕ) : ∀ (us : List HTree) (u : HTree) (i : ℕ) (l : ℚ × ℚ),
    i ≠ 0 → n = i + (us.length + 1) →
    flowOf f Tm (coolPairs h k A t n i (u :: us)) + kidsFlow f ⟨Tm, h, A⟩ k t l (u :: us) =
      (k * min l.2 u.A * t : ℚ) * (f l.1 - f u.T) := by
  intro us
  induction us with
  | nil =>
    intro u i l hi hn
    have : i = n - 1 := by simp at hn; omega
    simp only [coolPairs, if_neg hi, if_pos this, kidsFlow, flowOf, neighPairs, HTree.rightOf, List.map_cons, List.map_nil,
      List.sum_cons, List.sum_nil]
    push_cast
    ring
  | cons v vs ih =>
    intro u i l hi hn
    have hne : i ≠ n - 1 := by simp at hn; omega
    have := ih v (i + 1) (u.T, u.A) (by omega) (by simp at hn ⊢; omega)
    rw [coolPairs, kidsFlow, if_neg hi, if_neg hne]
    simp only [flowOf, neighPairs, HTree.rightOf, List.map_cons, List.map_nil, List.sum_cons, List.sum_nil] at this ⊢
    rw [min_comm v.A u.A]
    push_cast at this ⊢
    linear_combination this

theorem coolFlow_all (f : ℝ → ℝ) (h k A Tm t : ℚ) (us : List HTree) :
    flowOf f Tm (coolPairs h k A t us.length 0 us) + kidsFlow f ⟨Tm, h, A⟩ k t (Tm, A) us = 0 := by
  cases us with
  | nil => simp [coolPairs, flowOf, kidsFlow]
  | cons u us =>
    cases us with
    | nil =>
      simp only [coolPairs, kidsFlow, flowOf, neighPairs, HTree.rightOf, List.map_cons, List.map_nil, List.sum_cons,
      List.sum_nil, List.length_cons, List.length_nil]
      simp
      ring
    | cons v vs =>
      have := coolFlow_tail f h k A Tm t (u :: v :: vs).length vs v (0 + 1) (u.T, u.A) (by omega) (by simp; omega)
      rw [coolPairs, kidsFlow, if_pos rfl, if_neg (by simp)]
      simp only [flowOf, neighPairs, HTree.rightOf, List.map_cons, List.map_nil, List.sum_cons, List.sum_nil] at this ⊢
      rw [min_comm v.A u.A]
      push_cast at this ⊢
      linear_combination this

theorem eachT_T {s : Set ℝ} : ∀ u : HTree, EachT s u → (u.T : ℝ) ∈ s
  | .cell c, h => by rw [EachT] at h; exact h
  | .plain t, h => by rw [EachT] at h; exact h
  | .module _ _ _, h => by rw [EachT] at h; exact h.1

mutual
theorem even_tree {s : Set ℝ} {f : ℝ → ℝ} (hf : ConvexOn ℝ s f) (H : CoolSystem → ℚ) (hH : ∀ c, 0 ≤ H c) (t : ℚ) (ht : 0 < t) :
    ∀ (u : HTree) (ns : List Neigh), Synced t u → Areas u → Passive u → EachT s u →
      (∀ n ∈ ns, 0 ≤ n.K ∧ 0 ≤ n.A ∧ (n.T : ℝ) ∈ s) → ShortStep H t (ns.map Neigh.K).sum u →
      ∀ T' u' u'', u.thermal H ns t = (.ok T', u') → u'.setT T' = (.ok (), u'') →
        heatSum f u'' ≤ heatSum f u + flowOf f u.T (neighPairs t u.A ns)
  | .cell c, ns, hs, ha, hp, hT, hn, hsh => by
    intro T' u' u'' h1 h2
    rw [Synced] at hs
    rw [Areas] at ha
    rw [Passive] at hp
    rw [EachT] at hT
    rw [ShortStep] at hsh
    obtain ⟨e1, rfl⟩ := cell_run hs h1 h2
    obtain ⟨n1, n2⟩ := neighPairs_ok ht.le ha hn
    have hC : (0 : ℝ) < c.C := by exact_mod_cast hsh.1
    have hj := jensen_body hf hC hT _ n1 (n2.trans (by exact_mod_cast hsh.2))
    rw [← received_flow] at hj
    simp only [heatSum, HTree.T, HTree.A]
    rw [hp, zero_add] at e1
    have e2 : ((T' : ℚ) : ℝ) = (c.T : ℝ) + ((received t c.T c.A ns : ℚ) : ℝ) / (c.C : ℝ) := by rw [e1]; push_cast; ring
    rw [← e2] at hj
    exact hj
  | .plain a, ns, _, _, _, _, hn, _ => by
    intro T' u' u'' h1 h2
    rw [HTree.thermal] at h1
    simp only [Prod.mk.injEq, Outcome.ok.injEq] at h1
    obtain ⟨rfl, rfl⟩ := h1
    simp only [HTree.setT, Prod.mk.injEq] at h2
    rw [← h2.2]
    simp only [heatSum, HTree.A]
    have : flowOf f (HTree.plain a).T (neighPairs t 0 ns) = 0 := by
      unfold flowOf neighPairs
      apply List.sum_eq_zero
      intro x hx
      simp only [List.map_map, List.mem_map, Function.comp] at hx
      obtain ⟨n, hn', rfl⟩ := hx
      rw [min_eq_right (hn n hn').2.1]
      simp
    rw [this, add_zero]
  | .module th cool ks, ns, hs, ha, hp, hT, hn, hsh => by
    intro T' u' u'' h1 h2
    rw [Synced] at hs
    rw [Areas] at ha
    rw [Passive] at hp
    rw [EachT] at hT
    rw [ShortStep] at hsh
    obtain ⟨ts, ks1, ks2, c2, a1, a2, rfl, rfl, a5, a6⟩ := module_run ht.ne' h1 h2
    have hkids := even_trees hf H hH t ht ks ⟨cool.T, H cool, th.A⟩ th.k (cool.T, th.A) hs ha.2 hp.2.2 hT.2 hT.1 hT.1
      (hH cool) hsh.2.1 ha.1 ha.1 hsh.2.2.2 _ _ _ a1 a2
    have hall := coolFlow_all f (H cool) th.k th.A cool.T t ks
    obtain ⟨n1, n2⟩ := neighPairs_ok ht.le ha.1 hn
    obtain ⟨m1, m2⟩ := coolPairs_ok (n := ks.length) (hH cool) hsh.2.1 ha.1 ht.le ks 0 ha.2 hT.2
    have hac : (if cool.kind = .hvac then cool.Qac * t else 0) = 0 := by
      split_ifs with hk
      · rw [hp.2.1 hk, zero_mul]
      · rfl
    have hC : (0 : ℝ) < ((cool.rho * cool.cp * cool.vol : ℚ) : ℝ) := by exact_mod_cast hsh.1
    have hj := jensen_body hf hC hT.1 (coolPairs (H cool) th.k th.A t ks.length 0 ks ++ neighPairs t th.A ns)
      (fun p hp => (List.mem_append.mp hp).elim (m1 p) (n1 p))
      (by
        rw [List.map_append, List.sum_append]
        refine (add_le_add m2 n2).trans ?_
        have := hsh.2.2.1
        have h3 : (H cool + 2 * th.k) * totalArea ks * t + (ns.map Neigh.K).sum * th.A * t ≤ cool.rho * cool.cp * cool.vol := by
          linarith
        exact_mod_cast h3)
    rw [flowOf_append, flowOf_append, ← received_flow] at hj
    have hcl := coolLoop_flow (H cool) th.k th.A cool.T t ks.length ks 0 0
    rw [Rat.cast_zero, zero_add] at hcl
    rw [← hcl] at hj
    rw [hp.1, hac, add_zero, add_zero] at a6
    have e2 : (c2.T : ℝ) = (cool.T : ℝ) + (((HTree.coolLoop (H cool) th.k th.A cool.T t ks.length 0 0 ks : ℚ) : ℝ) +
        ((received t cool.T th.A ns : ℚ) : ℝ)) / ((cool.rho * cool.cp * cool.vol : ℚ) : ℝ) := by
      have a7 : ((cool.rho * cool.cp * cool.vol : ℚ) : ℝ) * (c2.T : ℝ) = ((cool.rho * cool.cp * cool.vol : ℚ) : ℝ) * (cool.T : ℝ) +
          (((HTree.coolLoop (H cool) th.k th.A cool.T t ks.length 0 0 ks : ℚ) : ℝ) + ((received t cool.T th.A ns : ℚ) : ℝ)) := by
        exact_mod_cast a6
      field_simp
      linarith
    rw [← e2] at hj
    simp only [heatSum, HTree.T, HTree.A]
    rw [a5]
    linarith
theorem even_trees {s : Set ℝ} {f : ℝ → ℝ} (hf : ConvexOn ℝ s f) (H : CoolSystem → ℚ) (hH : ∀ c, 0 ≤ H c) (t : ℚ) (ht : 0 < t) :
    ∀ (us : List HTree) (m : Neigh) (k : ℚ) (l : ℚ × ℚ), Synceds t us → Areass us → Passives us → EachTs s us →
      (m.T : ℝ) ∈ s → (l.1 : ℝ) ∈ s → 0 ≤ m.K → 0 ≤ k → 0 ≤ m.A → 0 ≤ l.2 → ShortSteps H t (m.K + 2 * k) us →
      ∀ ts us' us'', HTree.thermalKids H m k t l us = (.ok ts, us') → HTree.setKids us' ts = (.ok (), us'') →
        heatSums f us'' ≤ heatSums f us + kidsFlow f m k t l us
  | [], m, k, l, _, _, _, _, _, _, _, _, _, _, _ => by
    intro ts us' us'' h1 h2
    rw [HTree.thermalKids] at h1
    simp only [Prod.mk.injEq] at h1
    rw [← h1.2, HTree.setKids] at h2
    simp only [Prod.mk.injEq] at h2
    rw [← h2.2]
    simp [heatSums, kidsFlow]
  | u :: us, m, k, l, hs, ha, hp, hT, hmT, hlT, hmK, hk0, hmA, hl, hsh => by
    intro ts us' us'' h1 h2
    rw [Synceds] at hs
    rw [Areass] at ha
    rw [Passives] at hp
    rw [EachTs] at hT
    rw [ShortSteps] at hsh
    obtain ⟨T', u1, u2, ts2, us2, us3, rfl, a1, a2, a3, a4⟩ := cons_run h1 h2
    have hr : ((HTree.rightOf m us).1 : ℝ) ∈ s ∧ 0 ≤ (HTree.rightOf m us).2 := by
      cases us with
      | nil => exact ⟨hmT, hmA⟩
      | cons x xs =>
        have h1 := hT.2
        have h2 := ha.2
        rw [EachTs] at h1
        rw [Areass] at h2
        exact ⟨eachT_T x h1.1, areas_nonneg x h2.1⟩
    have hK : (([m, ⟨l.1, k, l.2⟩, ⟨(HTree.rightOf m us).1, k, (HTree.rightOf m us).2⟩] : List Neigh).map Neigh.K).sum = m.K + 2 * k := by
      simp; ring
    have b1 := even_tree hf H hH t ht u _ hs.1 ha.1 hp.1 hT.1 (by simp [hmK, hk0, hmA, hl, hr, hmT, hlT])
      (by rw [hK]; exact hsh.1) _ _ _ a1 a2
    have b2 := even_trees hf H hH t ht us m k _ hs.2 ha.2 hp.2 hT.2 hmT (eachT_T u hT.1) hmK hk0 hmA (areas_nonneg u ha.1) hsh.2
      _ _ _ a3 a4
    simp only [heatSums, kidsFlow]
    linarith
end

mutual
theorem eachT_univ : ∀ u : HTree, EachT Set.univ u
  | .cell _ => by rw [EachT]; trivial
  | .plain _ => by rw [EachT]; trivial
  | .module _ _ ks => by rw [EachT]; exact ⟨trivial, eachTs_univ ks⟩
theorem eachTs_univ : ∀ us : List HTree, EachTs Set.univ us
  | [] => by rw [EachTs]; trivial
  | u :: us => by rw [EachTs]; exact ⟨eachT_univ u, eachTs_univ us⟩
end

mutual
theorem heatSum_neg (f : ℝ → ℝ) : ∀ u : HTree, heatSum (fun x => -f x) u = -heatSum f u
  | .cell _ => by simp only [heatSum]; ring
  | .plain _ => by simp only [heatSum]; ring
  | .module _ _ ks => by simp only [heatSum, heatSums_neg f ks]; ring
theorem heatSums_neg (f : ℝ → ℝ) : ∀ us : List HTree, heatSums (fun x => -f x) us = -heatSums f us
  | [] => by simp only [heatSums]; ring
  | u :: us => by simp only [heatSums, heatSum_neg f u, heatSums_neg f us]; ring
end

/-! ## C161 -/

/-- **C161** (full statement): in a pack without neighbours, heat sources and active cooling the entropy never decreases, and
the temperatures never move away from any reference temperature on the whole. -/
def EvensOut : Prop :=
  ∀ (H : CoolSystem → ℚ), (∀ c, 0 ≤ H c) → ∀ t : ℚ, 0 < t → ∀ u : HTree, Synced t u → Areas u → Passive u →
    EachT (Set.Ioi 0) u → ∀ T' u' u'', u.thermal H [] t = (.ok T', u') → u'.setT T' = (.ok (), u'') →
      entropy u ≤ entropy u'' ∧ ∀ T0, spreadAbout T0 u'' ≤ spreadAbout T0 u

/-- **C161, the part that holds**, in general: for every convex function of the temperature the sum over all bodies, weighted
with their heat capacities, changes at most by what comes in from the neighbours. -/
theorem convex_sum_partial {s : Set ℝ} {f : ℝ → ℝ} (hf : ConvexOn ℝ s f) (H : CoolSystem → ℚ) (hH : ∀ c, 0 ≤ H c) (t : ℚ)
    (ht : 0 < t) (u : HTree) (ns : List Neigh) (hs : Synced t u) (ha : Areas u) (hp : Passive u) (hT : EachT s u)
    (hn : ∀ n ∈ ns, 0 ≤ n.K ∧ 0 ≤ n.A ∧ (n.T : ℝ) ∈ s) (hsh : ShortStep H t (ns.map Neigh.K).sum u) (T' : ℚ) (u' u'' : HTree)
    (h1 : u.thermal H ns t = (.ok T', u')) (h2 : u'.setT T' = (.ok (), u'')) :
    heatSum f u'' ≤ heatSum f u + (ns.map fun n => ((n.K * min n.A u.A * t : ℚ) : ℝ) * (f n.T - f u.T)).sum := by
  have h := even_tree hf H hH t ht u ns hs ha hp hT hn hsh T' u' u'' h1 h2
  simpa only [flowOf, neighPairs, List.map_map, Function.comp_def] using h

/-- **C161, the part that holds**: for steps that are short compared with the time constants of all bodies. -/
theorem evens_out_partial (H : CoolSystem → ℚ) (hH : ∀ c, 0 ≤ H c) (t : ℚ) (ht : 0 < t) (u : HTree) (hs : Synced t u)
    (ha : Areas u) (hp : Passive u) (hT : EachT (Set.Ioi 0) u) (hsh : ShortStep H t 0 u) (T' : ℚ) (u' u'' : HTree)
    (h1 : u.thermal H [] t = (.ok T', u')) (h2 : u'.setT T' = (.ok (), u'')) :
    entropy u ≤ entropy u'' ∧ ∀ T0, spreadAbout T0 u'' ≤ spreadAbout T0 u := by
  constructor
  · have hf : ConvexOn ℝ (Set.Ioi 0) fun x => -Real.log x := strictConcaveOn_log_Ioi.concaveOn.neg
    have := convex_sum_partial hf H hH t ht u [] hs ha hp hT (by simp) (by simpa using hsh) T' u' u'' h1 h2
    rw [heatSum_neg, heatSum_neg] at this
    simp only [List.map_nil, List.sum_nil, add_zero] at this
    unfold entropy
    linarith
  · intro T0
    have hf : ConvexOn ℝ Set.univ fun x : ℝ => (x - T0) ^ 2 := by
      have h0 : ConvexOn ℝ Set.univ fun x : ℝ => x ^ 2 := even_two.convexOn_pow
      have := h0.translate_left (-T0)
      simpa [Function.comp_def, sub_eq_add_neg, add_comm] using this
    have := convex_sum_partial hf H hH t ht u [] hs ha hp (eachT_univ u) (by simp) (by simpa using hsh) T' u' u'' h1 h2
    simpa [spreadAbout] using this

/-- A cell of 300 K in a coolant of 290 K, each of unit heat capacity. -/
def warmInCold : HTree :=
  .module { A := 1, k := 0, time := 2 } { CoolSystem.make 1 1 with T := 290, rho := 1, cp := 1, vol := 1 }
    [.cell { T := 300, A := 1, C := 1, Qgen := 0, time := 2 }]

/-- **C161 is false of the code** for long steps: in `warmInCold` the coolant gets 310 K in one step, the cell 280 K. -/
theorem not_evensOut : ¬ EvensOut := by
  intro h
  obtain ⟨u', u'', h1, h2⟩ : ∃ u' u'', warmInCold.thermal (fun _ => 1) [] 2 = (.ok 310, u') ∧ u'.setT 310 = (.ok (), u'') :=
    ⟨_, _, Prod.ext (by decide +kernel) rfl, Prod.ext (by decide +kernel) rfl⟩
  have h0 := (h (fun _ => 1) (fun _ => by norm_num) 2 (by norm_num) warmInCold (by simp [warmInCold, Synced, Synceds])
    (by simp [warmInCold, Areas, Areass]) (by simp [warmInCold, Passive, Passives, CoolSystem.make])
    (by simp [warmInCold, EachT, EachTs]) 310 _ _ h1 h2).2 295
  unfold warmInCold at h1
  obtain ⟨ts, ks1, ks2, c2, a1, a2, rfl, a4, a5, -⟩ := module_run (by norm_num) h1 h2
  obtain ⟨T', u1, u2, ts2, us2, us3, rfl, b1, b2, b3, b4⟩ := cons_run a1 a2
  obtain ⟨-, rfl⟩ := cell_run rfl b1 b2
  rw [HTree.thermalKids] at b3
  simp only [Prod.mk.injEq] at b3
  rw [← b3.2, HTree.setKids] at b4
  simp only [Prod.mk.injEq] at b4
  rw [← b4.2] at h0
  simp only [spreadAbout, warmInCold, heatSum, heatSums, ThermCell.done, a4, a5] at h0
  have := sq_nonneg ((T' : ℝ) - 295)
  norm_num at h0
  nlinarith

/-- Non-vacuity of `evens_out_partial`. -/
example : Synced 1 quietCells ∧ Areas quietCells ∧ Passive quietCells ∧ EachT (Set.Ioi 0) quietCells ∧
    ShortStep (fun _ => 1) 1 0 quietCells ∧
    (quietCells.thermal (fun _ => 1) [] 1).1.bind
      (fun T' => ((quietCells.thermal (fun _ => 1) [] 1).2.setT T').1) = .ok () := by
  refine ⟨by simp [quietCells, Synced, Synceds], by simp [quietCells, Areas, Areass],
    by simp [quietCells, Passive, Passives, CoolSystem.make], ?_, ?_, by decide +kernel⟩
  · simp only [quietCells, EachT, EachTs, CoolSystem.make, CoolSystem.T_ENV, Set.mem_Ioi]; norm_num
  · simp only [quietCells, ShortStep, ShortSteps, CoolSystem.make, CoolSystem.T_ENV, totalArea, List.map_cons, List.map_nil,
      List.sum_cons, List.sum_nil, HTree.A]
    norm_num

end Slide

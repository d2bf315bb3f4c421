import Verif.Spec.Isothermal
import Verif.Props.EvenHistory
import Mathlib.Topology.Order.MonotoneConvergence
import Mathlib.Topology.Instances.Real.Lemmas
import Mathlib.Algebra.Order.Chebyshev

/-!
# C165: a pack that is left alone gets one temperature
-/

namespace Slide
open Spec

/-! ## Helper lemmas -/

/-- The squared temperature differences, weighted with the conductances. -/
noncomputable def flowSq (T : ℝ) (ps : List (ℝ × ℝ)) : ℝ := (ps.map fun p => p.1 * (p.2 - T) ^ 2).sum

theorem flowSq_append (T : ℝ) (ps qs : List (ℝ × ℝ)) : flowSq T (ps ++ qs) = flowSq T ps + flowSq T qs := by
  simp [flowSq]

theorem flowSq_nonneg (T : ℝ) (ps : List (ℝ × ℝ)) (hp : ∀ p ∈ ps, 0 ≤ p.1) : 0 ≤ flowSq T ps := by
  unfold flowSq
  apply List.sum_nonneg
  intro x hx
  obtain ⟨p, h, rfl⟩ := List.mem_map.mp hx
  exact mul_nonneg (hp p h) (sq_nonneg _)

/-- The Cauchy–Schwarz inequality for flows. -/
theorem flow_sq_le (T : ℝ) (ps : List (ℝ × ℝ)) (hp : ∀ p ∈ ps, 0 ≤ p.1) :
    flowOf id T ps ^ 2 ≤ (ps.map Prod.fst).sum * flowSq T ps := by
  induction ps with
  | nil => simp [flowOf, flowSq]
  | cons p ps ih =>
    have ih := ih fun q h => hp q (List.mem_cons_of_mem _ h)
    have h0 := hp p List.mem_cons_self
    have hq : 0 ≤ flowSq T ps := flowSq_nonneg T ps fun q h => hp q (List.mem_cons_of_mem _ h)
    have hg : 0 ≤ (ps.map Prod.fst).sum := by
      apply List.sum_nonneg
      intro x hx
      obtain ⟨q, h, rfl⟩ := List.mem_map.mp hx
      exact hp q (List.mem_cons_of_mem _ h)
    simp only [flowOf, flowSq, List.map_cons, List.sum_cons, id] at ih hq ⊢
    generalize (ps.map fun p => p.1 * (p.2 - T)).sum = F at *
    generalize (ps.map fun p => p.1 * (p.2 - T) ^ 2).sum = Q at *
    generalize (ps.map Prod.fst).sum = G at *
    generalize p.2 - T = d at *
    generalize p.1 = g at *
    have h2 : 2 * F * d ≤ Q + G * d ^ 2 := by
      rcases hg.eq_or_lt with hG | hG
      · rw [← hG] at ih ⊢
        have : F = 0 := by nlinarith [sq_nonneg F]
        rw [this]; linarith
      · have : 0 ≤ (F - G * d) ^ 2 := sq_nonneg _
        have : 0 ≤ G * (Q + G * d ^ 2 - 2 * F * d) := by nlinarith
        have := nonneg_of_mul_nonneg_right this hG
        linarith
    nlinarith [mul_le_mul_of_nonneg_left h2 h0]

/-- A body that gives away at most half of its heat moves towards its neighbours. -/
theorem quad_body (T0 : ℝ) {C T : ℝ} (hC : 0 < C) (ps : List (ℝ × ℝ)) (hp : ∀ p ∈ ps, 0 ≤ p.1)
    (hs : 2 * (ps.map Prod.fst).sum ≤ C) :
    C * (T + flowOf id T ps / C - T0) ^ 2 + flowSq T ps / 2 ≤ C * (T - T0) ^ 2 + flowOf (fun x => (x - T0) ^ 2) T ps := by
  have e : flowOf (fun x => (x - T0) ^ 2) T ps = flowSq T ps + 2 * (T - T0) * flowOf id T ps := by
    clear hp hs
    unfold flowOf flowSq
    induction ps with
    | nil => simp
    | cons p ps ih => simp only [List.map_cons, List.sum_cons, id] at ih ⊢; rw [ih]; ring
  have h1 := flow_sq_le T ps hp
  have h2 := flowSq_nonneg T ps hp
  rw [e]
  generalize flowOf id T ps = F at *
  generalize flowSq T ps = Q at *
  generalize (ps.map Prod.fst).sum = G at *
  have h3 : F ^ 2 / C ≤ Q / 2 := by
    rw [div_le_iff₀ hC]
    nlinarith
  have e2 : C * (T + F / C - T0) ^ 2 = C * (T - T0) ^ 2 + 2 * (T - T0) * F + F ^ 2 / C := by
    field_simp
    ring
  rw [e2]
  linarith

mutual
/-- The squared differences between each unit and the coolant around it, weighted with the conductances. -/
noncomputable def coolGaps (H : CoolSystem → ℚ) (t : ℚ) : HTree → ℝ
  | .cell _ => 0
  | .plain _ => 0
  | .module th cool ks => coolGapss H t ⟨cool.T, H cool, th.A⟩ ks
termination_by structural u => u
noncomputable def coolGapss (H : CoolSystem → ℚ) (t : ℚ) (m : Neigh) : List HTree → ℝ
  | [] => 0
  | u :: us => ((m.K * min m.A u.A * t : ℚ) : ℝ) * ((m.T : ℝ) - u.T) ^ 2 + coolGaps H t u + coolGapss H t m us
termination_by structural us => us
end

mutual
theorem drop_tree (T0 : ℝ) (H : CoolSystem → ℚ) (hH : ∀ c, 0 ≤ H c) (t : ℚ) (ht : 0 < t) :
    ∀ (u : HTree) (ns : List Neigh), Synced t u → Areas u → Passive u →
      (∀ n ∈ ns, 0 ≤ n.K ∧ 0 ≤ n.A) → ShortStep H (2 * t) (ns.map Neigh.K).sum u →
      ∀ T' u' u'', u.thermal H ns t = (.ok T', u') → u'.setT T' = (.ok (), u'') →
        heatSum (fun x => (x - T0) ^ 2) u'' + coolGaps H t u / 2 + flowSq u.T (neighPairs t u.A ns) / 2 ≤
          heatSum (fun x => (x - T0) ^ 2) u + flowOf (fun x => (x - T0) ^ 2) u.T (neighPairs t u.A ns)
  | .cell c, ns, hs, ha, hp, hn, hsh => by
    intro T' u' u'' h1 h2
    rw [Synced] at hs
    rw [Areas] at ha
    rw [Passive] at hp
    rw [ShortStep] at hsh
    obtain ⟨e1, rfl⟩ := cell_run hs h1 h2
    obtain ⟨n1, n2⟩ := neighPairs_ok (s := Set.univ) ht.le ha fun n h => ⟨(hn n h).1, (hn n h).2, trivial⟩
    have hC : (0 : ℝ) < c.C := by exact_mod_cast hsh.1
    have hs2 : 2 * (((ns.map Neigh.K).sum * c.A * t : ℚ) : ℝ) ≤ (c.C : ℝ) := by
      have : 2 * ((ns.map Neigh.K).sum * c.A * t) ≤ c.C := by linarith [hsh.2]
      exact_mod_cast this
    have hj := quad_body T0 (T := c.T) hC _ (fun p h => (n1 p h).1) (by linarith)
    rw [← received_flow] at hj
    simp only [heatSum, HTree.T, HTree.A, coolGaps]
    rw [hp, zero_add] at e1
    have e2 : ((T' : ℚ) : ℝ) = (c.T : ℝ) + ((received t c.T c.A ns : ℚ) : ℝ) / (c.C : ℝ) := by rw [e1]; push_cast; ring
    rw [← e2] at hj
    rw [zero_div, add_zero]
    exact hj
  | .plain a, ns, _, _, _, hn, _ => by
    intro T' u' u'' h1 h2
    rw [HTree.thermal] at h1
    simp only [Prod.mk.injEq, Outcome.ok.injEq] at h1
    obtain ⟨rfl, rfl⟩ := h1
    simp only [HTree.setT, Prod.mk.injEq] at h2
    rw [← h2.2]
    simp only [heatSum, HTree.A, coolGaps]
    have z1 : flowOf (fun x => (x - T0) ^ 2) (HTree.plain a).T (neighPairs t 0 ns) = 0 := by
      unfold flowOf neighPairs
      apply List.sum_eq_zero
      intro x hx
      simp only [List.map_map, List.mem_map, Function.comp] at hx
      obtain ⟨n, hn', rfl⟩ := hx
      rw [min_eq_right (hn n hn').2]
      simp
    have z2 : flowSq (HTree.plain a).T (neighPairs t 0 ns) = 0 := by
      unfold flowSq neighPairs
      apply List.sum_eq_zero
      intro x hx
      simp only [List.map_map, List.mem_map, Function.comp] at hx
      obtain ⟨n, hn', rfl⟩ := hx
      rw [min_eq_right (hn n hn').2]
      simp
    rw [z1, z2]
    simp
  | .module th cool ks, ns, hs, ha, hp, hn, hsh => by
    intro T' u' u'' h1 h2
    rw [Synced] at hs
    rw [Areas] at ha
    rw [Passive] at hp
    rw [ShortStep] at hsh
    obtain ⟨ts, ks1, ks2, c2, a1, a2, rfl, rfl, a5, a6⟩ := module_run ht.ne' h1 h2
    have hkids := drop_trees T0 H hH t ht ks ⟨cool.T, H cool, th.A⟩ th.k (cool.T, th.A) hs ha.2 hp.2.2
      (hH cool) hsh.2.1 ha.1 ha.1 hsh.2.2.2 _ _ _ a1 a2
    have hall := coolFlow_all (fun x => (x - T0) ^ 2) (H cool) th.k th.A cool.T t ks
    obtain ⟨n1, n2⟩ := neighPairs_ok (s := Set.univ) ht.le ha.1 fun n h => ⟨(hn n h).1, (hn n h).2, trivial⟩
    obtain ⟨m1, m2⟩ := coolPairs_ok (s := Set.univ) (n := ks.length) (hH cool) hsh.2.1 ha.1 ht.le ks 0 ha.2 (eachTs_univ ks)
    have hac : (if cool.kind = .hvac then cool.Qac * t else 0) = 0 := by
      split_ifs with hk
      · rw [hp.2.1 hk, zero_mul]
      · rfl
    have hC : (0 : ℝ) < ((cool.rho * cool.cp * cool.vol : ℚ) : ℝ) := by exact_mod_cast hsh.1
    have hj := quad_body T0 (T := cool.T) hC (coolPairs (H cool) th.k th.A t ks.length 0 ks ++ neighPairs t th.A ns)
      (fun p hp => (List.mem_append.mp hp).elim (fun h => (m1 p h).1) (fun h => (n1 p h).1))
      (by
        rw [List.map_append, List.sum_append]
        have := hsh.2.2.1
        have h3 : 2 * ((H cool + 2 * th.k) * totalArea ks * t) + 2 * ((ns.map Neigh.K).sum * th.A * t) ≤
            cool.rho * cool.cp * cool.vol := by linarith
        have h4 : 2 * (((H cool + 2 * th.k) * totalArea ks * t : ℚ) : ℝ) + 2 * (((ns.map Neigh.K).sum * th.A * t : ℚ) : ℝ) ≤
            ((cool.rho * cool.cp * cool.vol : ℚ) : ℝ) := by exact_mod_cast h3
        linarith)
    rw [flowOf_append, flowOf_append, flowSq_append, ← received_flow] at hj
    have hq := flowSq_nonneg cool.T (coolPairs (H cool) th.k th.A t ks.length 0 ks) fun p h => (m1 p h).1
    have hcl := coolLoop_flow (H cool) th.k th.A cool.T t ks.length ks 0 0
    rw [Rat.cast_zero, zero_add] at hcl
    rw [← hcl] at hj
    rw [hp.1, hac, add_zero, add_zero] at a6
    have e2 : (c2.T : ℝ) = (cool.T : ℝ) + (((HTree.coolLoop (H cool) th.k th.A cool.T t ks.length 0 0 ks : ℚ) : ℝ) +
        ((received t cool.T th.A ns : ℚ) : ℝ)) / ((cool.rho * cool.cp * cool.vol : ℚ) : ℝ) := by
      have a7 : ((cool.rho * cool.cp * cool.vol : ℚ) : ℝ) * (c2.T : ℝ) = ((cool.rho * cool.cp * cool.vol : ℚ) : ℝ) * (cool.T : ℝ) +
          (((HTree.coolLoop (H cool) th.k th.A cool.T t ks.length 0 0 ks : ℚ) : ℝ) + ((received t cool.T th.A ns : ℚ) : ℝ)) := by
        exact_mod_cast a6
      field_simp
      linarith
    rw [← e2] at hj
    simp only [heatSum, HTree.T, HTree.A, coolGaps]
    rw [a5]
    linarith
theorem drop_trees (T0 : ℝ) (H : CoolSystem → ℚ) (hH : ∀ c, 0 ≤ H c) (t : ℚ) (ht : 0 < t) :
    ∀ (us : List HTree) (m : Neigh) (k : ℚ) (l : ℚ × ℚ), Synceds t us → Areass us → Passives us →
      0 ≤ m.K → 0 ≤ k → 0 ≤ m.A → 0 ≤ l.2 → ShortSteps H (2 * t) (m.K + 2 * k) us →
      ∀ ts us' us'', HTree.thermalKids H m k t l us = (.ok ts, us') → HTree.setKids us' ts = (.ok (), us'') →
        heatSums (fun x => (x - T0) ^ 2) us'' + coolGapss H t m us / 2 ≤
          heatSums (fun x => (x - T0) ^ 2) us + kidsFlow (fun x => (x - T0) ^ 2) m k t l us
  | [], m, k, l, _, _, _, _, _, _, _, _ => by
    intro ts us' us'' h1 h2
    rw [HTree.thermalKids] at h1
    simp only [Prod.mk.injEq] at h1
    rw [← h1.2, HTree.setKids] at h2
    simp only [Prod.mk.injEq] at h2
    rw [← h2.2]
    simp [heatSums, kidsFlow, coolGapss]
  | u :: us, m, k, l, hs, ha, hp, hmK, hk0, hmA, hl, hsh => by
    intro ts us' us'' h1 h2
    rw [Synceds] at hs
    rw [Areass] at ha
    rw [Passives] at hp
    rw [ShortSteps] at hsh
    obtain ⟨T', u1, u2, ts2, us2, us3, rfl, a1, a2, a3, a4⟩ := cons_run h1 h2
    have hr : 0 ≤ (HTree.rightOf m us).2 := by
      cases us with
      | nil => exact hmA
      | cons x xs =>
        have h2 := ha.2
        rw [Areass] at h2
        exact areas_nonneg x h2.1
    have hK : (([m, ⟨l.1, k, l.2⟩, ⟨(HTree.rightOf m us).1, k, (HTree.rightOf m us).2⟩] : List Neigh).map Neigh.K).sum = m.K + 2 * k := by
      simp; ring
    have hua := areas_nonneg u ha.1
    have b1 := drop_tree T0 H hH t ht u _ hs.1 ha.1 hp.1 (by simp [hmK, hk0, hmA, hl, hr])
      (by rw [hK]; exact hsh.1) _ _ _ a1 a2
    have b2 := drop_trees T0 H hH t ht us m k _ hs.2 ha.2 hp.2 hmK hk0 hmA hua hsh.2 _ _ _ a3 a4
    have b3 : ((m.K * min m.A u.A * t : ℚ) : ℝ) * ((m.T : ℝ) - u.T) ^ 2 ≤
        flowSq u.T (neighPairs t u.A [m, ⟨l.1, k, l.2⟩, ⟨(HTree.rightOf m us).1, k, (HTree.rightOf m us).2⟩]) := by
      have hrest := flowSq_nonneg u.T (neighPairs t u.A [⟨l.1, k, l.2⟩, ⟨(HTree.rightOf m us).1, k, (HTree.rightOf m us).2⟩])
        (fun p h => ((neighPairs_ok (s := Set.univ) ht.le hua (by simp [hk0, hl, hr])).1 p h).1)
      simp only [flowSq, neighPairs, List.map_cons, List.sum_cons] at hrest ⊢
      linarith
    simp only [heatSums, kidsFlow, coolGapss]
    linarith
end

mutual
/-- How deep modules are nested. -/
def nesting : HTree → ℕ
  | .cell _ => 0
  | .plain _ => 0
  | .module _ _ ks => nestings ks + 1
termination_by structural u => u
def nestings : List HTree → ℕ
  | [] => 0
  | u :: us => max (nesting u) (nestings us)
termination_by structural us => us
end

mutual
theorem updated_also (a : ℚ) : ∀ (u v : HTree), AfterUpdate u v → AreasAtLeast a u →
    AreasAtLeast a v ∧ nesting v = nesting u ∧ heatSum (fun _ => 1) v = heatSum (fun _ => 1) u
  | .cell c, .cell d, h, ha => by
    rw [AfterUpdate] at h
    rw [AreasAtLeast] at ha
    simp only [AreasAtLeast, nesting, heatSum]
    exact ⟨h.1 ▸ ha, trivial, by rw [h.2.1]⟩
  | .plain c, .plain d, h, ha => by rw [AreasAtLeast] at ha; exact ha.elim
  | .module th cool ks, .module th' cool' ks', h, ha => by
    rw [AfterUpdate] at h
    rw [AreasAtLeast] at ha
    obtain ⟨rfl, e1, e2, e3, e4⟩ := h
    obtain ⟨f1, f2, f3⟩ := updateds_also a ks ks' e4 ha.2
    simp only [AreasAtLeast, nesting, heatSum, HTree.reset]
    exact ⟨⟨ha.1, f1⟩, by rw [f2], by rw [f3, e1]⟩
  | .cell _, .plain _, h, _ => by simp [AfterUpdate] at h
  | .cell _, .module _ _ _, h, _ => by simp [AfterUpdate] at h
  | .plain _, .cell _, h, _ => by simp [AfterUpdate] at h
  | .plain _, .module _ _ _, h, _ => by simp [AfterUpdate] at h
  | .module _ _ _, .cell _, h, _ => by simp [AfterUpdate] at h
  | .module _ _ _, .plain _, h, _ => by simp [AfterUpdate] at h
theorem updateds_also (a : ℚ) : ∀ (us vs : List HTree), AfterUpdates us vs → AreasAtLeasts a us →
    AreasAtLeasts a vs ∧ nestings vs = nestings us ∧ heatSums (fun _ => 1) vs = heatSums (fun _ => 1) us
  | [], [], _, _ => by simp [AreasAtLeasts]
  | u :: us, v :: vs, h, ha => by
    rw [AfterUpdates] at h
    rw [AreasAtLeasts] at ha
    obtain ⟨a1, a2, a3⟩ := updated_also a u v h.1 ha.1
    obtain ⟨f1, f2, f3⟩ := updateds_also a us vs h.2 ha.2
    simp only [AreasAtLeasts, nestings, heatSums]
    exact ⟨⟨a1, f1⟩, by rw [a2, f2], by rw [a3, f3]⟩
  | [], _ :: _, h, _ => by simp [AfterUpdates] at h
  | _ :: _, [], h, _ => by simp [AfterUpdates] at h
end

mutual
theorem passing_also (a x : ℚ) (H : CoolSystem → ℚ) (t : ℚ) : ∀ u : HTree, (AreasAtLeast a u → AreasAtLeast a (passing x u)) ∧
    nesting (passing x u) = nesting u ∧ coolGaps H t (passing x u) = coolGaps H t u ∧ (passing x u).T = u.T ∧ (passing x u).A = u.A
  | .cell c => by simp [passing, AreasAtLeast, nesting, coolGaps, HTree.T, HTree.A]
  | .plain _ => by simp [passing, AreasAtLeast, nesting, coolGaps, HTree.T, HTree.A]
  | .module th cool ks => by
    obtain ⟨a1, a2, a3⟩ := passings_also a x H t ks
    simp only [passing, AreasAtLeast, nesting, coolGaps, HTree.T, HTree.A]
    exact ⟨fun h => ⟨h.1, a1 h.2⟩, by rw [a2], a3 _, trivial, trivial⟩
theorem passings_also (a x : ℚ) (H : CoolSystem → ℚ) (t : ℚ) : ∀ us : List HTree,
    (AreasAtLeasts a us → AreasAtLeasts a (passings x us)) ∧
    nestings (passings x us) = nestings us ∧ ∀ m, coolGapss H t m (passings x us) = coolGapss H t m us
  | [] => by simp [passings]
  | u :: us => by
    obtain ⟨b1, b2, b3, b4, b5⟩ := passing_also a x H t u
    obtain ⟨a1, a2, a3⟩ := passings_also a x H t us
    simp only [passings, AreasAtLeasts, nestings, coolGapss]
    exact ⟨fun h => ⟨b1 h.1, a1 h.2⟩, by rw [b2, a2], fun m => by rw [b3, b4, b5, a3]⟩
end

theorem areasAtLeast_A {a : ℚ} : ∀ u : HTree, AreasAtLeast a u → a ≤ u.A
  | .cell _, h => by rw [AreasAtLeast] at h; exact h
  | .plain _, h => by rw [AreasAtLeast] at h; exact h.elim
  | .module _ _ _, h => by rw [AreasAtLeast] at h; exact h.1

mutual
theorem areas_of_atLeast {a : ℚ} (h0 : 0 ≤ a) : ∀ u : HTree, AreasAtLeast a u → Areas u
  | .cell c, h => by rw [AreasAtLeast] at h; rw [Areas]; exact h0.trans h
  | .plain _, h => by rw [Areas]; trivial
  | .module th _ ks, h => by rw [AreasAtLeast] at h; rw [Areas]; exact ⟨h0.trans h.1, areass_of_atLeast h0 ks h.2⟩
theorem areass_of_atLeast {a : ℚ} (h0 : 0 ≤ a) : ∀ us : List HTree, AreasAtLeasts a us → Areass us
  | [], _ => by rw [Areass]; trivial
  | u :: us, h => by rw [AreasAtLeasts] at h; rw [Areass]; exact ⟨areas_of_atLeast h0 u h.1, areass_of_atLeast h0 us h.2⟩
end

mutual
theorem coolGaps_nonneg {a t : ℚ} (H : CoolSystem → ℚ) (hH : ∀ c, 0 ≤ H c) (h0 : 0 ≤ a) (ht : 0 ≤ t) : ∀ u : HTree,
    AreasAtLeast a u → 0 ≤ coolGaps H t u
  | .cell _, _ => by rw [coolGaps]
  | .plain _, _ => by rw [coolGaps]
  | .module th cool ks, h => by
    rw [AreasAtLeast] at h
    rw [coolGaps]
    exact coolGapss_nonneg H hH h0 ht ks _ (hH cool) (h0.trans h.1) h.2
theorem coolGapss_nonneg {a t : ℚ} (H : CoolSystem → ℚ) (hH : ∀ c, 0 ≤ H c) (h0 : 0 ≤ a) (ht : 0 ≤ t) : ∀ (us : List HTree)
    (m : Neigh), 0 ≤ m.K → 0 ≤ m.A → AreasAtLeasts a us → 0 ≤ coolGapss H t m us
  | [], _, _, _, _ => by rw [coolGapss]
  | u :: us, m, hK, hA, h => by
    rw [AreasAtLeasts] at h
    rw [coolGapss]
    have h1 := coolGaps_nonneg H hH h0 ht u h.1
    have h2 := coolGapss_nonneg H hH h0 ht us m hK hA h.2
    have h3 : (0 : ℝ) ≤ ((m.K * min m.A u.A * t : ℚ) : ℝ) := by
      exact_mod_cast mul_nonneg (mul_nonneg hK (le_min hA (h0.trans (areasAtLeast_A u h.1)))) ht
    have h4 := mul_nonneg h3 (sq_nonneg ((m.T : ℝ) - u.T))
    linarith
end

mutual
theorem eachT_mono {s s' : Set ℝ} (h : s ⊆ s') : ∀ u : HTree, EachT s u → EachT s' u
  | .cell _, hu => by rw [EachT] at hu ⊢; exact h hu
  | .plain _, hu => by rw [EachT] at hu ⊢; exact h hu
  | .module _ _ ks, hu => by rw [EachT] at hu ⊢; exact ⟨h hu.1, eachTs_mono h ks hu.2⟩
theorem eachTs_mono {s s' : Set ℝ} (h : s ⊆ s') : ∀ us : List HTree, EachTs s us → EachTs s' us
  | [], _ => by rw [EachTs]; trivial
  | u :: us, hu => by rw [EachTs] at hu ⊢; exact ⟨eachT_mono h u hu.1, eachTs_mono h us hu.2⟩
end

mutual
/-- Small differences to the coolants make all temperatures alike. -/
theorem near_tree {h a t : ℚ} {r : ℝ} (H : CoolSystem → ℚ) (hH : ∀ c, H c = h) (h0 : 0 < h) (ha : 0 < a) (ht : 0 < t)
    (hr : 0 ≤ r) : ∀ u : HTree, AreasAtLeast a u → coolGaps H t u ≤ ((h * a * t : ℚ) : ℝ) * r ^ 2 →
      EachT (Metric.closedBall u.T (nesting u * r)) u
  | .cell c, _, _ => by rw [EachT]; exact Metric.mem_closedBall_self (by positivity)
  | .plain _, _, _ => by rw [EachT]; exact Metric.mem_closedBall_self (by positivity)
  | .module th cool ks, hu, hd => by
    rw [AreasAtLeast] at hu
    rw [coolGaps] at hd
    rw [EachT]
    refine ⟨Metric.mem_closedBall_self (by positivity), ?_⟩
    have := near_trees H hH h0 ha ht hr ks ⟨cool.T, H cool, th.A⟩ (hH cool) hu.1 hu.2 hd
    refine eachTs_mono (Metric.closedBall_subset_closedBall ?_) ks this
    rw [nesting]
    push_cast
    linarith
theorem near_trees {h a t : ℚ} {r : ℝ} (H : CoolSystem → ℚ) (hH : ∀ c, H c = h) (h0 : 0 < h) (ha : 0 < a) (ht : 0 < t)
    (hr : 0 ≤ r) : ∀ (us : List HTree) (m : Neigh), m.K = h → a ≤ m.A → AreasAtLeasts a us →
      coolGapss H t m us ≤ ((h * a * t : ℚ) : ℝ) * r ^ 2 → EachTs (Metric.closedBall m.T (nestings us * r + r)) us
  | [], _, _, _, _, _ => by rw [EachTs]; trivial
  | u :: us, m, hK, hA, hu, hd => by
    rw [AreasAtLeasts] at hu
    rw [coolGapss] at hd
    have hHn : ∀ c, 0 ≤ H c := fun c => by rw [hH]; exact h0.le
    have g1 := coolGaps_nonneg H hHn ha.le ht.le u hu.1
    have g2 := coolGapss_nonneg H hHn ha.le ht.le us m (by rw [hK]; exact h0.le) (ha.le.trans hA) hu.2
    have g3 : ((h * a * t : ℚ) : ℝ) ≤ ((m.K * min m.A u.A * t : ℚ) : ℝ) := by
      have : h * a * t ≤ m.K * min m.A u.A * t := by
        rw [hK]
        exact mul_le_mul_of_nonneg_right (mul_le_mul_of_nonneg_left (le_min hA (areasAtLeast_A u hu.1)) h0.le) ht.le
      exact_mod_cast this
    have g4 : (0 : ℝ) < ((h * a * t : ℚ) : ℝ) := by exact_mod_cast mul_pos (mul_pos h0 ha) ht
    have g5 := mul_nonneg g4.le (sq_nonneg ((m.T : ℝ) - u.T))
    have g6 := mul_le_mul_of_nonneg_right g3 (sq_nonneg ((m.T : ℝ) - u.T))
    have d1 := near_tree H hH h0 ha ht hr u hu.1 (by linarith)
    have d2 := near_trees H hH h0 ha ht hr us m hK hA hu.2 (by linarith)
    have d3 : |(m.T : ℝ) - u.T| ≤ r := by
      have : ((m.T : ℝ) - u.T) ^ 2 ≤ r ^ 2 := le_of_mul_le_mul_left (by linarith) g4
      exact abs_le_of_sq_le_sq this hr
    have n1 : (nesting u : ℝ) ≤ nestings (u :: us) := by rw [nestings]; exact_mod_cast le_max_left _ _
    have n2 : (nestings us : ℝ) ≤ nestings (u :: us) := by rw [nestings]; exact_mod_cast le_max_right _ _
    rw [EachTs]
    constructor
    · refine eachT_mono (Metric.closedBall_subset_closedBall' ?_) u d1
      rw [dist_comm, Real.dist_eq]
      have := mul_le_mul_of_nonneg_right n1 hr
      linarith
    · refine eachTs_mono (Metric.closedBall_subset_closedBall ?_) us d2
      have := mul_le_mul_of_nonneg_right n2 hr
      linarith
end

mutual
theorem cap_pos (H : CoolSystem → ℚ) {a t K : ℚ} : ∀ u : HTree, AreasAtLeast a u → ShortStep H t K u → 0 < heatSum (fun _ => 1) u
  | .cell c, _, h => by rw [ShortStep] at h; rw [heatSum, mul_one]; exact_mod_cast h.1
  | .plain _, h, _ => by rw [AreasAtLeast] at h; exact h.elim
  | .module th cool ks, ha, h => by
    rw [ShortStep] at h
    rw [AreasAtLeast] at ha
    have := caps_pos H ks ha.2 h.2.2.2
    have h1 : (0 : ℝ) < ((cool.rho * cool.cp * cool.vol : ℚ) : ℝ) := by exact_mod_cast h.1
    rw [heatSum, mul_one]
    linarith
theorem caps_pos (H : CoolSystem → ℚ) {a t K : ℚ} : ∀ us : List HTree, AreasAtLeasts a us → ShortSteps H t K us →
    0 ≤ heatSums (fun _ => 1) us
  | [], _, _ => by rw [heatSums]
  | u :: us, ha, h => by
    rw [ShortSteps] at h
    rw [AreasAtLeasts] at ha
    have := cap_pos H u ha.1 h.1
    have := caps_pos H us ha.2 h.2
    rw [heatSums]
    linarith
end

mutual
/-- If all temperatures are near `c`, so is their mean. -/
theorem mean_near (H : CoolSystem → ℚ) {t K : ℚ} (c R : ℝ) : ∀ u : HTree, ShortStep H t K u →
    EachT (Metric.closedBall c R) u → |heatSum id u - c * heatSum (fun _ => 1) u| ≤ R * heatSum (fun _ => 1) u
  | .cell x, h, hT => by
    rw [ShortStep] at h
    rw [EachT, Metric.mem_closedBall, Real.dist_eq] at hT
    have h1 : (0 : ℝ) < x.C := by exact_mod_cast h.1
    simp only [heatSum, id, mul_one]
    rw [show (x.C : ℝ) * x.T - c * x.C = x.C * (x.T - c) by ring, abs_mul, abs_of_pos h1, mul_comm]
    exact mul_le_mul_of_nonneg_right hT h1.le
  | .plain _, _, _ => by simp [heatSum]
  | .module th cool ks, h, hT => by
    rw [ShortStep] at h
    rw [EachT, Metric.mem_closedBall, Real.dist_eq] at hT
    have h1 : (0 : ℝ) < ((cool.rho * cool.cp * cool.vol : ℚ) : ℝ) := by exact_mod_cast h.1
    have h2 := means_near H c R ks h.2.2.2 hT.2
    simp only [heatSum, id, mul_one]
    have h3 : |((cool.rho * cool.cp * cool.vol : ℚ) : ℝ) * ((cool.T : ℝ) - c)| ≤ R * ((cool.rho * cool.cp * cool.vol : ℚ) : ℝ) := by
      rw [abs_mul, abs_of_pos h1, mul_comm]
      exact mul_le_mul_of_nonneg_right hT.1 h1.le
    generalize ((cool.rho * cool.cp * cool.vol : ℚ) : ℝ) = C at *
    generalize heatSums id ks = E at *
    generalize heatSums (fun _ => 1) ks = D at *
    rw [show C * (cool.T : ℝ) + E - c * (C + D) = C * ((cool.T : ℝ) - c) + (E - c * D) by ring]
    refine (abs_add_le _ _).trans ?_
    linarith
theorem means_near (H : CoolSystem → ℚ) {t K : ℚ} (c R : ℝ) : ∀ us : List HTree, ShortSteps H t K us →
    EachTs (Metric.closedBall c R) us → |heatSums id us - c * heatSums (fun _ => 1) us| ≤ R * heatSums (fun _ => 1) us
  | [], _, _ => by simp [heatSums]
  | u :: us, h, hT => by
    rw [ShortSteps] at h
    rw [EachTs] at hT
    have h1 := mean_near H c R u h.1 hT.1
    have h2 := means_near H c R us h.2 hT.2
    simp only [heatSums]
    rw [show heatSum id u + heatSums id us - c * (heatSum (fun _ => 1) u + heatSums (fun _ => 1) us) =
      (heatSum id u - c * heatSum (fun _ => 1) u) + (heatSums id us - c * heatSums (fun _ => 1) us) by ring]
    refine (abs_add_le _ _).trans ?_
    linarith
end

mutual
theorem energy_heatSum : ∀ u : HTree, ((energy u : ℚ) : ℝ) = heatSum id u
  | .cell _ => by simp [energy, heatSum]
  | .plain _ => by simp [energy, heatSum]
  | .module _ _ ks => by simp [energy, heatSum, energies_heatSums ks]
theorem energies_heatSums : ∀ us : List HTree, ((energies us : ℚ) : ℝ) = heatSums id us
  | [] => by simp [energies, heatSums]
  | u :: us => by simp [energies, heatSums, energy_heatSum u, energies_heatSums us]
end

mutual
theorem heatSum_sq_nonneg (H : CoolSystem → ℚ) {t K : ℚ} (T0 : ℝ) : ∀ u : HTree, ShortStep H t K u →
    0 ≤ heatSum (fun x => (x - T0) ^ 2) u
  | .cell c, h => by
    rw [ShortStep] at h
    rw [heatSum]
    have h1 : (0 : ℝ) < c.C := by exact_mod_cast h.1
    positivity
  | .plain _, _ => by rw [heatSum]
  | .module th cool ks, h => by
    rw [ShortStep] at h
    rw [heatSum]
    have h1 : (0 : ℝ) < ((cool.rho * cool.cp * cool.vol : ℚ) : ℝ) := by exact_mod_cast h.1
    have h2 := heatSums_sq_nonneg H T0 ks h.2.2.2
    have h3 := mul_nonneg h1.le (sq_nonneg ((cool.T : ℝ) - T0))
    linarith
theorem heatSums_sq_nonneg (H : CoolSystem → ℚ) {t K : ℚ} (T0 : ℝ) : ∀ us : List HTree, ShortSteps H t K us →
    0 ≤ heatSums (fun x => (x - T0) ^ 2) us
  | [], _ => by rw [heatSums]
  | u :: us, h => by
    rw [ShortSteps] at h
    rw [heatSums]
    have := heatSum_sq_nonneg H T0 u h.1
    have := heatSums_sq_nonneg H T0 us h.2
    linarith
end

theorem quietSteps_snoc (H : CoolSystem → ℚ) (t : ℚ) (ts : List ℚ) : ∀ u,
    quietSteps H (ts ++ [t]) u = (quietSteps H ts u).bind (quietStep H t) := by
  induction ts with
  | nil => intro u; simp [quietSteps]
  | cons x ts ih =>
    intro u
    rw [List.cons_append, quietSteps, quietSteps]
    cases quietStep H x u with
    | none => rfl
    | some v => exact ih v

/-- What a pack keeps while it is left alone. -/
structure Keeps (H : CoolSystem → ℚ) (τ : ℕ → ℚ) (a : ℚ) (u w : HTree) : Prop where
  synced : Synced 0 w
  passive : Passive w
  short : ∀ k, ShortStep H (2 * τ k) 0 w
  areas : AreasAtLeast a w
  nest : nesting w = nesting u
  cap : heatSum (fun _ => 1) w = heatSum (fun _ => 1) u
  heat : heatSum id w = heatSum id u

theorem keeps_step {H : CoolSystem → ℚ} {τ : ℕ → ℚ} {h a : ℚ} (hH : ∀ c, H c = h) (h0 : 0 < h) (i : ℕ) (ht : 0 < τ i) (ha : 0 < a)
    {u w w' : HTree} (k : Keeps H τ a u w) (hq : quietStep H (τ i) w = some w') (T0 : ℝ) :
    Keeps H τ a u w' ∧ heatSum (fun x => (x - T0) ^ 2) w' + coolGaps H (τ i) w / 2 ≤ heatSum (fun x => (x - T0) ^ 2) w := by
  obtain ⟨T', u', r1, r2⟩ := quietStep_run hq
  obtain ⟨p1, p2, p3, p4, p5, p6, p7, p8, p9, p10⟩ := passing_keeps (τ i) w k.synced
  obtain ⟨q1, q2, q3, q4, q5⟩ := passing_also a (τ i) H (τ i) w
  have hHn : ∀ c, 0 ≤ H c := fun c => by rw [hH]; exact h0.le
  have har := p2 (areas_of_atLeast ha.le w k.areas)
  have hau := settled_tree H (τ i) ht.ne' _ _ p1 _ _ _ r1 r2
  obtain ⟨k1, k2, k3, _, k5⟩ := settled_keeps _ _ hau har (p3 k.passive)
  obtain ⟨l1, l2, l3⟩ := updated_also a _ _ hau (q1 k.areas)
  have e := (heat_balance_partial H _ [] (τ i) ht.ne' p1 har (by simp) _ _ _ r1 r2).1
  rw [(passive_heat (τ i) _ (p3 k.passive)).1, (passive_heat (τ i) _ (p3 k.passive)).2, p7] at e
  simp only [received, List.map_nil, List.sum_nil, add_zero] at e
  have d := drop_tree T0 H hHn (τ i) ht _ [] p1 har (p3 k.passive) (by simp) (by simpa using p10 _ _ _ (k.short i)) _ _ _ r1 r2
  simp only [neighPairs, flowSq, flowOf, List.map_nil, List.sum_nil, zero_div, add_zero] at d
  rw [q3, p6] at d
  refine ⟨⟨k1, k3, fun l => k5 H h _ 0 hH (p10 _ _ _ (k.short l)), l1, l2.trans (q2.trans k.nest), ?_, ?_⟩, d⟩
  · rw [l3, p6]; exact k.cap
  · rw [← energy_heatSum, e, energy_heatSum]; exact k.heat

/-! ## C165 -/

/-- **C165, the part that holds**: if no interval is longer than half of the time constant of any body. -/
theorem becomes_isothermal_partial (H : CoolSystem → ℚ) (h : ℚ) (h0 : 0 < h) (hH : ∀ c, H c = h) (τ : ℕ → ℚ) (t a : ℚ) (ht : 0 < t)
    (hτ : ∀ k, t ≤ τ k) (ha : 0 < a) (u : HTree) (hs : Synced 0 u) (hA : AreasAtLeast a u) (hp : Passive u)
    (hsh : ∀ k, ShortStep H (2 * τ k) 0 u) (v : ℕ → HTree) (hv : ∀ k, quietSteps H ((List.range k).map τ) u = some (v k)) (ε : ℝ) (hε : 0 < ε) :
    ∃ N, ∀ k ≥ N, EachT (Metric.ball (meanTemperature u) ε) (v k) := by
  have hHn : ∀ c, 0 ≤ H c := fun c => by rw [hH]; exact h0.le
  have ht' : ∀ k, 0 < τ k := fun k => ht.trans_le (hτ k)
  have step : ∀ k, quietStep H (τ k) (v k) = some (v (k + 1)) := by
    intro k
    have := hv (k + 1)
    rw [List.range_succ, List.map_append, List.map_singleton, quietSteps_snoc, hv k] at this
    exact this
  have keep : ∀ k, Keeps H τ a u (v k) := by
    intro k
    induction k with
    | zero =>
      have := hv 0
      simp only [List.range_zero, List.map_nil, quietSteps, Option.some.injEq] at this
      rw [← this]
      exact ⟨hs, hp, hsh, hA, rfl, rfl, rfl⟩
    | succ k ih => exact (keeps_step hH h0 k (ht' k) ha ih (step k) 0).1
  set S : ℕ → ℝ := fun k => heatSum (fun x => (x - 0) ^ 2) (v k) with hS
  have hdec : ∀ k, S (k + 1) + coolGaps H (τ k) (v k) / 2 ≤ S k := fun k => (keeps_step hH h0 k (ht' k) ha (keep k) (step k) 0).2
  have hDn : ∀ k, 0 ≤ coolGaps H (τ k) (v k) := fun k => coolGaps_nonneg H hHn ha.le (ht' k).le _ (keep k).areas
  have hSn : ∀ k, 0 ≤ S k := fun k => heatSum_sq_nonneg H 0 _ ((keep k).short 0)
  have hanti : Antitone S := antitone_nat_of_succ_le fun k => by have := hdec k; have := hDn k; linarith
  have hlim := tendsto_atTop_ciInf hanti ⟨0, by rintro _ ⟨k, rfl⟩; exact hSn k⟩
  have hdiff : Filter.Tendsto (fun k => 2 * (S k - S (k + 1))) Filter.atTop (nhds 0) := by
    have := (hlim.sub (hlim.comp (Filter.tendsto_add_atTop_nat 1))).const_mul 2
    simpa using this
  have hD : Filter.Tendsto (fun k => coolGaps H (τ k) (v k)) Filter.atTop (nhds 0) :=
    squeeze_zero hDn (fun k => by have := hdec k; linarith) hdiff
  have hn : (0 : ℝ) < 2 * (nesting u : ℝ) + 1 := by positivity
  set r : ℝ := ε / (2 * (nesting u : ℝ) + 1) with hr
  have hr0 : 0 < r := div_pos hε hn
  have g : (0 : ℝ) < ((h * a * t : ℚ) : ℝ) := by exact_mod_cast mul_pos (mul_pos h0 ha) ht
  have hδ : 0 < ((h * a * t : ℚ) : ℝ) * r ^ 2 := mul_pos g (pow_pos hr0 2)
  obtain ⟨N, hN⟩ := Filter.eventually_atTop.mp (hD.eventually (gt_mem_nhds hδ))
  refine ⟨N, fun k hk => ?_⟩
  have near := near_tree H hH h0 ha (ht' k) hr0.le (v k) (keep k).areas ((hN k hk).le.trans (by
    have : ((h * a * t : ℚ) : ℝ) ≤ ((h * a * τ k : ℚ) : ℝ) := by
      exact_mod_cast mul_le_mul_of_nonneg_left (hτ k) (mul_pos h0 ha).le
    exact mul_le_mul_of_nonneg_right this (sq_nonneg r)))
  have cp := cap_pos H (v k) (keep k).areas ((keep k).short 0)
  have mn := mean_near H _ _ (v k) ((keep k).short 0) near
  have e : meanTemperature u = heatSum id (v k) / heatSum (fun _ => 1) (v k) := by
    unfold meanTemperature
    rw [(keep k).cap, (keep k).heat]
  rw [(keep k).nest] at near mn
  have m2 : |((v k).T : ℝ) - meanTemperature u| ≤ (nesting u : ℝ) * r := by
    rw [abs_sub_comm, e]
    rw [show heatSum id (v k) / heatSum (fun _ => 1) (v k) - ((v k).T : ℝ) =
      (heatSum id (v k) - ((v k).T : ℝ) * heatSum (fun _ => 1) (v k)) / heatSum (fun _ => 1) (v k) by field_simp,
      abs_div, abs_of_pos cp, div_le_iff₀ cp]
    exact mn
  refine eachT_mono (fun x hx => ?_) (v k) near
  rw [Metric.mem_closedBall] at hx
  rw [Metric.mem_ball]
  refine lt_of_le_of_lt (dist_triangle _ ((v k).T : ℝ) _) ?_
  rw [Real.dist_eq (((v k).T : ℚ) : ℝ)]
  have : (2 * (nesting u : ℝ) + 1) * r = ε := by rw [hr]; field_simp
  nlinarith

/-! ### A cell in a module -/

/-- A module with one cell; all heat capacities, areas and conductances are 1. -/
def cellInModule (cool : CoolSystem) (x : ℚ) : HTree :=
  .module { A := 1, k := 0 } cool [.cell { T := x, A := 1, C := 1, Qgen := 0, time := 0 }]

/-- A conventional coolant of capacity 1. -/
def PlainCoolant (cool : CoolSystem) : Prop := cool.kind = .conventional ∧ cool.rho = 1 ∧ cool.cp = 1 ∧ cool.vol = 1

theorem cellInModule_step {t x : ℚ} {cool : CoolSystem} (hc : PlainCoolant cool) (ht : 0 < t)
    (h1 : 273 ≤ x + (cool.T - x) * t ∧ x + (cool.T - x) * t ≤ 333)
    (h2 : 273 ≤ cool.T + (x - cool.T) * t ∧ cool.T + (x - cool.T) * t ≤ 333) :
    ∃ cool', PlainCoolant cool' ∧ cool'.T = cool.T + (x - cool.T) * t ∧
      quietStep (fun _ => 1) t (cellInModule cool x) = some (cellInModule cool' (x + (cool.T - x) * t)) := by
  obtain ⟨c1, c2, c3, c4⟩ := hc
  have g0 : ¬ ((0 : ℚ) > 1) := by norm_num
  have g1 : ¬ (x + (cool.T - x) * t > 333 ∨ x + (cool.T - x) * t < 273) := by push Not; exact ⟨h1.2, h1.1⟩
  have g2 : ¬ (cool.T + (x - cool.T) * t < 273 ∨ cool.T + (x - cool.T) * t > 273 + 75) := by
    push Not; exact ⟨h2.1, by linarith [h2.2]⟩
  let cool' : CoolSystem := { (cool.dstate ((x - cool.T) * t) ((x - cool.T) * t) t).2 with T := cool.T + (x - cool.T) * t }
  refine ⟨cool', ?_, rfl, ?_⟩
  · simp only [PlainCoolant, cool', CoolSystem.dstate, c1]; exact ⟨trivial, c2, c3, c4⟩
  · simp [quietStep, cellInModule, passing, passings, HTree.thermal, HTree.thermalKids, HTree.finish, HTree.rightOf,
      HTree.coolLoop, HTree.maxKids, HTree.setKids, HTree.setT, HTree.T, HTree.A, ThermCell.thermal, ThermCell.done,
      ThermCell.setT, HTree.reset, CoolSystem.dstate, CoolSystem.setT, c1, c2, c3, c4, ht.ne', g0, g1, g2, cool', -not_or, -gt_iff_lt]

/-- A cell of 300 K in a coolant of 290 K. -/
def warmCellIn : HTree := cellInModule { CoolSystem.make 1 1 with T := 290, rho := 1, cp := 1, vol := 1 } 300

theorem warmCellIn_ok : Synced 0 warmCellIn ∧ AreasAtLeast 1 warmCellIn ∧ Passive warmCellIn ∧ meanTemperature warmCellIn = 295 := by
  refine ⟨by simp [warmCellIn, cellInModule, Synced, Synceds], by simp [warmCellIn, cellInModule, AreasAtLeast, AreasAtLeasts],
    by simp [warmCellIn, cellInModule, Passive, Passives, CoolSystem.make], ?_⟩
  simp only [meanTemperature, warmCellIn, cellInModule, heatSum, heatSums, id]
  norm_num

/-- With an interval of 1 s the cell and the coolant swap their temperatures, again and again. -/
theorem warmCellIn_swaps (k : ℕ) : ∃ cool x, PlainCoolant cool ∧ ((cool.T = 290 ∧ x = 300) ∨ (cool.T = 300 ∧ x = 290)) ∧
    quietSteps (fun _ => 1) ((List.range k).map fun _ => 1) warmCellIn = some (cellInModule cool x) := by
  induction k with
  | zero => exact ⟨_, _, ⟨rfl, rfl, rfl, rfl⟩, Or.inl ⟨rfl, rfl⟩, rfl⟩
  | succ k ih =>
    obtain ⟨cool, x, h1, h2, h3⟩ := ih
    rw [List.range_succ, List.map_append, List.map_singleton, quietSteps_snoc, h3]
    rcases h2 with ⟨e1, rfl⟩ | ⟨e1, rfl⟩
    · obtain ⟨c', g1, g2, g3⟩ := cellInModule_step (t := 1) (x := 300) h1 (by norm_num) (by rw [e1]; norm_num) (by rw [e1]; norm_num)
      exact ⟨c', _, g1, Or.inr ⟨by rw [g2, e1]; norm_num, by rw [e1]; norm_num⟩, g3⟩
    · obtain ⟨c', g1, g2, g3⟩ := cellInModule_step (t := 1) (x := 290) h1 (by norm_num) (by rw [e1]; norm_num) (by rw [e1]; norm_num)
      exact ⟨c', _, g1, Or.inl ⟨by rw [g2, e1]; norm_num, by rw [e1]; norm_num⟩, g3⟩

/-- **C165 is false of the code** for long intervals: the two bodies of `warmCellIn` swap their temperatures for ever. -/
theorem not_becomesIsothermal : ¬ BecomesIsothermal := by
  intro h
  choose cool x hc hx hv using warmCellIn_swaps
  obtain ⟨o1, o2, o3, o4⟩ := warmCellIn_ok
  obtain ⟨N, hN⟩ := h (fun _ => 1) 1 (by norm_num) (fun _ => rfl) (fun _ => 1) 1 1 (by norm_num) (fun _ => le_refl _) (by norm_num) warmCellIn o1 o2 o3 _ hv 1 (by norm_num)
  have := hN N le_rfl
  simp only [cellInModule, EachT] at this
  have h1 := this.1
  rw [o4, Metric.mem_ball, Real.dist_eq] at h1
  rcases hx N with ⟨e, _⟩ | ⟨e, _⟩ <;> rw [e] at h1 <;> norm_num at h1

/-- Non-vacuity of `becomes_isothermal_partial`: the same cell, any intervals up to half a second. -/
example (τ : ℕ → ℚ) (h0 : ∀ k, 0 < τ k) (h1 : ∀ k, τ k ≤ 1/2) : Synced 0 warmCellIn ∧ AreasAtLeast 1 warmCellIn ∧ Passive warmCellIn ∧
    (∀ k, ShortStep (fun _ => 1) (2 * τ k) 0 warmCellIn) ∧
    ∃ v : ℕ → HTree, ∀ k, quietSteps (fun _ => 1) ((List.range k).map τ) warmCellIn = some (v k) := by
  obtain ⟨o1, o2, o3, _⟩ := warmCellIn_ok
  refine ⟨o1, o2, o3, ?_, ?_⟩
  · intro k
    have := h1 k
    simp only [warmCellIn, cellInModule, ShortStep, ShortSteps, totalArea, List.map_cons, List.map_nil, List.sum_cons, List.sum_nil,
      HTree.A]
    norm_num
    linarith
  · have run : ∀ k, ∃ cool x, PlainCoolant cool ∧ 290 ≤ cool.T ∧ cool.T ≤ x ∧ x ≤ 300 ∧
        quietSteps (fun _ => 1) ((List.range k).map τ) warmCellIn = some (cellInModule cool x) := by
      intro k
      induction k with
      | zero => exact ⟨_, _, ⟨rfl, rfl, rfl, rfl⟩, by norm_num, by norm_num, le_rfl, rfl⟩
      | succ k ih =>
        obtain ⟨cool, x, a1, a2, a3, a4, a5⟩ := ih
        have b1 : 0 ≤ (x - cool.T) * τ k := mul_nonneg (by linarith) (h0 k).le
        have b2 : 2 * ((x - cool.T) * τ k) ≤ x - cool.T := by nlinarith [h1 k]
        have b3 : (cool.T - x) * τ k = - ((x - cool.T) * τ k) := by ring
        rw [List.range_succ, List.map_append, List.map_singleton, quietSteps_snoc, a5]
        obtain ⟨c', g1, g2, g3⟩ := cellInModule_step a1 (h0 k) (x := x) (by rw [b3]; constructor <;> linarith) (by constructor <;> linarith)
        exact ⟨c', _, g1, by rw [g2]; linarith, by rw [g2, b3]; linarith, by rw [b3]; linarith, g3⟩
    choose cool x _ _ _ _ hv using run
    exact ⟨_, hv⟩

end Slide

import Verif.Spec.Thermal
import Verif.Tac

/-!
# C39: energy balance of the coupled thermal model
-/

namespace Slide
open Spec

/-! ### Helper lemmas -/

theorem received_fold (t T A : ℚ) (ns : List Neigh) (e : ℚ) :
    ns.foldl (fun e n => e + n.K * min n.A A * (n.T - T) * t) e = e + received t T A ns := by
  induction ns generalizing e with
  | nil => simp [received]
  | cons n ns ih => simp only [List.foldl_cons, ih, received, List.map_cons, List.sum_cons]; ring

theorem ThermCell.thermal_frame (c : ThermCell) (ns : List Neigh) (tim : ℚ) : (c.thermal ns tim).2 = c.done := by
  unfold ThermCell.thermal
  dsimp only
  split_ifs <;> rfl

namespace CoolSystem

/-- `dstate` changes only counters. -/
theorem dstate_frame (c : CoolSystem) (a b t : ℚ) :
    let c' := (c.dstate a b t).2
    c'.T = c.T ∧ c'.rho = c.rho ∧ c'.cp = c.cp ∧ c'.vol = c.vol ∧ c'.kind = c.kind ∧ c'.Qac = c.Qac := by
  dsimp only
  unfold dstate
  cases hk : c.kind <;> dsimp only
  · simp [hk]
  · split_ifs <;> simp [hk]
  · simp [hk]

theorem dstate_T (c c' : CoolSystem) (a b t T' : ℚ) (h : c.dstate a b t = (.ok T', c'))
    (hc : c.rho * c.cp * c.vol ≠ 0) :
    c.rho * c.cp * c.vol * T' + (if c.kind = .hvac then c.Qac * t else 0) = c.rho * c.cp * c.vol * c.T + a := by
  unfold dstate at h
  cases hk : c.kind <;> rw [hk] at h <;> dsimp only at h
  · simp only [Prod.mk.injEq, Outcome.ok.injEq] at h
    rw [← h.1, mul_add, mul_div_cancel₀ _ hc]; simp
  · split_ifs at h
    · simp at h
    simp only [Prod.mk.injEq, Outcome.ok.injEq] at h
    rw [← h.1, mul_add, mul_div_cancel₀ _ hc]; simp; ring
  · simp only [Prod.mk.injEq, Outcome.ok.injEq] at h
    rw [← h.1, mul_add, mul_div_cancel₀ _ hc]; simp

end CoolSystem

/-- The thermal model of a unit changes neither its temperature nor its area. -/
theorem HTree.thermal_frame (H : CoolSystem → ℚ) (ns : List Neigh) (tim : ℚ) (u : HTree) :
    (u.thermal H ns tim).2.T = u.T ∧ (u.thermal H ns tim).2.A = u.A := by
  cases u with
  | cell c =>
    rw [HTree.thermal]
    simp only [HTree.T, HTree.A, ThermCell.thermal_frame, ThermCell.done, and_self]
  | plain t => rw [HTree.thermal]; exact ⟨rfl, rfl⟩
  | module th cool ks =>
    rw [HTree.thermal]
    split_ifs
    · exact ⟨rfl, rfl⟩
    · exact ⟨rfl, rfl⟩
    · exact ⟨rfl, rfl⟩
    · unfold HTree.finish
      generalize HTree.thermalKids _ _ _ _ _ _ = r
      obtain ⟨o, ks'⟩ := r
      cases o with
      | throw e => exact ⟨rfl, rfl⟩
      | ub e => exact ⟨rfl, rfl⟩
      | ok ts =>
        dsimp only
        generalize HTree.coolLoop _ _ _ _ _ _ _ _ _ + _ = ech
        generalize List.foldl _ _ _ = etot
        have := (cool.dstate_frame etot ech tim).1
        rcases hq : cool.dstate etot ech tim with ⟨o2, c2⟩
        rw [hq] at this
        cases o2 with
        | throw e => exact ⟨this, rfl⟩
        | ub e => exact ⟨this, rfl⟩
        | ok t =>
          dsimp only
          generalize HTree.setKids ks' ts = s
          obtain ⟨o3, ks3⟩ := s
          cases o3 with
          | throw e => exact ⟨this, rfl⟩
          | ub e => exact ⟨this, rfl⟩
          | ok x =>
            dsimp only
            split_ifs
            · exact ⟨this, rfl⟩
            · exact ⟨this, rfl⟩

/-- What the children of a module with coolant `m` receive, child by child; `l` is the left neighbour. -/
def kidsReceived (m : Neigh) (k tim : ℚ) : ℚ × ℚ → List HTree → ℚ
  | _, [] => 0
  | l, u :: us =>
    let r := HTree.rightOf m us
    received tim u.T u.A [m, ⟨l.1, k, l.2⟩, ⟨r.1, k, r.2⟩] + kidsReceived m k tim (u.T, u.A) us

theorem HTree.thermalKids_frame (H : CoolSystem → ℚ) (m : Neigh) (k tim : ℚ) :
    ∀ (us : List HTree) (l : ℚ × ℚ) ts us', HTree.thermalKids H m k tim l us = (.ok ts, us') →
      us'.map (fun u => (u.T, u.A)) = us.map fun u => (u.T, u.A) := by
  intro us
  induction us with
  | nil =>
    intro l ts us' h
    rw [HTree.thermalKids] at h
    simp only [Prod.mk.injEq] at h
    rw [← h.2]
  | cons u us ih =>
    intro l ts us' h
    rw [HTree.thermalKids] at h
    have hf := fun ns => HTree.thermal_frame H ns tim u
    generalize ([m, _, _] : List Neigh) = ns at h
    have hf := hf ns
    rcases hu : HTree.thermal H ns tim u with ⟨o, u'⟩
    rw [hu] at h hf
    cases o with
    | throw e => cases h
    | ub e => cases h
    | ok t =>
      dsimp only at h hf
      rcases hk : HTree.thermalKids H m k tim (u'.T, u'.A) us with ⟨o2, us2⟩
      rw [hk] at h
      cases o2 with
      | throw e => cases h
      | ub e => cases h
      | ok ts2 =>
        simp only [Prod.mk.injEq] at h
        rw [← h.2]
        simp only [List.map_cons, hf.1, hf.2, ih _ _ _ hk]

/-- `coolLoop` only looks at temperatures and areas. -/
theorem coolLoop_congr (h k A Tm tim : ℚ) (n : ℕ) : ∀ (us vs : List HTree) (i : ℕ) (e : ℚ),
    us.map (fun u => (u.T, u.A)) = vs.map (fun u => (u.T, u.A)) →
    HTree.coolLoop h k A Tm tim n i e us = HTree.coolLoop h k A Tm tim n i e vs := by
  intro us
  induction us with
  | nil => intro vs i e hv; cases vs with
    | nil => rfl
    | cons v vs => simp at hv
  | cons u us ih => intro vs i e hv; cases vs with
    | nil => simp at hv
    | cons v vs =>
      simp only [List.map_cons, List.cons.injEq, Prod.mk.injEq] at hv
      simp only [HTree.coolLoop, hv.1.1, hv.1.2]
      exact ih vs _ _ hv.2

/-- From the second child on: what the children receive and what the coolant takes differ by the exchange with the left
neighbour. -/
theorem coolLoop_tail (h k A Tm tim : ℚ) (n : ℕ) : ∀ (us : List HTree) (u : HTree) (i : ℕ) (e : ℚ) (l : ℚ × ℚ),
    i ≠ 0 → n = i + (us.length + 1) →
    HTree.coolLoop h k A Tm tim n i e (u :: us) + kidsReceived ⟨Tm, h, A⟩ k tim l (u :: us) =
      e + k * min l.2 u.A * (l.1 - u.T) * tim := by
  intro us
  induction us with
  | nil =>
    intro u i e l hi hn
    have : i = n - 1 := by simp at hn; omega
    simp only [HTree.coolLoop, if_neg hi, if_pos this, kidsReceived, received, HTree.rightOf, List.map_cons, List.map_nil, List.sum_cons,
      List.sum_nil]
    ring
  | cons v vs ih =>
    intro u i e l hi hn
    have : i ≠ n - 1 := by simp at hn; omega
    rw [HTree.coolLoop, kidsReceived]
    rw [if_neg hi, if_neg this]
    have := ih v (i + 1) (e + h * min A u.A * (u.T - Tm) * tim) (u.T, u.A) (by omega) (by simp at hn ⊢; omega)
    simp only [received, HTree.rightOf, List.map_cons, List.map_nil, List.sum_cons, List.sum_nil]
    rw [min_comm v.A u.A]
    linear_combination this

/-- All children: whatever the children receive, the coolant loses. -/
theorem coolLoop_all (h k A Tm tim : ℚ) (us : List HTree) :
    HTree.coolLoop h k A Tm tim us.length 0 0 us + kidsReceived ⟨Tm, h, A⟩ k tim (Tm, A) us = 0 := by
  cases us with
  | nil => simp [HTree.coolLoop, kidsReceived]
  | cons u us =>
    cases us with
    | nil =>
      simp only [HTree.coolLoop, kidsReceived, received, HTree.rightOf, List.map_cons, List.map_nil, List.sum_cons,
      List.sum_nil, List.length_cons, List.length_nil]
      simp
      ring
    | cons v vs =>
      rw [HTree.coolLoop, kidsReceived]
      dsimp only
      rw [if_pos rfl, if_neg (by simp)]
      have := coolLoop_tail h k A Tm tim (u :: v :: vs).length vs v (0 + 1)
        (0 + h * min A u.A * (u.T - Tm) * tim + k * min A u.A * (u.T - Tm) * tim) (u.T, u.A) (by omega) (by simp; omega)
      simp only [received, HTree.rightOf, List.map_cons, List.map_nil, List.sum_cons, List.sum_nil]
      rw [min_comm v.A u.A]
      linear_combination this

theorem Spec.areas_nonneg : ∀ u : HTree, Areas u → 0 ≤ u.A
  | .cell c, h => by rw [Areas] at h; exact h
  | .plain t, _ => le_refl _
  | .module th _ _, h => by rw [Areas] at h; exact h.1

theorem balance_cell (H : CoolSystem → ℚ) (c : ThermCell) (ns : List Neigh) (t : ℚ) (hs : c.time = t) :
    Balanced H (.cell c) ns t := by
  intro T' u' u'' h hset
  rw [HTree.thermal] at h
  unfold ThermCell.thermal at h
  simp only [hs, received_fold] at h
  by_cases h1 : |t - t| > 1
  · rw [if_pos h1] at h; cases h
  rw [if_neg h1] at h
  by_cases h2 : c.C = 0
  · rw [if_pos h2] at h; cases h
  rw [if_neg h2] at h
  by_cases h3 : c.T + (c.Qgen + received t c.T c.A ns) / c.C > c.Tmax ∨
      c.T + (c.Qgen + received t c.T c.A ns) / c.C < c.Tmin
  · rw [if_pos h3] at h; cases h
  rw [if_neg h3] at h
  simp only [Prod.mk.injEq, Outcome.ok.injEq] at h
  obtain ⟨rfl, rfl⟩ := h
  simp only [HTree.setT, Prod.mk.injEq] at hset
  rw [← hset.2]
  simp only [energy, removed, pending, ThermCell.setT, ThermCell.done, HTree.T, HTree.A]
  refine ⟨?_, trivial⟩
  field_simp
  ring

mutual
theorem balance_tree (H : CoolSystem → ℚ) (t : ℚ) (ht : t ≠ 0) :
    ∀ (u : HTree) (ns : List Neigh), Synced t u → Areas u → (∀ n ∈ ns, 0 ≤ n.A) → Balanced H u ns t
  | .cell c, ns, hs, _, _ => by
    rw [Synced] at hs
    exact balance_cell H c ns t hs
  | .plain T0, ns, _, _, hn => by
    intro T' u' u'' h hset
    rw [HTree.thermal] at h
    simp only [Prod.mk.injEq, Outcome.ok.injEq] at h
    obtain ⟨rfl, rfl⟩ := h
    simp only [HTree.setT, Prod.mk.injEq] at hset
    rw [← hset.2]
    simp only [energy, removed, pending, HTree.T, HTree.A]
    refine ⟨?_, trivial⟩
    have : received t T0 0 ns = 0 := by
      unfold received
      apply List.sum_eq_zero
      intro x hx
      simp only [List.mem_map] at hx
      obtain ⟨n, hn', rfl⟩ := hx
      rw [min_eq_right (hn n hn')]
      ring
    rw [this]
    ring
  | .module th cool ks, ns, hs, ha, hn => by
    intro T' u' u'' h hset
    rw [Synced] at hs
    rw [Areas] at ha
    rw [HTree.thermal] at h
    by_cases h1 : |th.time - t| > 1
    · rw [if_pos h1] at h; cases h
    rw [if_neg h1, if_neg ht] at h
    by_cases h2 : ks.length > HTree.maxKids
    · rw [if_pos h2] at h; cases h
    rw [if_neg h2] at h
    have hb := balance_trees H t ht ks ⟨cool.T, H cool, th.A⟩ th.k (cool.T, th.A) hs ha.2 ha.1 ha.1
    have hf := HTree.thermalKids_frame H ⟨cool.T, H cool, th.A⟩ th.k t ks (cool.T, th.A)
    unfold HTree.finish at h
    rcases hk : HTree.thermalKids H ⟨cool.T, H cool, th.A⟩ th.k t (cool.T, th.A) ks with ⟨o, ks1⟩
    rw [hk] at h
    cases o with
    | throw e => cases h
    | ub e => cases h
    | ok ts =>
      dsimp only at h
      have hf := hf ts ks1 hk
      rw [coolLoop_congr _ _ _ _ _ _ _ _ _ _ hf, received_fold] at h
      have hall := coolLoop_all (H cool) th.k th.A cool.T t ks
      generalize HTree.coolLoop (H cool) th.k th.A cool.T t ks.length 0 0 ks = e at h hall
      have hdf := cool.dstate_frame (e + th.Qcontact + received t cool.T th.A ns) (e + th.Qcontact) t
      rcases hd : cool.dstate (e + th.Qcontact + received t cool.T th.A ns) (e + th.Qcontact) t with ⟨o2, cool2⟩
      rw [hd] at h hdf
      cases o2 with
      | throw e => cases h
      | ub e => cases h
      | ok t1 =>
        dsimp only at h hdf
        rcases hsk : HTree.setKids ks1 ts with ⟨o3, ks2⟩
        rw [hsk] at h
        cases o3 with
        | throw e => cases h
        | ub e => cases h
        | ok x =>
          dsimp only at h
          by_cases h3 : cool.rho * cool.cp * cool.vol = 0 ∨ t1 < 273 ∨ t1 > 273 + 75
          · rw [if_pos h3] at h; cases h
          rw [if_neg h3] at h
          simp only [Prod.mk.injEq, Outcome.ok.injEq] at h
          obtain ⟨rfl, rfl⟩ := h
          push Not at h3
          have hT := cool.dstate_T cool2 _ _ t t1 hd h3.1
          obtain ⟨hb1, hb2⟩ := hb ts ks1 ks2 hk hsk
          simp only [HTree.setT, CoolSystem.setT, if_neg (show ¬ (t1 < 273 ∨ t1 > 273 + 75) by push Not; exact h3.2),
            Prod.mk.injEq, true_and] at hset
          rw [← hset]
          simp only [energy, removed, pending, HTree.T, HTree.A, hdf, HTree.reset, hb2]
          refine ⟨?_, by ring⟩
          linarith
theorem balance_trees (H : CoolSystem → ℚ) (t : ℚ) (ht : t ≠ 0) :
    ∀ (us : List HTree) (m : Neigh) (k : ℚ) (l : ℚ × ℚ), Synceds t us → Areass us → 0 ≤ m.A → 0 ≤ l.2 →
      ∀ ts us' us'', HTree.thermalKids H m k t l us = (.ok ts, us') → HTree.setKids us' ts = (.ok (), us'') →
        energies us'' + removeds t us = energies us + pendings us + kidsReceived m k t l us ∧ pendings us'' = 0
  | [], m, k, l, _, _, _, _ => by
    intro ts us' us'' h hset
    rw [HTree.thermalKids] at h
    simp only [Prod.mk.injEq] at h
    rw [← h.2, HTree.setKids] at hset
    simp only [Prod.mk.injEq] at hset
    rw [← hset.2]
    simp [energies, removeds, pendings, kidsReceived]
  | u :: us, m, k, l, hs, ha, hm, hl => by
    intro ts us' us'' h hset
    rw [Synceds] at hs
    rw [Areass] at ha
    rw [HTree.thermalKids] at h
    have hu := fun ns => balance_tree H t ht u ns hs.1 ha.1
    have hr : 0 ≤ (HTree.rightOf m us).2 := by
      cases us with
      | nil => exact hm
      | cons v vs => rw [Areass] at ha; exact areas_nonneg v ha.2.1
    rw [kidsReceived]
    generalize (HTree.rightOf m us) = r at h hr
    have hu := hu [m, ⟨l.1, k, l.2⟩, ⟨r.1, k, r.2⟩] (by simp [hm, hl, hr])
    have hf := HTree.thermal_frame H [m, ⟨l.1, k, l.2⟩, ⟨r.1, k, r.2⟩] t u
    generalize ([m, ⟨l.1, k, l.2⟩, ⟨r.1, k, r.2⟩] : List Neigh) = ns at *
    rcases hq : HTree.thermal H ns t u with ⟨o, u1⟩
    rw [hq] at h hf
    cases o with
    | throw e => cases h
    | ub e => cases h
    | ok t1 =>
      dsimp only at h hf
      have hrec := balance_trees H t ht us m k (u1.T, u1.A) hs.2 ha.2 hm (by rw [hf.2]; exact areas_nonneg u ha.1)
      rcases hk : HTree.thermalKids H m k t (u1.T, u1.A) us with ⟨o2, us2⟩
      rw [hk] at h
      cases o2 with
      | throw e => cases h
      | ub e => cases h
      | ok ts2 =>
        simp only [Prod.mk.injEq, Outcome.ok.injEq] at h
        obtain ⟨rfl, rfl⟩ := h
        rw [HTree.setKids] at hset
        rcases hsu : u1.setT t1 with ⟨o3, u2⟩
        rw [hsu] at hset
        cases o3 with
        | throw e => cases hset
        | ub e => cases hset
        | ok x =>
          dsimp only at hset
          rcases hss : HTree.setKids us2 ts2 with ⟨o4, us3⟩
          rw [hss] at hset
          simp only [Prod.mk.injEq] at hset
          obtain ⟨rfl, rfl⟩ := hset
          obtain ⟨a1, a2⟩ := hu t1 u1 u2 hq hsu
          obtain ⟨b1, b2⟩ := hrec ts2 us2 us3 hk hss
          simp only [energies, removeds, pendings, a2, b2, add_zero, and_true]
          rw [hf.1, hf.2] at b1
          linarith
end


/-! ### C39 -/

/-- **C39** (full statement): every run of the thermal model balances. -/
def HeatBalanced : Prop :=
  ∀ (H : CoolSystem → ℚ) (u : HTree) (ns : List Neigh) (t : ℚ), t ≠ 0 → Areas u → (∀ n ∈ ns, 0 ≤ n.A) → Balanced H u ns t

/-- **C39, the part that holds**: if the clocks of all cells agree with the time the model is called with, the stored
energy of all cells and coolants of any tree changes exactly by the generated heat, the heat from outside and the heat
removed by air conditioning. -/
theorem heat_balance_partial (H : CoolSystem → ℚ) (u : HTree) (ns : List Neigh) (t : ℚ) (ht : t ≠ 0) (hs : Synced t u)
    (ha : Areas u) (hn : ∀ n ∈ ns, 0 ≤ n.A) : Balanced H u ns t :=
  balance_tree H t ht u ns hs ha hn

/-- Two cells of different temperature in a module; the clocks of the module and the cells show `t0`, `t1` and `t2`. -/
def twoCells (t0 t1 t2 : ℚ) : HTree :=
  .module { A := 1, k := 1, time := t0, Qcontact := 3 } (CoolSystem.make 10 1)
    [.cell { T := 300, A := 1, C := 100, Qgen := 5, time := t1 }, .cell { T := 290, A := 2, C := 100, Qgen := 0, time := t2 }]

/-- **C39 is false of the code**: the cells use their own clocks, which may differ by up to a second from the time the
module uses; what one cell gives is then not what the other receives. -/
theorem not_heatBalanced : ¬ HeatBalanced := by
  intro h
  have h := h (fun _ => 1) (twoCells 1 1 2) [] 1 (by norm_num) (by simp only [twoCells, Areas, Areass]; norm_num) (by simp)
  have h := h (14182684 / 49245) _ _ (Prod.ext (by decide +kernel) rfl) (Prod.ext (by decide +kernel) rfl)
  exact absurd h.1 (by decide +kernel)

/-- Non-vacuity of `heat_balance_partial`: a module inside a module, all clocks at 10 s, heat generated in a cell and in
the contact resistances, one neighbour. -/
def nested : HTree :=
  .module { A := 2, k := 5, time := 10, Qcontact := 1 } (CoolSystem.make 20 1)
    [twoCells 10 10 10, .plain 295, .cell { T := 305, A := 1, C := 300, Qgen := 7, time := 10 }]

example : Synced 10 nested ∧ Areas nested ∧
    (nested.thermal (fun _ => 2) [⟨280, 3, 1⟩] 10).1.bind (fun T' =>
      ((nested.thermal (fun _ => 2) [⟨280, 3, 1⟩] 10).2.setT T').1) = .ok () := by
  refine ⟨?_, ?_, ?_⟩
  · simp [nested, twoCells, Synced, Synceds]
  · simp only [nested, twoCells, Areas, Areass]; norm_num
  · decide +kernel

/-! ### C63: exceptions -/

/-- The thermal energy of a unit and the heat waiting to be added to it. -/
def Spec.totalHeat (u : HTree) : ℚ := energy u + pending u

/-- **C63** (full statement): when the thermal model fails, no heat has disappeared. -/
def FailedThermalKeepsHeat : Prop :=
  ∀ (H : CoolSystem → ℚ) (u u' : HTree) (ns : List Neigh) (t : ℚ) (e : ℤ),
    u.thermal H ns t = (.throw e, u') → totalHeat u' = totalHeat u

/-- A failing thermal model of a cell discards the heat generated since the last run: the temperature is not changed and
nothing is pending. -/
theorem failed_thermal_discards (H : CoolSystem → ℚ) (c : ThermCell) (u' : HTree) (ns : List Neigh) (t : ℚ) (e : ℤ)
    (h : (HTree.cell c).thermal H ns t = (.throw e, u')) : totalHeat u' = totalHeat (.cell c) - c.Qgen := by
  rw [HTree.thermal, ThermCell.thermal_frame] at h
  simp only [Prod.mk.injEq] at h
  rw [← h.2]
  simp only [totalHeat, energy, pending, ThermCell.done]
  ring

/-- **C63 is false of the code**: a cell that would get too hot loses its generated heat. -/
theorem not_failedThermalKeepsHeat : ¬ FailedThermalKeepsHeat := by
  intro h
  have h := h (fun _ => 1) (.cell { T := 330, A := 1, C := 1, Qgen := 50, time := 1 }) _ [] 1 9
    (Prod.ext (by decide +kernel) rfl)
  exact absurd h (by decide +kernel)

/-- **C63, the part that holds**: a module refusing because its own clock disagrees keeps the heat of its children; only
the heat of its own contact resistances is dropped. -/
theorem failed_thermal_clock_partial (H : CoolSystem → ℚ) (th : ModTherm) (cool : CoolSystem) (ks : List HTree)
    (ns : List Neigh) (t : ℚ) (h : |th.time - t| > 1) :
    ∃ u', (HTree.module th cool ks).thermal H ns t = (.throw 98, u') ∧
      totalHeat u' = totalHeat (.module th cool ks) - th.Qcontact := by
  rw [HTree.thermal, if_pos h]
  refine ⟨_, rfl, ?_⟩
  simp only [totalHeat, energy, pending, HTree.reset]
  ring

/-- C63: the heat and the time of an interval are used by one run of the thermal model only, whether it succeeds or not: a
second run directly afterwards leaves the cell at the temperature it has, whatever its neighbours. -/
theorem thermal_once (c : ThermCell) (ns ns' : List Neigh) (tim T : ℚ) (hC : c.C ≠ 0) (hl : c.Tmin ≤ T) (hh : T ≤ c.Tmax) :
    ((((c.thermal ns tim).2.setT T).thermal ns' 0).1 = .ok T) := by
  rw [ThermCell.thermal_frame]
  have e : ∀ l : List Neigh, l.foldl (fun e n => e + n.K * min n.A c.A * (n.T - T) * 0) (0 : ℚ) = 0 := by
    intro l
    induction l with
    | nil => rfl
    | cons n l ih => rw [List.foldl_cons, mul_zero, add_zero, ih]
  unfold ThermCell.thermal
  rw [if_neg (by simp [ThermCell.done, ThermCell.setT]), if_neg (by exact hC)]
  have e' : T + (ns'.foldl (fun e n => e + n.K * min n.A c.A * (n.T - T) * 0) (0 : ℚ)) / c.C = T := by
    rw [e, zero_div, add_zero]
  show (if T + (ns'.foldl (fun e n => e + n.K * min n.A c.A * (n.T - T) * 0) (0 : ℚ)) / c.C > c.Tmax ∨
    T + (ns'.foldl (fun e n => e + n.K * min n.A c.A * (n.T - T) * 0) (0 : ℚ)) / c.C < c.Tmin then _ else _ :
      Outcome ℚ × ThermCell).1 = _
  rw [e', if_neg (by rintro (h | h) <;> linarith)]
  exact congrArg Outcome.ok e'

/-- A cell at 300 K next to one at 310 K is warmed by the first run only. -/
example : (({ T := 300, A := 1, C := 10, Qgen := 5, time := 2 } : ThermCell).thermal [⟨310, 1, 1⟩] 2).1 = .ok (605 / 2) := by
  decide +kernel

/-! ### C64: the battery -/

/-- **C64** (full statement): the heat balance of a battery covers all copies of its module. -/
def BatteryHeatBalanced : Prop :=
  ∀ (H : CoolSystem → ℚ) (b : BatteryTherm) (losses t : ℚ), t ≠ 0 → b.cool.kind = .hvac → Synced t b.cells →
    Areas b.cells → BatteryBalanced H b losses t

theorem batteryTherm_ok (H : CoolSystem → ℚ) (b b' : BatteryTherm) (losses t T' : ℚ)
    (h : b.thermal H losses 0 t = (.ok T', b')) (hk : b.cool.kind = .hvac) :
    ∃ tc u u', b.cells.thermal H [⟨b.cool.T, H b.cool, b.cells.A⟩] t = (.ok tc, u) ∧ u.setT tc = (.ok (), u') ∧
      b'.cells = u' ∧
      b.cool.rho * b.cool.cp * b.cool.vol * b'.cool.T + b.cool.Qac * t =
        b.cool.rho * b.cool.cp * b.cool.vol * b.cool.T + H b.cool * b.cells.A * (b.cells.T - b.cool.T) * t + losses * t := by
  unfold BatteryTherm.thermal at h
  have hf := HTree.thermal_frame H [⟨b.cool.T, H b.cool, b.cells.A⟩] t b.cells
  rcases hu : b.cells.thermal H [⟨b.cool.T, H b.cool, b.cells.A⟩] t with ⟨o, u⟩
  rw [hu] at h hf
  cases o with
  | throw e => cases h
  | ub e => cases h
  | ok tc =>
    dsimp only at h hf
    rw [if_neg (by simp), hf.1] at h
    rcases hd : b.cool.dstate (H b.cool * b.cells.A * (b.cells.T - b.cool.T) * t + losses * t)
      (H b.cool * b.cells.A * (b.cells.T - b.cool.T) * t + losses * t) t with ⟨o2, c2⟩
    rw [hd] at h
    cases o2 with
    | throw e => cases h
    | ub e => cases h
    | ok t1 =>
      dsimp only at h
      by_cases h3 : b.cool.rho * b.cool.cp * b.cool.vol = 0 ∨ t1 < 273 ∨ t1 > 273 + 75
      · rw [if_pos h3] at h; cases h
      rw [if_neg h3] at h
      push Not at h3
      have hT := b.cool.dstate_T c2 _ _ t t1 hd h3.1
      rw [if_pos hk] at hT
      rcases hs : u.setT tc with ⟨o3, u2⟩
      rw [hs] at h
      cases o3 with
      | throw e => cases h
      | ub e => cases h
      | ok x =>
        simp only [CoolSystem.setT, if_neg (show ¬ (t1 < 273 ∨ t1 > 273 + 75) by push Not; exact h3.2), Prod.mk.injEq] at h
        refine ⟨tc, u, u2, rfl, hs, ?_, ?_⟩
        · rw [← h.2]
        · rw [← h.2]
          linarith

/-- **C64, the part that holds**: for a battery of a single copy the balance is exact: cells, coolants and battery coolant
together gain the heat generated in the cells and the losses of the converter, less what the air conditioning removes. -/
theorem battery_heat_balance_partial (H : CoolSystem → ℚ) (b : BatteryTherm) (losses t : ℚ) (ht : t ≠ 0)
    (hk : b.cool.kind = .hvac) (hs : Synced t b.cells) (ha : Areas b.cells) (h1 : b.ns * b.np = 1) :
    BatteryBalanced H b losses t := by
  intro T' b' h
  dsimp only
  obtain ⟨tc, u, u', e1, e2, e3, e4⟩ := batteryTherm_ok H b b' losses t T' h hk
  have hb := (heat_balance_partial H b.cells [⟨b.cool.T, H b.cool, b.cells.A⟩] t ht hs ha
    (by simpa using areas_nonneg _ ha) tc u u' e1 e2).1
  rw [e3]
  have : ((b.ns : ℚ) * b.np) = 1 := by exact_mod_cast h1
  rw [this]
  simp only [received, List.map_cons, List.map_nil, List.sum_cons, List.sum_nil, min_self] at hb
  linarith

/-- With more copies, the battery coolant still gets the heat of one copy only: the heat of `ns * np - 1` copies vanishes. -/
theorem battery_heat_missing (H : CoolSystem → ℚ) (b b' : BatteryTherm) (losses t T' : ℚ) (ht : t ≠ 0)
    (hk : b.cool.kind = .hvac) (hs : Synced t b.cells) (ha : Areas b.cells)
    (h : b.thermal H losses 0 t = (.ok T', b')) :
    let n : ℚ := b.ns * b.np
    let C := b.cool.rho * b.cool.cp * b.cool.vol
    (C * b'.cool.T + n * energy b'.cells) + (b.cool.Qac * t + n * removed t b.cells) =
      (C * b.cool.T + n * energy b.cells) + n * pending b.cells + losses * t -
        (n - 1) * (H b.cool * b.cells.A * (b.cells.T - b.cool.T) * t) := by
  dsimp only
  obtain ⟨tc, u, u', e1, e2, e3, e4⟩ := batteryTherm_ok H b b' losses t T' h hk
  have hb := (heat_balance_partial H b.cells [⟨b.cool.T, H b.cool, b.cells.A⟩] t ht hs ha
    (by simpa using areas_nonneg _ ha) tc u u' e1 e2).1
  rw [e3]
  simp only [received, List.map_cons, List.map_nil, List.sum_cons, List.sum_nil, min_self] at hb
  linear_combination ((b.ns : ℚ) * b.np) * hb + e4

/-- A battery of two parallel copies of a module. -/
def twoCopies (np : ℕ) : BatteryTherm :=
  { cells := twoCells 1 1 1, cool := { CoolSystem.make 100 1 with kind := .hvac, T := 285 }, ns := 1, np := np }

/-- **C64 is false of the code.** -/
theorem not_batteryHeatBalanced : ¬ BatteryHeatBalanced := by
  intro h
  have h := h (fun _ => 1) (twoCopies 2) 10 1 (by norm_num) rfl (by simp [twoCopies, twoCells, Synced, Synceds])
    (by simp only [twoCopies, twoCells, Areas, Areass]; norm_num)
  have h := h (70174151 / 246225) _ (Prod.ext (by decide +kernel) rfl)
  exact absurd h (by decide +kernel)

/-- Non-vacuity of `battery_heat_balance_partial`. -/
example : (twoCopies 1).ns * (twoCopies 1).np = 1 ∧ ((twoCopies 1).thermal (fun _ => 1) 10 0 1).1 = .ok (70174151 / 246225) :=
  ⟨rfl, by decide +kernel⟩

/-! ### C65: temperatures stay between the coldest and the hottest body -/

theorem received_le (t T A hi : ℚ) (ns : List Neigh) (ht : 0 ≤ t) (hT : T ≤ hi) (hA : 0 ≤ A)
    (hn : ∀ n ∈ ns, 0 ≤ n.K ∧ 0 ≤ n.A ∧ n.T ≤ hi) :
    received t T A ns ≤ (ns.map Neigh.K).sum * A * t * (hi - T) := by
  induction ns with
  | nil => simp [received]
  | cons n ns ih =>
    have ih := ih fun m hm => hn m (List.mem_cons_of_mem _ hm)
    obtain ⟨h1, h2, h3⟩ := hn n List.mem_cons_self
    unfold received at ih ⊢
    simp only [List.map_cons, List.sum_cons]
    have hm : 0 ≤ min n.A A := le_min h2 hA
    have hc : 0 ≤ n.K * min n.A A * t := mul_nonneg (mul_nonneg h1 hm) ht
    have a1 : n.K * min n.A A * t * (n.T - T) ≤ n.K * min n.A A * t * (hi - T) :=
      mul_le_mul_of_nonneg_left (by linarith) hc
    have a2 : n.K * min n.A A * t ≤ n.K * A * t :=
      mul_le_mul_of_nonneg_right (mul_le_mul_of_nonneg_left (min_le_right _ _) h1) ht
    have a3 := mul_le_mul_of_nonneg_right a2 (show 0 ≤ hi - T by linarith)
    linarith

theorem received_ge (t T A lo : ℚ) (ns : List Neigh) (ht : 0 ≤ t) (hT : lo ≤ T) (hA : 0 ≤ A)
    (hn : ∀ n ∈ ns, 0 ≤ n.K ∧ 0 ≤ n.A ∧ lo ≤ n.T) :
    -((ns.map Neigh.K).sum * A * t * (T - lo)) ≤ received t T A ns := by
  induction ns with
  | nil => simp [received]
  | cons n ns ih =>
    have ih := ih fun m hm => hn m (List.mem_cons_of_mem _ hm)
    obtain ⟨h1, h2, h3⟩ := hn n List.mem_cons_self
    unfold received at ih ⊢
    simp only [List.map_cons, List.sum_cons]
    have hm : 0 ≤ min n.A A := le_min h2 hA
    have hc : 0 ≤ n.K * min n.A A * t := mul_nonneg (mul_nonneg h1 hm) ht
    have a1 : n.K * min n.A A * t * (lo - T) ≤ n.K * min n.A A * t * (n.T - T) :=
      mul_le_mul_of_nonneg_left (by linarith) hc
    have a2 : n.K * min n.A A * t ≤ n.K * A * t :=
      mul_le_mul_of_nonneg_right (mul_le_mul_of_nonneg_left (min_le_right _ _) h1) ht
    have a3 := mul_le_mul_of_nonneg_right a2 (show 0 ≤ T - lo by linarith)
    linarith

/-- Bounds on the heat the coolant takes from its children. -/
theorem coolLoop_bounds (h k A Tm t lo hi : ℚ) (n : ℕ) (hh : 0 ≤ h) (hk : 0 ≤ k) (hA : 0 ≤ A) (ht : 0 ≤ t) (hlo : lo ≤ Tm)
    (hhi : Tm ≤ hi) : ∀ (us : List HTree) (i : ℕ) (e : ℚ), (∀ u ∈ us, 0 ≤ u.A ∧ lo ≤ u.T ∧ u.T ≤ hi) →
      e - (h + 2 * k) * totalArea us * t * (Tm - lo) ≤ HTree.coolLoop h k A Tm t n i e us ∧
      HTree.coolLoop h k A Tm t n i e us ≤ e + (h + 2 * k) * totalArea us * t * (hi - Tm) := by
  intro us
  induction us with
  | nil => intro i e _; simp [HTree.coolLoop, totalArea]
  | cons u us ih =>
    intro i e hu
    obtain ⟨u1, u2, u3⟩ := hu u List.mem_cons_self
    have ih := ih (i + 1)
    rw [HTree.coolLoop]
    have hm : 0 ≤ min A u.A := le_min hA u1
    have hm2 : min A u.A ≤ u.A := min_le_right _ _
    generalize min A u.A = a at *
    have key : ∀ c : ℚ, 0 ≤ c → -(c * u.A * t * (Tm - lo)) ≤ c * a * (u.T - Tm) * t ∧
        c * a * (u.T - Tm) * t ≤ c * u.A * t * (hi - Tm) := by
      intro c hc
      have b0 : 0 ≤ c * a * t := mul_nonneg (mul_nonneg hc hm) ht
      have b1 : c * a * t ≤ c * u.A * t := mul_le_mul_of_nonneg_right (mul_le_mul_of_nonneg_left hm2 hc) ht
      constructor
      · have := mul_le_mul_of_nonneg_left (show lo - Tm ≤ u.T - Tm by linarith) b0
        have := mul_le_mul_of_nonneg_right b1 (show 0 ≤ Tm - lo by linarith)
        linarith
      · have := mul_le_mul_of_nonneg_left (show u.T - Tm ≤ hi - Tm by linarith) b0
        have := mul_le_mul_of_nonneg_right b1 (show 0 ≤ hi - Tm by linarith)
        linarith
    obtain ⟨p1, p2⟩ := key h hh
    obtain ⟨q1, q2⟩ := key k hk
    have z : 0 ≤ k * u.A * t := mul_nonneg (mul_nonneg hk u1) ht
    have z1 := mul_nonneg z (show 0 ≤ Tm - lo by linarith)
    have z2 := mul_nonneg z (show 0 ≤ hi - Tm by linarith)
    have hta : totalArea (u :: us) = u.A + totalArea us := by simp [totalArea]
    rw [hta]
    split_ifs <;>
    · obtain ⟨r1, r2⟩ := ih _ fun v hv => hu v (List.mem_cons_of_mem _ hv)
      constructor
      · refine le_trans ?_ r1
        linarith
      · refine le_trans r2 ?_
        linarith

theorem within_T (lo hi : ℚ) : ∀ u : HTree, Within lo hi u → lo ≤ u.T ∧ u.T ≤ hi
  | .cell c, h => by rw [Within] at h; exact h
  | .plain t, h => by rw [Within] at h; exact h
  | .module _ _ _, h => by rw [Within] at h; exact h.1

theorem mem_bounds (lo hi : ℚ) (us : List HTree) (hw : Withins lo hi us) (ha : Areass us) :
    ∀ u ∈ us, 0 ≤ u.A ∧ lo ≤ u.T ∧ u.T ≤ hi := by
  induction us with
  | nil => simp
  | cons v vs ih =>
    rw [Withins] at hw
    rw [Areass] at ha
    intro u hu
    rcases List.mem_cons.mp hu with rfl | hu
    · exact ⟨areas_nonneg _ ha.1, within_T lo hi _ hw.1⟩
    · exact ih hw.2 ha.2 u hu

/-- Adding a bounded heat to a body of sufficient heat capacity keeps its temperature in the interval. -/
theorem mix_bounds (C T e g lo hi : ℚ) (hC : 0 < C) (hg : g ≤ C) (hlo : lo ≤ T) (hhi : T ≤ hi)
    (h1 : -(g * (T - lo)) ≤ e) (h2 : e ≤ g * (hi - T)) : lo ≤ T + e / C ∧ T + e / C ≤ hi := by
  have e1 : g * (T - lo) ≤ C * (T - lo) := mul_le_mul_of_nonneg_right hg (by linarith)
  have e2 : g * (hi - T) ≤ C * (hi - T) := mul_le_mul_of_nonneg_right hg (by linarith)
  constructor
  · have : -(T - lo) ≤ e / C := by rw [le_div_iff₀ hC]; linarith
    linarith
  · have : e / C ≤ hi - T := by rw [div_le_iff₀ hC]; linarith
    linarith

mutual
theorem max_tree (H : CoolSystem → ℚ) (hH : ∀ c, 0 ≤ H c) (t lo hi : ℚ) (ht : 0 < t) :
    ∀ (u : HTree) (ns : List Neigh), Synced t u → Areas u → Passive u → Within lo hi u →
      (∀ n ∈ ns, 0 ≤ n.K ∧ 0 ≤ n.A ∧ lo ≤ n.T ∧ n.T ≤ hi) → ShortStep H t (ns.map Neigh.K).sum u →
      ∀ T' u' u'', u.thermal H ns t = (.ok T', u') → u'.setT T' = (.ok (), u'') → Within lo hi u''
  | .cell c, ns, hs, ha, hp, hw, hn, hsh => by
    intro T' u' u'' h hset
    rw [Synced] at hs
    rw [Areas] at ha
    rw [Passive] at hp
    rw [Within] at hw
    rw [ShortStep] at hsh
    rw [HTree.thermal] at h
    unfold ThermCell.thermal at h
    simp only [hs, received_fold] at h
    by_cases h1 : |t - t| > 1
    · rw [if_pos h1] at h; cases h
    rw [if_neg h1] at h
    by_cases h2 : c.C = 0
    · rw [if_pos h2] at h; cases h
    rw [if_neg h2] at h
    by_cases h3 : c.T + (c.Qgen + received t c.T c.A ns) / c.C > c.Tmax ∨
        c.T + (c.Qgen + received t c.T c.A ns) / c.C < c.Tmin
    · rw [if_pos h3] at h; cases h
    rw [if_neg h3] at h
    simp only [Prod.mk.injEq, Outcome.ok.injEq] at h
    obtain ⟨rfl, rfl⟩ := h
    simp only [HTree.setT, Prod.mk.injEq] at hset
    rw [← hset.2, Within]
    simp only [ThermCell.setT]
    rw [hp, zero_add]
    exact mix_bounds c.C c.T _ ((ns.map Neigh.K).sum * c.A * t) lo hi hsh.1 hsh.2 hw.1 hw.2
      (received_ge t c.T c.A lo ns ht.le hw.1 ha fun n h => ⟨(hn n h).1, (hn n h).2.1, (hn n h).2.2.1⟩)
      (received_le t c.T c.A hi ns ht.le hw.2 ha fun n h => ⟨(hn n h).1, (hn n h).2.1, (hn n h).2.2.2⟩)
  | .plain T0, ns, _, _, _, hw, _, _ => by
    intro T' u' u'' h hset
    rw [HTree.thermal] at h
    simp only [Prod.mk.injEq, Outcome.ok.injEq] at h
    obtain ⟨rfl, rfl⟩ := h
    simp only [HTree.setT, Prod.mk.injEq] at hset
    rw [← hset.2]
    exact hw
  | .module th cool ks, ns, hs, ha, hp, hw, hn, hsh => by
    intro T' u' u'' h hset
    have ht' : t ≠ 0 := ht.ne'
    rw [Synced] at hs
    rw [Areas] at ha
    rw [Passive] at hp
    rw [Within] at hw
    rw [ShortStep] at hsh
    rw [HTree.thermal] at h
    by_cases h1 : |th.time - t| > 1
    · rw [if_pos h1] at h; cases h
    rw [if_neg h1, if_neg ht'] at h
    by_cases h2 : ks.length > HTree.maxKids
    · rw [if_pos h2] at h; cases h
    rw [if_neg h2] at h
    have hb := max_trees H hH t lo hi ht ks ⟨cool.T, H cool, th.A⟩ th.k (cool.T, th.A) hs ha.2 hp.2.2 hw.2 (hH cool)
      hsh.2.1 ha.1 ha.1 hw.1 hw.1 hsh.2.2.2
    have hf := HTree.thermalKids_frame H ⟨cool.T, H cool, th.A⟩ th.k t ks (cool.T, th.A)
    unfold HTree.finish at h
    rcases hk : HTree.thermalKids H ⟨cool.T, H cool, th.A⟩ th.k t (cool.T, th.A) ks with ⟨o, ks1⟩
    rw [hk] at h
    cases o with
    | throw e => cases h
    | ub e => cases h
    | ok ts =>
      dsimp only at h
      have hf := hf ts ks1 hk
      rw [coolLoop_congr _ _ _ _ _ _ _ _ _ _ hf, received_fold] at h
      obtain ⟨c1, c2⟩ := coolLoop_bounds (H cool) th.k th.A cool.T t lo hi ks.length (hH cool) hsh.2.1 ha.1 ht.le hw.1.1
        hw.1.2 ks 0 0 (mem_bounds lo hi ks hw.2 ha.2)
      generalize HTree.coolLoop (H cool) th.k th.A cool.T t ks.length 0 0 ks = e at *
      have hdf := cool.dstate_frame (e + th.Qcontact + received t cool.T th.A ns) (e + th.Qcontact) t
      rcases hd : cool.dstate (e + th.Qcontact + received t cool.T th.A ns) (e + th.Qcontact) t with ⟨o2, cool2⟩
      rw [hd] at h hdf
      cases o2 with
      | throw e => cases h
      | ub e => cases h
      | ok t1 =>
        dsimp only at h hdf
        rcases hsk : HTree.setKids ks1 ts with ⟨o3, ks2⟩
        rw [hsk] at h
        cases o3 with
        | throw e => cases h
        | ub e => cases h
        | ok x =>
          dsimp only at h
          by_cases h3 : cool.rho * cool.cp * cool.vol = 0 ∨ t1 < 273 ∨ t1 > 273 + 75
          · rw [if_pos h3] at h; cases h
          rw [if_neg h3] at h
          simp only [Prod.mk.injEq, Outcome.ok.injEq] at h
          obtain ⟨rfl, rfl⟩ := h
          push Not at h3
          have hT := cool.dstate_T cool2 _ _ t t1 hd h3.1
          have hb := hb ts ks1 ks2 hk hsk
          simp only [HTree.setT, CoolSystem.setT, if_neg (show ¬ (t1 < 273 ∨ t1 > 273 + 75) by push Not; exact h3.2),
            Prod.mk.injEq, true_and] at hset
          rw [← hset, Within]
          refine ⟨?_, hb⟩
          have hq : (if cool.kind = .hvac then cool.Qac * t else 0) = 0 := by
            split_ifs with hh
            · rw [hp.2.1 hh, zero_mul]
            · rfl
          rw [hq, hp.1] at hT
          have g1 := received_ge t cool.T th.A lo ns ht.le hw.1.1 ha.1 fun n h => ⟨(hn n h).1, (hn n h).2.1, (hn n h).2.2.1⟩
          have g2 := received_le t cool.T th.A hi ns ht.le hw.1.2 ha.1 fun n h => ⟨(hn n h).1, (hn n h).2.1, (hn n h).2.2.2⟩
          have := mix_bounds (cool.rho * cool.cp * cool.vol) cool.T (e + received t cool.T th.A ns)
            (((ns.map Neigh.K).sum * th.A + (H cool + 2 * th.k) * totalArea ks) * t) lo hi hsh.1 hsh.2.2.1 hw.1.1 hw.1.2
            (by linarith) (by linarith)
          have hTt : t1 = cool.T + (e + received t cool.T th.A ns) / (cool.rho * cool.cp * cool.vol) := by
            have : t1 - cool.T = (e + received t cool.T th.A ns) / (cool.rho * cool.cp * cool.vol) := by
              rw [eq_div_iff h3.1]; linarith
            linarith
          rw [← hTt] at this
          exact this
theorem max_trees (H : CoolSystem → ℚ) (hH : ∀ c, 0 ≤ H c) (t lo hi : ℚ) (ht : 0 < t) :
    ∀ (us : List HTree) (m : Neigh) (k : ℚ) (l : ℚ × ℚ), Synceds t us → Areass us → Passives us → Withins lo hi us →
      0 ≤ m.K → 0 ≤ k → 0 ≤ m.A → 0 ≤ l.2 → (lo ≤ m.T ∧ m.T ≤ hi) → (lo ≤ l.1 ∧ l.1 ≤ hi) →
      ShortSteps H t (m.K + 2 * k) us →
      ∀ ts us' us'', HTree.thermalKids H m k t l us = (.ok ts, us') → HTree.setKids us' ts = (.ok (), us'') →
        Withins lo hi us''
  | [], m, k, l, _, _, _, _, _, _, _, _, _, _, _ => by
    intro ts us' us'' h hset
    rw [HTree.thermalKids] at h
    simp only [Prod.mk.injEq] at h
    rw [← h.2, HTree.setKids] at hset
    simp only [Prod.mk.injEq] at hset
    rw [← hset.2, Withins]
    trivial
  | u :: us, m, k, l, hs, ha, hp, hw, hmK, hk0, hm, hl, hmT, hlT, hsh => by
    intro ts us' us'' h hset
    rw [Synceds] at hs
    rw [Areass] at ha
    rw [Passives] at hp
    rw [Withins] at hw
    rw [ShortSteps] at hsh
    rw [HTree.thermalKids] at h
    have hu := fun ns => max_tree H hH t lo hi ht u ns hs.1 ha.1 hp.1 hw.1
    have hr : 0 ≤ (HTree.rightOf m us).2 ∧ lo ≤ (HTree.rightOf m us).1 ∧ (HTree.rightOf m us).1 ≤ hi := by
      cases us with
      | nil => exact ⟨hm, hmT⟩
      | cons v vs =>
        rw [Areass] at ha
        rw [Withins] at hw
        exact ⟨areas_nonneg v ha.2.1, within_T lo hi v hw.2.1⟩
    generalize HTree.rightOf m us = r at h hr
    have hu := hu [m, ⟨l.1, k, l.2⟩, ⟨r.1, k, r.2⟩] (by simp [hmK, hk0, hm, hl, hmT, hlT, hr])
      (by
        have : (([m, ⟨l.1, k, l.2⟩, ⟨r.1, k, r.2⟩] : List Neigh).map Neigh.K).sum = m.K + 2 * k := by
          simp; ring
        rw [this]; exact hsh.1)
    have hf := HTree.thermal_frame H [m, ⟨l.1, k, l.2⟩, ⟨r.1, k, r.2⟩] t u
    generalize ([m, ⟨l.1, k, l.2⟩, ⟨r.1, k, r.2⟩] : List Neigh) = ns at *
    rcases hq : HTree.thermal H ns t u with ⟨o, u1⟩
    rw [hq] at h hf
    cases o with
    | throw e => cases h
    | ub e => cases h
    | ok t1 =>
      dsimp only at h hf
      have hrec := max_trees H hH t lo hi ht us m k (u1.T, u1.A) hs.2 ha.2 hp.2 hw.2 hmK hk0 hm
        (by rw [hf.2]; exact areas_nonneg u ha.1) hmT (by rw [hf.1]; exact within_T lo hi u hw.1) hsh.2
      rcases hk : HTree.thermalKids H m k t (u1.T, u1.A) us with ⟨o2, us2⟩
      rw [hk] at h
      cases o2 with
      | throw e => cases h
      | ub e => cases h
      | ok ts2 =>
        simp only [Prod.mk.injEq, Outcome.ok.injEq] at h
        obtain ⟨rfl, rfl⟩ := h
        rw [HTree.setKids] at hset
        rcases hsu : u1.setT t1 with ⟨o3, u2⟩
        rw [hsu] at hset
        cases o3 with
        | throw e => cases hset
        | ub e => cases hset
        | ok x =>
          dsimp only at hset
          rcases hss : HTree.setKids us2 ts2 with ⟨o4, us3⟩
          rw [hss] at hset
          simp only [Prod.mk.injEq] at hset
          obtain ⟨rfl, rfl⟩ := hset
          rw [Withins]
          exact ⟨hu t1 u1 u2 hq hsu, hrec ts2 us2 us3 hk hss⟩
end

/-- **C65** (full statement): without heat generation and active cooling no body of the tree gets colder than the coldest
or hotter than the hottest body. -/
def TemperaturesBetween : Prop :=
  ∀ (H : CoolSystem → ℚ), (∀ c, 0 ≤ H c) → ∀ (t lo hi : ℚ), 0 < t → ∀ (u : HTree) (ns : List Neigh), Synced t u →
    Areas u → Passive u → Within lo hi u → (∀ n ∈ ns, 0 ≤ n.K ∧ 0 ≤ n.A ∧ lo ≤ n.T ∧ n.T ≤ hi) →
    ∀ T' u' u'', u.thermal H ns t = (.ok T', u') → u'.setT T' = (.ok (), u'') → Within lo hi u''

/-- **C65, the part that holds**: for time steps that are short compared with the time constants of all bodies. -/
theorem temperatures_between_partial (H : CoolSystem → ℚ) (hH : ∀ c, 0 ≤ H c) (t lo hi : ℚ) (ht : 0 < t) (u : HTree)
    (ns : List Neigh) (hs : Synced t u) (ha : Areas u) (hp : Passive u) (hw : Within lo hi u)
    (hn : ∀ n ∈ ns, 0 ≤ n.K ∧ 0 ≤ n.A ∧ lo ≤ n.T ∧ n.T ≤ hi) (hsh : ShortStep H t (ns.map Neigh.K).sum u) (T' : ℚ)
    (u' u'' : HTree) (h : u.thermal H ns t = (.ok T', u')) (hset : u'.setT T' = (.ok (), u'')) : Within lo hi u'' :=
  max_tree H hH t lo hi ht u ns hs ha hp hw hn hsh T' u' u'' h hset

/-- **C65 is false of the code** for long steps: the explicit step overshoots (a cell at 300 K next to a body of 310 K
gets 320 K). -/
theorem not_temperaturesBetween : ¬ TemperaturesBetween := by
  intro h
  have h := h (fun _ => 1) (fun _ => by norm_num) 2 300 310 (by norm_num)
    (.cell { T := 300, A := 1, C := 1, Qgen := 0, time := 2 }) [⟨310, 1, 1⟩] (by simp [Synced]) (by simp [Areas])
    (by simp [Passive]) (by simp only [Within]; norm_num) (by simp; norm_num) 320 _ _
    (Prod.ext (by decide +kernel) rfl) rfl
  simp only [HTree.setT, HTree.thermal, ThermCell.thermal_frame, Within, ThermCell.setT, ThermCell.done] at h
  norm_num at h

/-- Two cells in a module without heat sources. -/
def quietCells : HTree :=
  .module { A := 1, k := 1, time := 1 } (CoolSystem.make 10 1)
    [.cell { T := 300, A := 1, C := 100, Qgen := 0, time := 1 }, .cell { T := 290, A := 2, C := 100, Qgen := 0, time := 1 }]

/-- Non-vacuity of `temperatures_between_partial`. -/
example : Synced 1 quietCells ∧ Areas quietCells ∧ Passive quietCells ∧ Within 288 300 quietCells ∧
    ShortStep (fun _ => 1) 1 0 quietCells ∧
    (quietCells.thermal (fun _ => 1) [] 1).1.bind
      (fun T' => ((quietCells.thermal (fun _ => 1) [] 1).2.setT T').1) = .ok () := by
  refine ⟨by simp [quietCells, Synced, Synceds], by simp [quietCells, Areas, Areass],
    by simp [quietCells, Passive, Passives, CoolSystem.make], ?_, ?_, by decide +kernel⟩
  · simp only [quietCells, Within, Withins, CoolSystem.make, CoolSystem.T_ENV]; norm_num
  · simp only [quietCells, ShortStep, ShortSteps, CoolSystem.make, CoolSystem.T_ENV, totalArea, List.map_cons, List.map_nil,
      List.sum_cons, List.sum_nil, HTree.A]
    norm_num

end Slide

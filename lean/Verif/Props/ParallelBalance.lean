import Verif.Props.ParallelEq
import Verif.Lemmas.CellLaws
import Verif.Spec.ParallelBalance

/-!
# C149: cells in parallel balance
-/

namespace Slide
open StorageUnit Spec

/-! ## Helper lemmas -/

/-- Same parameters and state of charge. -/
def SameCharge (a b : ECM 0) : Prop := b.par = a.par ∧ b.st.SOC = a.st.SOC

theorem sameCharge_cur : CurRel SameCharge where
  refl _ := ⟨rfl, rfl⟩
  trans h1 h2 := ⟨h2.1.trans h1.1, h2.2.trans h1.2⟩
  set u i b := by
    show SameCharge u (u.setCurrent i b).2
    rcases ecm_setCurrent_atomic u i b with ⟨-, e⟩ | ⟨-, e⟩ <;> rw [e] <;> exact ⟨rfl, rfl⟩

theorem kidsRel_mem {R : ECM 0 → ECM 0 → Prop} {a b : List (Kid (ECM 0))} (h : KidsRel R a b) :
    ∀ y ∈ b, ∃ x ∈ a, x.rc = y.rc ∧ R x.su y.su := by
  induction h with
  | nil => simp
  | cons p _ ih =>
    intro y hy
    rcases List.mem_cons.mp hy with rfl | hy
    · exact ⟨_, List.mem_cons_self, p⟩
    · obtain ⟨x, hx, hp⟩ := ih y hy
      exact ⟨x, List.mem_cons_of_mem _ hx, hp⟩

/-- What a successful time step of the module does. -/
theorem moduleP_step {m : ModuleP (ECM 0)} {dt : ℚ} {n : ℕ} (h : (m.timeStep dt n).1 = .ok ()) :
    0 ≤ dt ∧ ∃ m' : ModuleP (ECM 0), m'.kids = m.kids.map (fun k => { k with su := k.su.steps dt n }) ∧
      m'.redistribute.1 = .ok .Success ∧ (m.timeStep dt n).2 = m'.redistribute.2 := by
  unfold ModuleP.timeStep at h ⊢
  by_cases hdt : dt < 0
  · rw [if_pos hdt] at h; cases h
  · rw [if_neg hdt] at h ⊢
    refine ⟨not_lt.mp hdt, ?_⟩
    have hk : stepKids dt n m.kids = (.ok (), m.kids.map fun k => { k with su := k.su.steps dt n }) := by
      rw [stepKids_spec dt n (not_lt.mp hdt)]
      have e : ∀ u : ECM 0, (StorageUnit.timeStep u dt n).2 = u.steps dt n := by
        intro u
        show (ECM.timeStep u dt n).2 = _
        unfold ECM.timeStep; rw [if_neg hdt]
      simp only [e]
    rw [hk] at h ⊢
    refine ⟨({ m with kids := m.kids.map fun k => { k with su := k.su.steps dt n } } : ModuleP (ECM 0)), rfl, ?_⟩
    dsimp only at h ⊢
    generalize ModuleP.redistribute (U := ECM 0) _ = r at *
    obtain ⟨o2, m'⟩ := r
    cases o2 with
    | throw c => cases h
    | ub c => cases h
    | ok st =>
      dsimp only at h ⊢
      by_cases hst : st ≠ .Success
      · rw [if_pos hst] at h
        generalize ModuleP.redistribute m' = r3 at h
        obtain ⟨o3, m''⟩ := r3
        cases o3 <;> cases h
      · rw [if_neg hst]
        rw [not_not.mp hst]
        exact ⟨rfl, rfl⟩

theorem twins_rel {R c : ℚ} {f : ℚ → Option ℚ} {m m' : ModuleP (ECM 0)} (h : ParallelTwins R c f m)
    (hr : KidsRel (fun a b => b.par = a.par) m.kids m'.kids) : ParallelTwins R c f m' := by
  intro y hy
  obtain ⟨x, hx, h1, h2⟩ := kidsRel_mem hr y hy
  rw [← h1, h2]
  exact h x hx

theorem kidsRel_imp {R S : ECM 0 → ECM 0 → Prop} (hi : ∀ a b, R a b → S a b) {a b : List (Kid (ECM 0))} (h : KidsRel R a b) :
    KidsRel S a b := List.Forall₂.imp (fun _ _ p => ⟨p.1, hi _ _ p.2⟩) h

theorem steps_rel (dt : ℚ) (n : ℕ) (ks : List (Kid (ECM 0))) : KidsRel (fun a b => b = a.steps dt n) ks
    (ks.map fun k => { k with su := k.su.steps dt n }) := by
  induction ks with
  | nil => exact .nil
  | cons k ks ih => exact KidsRel.cons rfl ih

theorem agree_twins {R c tol : ℚ} {f : ℚ → Option ℚ} {m : ModuleP (ECM 0)} (h : ParallelTwins R c f m)
    (ha : Agree tol (ModuleP.vallLoop m.kids).1) : Agree tol (m.kids.map fun k => k.su.V) := by
  rw [vallLoop_plain _ fun k hk => (h k hk).1] at ha
  exact ha

theorem cell_balance_V {u : ECM 0} (h : 0 < u.V) : ∃ o, u.par.ocv u.st.SOC = some o ∧ u.V = o - u.par.Rdc * u.st.I := by
  unfold ECM.V at h ⊢
  split at h
  · rename_i o ho
    exact ⟨o, ho, by simp⟩
  · exact absurd h (lt_irrefl _)

/-! ## C149 -/

/-- **C149, currents.**  Of two cells in a module with equal voltages the fuller one carries the larger current, in proportion to
the difference of the open-circuit voltages (up to the tolerance of a nanovolt). -/
theorem parallel_currents_follow {R c lo hi : ℚ} {f : ℚ → Option ℚ} {m : ModuleP (ECM 0)} (hs : CurveSlopes f lo hi)
    (ht : ParallelTwins R c f m) (he : EqualVoltages m) {a b : Kid (ECM 0)} (ha : a ∈ m.kids) (hb : b ∈ m.kids)
    (hab : b.su.st.SOC ≤ a.su.st.SOC) :
    lo * (a.su.st.SOC - b.su.st.SOC) - 1 / 1000000000 < R * (a.su.st.I - b.su.st.I) ∧
      R * (a.su.st.I - b.su.st.I) < hi * (a.su.st.SOC - b.su.st.SOC) + 1 / 1000000000 := by
  obtain ⟨oa, ha1, ha2⟩ := cell_balance_V (he.1 a ha)
  obtain ⟨ob, hb1, hb2⟩ := cell_balance_V (he.1 b hb)
  rw [(ht a ha).2.1] at ha2
  rw [(ht b hb).2.1] at hb2
  rw [(ht a ha).2.2.2] at ha1
  rw [(ht b hb).2.2.2] at hb1
  have hr := hs.rise _ _ _ _ hab hb1 ha1
  have hv := abs_lt.mp (he.2 _ (List.mem_map_of_mem ha) _ (List.mem_map_of_mem hb))
  rw [ha2, hb2] at hv
  constructor <;> linarith [hr.1, hr.2, hv.1, hv.2]

/-- The difference of two cells after a step. -/
theorem balance_step {R lo hi D k x y : ℚ} (hk : 0 ≤ k) (hkhi : hi * k ≤ 1) (hle : lo ≤ hi)
    (hx : 0 ≤ x) (hxD : x ≤ D) (h1 : lo * x - 1 / 1000000000 < R * y) (h2 : R * y < hi * x + 1 / 1000000000) :
    |x - k * R * y| ≤ (1 - lo * k) * D + k * (1 / 1000000000) := by
  have e1 := mul_le_mul_of_nonneg_left h1.le hk
  have e2 := mul_le_mul_of_nonneg_left h2.le hk
  have e3 : lo * k ≤ hi * k := mul_le_mul_of_nonneg_right hle hk
  have e4 : (1 - lo * k) * x ≤ (1 - lo * k) * D := mul_le_mul_of_nonneg_left hxD (by linarith)
  have e5 : 0 ≤ (1 - hi * k) * x := mul_nonneg (by linarith) hx
  have e6 : 0 ≤ (1 - lo * k) * D := mul_nonneg (by linarith) (hx.trans hxD)
  rw [abs_le]
  constructor <;> linarith

/-- One simulation. -/
theorem balance_simulate {R c lo hi D dt : ℚ} {n : ℕ} {f : ℚ → Option ℚ} {m : ModuleP (ECM 0)} (hR : 0 < R) (hc : 0 < c)
    (hs : CurveSlopes f lo hi) (ht : ParallelTwins R c f m) (he : EqualVoltages m)
    (hshort : hi * (n * dt / (3600 * c * R)) ≤ 1) (hD : WithinSOC D m) (h : (m.timeStep dt n).1 = .ok ()) :
    ParallelTwins R c f (m.timeStep dt n).2 ∧ Agree (1 / 1000000000) ((m.timeStep dt n).2.kids.map fun k => k.su.V) ∧
      WithinSOC ((1 - lo * (n * dt / (3600 * c * R))) * D + n * dt / (3600 * c * R) * (1 / 1000000000))
        (m.timeStep dt n).2 := by
  obtain ⟨hdt, m', e1, e2, e3⟩ := moduleP_step h
  rw [e3]
  have r1 := steps_rel dt n m.kids
  rw [← e1] at r1
  have r2 := ModuleP.redistribute_rel sameCharge_cur m'
  have ht1 : ParallelTwins R c f m' := twins_rel ht (kidsRel_imp (fun a b h => by rw [h, ECM.steps_par]) r1)
  have ht2 : ParallelTwins R c f m'.redistribute.2 := twins_rel ht1 (kidsRel_imp (fun a b h => h.1) r2)
  refine ⟨ht2, ?_, ?_⟩
  · by_cases h2 : 2 ≤ m'.kids.length
    · have := agree_twins ht2 (parallel_redistribute_agree_partial m' h2 e2)
      exact fun x hx y hy => (this x hx y hy).trans (by norm_num)
    · have : m'.redistribute.2 = m' := by unfold ModuleP.redistribute; rw [if_pos (by omega)]
      rw [this]
      intro x hx y hy
      have : x = y := by
        rcases hk : m'.kids with _ | ⟨k, _ | ⟨l, ls⟩⟩
        · rw [hk] at hx; cases hx
        · rw [hk] at hx hy; simp at hx hy; rw [hx, hy]
        · rw [hk] at h2; simp at h2
      rw [this]; norm_num
  · set k : ℚ := n * dt / (3600 * c * R) with hkdef
    have hk : 0 ≤ k := by rw [hkdef]; positivity
    -- where a cell of the result comes from
    have src : ∀ y ∈ m'.redistribute.2.kids, ∃ x ∈ m.kids, y.su.st.SOC = x.su.st.SOC - k * R * x.su.st.I := by
      intro y hy
      obtain ⟨z, hz, -, hz2⟩ := kidsRel_mem r2 y hy
      obtain ⟨x, hx, -, hx2⟩ := kidsRel_mem r1 z hz
      refine ⟨x, hx, ?_⟩
      rw [hz2.2, hx2, ECM.steps_SOC, (ht x hx).2.2.1, hkdef]
      field_simp
    intro a ha b hb
    obtain ⟨xa, hxa, ea⟩ := src a ha
    obtain ⟨xb, hxb, eb⟩ := src b hb
    rw [ea, eb]
    have key : ∀ xa ∈ m.kids, ∀ xb ∈ m.kids, xb.su.st.SOC ≤ xa.su.st.SOC →
        |xa.su.st.SOC - k * R * xa.su.st.I - (xb.su.st.SOC - k * R * xb.su.st.I)| ≤
          (1 - lo * k) * D + k * (1 / 1000000000) := by
      intro xa hxa xb hxb hab
      have hc := parallel_currents_follow hs ht he hxa hxb hab
      have := balance_step (D := D) (x := xa.su.st.SOC - xb.su.st.SOC) (y := xa.su.st.I - xb.su.st.I) hk hshort
        hs.le (by linarith) ((le_abs_self _).trans (hD xa hxa xb hxb)) hc.1 hc.2
      rw [show xa.su.st.SOC - k * R * xa.su.st.I - (xb.su.st.SOC - k * R * xb.su.st.I) =
        xa.su.st.SOC - xb.su.st.SOC - k * R * (xa.su.st.I - xb.su.st.I) by ring]
      exact this
    rcases le_total xb.su.st.SOC xa.su.st.SOC with hab | hab
    · exact key xa hxa xb hxb hab
    · rw [abs_sub_comm]; exact key xb hxb xa hxa hab

/-- **C149, the factor** is between 0 and 1, and below 1 when any time is simulated. -/
theorem remaining_bounds {R c lo hi : ℚ} (hR : 0 < R) (hc : 0 < c) (hlo : 0 < lo) (hle : lo ≤ hi) {ops : List UseOp}
    (hshort : ShortSimulations R c hi ops) (hdt : ∀ dt n, UseOp.simulate dt n ∈ ops → 0 ≤ dt) :
    0 ≤ remaining R c lo ops ∧ remaining R c lo ops ≤ 1 ∧
      ((∃ dt n, UseOp.simulate dt n ∈ ops ∧ 0 < n * dt) → remaining R c lo ops < 1) := by
  induction ops with
  | nil => exact ⟨zero_le_one, le_rfl, fun ⟨dt, n, h, _⟩ => by cases h⟩
  | cons o os ih =>
    obtain ⟨i1, i2, i3⟩ := ih (fun dt n h => hshort dt n (List.mem_cons_of_mem _ h))
      (fun dt n h => hdt dt n (List.mem_cons_of_mem _ h))
    cases o with
    | ask i =>
      refine ⟨i1, i2, ?_⟩
      rintro ⟨dt, n, h, hp⟩
      rcases List.mem_cons.mp h with h | h
      · cases h
      · exact i3 ⟨dt, n, h, hp⟩
    | simulate dt n =>
      have h1 := hshort dt n List.mem_cons_self
      have h2 := hdt dt n List.mem_cons_self
      have h3 : 0 ≤ n * dt / (3600 * c * R) := by positivity
      have h4 := mul_le_mul_of_nonneg_right hle h3
      have h5 := mul_nonneg hlo.le h3
      refine ⟨mul_nonneg (by linarith) i1, mul_le_one₀ (by linarith) i1 i2, ?_⟩
      rintro ⟨dt', n', h, hp⟩
      show (1 - lo * (n * dt / (3600 * c * R))) * remaining R c lo os < 1
      rcases List.mem_cons.mp h with h | h
      · cases h
        have h6 : 0 < lo * (n * dt / (3600 * c * R)) := by positivity
        calc _ ≤ (1 - lo * (n * dt / (3600 * c * R))) * 1 := mul_le_mul_of_nonneg_left i2 (by linarith)
          _ < 1 := by linarith
      · calc _ ≤ 1 * remaining R c lo os := mul_le_mul_of_nonneg_right (by linarith) i1
          _ < 1 := by rw [one_mul]; exact i3 ⟨dt', n', h, hp⟩

/-- **C149, balancing.**  Over any history of currents and simulations the differences in state of charge shrink: every
simulation of `t` seconds takes away at least the fraction `lo * t / (R * C)` of them. -/
theorem parallel_balances {R c lo hi D : ℚ} {f : ℚ → Option ℚ} (hR : 0 < R) (hc : 0 < c) (hs : CurveSlopes f lo hi)
    (ops : List UseOp) {m : ModuleP (ECM 0)} (ht : ParallelTwins R c f m) (he : EqualVoltages m) (hops : CarriedOut ops m)
    (hshort : ShortSimulations R c hi ops) (hD : WithinSOC D m) :
    WithinSOC (remaining R c lo ops * D + 1 / 1000000000 / lo) (useAll 1 ops m).2 := by
  have gen : ∀ (ops : List UseOp) (m : ModuleP (ECM 0)) (E : ℚ), ParallelTwins R c f m → EqualVoltages m → CarriedOut ops m →
      ShortSimulations R c hi ops → WithinSOC (E + 1 / 1000000000 / lo) m →
      WithinSOC (remaining R c lo ops * E + 1 / 1000000000 / lo) (useAll 1 ops m).2 := by
    intro ops
    induction ops with
    | nil => intro m E _ _ _ _ h; simpa [remaining, useAll] using h
    | cons o os ih =>
      intro m E ht he hops hshort hD
      have hshort' : ShortSimulations R c hi os := fun dt n h => hshort dt n (List.mem_cons_of_mem _ h)
      cases o with
      | ask i =>
        have e : (UseOp.perform 1 (.ask i) m).2 = (m.setCurrent (1 * i) true).2 := by
          have h0 : StorageUnit.setCurrent m (1 * i) true = m.setCurrent (1 * i) true := rfl
          unfold UseOp.perform
          dsimp only
          rw [h0]
          generalize m.setCurrent (1 * i) true = r
          obtain ⟨o, u⟩ := r
          cases o <;> rfl
        have r := ModuleP.setCurrent_rel sameCharge_cur m (1 * i) true
        rw [← e] at r
        refine ih _ E (twins_rel ht (kidsRel_imp (fun a b h => h.1) r)) hops.1 hops.2 hshort' ?_
        intro a ha b hb
        obtain ⟨x, hx, -, hx2⟩ := kidsRel_mem r a ha
        obtain ⟨y, hy, -, hy2⟩ := kidsRel_mem r b hb
        rw [hx2.2, hy2.2]
        exact hD x hx y hy
      | simulate dt n =>
        obtain ⟨h1, h2, h3⟩ := hops
        have e : (m.timeStep dt n).1 = .ok () ∧ (UseOp.perform 1 (.simulate dt n) m).2 = (m.timeStep dt n).2 := by
          have h0 : StorageUnit.timeStep m dt n = m.timeStep dt n := rfl
          unfold UseOp.perform at h1 ⊢
          dsimp only at h1 ⊢
          rw [h0] at h1 ⊢
          generalize m.timeStep dt n = r at h1 ⊢
          obtain ⟨o, u⟩ := r
          cases o with
          | ok _ => exact ⟨rfl, rfl⟩
          | throw c => cases h1
          | ub c => cases h1
        obtain ⟨b1, b2, b3⟩ := balance_simulate hR hc hs ht he (hshort dt n List.mem_cons_self) hD e.1
        rw [← e.2] at b1 b2 b3
        have e5 : remaining R c lo (UseOp.simulate dt n :: os) * E =
            remaining R c lo os * ((1 - lo * (n * dt / (3600 * c * R))) * E) := by
          show (1 - lo * (n * dt / (3600 * c * R))) * remaining R c lo os * E = _
          ring
        rw [e5]
        refine ih _ _ b1 ⟨h2, b2⟩ h3 hshort' ?_
        intro a ha b hb
        refine (b3 a ha b hb).trans (le_of_eq ?_)
        have := hs.pos.ne'
        field_simp
        ring
  refine gen ops m D ht he hops hshort ?_
  intro a ha b hb
  have : 0 ≤ 1 / 1000000000 / lo := by have := hs.pos; positivity
  linarith [hD a ha b hb]

/-- Two cells of 1 Ah and 1 ohm, 60 % and 40 % full, with the currents at which their voltages are equal. -/
def balancing : ModuleP (ECM 0) :=
  let cell (z i : ℚ) : ECM 0 :=
    { par := { cap := 1, Rdc := 1, Rp := ![], invTau := ![], ocv := fun z => if 0 ≤ z ∧ z ≤ 1 then some (3 + z) else none }
      st := { T := 288, SOC := z, I := i, Ir := ![], time := 0, Ah := 0, Wh := 0 } }
  { T := 288, kids := [⟨0, cell (6 / 10) (1 / 10)⟩, ⟨0, cell (4 / 10) (-1 / 10)⟩] }

/-- Half an hour at rest, then half an hour of discharge. -/
def balancingOps : List UseOp := [.simulate 360 5, .ask (1 / 10), .simulate 180 10]

theorem balancing_slopes :
    CurveSlopes (fun z => if 0 ≤ z ∧ z ≤ 1 then some (3 + z) else none) 1 1 where
  pos := one_pos
  le := le_rfl
  rise := by
    intro y z v w hyz hv hw
    split at hv
    · split at hw
      · cases hv; cases hw; constructor <;> linarith
      · cases hw
    · cases hv

/-- The hypotheses of `parallel_balances` are met, and the difference of 20 % goes down to 5 %. -/
example : ParallelTwins 1 1 (fun z => if 0 ≤ z ∧ z ≤ 1 then some (3 + z) else none) balancing ∧ EqualVoltages balancing ∧
    CarriedOut balancingOps balancing ∧ ShortSimulations 1 1 1 balancingOps ∧ WithinSOC (2 / 10) balancing ∧
    remaining 1 1 1 balancingOps = 1 / 4 ∧
    ((useAll 1 balancingOps balancing).2.kids.map fun k => k.su.st.SOC) = [1 / 2, 9 / 20] := by
  refine ⟨?_, ⟨?_, ?_⟩, ⟨?_, ?_, ⟨?_, ?_⟩, ?_, ?_, trivial⟩, ?_, ?_, ?_, ?_⟩
  · intro k hk
    simp only [balancing, List.mem_cons, List.not_mem_nil, or_false] at hk
    rcases hk with rfl | rfl <;> exact ⟨rfl, rfl, rfl, rfl⟩
  · unfold Reading; decide +kernel
  · unfold Agree; decide +kernel
  · decide +kernel
  · unfold Reading; decide +kernel
  · unfold Reading; decide +kernel
  · unfold Agree; decide +kernel
  · decide +kernel
  · unfold Reading; decide +kernel
  · intro dt n h
    simp only [balancingOps, List.mem_cons, List.not_mem_nil, or_false, reduceCtorEq, false_or, UseOp.simulate.injEq] at h
    rcases h with ⟨rfl, rfl⟩ | ⟨rfl, rfl⟩ <;> norm_num
  · unfold WithinSOC; decide +kernel
  · decide +kernel
  · decide +kernel

end Slide

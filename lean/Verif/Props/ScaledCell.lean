import Verif.Lemmas.SizeMap
import Verif.Props.Cycler

/-!
# C150: a cell of another size behaves alike
-/

namespace Slide
open StorageUnit Spec Cyc

section
variable {n : ℕ} {k : ℚ}

theorem larger_V (hk : 0 < k) (u : ECM n) : (largerCell k u).V = u.V := by
  have h : k ≠ 0 := hk.ne'
  unfold ECM.V
  rw [show (largerCell k u).par.ocv (largerCell k u).st.SOC = u.par.ocv u.st.SOC from rfl]
  cases u.par.ocv u.st.SOC with
  | none => rfl
  | some o =>
    show o - u.par.Rdc / k * (k * u.st.I) - ∑ i, u.par.Rp i / k * (k * u.st.Ir i) = _
    have e : ∀ a b : ℚ, a / k * (k * b) = a * b := by intro a b; field_simp
    simp only [e]

theorem larger_check (hk : 0 < k) (u : ECM n) : (largerCell k u).checkV = u.checkV := by
  unfold ECM.checkV
  rw [larger_V hk]
  have h1 := size_neg hk u.st.I
  have h2 := size_pos hk u.st.I
  show checkVoltage cellLimits (some u.V) (k * u.st.I) = checkVoltage cellLimits (some u.V) u.st.I
  unfold checkVoltage
  simp only [h1, h2]

theorem larger_withI (u : ECM n) (i : ℚ) : (largerCell k u).withI (k * i) = largerCell k (u.withI i) := rfl

theorem larger_set (hk : 0 < k) (u : ECM n) (i : ℚ) (b : Bool) :
    (largerCell k u).setCurrent (k * i) b = ((u.setCurrent i b).1, largerCell k (u.setCurrent i b).2) := by
  unfold ECM.setCurrent
  dsimp only
  have e : ((largerCell k u).withI (k * i)).checkCurrent b = (u.withI i).checkCurrent b := by
    rw [larger_withI]
    unfold ECM.checkCurrent
    rw [larger_check hk]
  rw [e]
  by_cases h : ((u.withI i).checkCurrent b).isBad = true
  · rw [if_pos h, if_pos h]; rfl
  · rw [if_neg h, if_neg h]; rfl

theorem larger_hold (hk : 0 < k) (u : ECM n) (v : ℚ) (b : Bool) :
    (largerCell k u).setVoltage v b = ((u.setVoltage v b).1, largerCell k (u.setVoltage v b).2) := by
  have h0 : k ≠ 0 := hk.ne'
  unfold ECM.setVoltage
  rw [show (largerCell k u).par.ocv (largerCell k u).st.SOC = u.par.ocv u.st.SOC from rfl]
  cases u.par.ocv u.st.SOC with
  | none => rfl
  | some o =>
    dsimp only
    have er : (largerCell k u).par.Rdc = 0 ↔ u.par.Rdc = 0 := by
      show u.par.Rdc / k = 0 ↔ _
      rw [div_eq_zero_iff]
      exact ⟨fun h => h.resolve_right h0, .inl⟩
    by_cases h : u.par.Rdc = 0
    · rw [if_pos h, if_pos (er.mpr h)]
    · rw [if_neg h, if_neg (fun h' => h (er.mp h'))]
      have ei : (o - v - ∑ i, (largerCell k u).par.Rp i * (largerCell k u).st.Ir i) / (largerCell k u).par.Rdc =
          k * ((o - v - ∑ i, u.par.Rp i * u.st.Ir i) / u.par.Rdc) := by
        show (o - v - ∑ i, u.par.Rp i / k * (k * u.st.Ir i)) / (u.par.Rdc / k) = _
        have e : ∀ a b : ℚ, a / k * (k * b) = a * b := by intro a b; field_simp
        simp only [e]
        field_simp
      rw [ei]
      have e : ((largerCell k u).withI (k * ((o - v - ∑ i, u.par.Rp i * u.st.Ir i) / u.par.Rdc))).checkCurrent b =
          (u.withI ((o - v - ∑ i, u.par.Rp i * u.st.Ir i) / u.par.Rdc)).checkCurrent b := by
        rw [larger_withI]
        unfold ECM.checkCurrent
        rw [larger_check hk]
      rw [e]
      by_cases hb : ((u.withI ((o - v - ∑ i, u.par.Rp i * u.st.Ir i) / u.par.Rdc)).checkCurrent b).isBad = true
      · rw [if_pos hb, if_pos hb]; rfl
      · rw [if_neg hb, if_neg hb]; rfl

theorem larger_step1 (hk : 0 < k) (u : ECM n) (dt : ℚ) : (largerCell k u).step1 dt = largerCell k (u.step1 dt) := by
  have h0 : k ≠ 0 := hk.ne'
  have hdA : (largerCell k u).st.I * (dt / 3600) = k * (u.st.I * (dt / 3600)) := by
    show k * u.st.I * (dt / 3600) = _
    ring
  have hsoc : ∀ x : ℚ, k * x / (k * u.par.cap) = x / u.par.cap := fun x => mul_div_mul_left x u.par.cap h0
  set c1 : ECM n := { u with st := { u.st with
    SOC := u.st.SOC - u.st.I * (dt / 3600) / u.par.cap,
    Ir := fun i => u.st.Ir i + dt * u.par.invTau i * (u.st.I - u.st.Ir i) } } with hc1
  have hc : ({ largerCell k u with st := { (largerCell k u).st with
      SOC := (largerCell k u).st.SOC - (largerCell k u).st.I * (dt / 3600) / (largerCell k u).par.cap,
      Ir := fun i => (largerCell k u).st.Ir i + dt * (largerCell k u).par.invTau i *
        ((largerCell k u).st.I - (largerCell k u).st.Ir i) } } : ECM n) = largerCell k c1 := by
    refine ECM.ext rfl (ECMState.ext rfl ?_ rfl ?_ rfl rfl rfl)
    · dsimp only
      rw [hdA]
      show u.st.SOC - k * (u.st.I * (dt / 3600)) / (k * u.par.cap) = _
      rw [hsoc]
      rfl
    · funext i
      show k * u.st.Ir i + dt * u.par.invTau i * (k * u.st.I - k * u.st.Ir i) = k * (u.st.Ir i + dt * u.par.invTau i * (u.st.I - u.st.Ir i))
      ring
  unfold ECM.step1
  dsimp only
  rw [hc, larger_V hk, hdA]
  refine ECM.ext rfl (ECMState.ext rfl ?_ rfl ?_ rfl ?_ ?_)
  · show u.st.SOC - k * (u.st.I * (dt / 3600)) / (k * u.par.cap) = _
    rw [hsoc]
    rfl
  · funext i
    show k * u.st.Ir i + dt * u.par.invTau i * (k * u.st.I - k * u.st.Ir i) = k * (u.st.Ir i + dt * u.par.invTau i * (u.st.I - u.st.Ir i))
    ring
  · show k * u.st.Ah + |k * (u.st.I * (dt / 3600))| = k * (u.st.Ah + |u.st.I * (dt / 3600)|)
    rw [size_abs hk]; ring
  · show k * u.st.Wh + |k * (u.st.I * (dt / 3600)) * c1.V| = k * (u.st.Wh + |u.st.I * (dt / 3600) * c1.V|)
    rw [mul_assoc, size_abs hk]; ring

theorem larger_steps (hk : 0 < k) (dt : ℚ) (j : ℕ) : ∀ u : ECM n, (largerCell k u).steps dt j = largerCell k (u.steps dt j) := by
  induction j with
  | zero => intro u; rfl
  | succ j ih =>
    intro u
    show ((largerCell k u).step1 dt).steps dt j = largerCell k ((u.step1 dt).steps dt j)
    rw [larger_step1 hk, ih]

theorem larger_restore (u w : ECM n) : (largerCell k u).setStates (largerCell k w).getStates false =
    ((u.setStates w.getStates false).1, largerCell k (u.setStates w.getStates false).2) := by
  have d1 := ECM.decode_getStates (largerCell k w) []
  have d2 := ECM.decode_getStates w []
  rw [List.append_nil] at d1 d2
  have l1 : (largerCell k w).getStates.drop (6 + n) = [] := by
    rw [List.drop_eq_nil_iff, ECM.getStates_length]
  have l2 : w.getStates.drop (6 + n) = [] := by
    rw [List.drop_eq_nil_iff, ECM.getStates_length]
  unfold ECM.setStates
  rw [d1, d2]
  dsimp only
  rw [l1, l2]
  have hv : ({ largerCell k u with st := (largerCell k w).st } : ECM n).validStates = ({ u with st := w.st } : ECM n).validStates := rfl
  rw [hv]
  cases ({ u with st := w.st } : ECM n).validStates <;> rfl

/-- The larger cell corresponds to the cell. -/
theorem larger_scales (hk : 0 < k) : Scales k (largerCell (n := n) k) where
  V := larger_V hk
  I _ := rfl
  Cap _ := rfl
  lim _ := rfl
  OCV _ := rfl
  Rtot _ := rfl
  Vlow := larger_V hk
  Vhigh := larger_V hk
  check := larger_check hk
  set u i b := by
    show ((.ok ((largerCell k u).setCurrent (k * i) b).1, ((largerCell k u).setCurrent (k * i) b).2) : Outcome Status × ECM n) = _
    rw [larger_set hk]; rfl
  hold u v := larger_hold hk u v true
  step u dt j := by
    show (largerCell k u).timeStep dt j = ((u.timeStep dt j).1, largerCell k (u.timeStep dt j).2)
    unfold ECM.timeStep
    by_cases h : dt < 0
    · rw [if_pos h, if_pos h]
    · rw [if_neg h, if_neg h, larger_steps hk]
  restore u w := larger_restore u w

/-! ## C150 -/

/-- **C150, the cell.**  Every call of the interface does the same to the larger cell, with `k` times the current. -/
theorem larger_cell (hk : 0 < k) (u : ECM n) : (largerCell k u).V = u.V ∧ (largerCell k u).checkV = u.checkV ∧
    (∀ i b, (largerCell k u).setCurrent (k * i) b = ((u.setCurrent i b).1, largerCell k (u.setCurrent i b).2)) ∧
    (∀ v b, (largerCell k u).setVoltage v b = ((u.setVoltage v b).1, largerCell k (u.setVoltage v b).2)) ∧
    (∀ dt j, (largerCell k u).timeStep dt j = ((u.timeStep dt j).1, largerCell k (u.timeStep dt j).2)) :=
  ⟨larger_V hk u, larger_check hk u, larger_set hk u, larger_hold hk u, (larger_scales hk).step u⟩

/-- **C150, constant current.**  The larger cell with `k` times the current: the same outcome at the same time, the same
records, `k` times the charge and the energy. -/
theorem larger_cc (hk : 0 < k) (fuel : ℕ) (c : Cyc (ECM n)) (I vlim tlim dt : ℚ) (ndt : ℤ) (th : Thr) :
    CC fuel (cycMap (largerCell k) c) (k * I) vlim tlim dt ndt (thrTimes k th) =
      let r := CC fuel c I vlim tlim dt ndt th
      (r.1, cycMap (largerCell k) r.2.1, thrTimes k r.2.2) := scaled_cc (larger_scales hk).toSizeMap hk fuel c I vlim tlim dt ndt th

/-- **C150, rest.** -/
theorem larger_rest (hk : 0 < k) (fuel : ℕ) (c : Cyc (ECM n)) (tlim dt : ℚ) (ndt : ℤ) (th : Thr) :
    rest fuel (cycMap (largerCell k) c) tlim dt ndt (thrTimes k th) =
      let r := rest fuel c tlim dt ndt th
      (r.1, cycMap (largerCell k) r.2.1, thrTimes k r.2.2) := scaled_rest (larger_scales hk).toSizeMap fuel c tlim dt ndt th

/-- **C150, constant voltage**, with `k` times the current limit, when both limits are at least 10 microamperes. -/
theorem larger_cv_partial (hk : 0 < k) (c : Cyc (ECM n)) (Vset : ℚ) {Ilim : ℚ} (h1 : AboveSmallest Ilim)
    (h2 : AboveSmallest (k * Ilim)) (tlim dt : ℚ) (ndt : ℤ) (th : Thr) :
    CV (cycMap (largerCell k) c) Vset (k * Ilim) tlim dt ndt (thrTimes k th) =
      let r := CV c Vset Ilim tlim dt ndt th
      (r.1, cycMap (largerCell k) r.2.1, thrTimes k r.2.2) := scaled_cv (larger_scales hk).toHoldMap hk c Vset h1 h2 tlim dt ndt th

/-- **C150, constant current and constant voltage.** -/
theorem larger_cccv_partial (hk : 0 < k) (fuel : ℕ) (c : Cyc (ECM n)) (I Vset : ℚ) {Ilim : ℚ} (h1 : AboveSmallest |Ilim|)
    (h2 : AboveSmallest (k * |Ilim|)) (tlim dt : ℚ) (ndt : ℤ) (th : Thr) :
    CCCVt fuel (cycMap (largerCell k) c) (k * I) Vset (k * Ilim) tlim dt ndt (thrTimes k th) =
      let r := CCCVt fuel c I Vset Ilim tlim dt ndt th
      (r.1, cycMap (largerCell k) r.2.1, thrTimes k r.2.2) :=
  scaled_cccv (larger_scales hk).toHoldMap hk fuel c I Vset h1 h2 tlim dt ndt th

/-- **C150, capacity test.**  It finds `k` times the capacity, in the same time. -/
theorem larger_capacityTest (hk : 0 < k) (fuel : ℕ) (c : Cyc (ECM n)) (Ah ttot : ℚ) :
    testCapacity fuel (cycMap (largerCell k) c) (k * Ah) ttot =
      let r := testCapacity fuel c Ah ttot
      ((match r.1 with | .ok x => .ok (k * x) | .throw e => .throw e | .ub w => .ub w), cycMap (largerCell k) r.2.1,
        k * r.2.2.1, r.2.2.2) := scaled_capacityTest (larger_scales hk) hk fuel c Ah ttot

end


/-- A cell of 1 Ah with a resistance of 1 Ohm, half full (3.15 V), carrying 0.1 A. -/
def ohmCell : ECM 0 := ⟨⟨1, 1, fun _ => 0, fun _ => 0, ECM.defaultOCV⟩, ⟨293, 1/2, 1/10, fun _ => 0, 0, 0, 0⟩⟩

/-- **C150: the constant-voltage phase in full is false of the code.**  Held half a microvolt below its rest voltage until the
current is below 0.1 microampere, the cell of 1 Ah carries half a microampere, less than the fixed 1 microampere: the phase
stops after one step.  The cell of 1000 Ah carries 0.5 mA and runs to the end of the time. -/
theorem not_largerHoldsAlike : ¬ LargerHoldsAlike := by
  intro h
  have := h ⟨ohmCell, 0, false, []⟩ 1000 (63/20 - 1/2000000) (1/10000000) 4 2 (by norm_num) (by norm_num)
  revert this
  decide +kernel

example : (CV (⟨ohmCell, 0, false, []⟩ : Cyc (ECM 0)) (63/20 - 1/2000000) (1/10000000) 4 2 0 Thr.zero).1 =
    .ok .ReachedSmallCurrent := by decide +kernel

/-! ## Non-vacuity -/

/-- A 3 Ah cell at 6 A and the 1 Ah cell at 2 A, discharged to 3 V: both reach the limit after the same time. -/
example : let r := CC 2000 (⟨smallCell, 0, false, []⟩ : Cyc (ECM 0)) 2 3 3000 50 0 Thr.zero
    let s := CC 2000 (⟨largerCell 3 smallCell, 0, false, []⟩ : Cyc (ECM 0)) 6 3 3000 50 0 Thr.zero
    r.1 = s.1 ∧ s.2.2.time = r.2.2.time ∧ s.2.2.Ah = 3 * r.2.2.Ah ∧ 0 < r.2.2.Ah := by decide +kernel

example : AboveSmallest (1/20 : ℚ) ∧ AboveSmallest (3 * (1/20) : ℚ) := by unfold AboveSmallest; norm_num

end Slide

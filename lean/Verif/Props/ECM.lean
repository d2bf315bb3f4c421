import Verif.Lemmas.ECM
import Verif.Spec.ECM
import Verif.Props.StatusVoltage
import Verif.Tac

/-!
Properties C01 (atomic setCurrent), C11 (charge conservation), C12 (batched steps), C13 (negative steps),
C14 (RC relaxation), C47 (setVoltage), C62 (cell outside its OCV table) and the cell part of C05/C06 (set/get states).
-/

namespace Slide
open ECM

variable {n : ℕ}

/-- A concrete cell used in the examples: `Cell_ECM<1>` with the constructor's default parameters
(`Cell_ECM.hpp:98-123`), 16 Ah, SOC 50 %, 15 °C. -/
def exampleCell : ECM 1 where
  par := { cap := 16, Rdc := 2/1000, Rp := fun _ => 158/10000, invTau := fun _ => 1/(158/10000*38000),
           ocv := defaultOCV }
  st := { T := 288, SOC := 1/2, I := 0, Ir := fun _ => 0, time := 0, Ah := 0, Wh := 0 }

/-! ### C01 -/

/-- C01: `setCurrent` either accepts (then only the current changes, to exactly the requested value) or
rejects (then nothing changes at all). -/
theorem ecm_setCurrent_atomic (c : ECM n) (Inew : ℚ) (check : Bool) :
    ((c.setCurrent Inew check).1.isBad = false ∧
      (c.setCurrent Inew check).2 = { c with st := { c.st with I := Inew } }) ∨
    ((c.setCurrent Inew check).1.isBad = true ∧ (c.setCurrent Inew check).2 = c) := by
  rw [setCurrent_eq]
  cases h : ((c.withI Inew).checkCurrent check).isBad
  · left; exact ⟨by simp [h], by simp; rfl⟩
  · right; simp [h]

/-- C01: which of the two happens is decided by the voltage the cell would have: with the check on, the
current is rejected exactly when the new voltage is impossible or the current pushes it beyond a
safety limit; without the check it is always accepted. -/
theorem ecm_setCurrent_rejects_iff (c : ECM n) (Inew : ℚ) (check : Bool) :
    (c.setCurrent Inew check).1.isBad = true ↔ check = true ∧
      (let v := V { c with st := { c.st with I := Inew } };
       v ≤ 0 ∨ (v < 2 ∧ 0 < Inew) ∨ (43/10 < v ∧ Inew < 0)) := by
  have hN : Spec.Nested cellLimits := by constructor <;> norm_num [cellLimits]
  have hst : (c.setCurrent Inew check).1 = (c.withI Inew).checkCurrent check := by
    rw [setCurrent_eq]; split <;> rfl
  rw [hst]
  cases check
  · simp [checkCurrent, Status.isBad, Status.isOK, Status.code, Status.Critical]
  · simp only [checkCurrent, checkV, if_true, true_and]
    rw [checkVoltage_bad_iff _ hN]
    rfl

/-- Both outcomes occur on the default cell: 10 A is accepted, 1000 A is rejected. -/
example : (exampleCell.setCurrent 10 true).1.isBad = false ∧
    (exampleCell.setCurrent 1000 true).1.isBad = true := by
  constructor
  · rw [Bool.eq_false_iff]; intro h
    rw [ecm_setCurrent_rejects_iff] at h
    simp [V, exampleCell, defaultOCV_eq] at h
    norm_num at h
  · rw [ecm_setCurrent_rejects_iff]
    simp [V, exampleCell, defaultOCV_eq]
    norm_num

/-! ### C47 -/

/-- C47: a successful `setVoltage` gives exactly the requested voltage and changes nothing but the current;
a bad status (or an exception) leaves the cell unchanged. -/
theorem ecm_setVoltage_spec (c : ECM n) (Vnew : ℚ) (check : Bool) (hR : c.par.Rdc ≠ 0) :
    (∃ s, (c.setVoltage Vnew check).1 = .ok s ∧ s.isBad = false ∧
        (c.setVoltage Vnew check).2.V = Vnew ∧
        ∃ i, (c.setVoltage Vnew check).2 = { c with st := { c.st with I := i } }) ∨
    (∃ s, (c.setVoltage Vnew check).1 = .ok s ∧ s.isBad = true ∧ (c.setVoltage Vnew check).2 = c) ∨
    ((c.setVoltage Vnew check).1 = .throw 1 ∧ (c.setVoltage Vnew check).2 = c ∧
      c.par.ocv c.st.SOC = none) := by
  unfold setVoltage
  cases ho : c.par.ocv c.st.SOC with
  | none => right; right; simp
  | some o =>
    dsimp only
    rw [if_neg hR]
    cases hb : ((c.withI ((o - Vnew - ∑ i, c.par.Rp i * c.st.Ir i) / c.par.Rdc)).checkCurrent check).isBad
    · left
      refine ⟨_, by simp, hb, ?_, ?_⟩
      · simp only [Bool.false_eq_true, if_false]
        have h2 : c.par.ocv (c.withI ((o - Vnew - ∑ i, c.par.Rp i * c.st.Ir i) / c.par.Rdc)).st.SOC
            = some o := ho
        unfold V
        rw [withI_par, h2]
        simp only [withI_I]
        have : (c.withI ((o - Vnew - ∑ i, c.par.Rp i * c.st.Ir i) / c.par.Rdc)).st.Ir = c.st.Ir := rfl
        rw [this, mul_div_cancel₀ _ hR]
        ring
      · exact ⟨_, by simp only [Bool.false_eq_true, if_false]; rfl⟩
    · right; left
      exact ⟨_, by simp, hb, by simp⟩

example : exampleCell.par.Rdc ≠ 0 := by norm_num [exampleCell]

/-- C47: with the SOC in range the OCV lookup of the default curve cannot throw. -/
theorem ecm_setVoltage_no_throw (c : ECM n) (Vnew : ℚ) (check : Bool) (hR : c.par.Rdc ≠ 0)
    (ho : c.par.ocv = defaultOCV) (h0 : 0 ≤ c.st.SOC) (h1 : c.st.SOC ≤ 1) :
    ∃ s, (c.setVoltage Vnew check).1 = .ok s := by
  rcases ecm_setVoltage_spec c Vnew check hR with ⟨s, h, _⟩ | ⟨s, h, _⟩ | ⟨_, _, h⟩
  · exact ⟨s, h⟩
  · exact ⟨s, h⟩
  · rw [ho, defaultOCV_eq, if_pos ⟨h0, h1⟩] at h; cases h

example : exampleCell.par.ocv = defaultOCV ∧ 0 ≤ exampleCell.st.SOC ∧ exampleCell.st.SOC ≤ 1 := by
  norm_num [exampleCell]

/-! ### C11 -/

theorem ecm_apply_par (c : ECM n) (o : Op) : (c.apply o).par = c.par := by
  cases o with
  | setCurrent i b => rcases setCurrent_snd c i b with h | h <;> simp [apply, h]
  | setVoltage v b => obtain ⟨i, h⟩ := setVoltage_snd c v b; simp [apply, h]
  | setT t => rfl
  | step dt k => unfold apply timeStep; dsimp only; split_ifs <;> simp

/-- C11: over any history of calls, the change of SOC times capacity is exactly the negative of the net charge
an ammeter records; the Ah counter has grown by exactly the absolute charge; the clock by exactly the
elapsed time; Wh never decreases. -/
theorem ecm_charge_conservation (c : ECM n) (ops : List Op) (hcap : c.par.cap ≠ 0) :
    ((c.run ops).st.SOC - c.st.SOC) * (3600 * c.par.cap) = - Spec.netCharge (Spec.ammeter c ops) ∧
    ((c.run ops).st.Ah - c.st.Ah) * 3600 = Spec.absCharge (Spec.ammeter c ops) ∧
    (c.run ops).st.time - c.st.time = Spec.elapsed (Spec.ammeter c ops) ∧
    c.st.Wh ≤ (c.run ops).st.Wh := by
  induction ops generalizing c with
  | nil => simp [run, Spec.ammeter, Spec.netCharge, Spec.absCharge, Spec.elapsed]
  | cons o os ih =>
    have hpar := ecm_apply_par c o
    have hih := ih (c.apply o) (by rw [hpar]; exact hcap)
    rw [hpar] at hih
    -- calls that only touch the current or the temperature
    have quiet : ∀ d : ECM n, c.apply o = d → d.st.SOC = c.st.SOC → d.st.Ah = c.st.Ah →
        d.st.time = c.st.time → d.st.Wh = c.st.Wh → Spec.ammeter c (o :: os) = Spec.ammeter d os →
        ((c.run (o :: os)).st.SOC - c.st.SOC) * (3600 * c.par.cap) =
          - Spec.netCharge (Spec.ammeter c (o :: os)) ∧
        ((c.run (o :: os)).st.Ah - c.st.Ah) * 3600 = Spec.absCharge (Spec.ammeter c (o :: os)) ∧
        (c.run (o :: os)).st.time - c.st.time = Spec.elapsed (Spec.ammeter c (o :: os)) ∧
        c.st.Wh ≤ (c.run (o :: os)).st.Wh := by
      intro d hd h1 h2 h3 h4 h5
      rw [hd] at hih
      rw [h5]
      simp only [run, hd]
      rw [h1, h2, h3, h4] at hih
      exact hih
    cases o with
    | setCurrent i b =>
      rcases setCurrent_snd c i b with h | h
      · exact quiet c (by simp [apply, h]) rfl rfl rfl rfl (by simp [Spec.ammeter, apply, h])
      · exact quiet (c.withI i) (by simp [apply, h]) rfl rfl rfl rfl (by simp [Spec.ammeter, apply, h])
    | setVoltage v b =>
      obtain ⟨i, h⟩ := setVoltage_snd c v b
      exact quiet (c.withI i) (by simp [apply, h]) rfl rfl rfl rfl (by simp [Spec.ammeter, apply, h])
    | setT t => exact quiet (c.setT t) rfl rfl rfl rfl rfl rfl
    | step dt k =>
      by_cases hdt : dt < 0
      · have h : c.apply (.step dt k) = c := by simp [apply, timeStep, hdt]
        refine quiet c h rfl rfl rfl rfl ?_
        simp [Spec.ammeter, h, hdt]
      · have h : c.apply (.step dt k) = c.steps dt k := by simp [apply, timeStep, hdt]
        have hnn : 0 ≤ dt := not_lt.mp hdt
        rw [h] at hih
        obtain ⟨i1, i2, i3, i4⟩ := hih
        rw [steps_SOC] at i1
        rw [steps_Ah] at i2
        rw [steps_time] at i3
        have hw := steps_Wh_ge c dt k
        simp only [run, h, Spec.ammeter, if_neg hdt, List.singleton_append, Spec.netCharge,
          Spec.absCharge, Spec.elapsed, List.map_cons, List.sum_cons] at i1 i2 i3 ⊢
        refine ⟨?_, ?_, ?_, le_trans hw i4⟩
        · have : (k : ℚ) * (c.st.I * (dt / 3600) / c.par.cap) * (3600 * c.par.cap) = c.st.I * (dt * k) := by
            field_simp
          linear_combination i1 - this
        · have : |c.st.I * (dt / 3600)| = |c.st.I| * (dt / 3600) := by
            rw [abs_mul, abs_of_nonneg (by positivity : 0 ≤ dt / 3600)]
          rw [this] at i2
          linear_combination i2
        · linear_combination i3

/-- C11: time, Ah and Wh never decrease, SOC falls while discharging – over any history. -/
theorem ecm_counters_monotone (c : ECM n) (ops : List Op) (hcap : c.par.cap ≠ 0) :
    c.st.time ≤ (c.run ops).st.time ∧ c.st.Ah ≤ (c.run ops).st.Ah ∧ c.st.Wh ≤ (c.run ops).st.Wh := by
  obtain ⟨_, h2, h3, h4⟩ := ecm_charge_conservation c ops hcap
  have nn : ∀ (d : ECM n) (l : List Op), ∀ p ∈ Spec.ammeter d l, 0 ≤ p.2 := by
    intro d l
    induction l generalizing d with
    | nil => intro p hp; simp [Spec.ammeter] at hp
    | cons o os ih =>
      intro p hp
      cases o with
      | step dt k =>
        simp only [Spec.ammeter, List.mem_append] at hp
        rcases hp with hp | hp
        · split_ifs at hp with hd
          · simp at hp
          · simp only [List.mem_singleton] at hp
            subst hp
            have : 0 ≤ dt := not_lt.mp hd
            positivity
        · exact ih _ p hp
      | setCurrent i b => exact ih _ p (by simpa [Spec.ammeter] using hp)
      | setVoltage i b => exact ih _ p (by simpa [Spec.ammeter] using hp)
      | setT t => exact ih _ p (by simpa [Spec.ammeter] using hp)
  have e1 : 0 ≤ Spec.elapsed (Spec.ammeter c ops) := by
    apply List.sum_nonneg
    intro x hx
    obtain ⟨p, hp, rfl⟩ := List.mem_map.mp hx
    exact nn c ops p hp
  have e2 : 0 ≤ Spec.absCharge (Spec.ammeter c ops) := by
    apply List.sum_nonneg
    intro x hx
    obtain ⟨p, hp, rfl⟩ := List.mem_map.mp hx
    exact mul_nonneg (abs_nonneg _) (nn c ops p hp)
  exact ⟨by linarith, by linarith, h4⟩

/-- Non-trivial case: one hour at 8 A takes a 16 Ah cell from 50 % to 0 %. -/
example : exampleCell.par.cap ≠ 0 ∧
    (exampleCell.run [.setCurrent 8 false, .step 1 3600]).st.SOC = 0 := by
  have hc : exampleCell.par.cap ≠ 0 := by norm_num [exampleCell]
  refine ⟨hc, ?_⟩
  have h := (ecm_charge_conservation exampleCell [.setCurrent 8 false, .step 1 3600] hc).1
  simp [Spec.ammeter, Spec.netCharge, apply, setCurrent_unchecked] at h
  norm_num [exampleCell] at h ⊢
  linarith

/-! ### C12 -/

/-- C12: `n + m` steps in one call are the same as `n` steps followed by `m` steps – complete state,
including the energy counter, and the same exception for a negative step. -/
theorem ecm_timeStep_batch (c : ECM n) (dt : ℚ) (a b : ℕ) :
    c.timeStep dt (a + b) = (c.timeStep dt a).2.timeStep dt b := by
  unfold timeStep
  split_ifs <;> simp [steps_add]

/-- C12: `k` steps in one call are the same as `k` calls with one step. -/
theorem ecm_timeStep_single (c : ECM n) (dt : ℚ) (k : ℕ) :
    (c.timeStep dt k).2 = Nat.iterate (fun d => (ECM.timeStep d dt 1).2) k c := by
  induction k generalizing c with
  | zero => unfold timeStep; split_ifs <;> simp [steps]
  | succ k ih =>
    rw [Nat.add_comm, ecm_timeStep_batch, Nat.add_comm, Function.iterate_succ_apply, ih]

/-! ### C13 -/

/-- C13: a negative step throws 10 and changes nothing. -/
theorem ecm_timeStep_negative (c : ECM n) (dt : ℚ) (k : ℕ) (h : dt < 0) :
    c.timeStep dt k = (.throw 10, c) := by simp [timeStep, h]

example : (-1 : ℚ) < 0 := by norm_num

/-- C13: a non-negative step returns normally and never changes the current or the temperature. -/
theorem ecm_timeStep_nonneg (c : ECM n) (dt : ℚ) (k : ℕ) (h : 0 ≤ dt) :
    (c.timeStep dt k).1 = .ok () ∧ (c.timeStep dt k).2.st.I = c.st.I ∧ (c.timeStep dt k).2.st.T = c.st.T ∧
    (c.timeStep dt k).2.par = c.par := by
  simp [timeStep, not_lt.mpr h]

example : (0 : ℚ) ≤ 2 := by norm_num

/-! ### C14 -/

/-- C14: closed form of every RC branch after any number of steps. -/
theorem ecm_rc_closed_form (c : ECM n) (dt : ℚ) (k : ℕ) (h : 0 ≤ dt) (i : Fin n) :
    (c.timeStep dt k).2.st.Ir i - c.st.I = (1 - dt * c.par.invTau i) ^ k * (c.st.Ir i - c.st.I) := by
  simp [timeStep, not_lt.mpr h, steps_Ir]

/-- C14: with a step not longer than the time constant `τ`, the branch current stays between its initial
value and the cell current, and its distance to the cell current never grows. -/
theorem ecm_rc_stable (c : ECM n) (dt τ : ℚ) (k : ℕ) (i : Fin n) (hτ : 0 < τ)
    (hi : c.par.invTau i = 1 / τ) (h0 : 0 ≤ dt) (h1 : dt ≤ τ) :
    min (c.st.Ir i) c.st.I ≤ (c.timeStep dt k).2.st.Ir i ∧
    (c.timeStep dt k).2.st.Ir i ≤ max (c.st.Ir i) c.st.I ∧
    |(c.timeStep dt (k+1)).2.st.Ir i - c.st.I| ≤ |(c.timeStep dt k).2.st.Ir i - c.st.I| := by
  have e := ecm_rc_closed_form c dt k h0 i
  have e' := ecm_rc_closed_form c dt (k+1) h0 i
  set q : ℚ := 1 - dt * c.par.invTau i with hq
  have hq0 : 0 ≤ q := by
    rw [hq, hi, mul_one_div, sub_nonneg, div_le_one hτ]; exact h1
  have hq1 : q ≤ 1 := by
    rw [hq, hi, mul_one_div]; linarith [div_nonneg h0 hτ.le]
  have hk0 : 0 ≤ q ^ k := pow_nonneg hq0 k
  have hk1 : q ^ k ≤ 1 := pow_le_one₀ hq0 hq1
  refine ⟨?_, ?_, ?_⟩
  · rcases le_total (c.st.Ir i) c.st.I with h | h
    · rw [min_eq_left h]; nlinarith
    · rw [min_eq_right h]; nlinarith
  · rcases le_total (c.st.Ir i) c.st.I with h | h
    · rw [max_eq_right h]; nlinarith
    · rw [max_eq_left h]; nlinarith
  · rw [e, e', pow_succ, abs_mul, abs_mul, abs_mul, abs_of_nonneg hq0]
    have := abs_nonneg (q ^ k)
    have h2 := abs_nonneg (c.st.Ir i - c.st.I)
    have : |q ^ k| * q ≤ |q ^ k| := by nlinarith
    nlinarith

/-- Default cell: τ = 600.4 s, a 10 s step qualifies. -/
example : (0:ℚ) < 158/10000*38000 ∧ exampleCell.par.invTau 0 = 1 / (158/10000*38000) ∧
    (10:ℚ) ≤ 158/10000*38000 := by norm_num [exampleCell]

/-- C14, necessity of the step bound: with a step of more than twice the time constant the distance to the cell
current grows (forward Euler is unstable), although the code accepts the call. -/
theorem ecm_rc_unstable_large_step (c : ECM n) (dt : ℚ) (i : Fin n) (h2 : 2 < dt * c.par.invTau i)
    (h0 : 0 ≤ dt) (hne : c.st.Ir i ≠ c.st.I) (k : ℕ) :
    |(c.timeStep dt k).2.st.Ir i - c.st.I| < |(c.timeStep dt (k+1)).2.st.Ir i - c.st.I| := by
  rw [ecm_rc_closed_form c dt k h0 i, ecm_rc_closed_form c dt (k+1) h0 i, pow_succ, abs_mul, abs_mul, abs_mul]
  have h1 : 1 < |1 - dt * c.par.invTau i| := by rw [lt_abs]; right; linarith
  have h3 : 0 < |(1 - dt * c.par.invTau i) ^ k| := by
    rw [abs_pos]; apply pow_ne_zero; intro h; rw [h] at h1; norm_num at h1
  have h4 : 0 < |c.st.Ir i - c.st.I| := abs_pos.mpr (sub_ne_zero.mpr hne)
  have : |(1 - dt * c.par.invTau i) ^ k| < |(1 - dt * c.par.invTau i) ^ k| * |1 - dt * c.par.invTau i| := by
    nlinarith
  exact mul_lt_mul_of_pos_right this h4

example : (2:ℚ) < 2000 * exampleCell.par.invTau 0 ∧
    ({ exampleCell.st with I := 5 } : ECMState 1).Ir 0 ≠ ({ exampleCell.st with I := 5 } : ECMState 1).I := by
  norm_num [exampleCell]

/-! ### C05/C06, cell part -/

/-- C06 (cell): the saved vector of a valid cell is accepted by every other state of the same cell and restores it
completely, leaving exactly the remaining entries. -/
theorem ecm_states_roundtrip (c d : ECM n) (rest : List ℚ) (hp : d.par = c.par)
    (hv : c.validStates = true) :
    d.setStates (c.getStates ++ rest) false = (.ok (.Success, rest), c) := by
  unfold setStates
  rw [decode_getStates]
  have hd : (c.getStates ++ rest).drop (6 + n) = rest := by
    rw [← getStates_length c]; simp
  have hc : ({ d with st := c.st } : ECM n) = c := by
    cases c; cases d; simp_all
  dsimp only
  rw [hc, hd, hv]
  simp [Status.isBad, Status.isOK, Status.code, Status.Critical]

example : exampleCell.validStates = true := by
  norm_num [exampleCell, ECM.validStates, checkSOC, ECM.Tmin, ECM.Tmax]

/-- C05 (cell): whatever vector is given, a bad status leaves the cell unchanged, an accepted one stores the
first `6+n` entries; only a too short span is undefined. -/
theorem ecm_setStates_atomic (c : ECM n) (s : List ℚ) (check : Bool) (hlen : 6 + n ≤ s.length) :
    ∃ st, (c.setStates s check).1 = .ok (st, s.drop (6 + n)) ∧
      ((st.isBad = true ∧ (c.setStates s check).2 = c) ∨
       (st.isBad = false ∧ (c.setStates s check).2.par = c.par ∧
        (c.setStates s check).2.getStates = s.take (6 + n))) := by
  have hdec : ∃ st', decode n s = some st' ∧ ∀ c' : ECM n, c'.st = st' → c'.getStates = s.take (6 + n) := by
    refine ⟨_, dif_pos hlen, ?_⟩
    intro c' hc'
    have hlen' := getStates_length c'
    have hgs : c'.getStates = [c'.st.T, c'.st.SOC, c'.st.I] ++
      (List.ofFn c'.st.Ir ++ [c'.st.time, c'.st.Ah, c'.st.Wh]) := rfl
    rw [hgs] at hlen' ⊢
    apply List.ext_getElem
    · rw [hlen', List.length_take]; omega
    · intro k hk hk'
      have hk2 : k < 6 + n := by rw [hlen'] at hk; exact hk
      rw [List.getElem_take]
      have hof : (List.ofFn c'.st.Ir).length = n := List.length_ofFn
      rcases Nat.lt_or_ge k 3 with h3 | h3
      · rw [List.getElem_append_left (by simpa using h3)]
        interval_cases k <;> simp [hc']
      · rw [List.getElem_append_right (by simpa using h3)]
        rcases Nat.lt_or_ge k (3 + n) with h4 | h4
        · rw [List.getElem_append_left (by rw [hof]; simp; omega)]
          simp [hc']
          congr 1
          omega
        · rw [List.getElem_append_right (by rw [hof]; simp; omega)]
          have : k = 3 + n ∨ k = 4 + n ∨ k = 5 + n := by omega
          rcases this with rfl | rfl | rfl
          · simp [hc']
          · have e : 4 + n - 3 - n = 1 := by omega
            simp [hc', e]
          · have e : 5 + n - 3 - n = 2 := by omega
            simp [hc', e]
  obtain ⟨st', h1, h2⟩ := hdec
  unfold setStates
  rw [h1]
  dsimp only
  generalize (if (!ECM.validStates { c with st := st' }) = true then Status.Invalid_states
      else if check = true then ECM.checkV { c with st := st' } else Status.Success) = s0
  cases hb : s0.isBad
  · exact ⟨s0, by simp, Or.inr ⟨hb, by simp, by simp; exact h2 _ rfl⟩⟩
  · exact ⟨s0, by simp, Or.inl ⟨hb, by simp⟩⟩

example : 6 + 1 ≤ exampleCell.getStates.length := by rw [getStates_length]

/-- C05 (cell): a state span that is too short is undefined behaviour (the code copies without checking). -/
theorem ecm_setStates_short_ub (c : ECM n) (s : List ℚ) (check : Bool) (h : s.length < 6 + n) :
    (c.setStates s check).1 = .ub "state span too short" := by
  have : decode n s = none := dif_neg (by omega)
  simp [setStates, this]

example : ([] : List ℚ).length < 6 + 1 := by simp

/-! ### C62 -/

/-- C62: a cell whose state of charge is outside its OCV table is recognisably unusable.  Its voltage reads 0, every
checked current (also the one that would bring it back) is refused with `V_not_calculated` and changes nothing,
`setVoltage` throws 1 and changes nothing, and an unchecked current is still possible. -/
theorem ecm_lookup_failed (c : ECM n) (h : c.par.ocv c.st.SOC = none) :
    c.V = 0 ∧ c.checkV = .V_not_calculated ∧
    (∀ i, c.setCurrent i true = (.V_not_calculated, c)) ∧
    (∀ v b, c.setVoltage v b = (.throw 1, c)) ∧
    (∀ i, c.setCurrent i false = (.Success, c.withI i)) := by
  have hV : ∀ i, (c.withI i).V = 0 := fun i => by unfold V; simp [withI, h]
  have hV0 : c.V = 0 := hV c.st.I
  have hC : ∀ i, (c.withI i).checkV = .V_not_calculated := fun i => by
    unfold checkV checkVoltage; simp [hV i]
  refine ⟨hV0, hC c.st.I, fun i => ?_, fun v b => ?_, fun i => setCurrent_unchecked c i⟩
  · have hb : Status.V_not_calculated.isBad = true := by decide
    simp [ECM.setCurrent, checkCurrent, hC i, hb]
  · simp [ECM.setVoltage, h]

/-- C62, default curve: the lookup fails exactly outside `[0, 1]`; inside, the cell at rest reads the curve. -/
theorem ecm_lookup_failed_iff (c : ECM n) (h : c.par.ocv = defaultOCV) :
    c.par.ocv c.st.SOC = none ↔ c.st.SOC < 0 ∨ 1 < c.st.SOC := by
  rw [h, defaultOCV_eq]
  split_ifs with hs
  · simp only [false_iff]; intro h'; rcases h' with h' | h' <;> linarith [hs.1, hs.2]
  · simp only [true_iff]
    by_contra hc
    push Not at hc
    exact hs ⟨hc.1, hc.2⟩

/-- C62: a time step does not stop at an empty cell: the time step succeeds, the charge counter runs on and the state of
charge leaves the table, but no energy is counted for a step that ends outside. -/
theorem ecm_step_outside (c : ECM n) (dt : ℚ) (hdt : 0 ≤ dt)
    (h : c.par.ocv (c.st.SOC - c.st.I * (dt / 3600) / c.par.cap) = none) :
    (c.timeStep dt 1).1 = .ok () ∧ (c.timeStep dt 1).2.st.Wh = c.st.Wh ∧
      (c.timeStep dt 1).2.st.Ah = c.st.Ah + |c.st.I| * dt / 3600 ∧
      (c.timeStep dt 1).2.st.SOC = c.st.SOC - c.st.I * (dt / 3600) / c.par.cap ∧ (c.timeStep dt 1).2.V = 0 := by
  have hn : ¬ dt < 0 := not_lt.mpr hdt
  have e : (c.timeStep dt 1) = (.ok (), c.step1 dt) := by simp [timeStep, hn, steps]
  rw [e]
  refine ⟨rfl, ?_, ?_, rfl, ?_⟩
  · simp [step1, V, h]
  · show c.st.Ah + |c.st.I * (dt / 3600)| = _
    rw [abs_mul, abs_of_nonneg (show 0 ≤ dt / 3600 by positivity)]; ring
  · show ECM.V (c.step1 dt) = 0
    simp [step1, V, h]

/-- An almost empty cell that is discharged at 16 A for 100 s. -/
example : (0:ℚ) ≤ 100 ∧ ({ exampleCell with st := { exampleCell.st with SOC := 1/100, I := 16 } } : ECM 1).par.ocv
    (1/100 - 16 * (100 / 3600) / 16) = none := by
  refine ⟨by norm_num, ?_⟩
  show defaultOCV _ = none
  rw [defaultOCV_eq, if_neg]; norm_num

example : ({ exampleCell with st := { exampleCell.st with SOC := -1/100 } } : ECM 1).par.ocv (-1/100) = none := by
  show defaultOCV _ = none
  rw [defaultOCV_eq, if_neg]; norm_num

end Slide

import Verif.Lemmas.CellCycler
import Verif.Lemmas.EcmLaws
import Verif.Props.Frame

/-!
Properties of the cycler: C21 (rest), C22 (constant current), C55 (voltage limit).
-/

namespace Slide
open StorageUnit Spec Cyc

variable {n : ℕ}

/-! ### C21 -/

/-- C21: whenever `rest` reports the time limit – on any tree of modules – every cell has advanced by exactly the
requested duration and the reported time grew by it; charge and energy throughput are untouched. -/
theorem rest_exact (d : ℕ) (fuel : ℕ) (c c' : Cyc (Tree (ECM n) d)) (tlim dt : ℚ) (ndt : ℤ) (th th' : Thr)
    (h : rest fuel c tlim dt ndt th = (.ok .ReachedTimeLimit, c', th')) (ht : 0 ≤ tlim) (hd : 0 < dt) :
    th' = { th with time := th.time + tlim } ∧
      (cells d c'.su).map (fun x => x.st.time) = (cells d c.su).map fun x => x.st.time + tlim :=
  cells_rest_exact d fuel c c' tlim dt ndt th th' h ht hd

/-- C21: on a series string – in particular on a single cell – `rest` always reaches its time limit. -/
theorem rest_reaches (d : ℕ) (fuel : ℕ) (c : Cyc (Tree (ECM n) d)) (tlim dt : ℚ) (ndt : ℤ) (th : Thr)
    (hs : SeriesString d c.su) (ht : 0 ≤ tlim) (hd : 0 < dt) (hf : tlim ≤ fuel * dt) :
    (rest fuel c tlim dt ndt th).1 = .ok .ReachedTimeLimit :=
  cells_rest_reaches d fuel c tlim dt ndt th hs ht hd hf

/-- C21, termination for every storage unit: `rest` needs at most `tlim/dt` iterations; more fuel never changes
the result. -/
theorem rest_terminates {U : Type} [StorageUnit U] (fuel k : ℕ) (c : Cyc U) (tlim dt : ℚ) (ndt : ℤ) (th : Thr)
    (hd : 0 < dt) (hf : tlim ≤ fuel * dt) : rest (fuel + k) c tlim dt ndt th = rest fuel c tlim dt ndt th := by
  unfold rest
  dsimp only
  rw [restLoop_more fuel k hd (le_refl 1) (nMax_pos 10 (by norm_num)) (by simpa using hf)]

/-- Non-vacuity of C21: a single cell. -/
example : SeriesString 0 (C := ECM 0) ⟨⟨16, 1/1000, fun _ => 0, fun _ => 0, ECM.defaultOCV⟩,
    ⟨293, 1/2, 1, fun _ => 0, 0, 0, 0⟩⟩ ∧ (100 : ℚ) ≤ (50 : ℕ) * 2 := ⟨trivial, by norm_num⟩

/-- C21: the precondition on the step is needed: with `dt = 0` the loop never ends (any amount of fuel runs out). -/
theorem rest_zero_step_diverges (fuel : ℕ) (c : Cyc (ECM n)) (tlim : ℚ) (th : Thr) (ht : 0 < tlim) :
    (rest fuel c tlim 0 0 th).1 = .ub "out of fuel" := by
  have key : ∀ (fuel : ℕ) (v : RestVars) (c : Cyc (ECM n)), v.dti = 0 → v.ttot = 0 →
      (restLoop tlim 0 10 fuel v c).1 = .ub "out of fuel" := by
    intro fuel
    induction fuel with
    | zero =>
      intro v c h1 h2
      unfold restLoop
      rw [h2, if_pos ht]
    | succ fuel ih =>
      intro v c h1 h2
      unfold restLoop restBody
      have hset : StorageUnit.setCurrent c.su 0 false = (.ok .Success, c.su.withI 0) := by
        show ((.ok (c.su.setCurrent 0 false).1, (c.su.setCurrent 0 false).2) : Outcome Status × ECM n) = _
        rw [ECM.setCurrent_unchecked]
      have hstep : ∀ (u : ECM n) k, StorageUnit.timeStep u 0 k = (.ok (), u.steps 0 k) := by
        intro u k
        show ECM.timeStep u 0 k = _
        unfold ECM.timeStep
        rw [if_neg (lt_irrefl _)]
      rw [h2, if_pos ht, hset]
      dsimp only
      rw [isBad_success, h1, if_neg (by simp), if_neg (by linarith : ¬ (0:ℚ) > tlim - 0), hstep]
      exact ih _ _ rfl (by simp)
  unfold rest
  have h := key fuel { dti := 0, ttot := 0, idat := 0, nOnce := 1, ninc := true } (storeIf (decide ((0:ℤ) < 0)) c) rfl rfl
  simp only [lt_irrefl, decide_false, Bool.false_eq_true, if_false] at h ⊢
  generalize restLoop (U := ECM n) tlim 0 10 fuel _ _ = r at *
  obtain ⟨o, c1⟩ := r
  cases h
  rfl

/-! ### C22 -/

/-- C22: when `CC` reports one of its limits – on any tree of modules, in any mode – there is a time `τ` within the
limit such that every cell has advanced by exactly `τ`, and the reported time and charge grew by `τ` and
`|I|*τ/3600`; `ReachedTimeLimit` means `τ` is the full time. -/
theorem cc_time_accounted (d fuel : ℕ) (c c' : Cyc (Tree (ECM n) d)) (I vlim tlim dt : ℚ) (ndt : ℤ) (th th' : Thr)
    (st : Status) (h : CC fuel c I vlim tlim dt ndt th = (.ok st, c', th')) (hd : 0 < dt) (ht : 0 ≤ tlim)
    (hst : st = .ReachedTimeLimit ∨ st = .ReachedVoltageLimit) :
    ∃ τ, 0 ≤ τ ∧ τ ≤ tlim ∧ (st = .ReachedTimeLimit → τ = tlim) ∧
      th'.time = th.time + τ ∧ th'.Ah = th.Ah + |I| * τ / 3600 ∧
      (cells d c'.su).map (fun x => x.st.time) = (cells d c.su).map fun x => x.st.time + τ :=
  cells_cc_time d fuel c c' I vlim tlim dt ndt th th' st h hd ht hst

/-- C22: on a series string (also: a single cell) without individual voltage checks, when `CC` reports one of its
limits every cell has received the charge that is reported: its throughput counter grew by `|I|*τ/3600` – as the
reported one – and its SOC fell by `I*τ/3600/capacity`, with `τ` the reported time. -/
theorem cc_charge_accounted (d fuel : ℕ) (c c' : Cyc (Tree (ECM n) d)) (I vlim tlim dt : ℚ) (ndt : ℤ) (th th' : Thr)
    (st : Status) (h : CC fuel c I vlim tlim dt ndt th = (.ok st, c', th')) (hd : 0 < dt) (ht : 0 ≤ tlim)
    (hst : st = .ReachedTimeLimit ∨ st = .ReachedVoltageLimit) (hs : SeriesString d c.su) (hdiag : c.diagnostic = false) :
    ∃ τ, 0 ≤ τ ∧ τ ≤ tlim ∧ (st = .ReachedTimeLimit → τ = tlim) ∧
      th'.time = th.time + τ ∧ th'.Ah = th.Ah + |I| * τ / 3600 ∧
      (cells d c'.su).map (fun x => (x.st.time, x.st.Ah, x.st.SOC, x.par.cap)) =
        (cells d c.su).map fun x => (x.st.time + τ, x.st.Ah + |I| * τ / 3600, x.st.SOC - I * τ / 3600 / x.par.cap, x.par.cap) :=
  cells_cc_charge d fuel c c' I vlim tlim dt ndt th th' st h hd ht hst hs hdiag

/-- C22 as one would like it: however `CC` returns, the reported time is the time the cell was simulated. -/
def CCAccountsTime : Prop :=
  ∀ (fuel : ℕ) (c c' : Cyc (ECM 0)) (I vlim tlim dt : ℚ) (ndt : ℤ) (th th' : Thr) (st : Status),
    0 < dt → 0 ≤ tlim → CC fuel c I vlim tlim dt ndt th = (.ok st, c', th') →
    th'.time - th.time = c'.su.st.time - c.su.st.time

/-- A cell of 1 Ah at half charge. -/
def smallCell : ECM 0 := ⟨⟨1, 0, fun _ => 0, fun _ => 0, ECM.defaultOCV⟩, ⟨293, 1/2, 0, fun _ => 0, 0, 0, 0⟩⟩

/-- C22 is false when the phase is aborted: the last step is simulated but not reported. Here a 1 Ah cell is
discharged with 3600 A; after one second its voltage cannot be computed any more, `CC` returns `V_not_calculated`
and reports no time at all. -/
theorem cc_abort_not_accounted : ¬ CCAccountsTime := by
  intro hall
  let c : Cyc (ECM 0) := { su := smallCell }
  have hV : ∀ i : ℚ, ECM.V (smallCell.withI i) = 63/20 := by
    intro i
    simp only [ECM.V, smallCell, ECM.withI, ECM.defaultOCV_eq]
    norm_num
  have hset : ∀ i : ℚ, Cyc.setCurrent ({ su := smallCell.withI i } : Cyc (ECM 0)) 3600 1 =
      (.ok .Success, { su := smallCell.withI 3600 }) := by
    intro i
    unfold Cyc.setCurrent
    have : StorageUnit.setCurrent (smallCell.withI i) 3600 false = (.ok .Success, smallCell.withI 3600) := by
      show ((.ok ((smallCell.withI i).setCurrent 3600 false).1, ((smallCell.withI i).setCurrent 3600 false).2) :
        Outcome Status × ECM 0) = _
      rw [ECM.setCurrent_unchecked]
      rfl
    dsimp only
    rw [this]
    have e1 : StorageUnit.V (smallCell.withI i) = 63/20 := hV i
    have e2 : StorageUnit.V (smallCell.withI 3600) = 63/20 := hV 3600
    dsimp only
    rw [if_neg (by simp [Status.isVoltageLimitsViolated, Status.code]), e1, e2, if_neg (by norm_num), if_neg (by norm_num)]
    rfl
  have hstep : StorageUnit.timeStep (smallCell.withI 3600) 1 1 = (.ok (), (smallCell.withI 3600).step1 1) := by
    show ECM.timeStep (smallCell.withI 3600) 1 1 = _
    unfold ECM.timeStep
    rw [if_neg (by norm_num)]
    rfl
  have hV2 : StorageUnit.V ((smallCell.withI 3600).step1 1) = 0 := by
    show ECM.V ((smallCell.withI 3600).step1 1) = 0
    simp only [ECM.V, ECM.step1, smallCell, ECM.withI, ECM.defaultOCV_eq]
    norm_num
  have h : CC 1 { su := smallCell.withI 0 } 3600 1 10 1 0 Thr.zero =
      (.ok .V_not_calculated, ({ su := (smallCell.withI 3600).step1 1 } : Cyc (ECM 0)), Thr.zero) := by
    unfold CC
    have hst : storeIf (decide ((0:ℤ) < 0)) ({ su := smallCell.withI 0 } : Cyc (ECM 0)) = { su := smallCell.withI 0 } := by
      simp [storeIf]
    dsimp only
    rw [hst, hset]
    dsimp only
    have e2 : StorageUnit.V (smallCell.withI 3600) = 63/20 := hV 3600
    rw [if_neg (by simp [Status.isSuccessful]), e2, if_neg (by norm_num)]
    unfold ccLoop ccBody
    rw [if_pos (by norm_num), hset]
    dsimp only
    rw [if_neg (by norm_num), if_neg (by norm_num), hstep]
    dsimp only
    have : ccVoltage (Cyc.withSU ({ su := smallCell.withI 3600 } : Cyc (ECM 0)) ((smallCell.withI 3600).step1 1)) =
        .inl .V_not_calculated := by
      unfold ccVoltage
      rw [if_neg (by simp), if_pos (by rw [withSU_su, hV2])]
    rw [this]
    rfl
  have := hall 1 _ _ 3600 1 10 1 0 _ _ _ (by norm_num) (by norm_num) h
  simp only [Thr.zero, ECM.step1, smallCell, ECM.withI] at this
  norm_num at this

end Slide

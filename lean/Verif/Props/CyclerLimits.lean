import Verif.Props.Cycler
import Verif.Props.Tree

/-!
C55 (meaning of `ReachedVoltageLimit`), C24 (capacity test) and C25 (invalid set point).
-/

namespace Slide
open StorageUnit Spec Cyc

variable {n : ℕ}

/-- Non-vacuity of C22 (`cc_time_accounted`, `cc_charge_accounted`): a discharge of 3 s. -/
example : (CC 5 { su := smallCell } 1 1 3 1 0 Thr.zero).1 = .ok .ReachedTimeLimit ∧
    SeriesString 0 (C := ECM 0) smallCell := ⟨by decide +kernel, trivial⟩

/-! ### C55 -/

/-- C55 as one would like it: `CC` reports the voltage limit only when the voltage is beyond it. -/
def CCVoltageLimitMeans : Prop :=
  ∀ (fuel : ℕ) (c c' : Cyc (ECM 0)) (I vlim tlim dt : ℚ) (ndt : ℤ) (th th' : Thr),
    0 < dt → 0 ≤ tlim → I ≠ 0 → CC fuel c I vlim tlim dt ndt th = (.ok .ReachedVoltageLimit, c', th') →
    BeyondLimit I vlim (V c'.su)

/-- A 1 Ah cell at half charge with a resistance of 0.1 Ohm. -/
def resCell (i : ℚ) : ECM 0 := ⟨⟨1, 1/10, fun _ => 0, fun _ => 0, ECM.defaultOCV⟩, ⟨293, 1/2, i, fun _ => 0, 0, 0, 0⟩⟩

/-- C55 is false of the code: a cell being charged with 10 A (4.15 V) that is asked to continue charging with 1 A up
to 4 V is reported to have reached the limit at 3.25 V, without any charging taking place. -/
theorem cc_voltageLimit_spurious : ¬ CCVoltageLimitMeans := by
  intro hall
  have h1 : (CC 5 { su := resCell (-10) } (-1) 4 3600 1 0 Thr.zero).1 = .ok .ReachedVoltageLimit := by decide +kernel
  have h2 : V (CC 5 { su := resCell (-10) } (-1) 4 3600 1 0 Thr.zero).2.1.su = 13/4 := by decide +kernel
  have := hall 5 { su := resCell (-10) } _ (-1) 4 3600 1 0 Thr.zero _ (by norm_num) (by norm_num) (by norm_num)
    (Prod.ext h1 rfl)
  rw [h2] at this
  rcases this with h | h <;> norm_num at h

/-- C55, what does hold on any tree: if a charge starts below the limit (nothing is needed for a discharge), then
`ReachedVoltageLimit` means that the voltage is beyond the limit. -/
theorem cc_voltageLimit_partial (d fuel : ℕ) (c c' : Cyc (Tree (ECM n) d)) (I vlim tlim dt : ℚ) (ndt : ℤ) (th th' : Thr)
    (hd : 0 < dt) (ht : 0 ≤ tlim) (hI : I ≠ 0) (hini : I < 0 → V c.su < vlim)
    (h : CC fuel c I vlim tlim dt ndt th = (.ok .ReachedVoltageLimit, c', th')) : BeyondLimit I vlim (V c'.su) :=
  cells_cc_voltageLimit d fuel c c' I vlim tlim dt ndt th th' hd ht hI hini h

/-- Non-vacuity of the partial claim: a charge from rest with 1 A to 3.16 V stops there by itself. -/
example : (CC 40 { su := resCell 0 } (-1/10) (3161/1000) 3600 1 0 Thr.zero).1 = .ok .ReachedVoltageLimit ∧
    V (resCell 0) < 3161/1000 := by
  constructor <;> decide +kernel

/-! ### C25 -/

/-- C25: a set point outside the operating window of the unit is rejected, and nothing – unit, recorded data,
throughput – changes. For every kind of unit. -/
theorem cccv_invalid_Vset {U : Type} [StorageUnit U] [VoltageUnit U] (fuel : ℕ) (c : Cyc U) (I Vset Ilim tlim dt : ℚ)
    (ndt : ℤ) (th : Thr) (h : Vset < (lim c.su).Vmin ∨ (lim c.su).Vmax < Vset) :
    CCCVt fuel c I Vset Ilim tlim dt ndt th = (.ok .Invalid_Vset, c, th) := by
  unfold CCCVt
  rw [if_pos h]

/-- C25 also holds for `CCCV` without a time limit. -/
theorem cccv_invalid_Vset' {U : Type} [StorageUnit U] [VoltageUnit U] (fuel : ℕ) (c : Cyc U) (I Vset Ilim dt : ℚ)
    (ndt : ℤ) (th : Thr) (h : Vset < (lim c.su).Vmin ∨ (lim c.su).Vmax < Vset) :
    CCCV fuel c I Vset Ilim dt ndt th = (.ok .Invalid_Vset, c, th) :=
  cccv_invalid_Vset fuel c I Vset Ilim TIME_INF dt ndt th h

end Slide

import Verif.Spec.ConverterSheet
import Verif.Props.Converter

/-!
C128: the losses of the converter and the data sheet they come from.
-/

namespace Slide
open Spec Converter

theorem vce_sheet (i : ℚ) : vce i = sheetVolt i := by
  unfold vce sheetVolt lineThrough
  by_cases h : |i| ≤ 30
  · rw [if_neg (not_lt.mpr h), if_pos h]; ring
  · rw [if_pos (not_le.mp h), if_neg h]; ring

theorem sheetVolt_nonneg (i : ℚ) : 0 ≤ sheetVolt i := by
  unfold sheetVolt lineThrough
  have := abs_nonneg i
  split_ifs with h
  · norm_num
  · have := not_le.mp h
    norm_num; linarith

/-- How much too far from 50 A the code believes a current to be. -/
def tooFar (i : ℚ) : ℚ := |i - 50| - (|i| - 50)

theorem tooFar_bounds (i : ℚ) : 0 ≤ tooFar i ∧ tooFar i ≤ 100 := by
  unfold tooFar
  rcases abs_cases (i - 50) with ⟨h, _⟩ | ⟨h, _⟩ <;> rcases abs_cases i with ⟨k, _⟩ | ⟨k, _⟩ <;> rw [h, k] <;>
    constructor <;> linarith

/-- One inverter loses what the sheet says, and 0.8 W (DC) and 9.6 W (AC) for every ampere `tooFar`. -/
theorem loss_vs_sheet (v i : ℚ) (hv : 0 ≤ v) :
    init.lossPerInverter v i = sheetLoss v i + 8 / 10 * tooFar i + 96 / 10 * tooFar (i * v / 1500) := by
  have hD : (0 : ℚ) ≤ 1 + 2 * v / 1500 := by positivity
  have e1 : |i * sheetVolt i * (1 + 2 * v / 1500)| = |i| * sheetVolt i * (1 + 2 * v / 1500) := by
    rw [abs_mul, abs_mul, abs_of_nonneg (sheetVolt_nonneg i), abs_of_nonneg hD]
  have e2 : ∀ j : ℚ, |j * sheetVolt j * (1 + 2 * 1500 / 1500)| = |j| * sheetVolt j * 3 := fun j => by
    rw [abs_mul, abs_mul, abs_of_nonneg (sheetVolt_nonneg j)]
    norm_num
  have e3 : ∀ x : ℚ, 0 ≤ (6 + 1 / 10 * |x - 50|) * (1 / 1000) := fun x => by positivity
  unfold lossPerInverter sheetLoss sheetOff sheetOn lineThrough tooFar init
  simp only [vce_sheet]
  have e4 : |8000 * ((6 + 1 / 10 * |i - 50|) * (1 / 1000) + 0)| = 8000 * ((6 + 1 / 10 * |i - 50|) * (1 / 1000)) := by
    rw [abs_of_nonneg (by have := e3 i; positivity)]; ring
  have e5 : ∀ x : ℚ, |6 * 8000 * ((6 + 1 / 10 * |x - 50|) * (1 / 1000) + 1 / 1000 + (6 + 1 / 10 * |x - 50|) * (1 / 1000))| =
      6 * 8000 * ((6 + 1 / 10 * |x - 50|) * (1 / 1000) + 1 / 1000 + (6 + 1 / 10 * |x - 50|) * (1 / 1000)) := fun x =>
    abs_of_nonneg (by have := e3 x; positivity)
  rw [e1, e2, e4, e5]
  ring

/-- C128: for every current and every voltage the losses are those of the sheet, or more, up to 1040 W per inverter. -/
theorem losses_bracket (P v i : ℚ) (n : ℕ) (hP : 0 < P) (h : JustEnough P n) (hn : n ≤ 2147483647) (hv : 0 ≤ v) :
    ∃ l, (init.setPower P).getLosses v i = .ok l ∧ n * sheetLoss v (i / n) ≤ l ∧ l ≤ n * (sheetLoss v (i / n) + 1040) := by
  refine ⟨_, getLosses_eq P v i n hP h hn, ?_, ?_⟩
  · have h1 := tooFar_bounds (i / n)
    have h2 := tooFar_bounds (i / n * v / 1500)
    rw [loss_vs_sheet v _ hv, mul_comm]
    exact mul_le_mul_of_nonneg_right (by linarith) (Nat.cast_nonneg n)
  · have h1 := tooFar_bounds (i / n)
    have h2 := tooFar_bounds (i / n * v / 1500)
    rw [loss_vs_sheet v _ hv, mul_comm]
    exact mul_le_mul_of_nonneg_left (by linarith) (Nat.cast_nonneg n)

/-- **C128, the part that holds**: the losses follow the sheet if each inverter gives at least 50 A on both sides. What is
missing: small currents, and charging. -/
theorem lossesFollowSheet_partial (P v i : ℚ) (n : ℕ) (hP : 0 < P) (h : JustEnough P n) (hn : n ≤ 2147483647) (hv : 0 ≤ v)
    (hi : 50 ≤ i / n) (hj : 50 ≤ i / n * v / 1500) : (init.setPower P).getLosses v i = .ok (n * sheetLoss v (i / n)) := by
  have e : ∀ x : ℚ, 50 ≤ x → tooFar x = 0 := fun x hx => by
    unfold tooFar
    rw [abs_of_nonneg (by linarith), abs_of_nonneg (by linarith)]; ring
  rw [getLosses_eq P v i n hP h hn, loss_vs_sheet v _ hv, e _ hi, e _ hj, mul_comm]
  congr 1; ring

/-- Charging, every switching costs 10 mJ more than discharging with the same current: 1040 W per inverter from 50 A on. -/
theorem losses_charging (P v i : ℚ) (n : ℕ) (hP : 0 < P) (h : JustEnough P n) (hn : n ≤ 2147483647) (hv : 0 ≤ v) (hi : i ≤ 0) :
    (init.setPower P).getLosses v i = .ok (n * (sheetLoss v (i / n) + 1040)) := by
  have e : ∀ x : ℚ, x ≤ 0 → tooFar x = 100 := fun x hx => by
    unfold tooFar
    rw [abs_of_nonpos (by linarith), abs_of_nonpos hx]; ring
  have h1 : i / n ≤ 0 := div_nonpos_of_nonpos_of_nonneg hi (Nat.cast_nonneg n)
  have h2 : i / n * v / 1500 ≤ 0 := div_nonpos_of_nonpos_of_nonneg (mul_nonpos_of_nonpos_of_nonneg h1 hv) (by norm_num)
  rw [getLosses_eq P v i n hP h hn, loss_vs_sheet v _ hv, e _ h1, e _ h2, mul_comm]
  congr 1; ring

/-- **C128 is false of the code**: without current an inverter should lose what the sheet says, and loses 1040 W more. -/
theorem not_lossesFollowSheet : ¬ LossesFollowSheet := by
  intro h
  have h1 := h 200000 0 0 1 (by norm_num) (by norm_num) (by norm_num) (by norm_num) le_rfl
  rw [losses_charging 200000 0 0 1 (by norm_num) ⟨by norm_num, by norm_num⟩ (by norm_num) le_rfl le_rfl] at h1
  have := Outcome.ok.inj h1
  linarith

/-- The points of the sheet. -/
example : sheetVolt 30 = 1 ∧ sheetVolt 300 = 3 ∧ sheetVolt (-15) = 1 / 2 ∧ sheetOn 50 = 6 / 1000 ∧ sheetOn (-200) = 21 / 1000 := by
  decide +kernel

/-- Non-vacuity of `lossesFollowSheet_partial`: two inverters that give 200 A each, at 1000 V. -/
example : (init.setPower 400000).getLosses 1000 400 = .ok (2 * sheetLoss 1000 200) := by
  have := lossesFollowSheet_partial 400000 1000 400 2 (by norm_num) ⟨by norm_num, by norm_num⟩ (by norm_num) (by norm_num)
    (by norm_num) (by norm_num)
  norm_num at this ⊢
  exact this

end Slide

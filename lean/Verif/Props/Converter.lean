import Verif.Model.Converter
import Verif.Tac

/-!
# C32 Converter losses are physical

Full statement: `ConverterLossesPhysical`.  It is false of the code in three respects (each with a witness):
the losses depend on the direction of the current (`converter_not_even`), they fall below the documented 1.5 kW
(`converter_below_documented`) and they do not always grow with the number of inverters (`converter_not_growing`).
What holds for all inputs is proved below (`converter_losses_partial`, `converter_charge_discharge`,
`converter_charging_partial`, `converter_idle_partial`).
-/

namespace Slide
open Converter

/-- Spec: `n` inverters of 200 kW are just enough for the nominal power `P`. -/
def JustEnough (P : ℚ) (n : ℕ) : Prop := P ≤ n * 200000 ∧ (n - 1 : ℚ) * 200000 < P

/-- The full statement of C32 (for nominal powers whose number of inverters is an `int`). -/
def ConverterLossesPhysical : Prop :=
  ∀ (P v i : ℚ) (n : ℕ), 0 < P → JustEnough P n → n ≤ 2147483647 → 0 ≤ v →
    ∃ l, (init.setPower P).getLosses v i = .ok l ∧ 0 < l ∧
      (init.setPower P).getLosses v (-i) = .ok l ∧ n * 1500 ≤ l ∧
      ∀ P' l', P' ≤ P → 0 < P' → (init.setPower P').getLosses v i = .ok l' → l' ≤ l

theorem nInverters_eq (P : ℚ) (n : ℕ) (h : JustEnough P n) (hn : n ≤ 2147483647) :
    (init.setPower P).nInverters = .ok n := by
  have hc : ⌈P / 200000⌉ = (n : ℤ) := by
    rw [Int.ceil_eq_iff]
    obtain ⟨h1, h2⟩ := h
    constructor
    · push_cast; rw [lt_div_iff₀ (by norm_num)]; linarith
    · push_cast; rw [div_le_iff₀ (by norm_num)]; linarith
  unfold nInverters toInt
  have : (init.setPower P).Pnom = P := rfl
  rw [this, hc]
  have h0 : (0 : ℚ) ≤ ((n : ℤ) : ℚ) := by positivity
  simp only [h0, if_true, Int.floor_intCast]
  rw [if_pos]
  omega

theorem justEnough_pos {P : ℚ} {n : ℕ} (hP : 0 < P) (h : JustEnough P n) : 1 ≤ n := by
  rcases Nat.eq_zero_or_pos n with rfl | h'
  · have := h.1; norm_num at this; linarith
  · exact h'

theorem getLosses_eq (P v i : ℚ) (n : ℕ) (hP : 0 < P) (h : JustEnough P n) (hn : n ≤ 2147483647) :
    (init.setPower P).getLosses v i = .ok (init.lossPerInverter v (i / n) * n) := by
  unfold getLosses
  rw [nInverters_eq P n h hn]
  have h1 := justEnough_pos hP h
  dsimp only
  rw [if_neg (by omega)]
  rfl

/-- The losses in the DC-link capacitor, independent of current and voltage. -/
private def kfil : ℚ := 136 / 10000 * (2 * (3141592653589793 / 1000000000000000) * 8000 * (3 / 1000) * 1) ^ 2

private theorem kfil_bounds : 309 < kfil ∧ kfil < 310 := by unfold kfil; norm_num

private theorem vce_nonneg (x : ℚ) : 0 ≤ vce x := by
  unfold vce; have := abs_nonneg x; split_ifs <;> nlinarith

private theorem vce_even (x : ℚ) : vce (-x) = vce x := by unfold vce; rw [abs_neg]

/-- Closed form of the loss of one inverter with input current `i`; `j` is the current of the DC link. -/
private theorem loss_closed (v i : ℚ) (hv : 0 ≤ v) :
    init.lossPerInverter v i =
      |i| * vce i * (1 + v / 750) + (48 + 8 / 10 * |i - 50|) + 3 * (|i * v / 1500| * vce (i * v / 1500)) +
      (624 + 96 / 10 * |i * v / 1500 - 50|) + kfil + 408 / 10000 * (i * v / 1500) ^ 2 + 136 / 10000 * i ^ 2 := by
  have e1 : init.Vdc = 1500 := rfl
  have e2 : init.Vac = 1500 := rfl
  unfold lossPerInverter
  rw [e1, e2]
  simp only
  set j := i * v / 1500
  rw [abs_mul (i * vce i), abs_mul i, abs_mul (j * vce j), abs_mul j, abs_of_nonneg (vce_nonneg i),
    abs_of_nonneg (vce_nonneg j)]
  rw [abs_of_nonneg (show (0:ℚ) ≤ 1 + 2 * v / 1500 by positivity)]
  rw [abs_of_nonneg (show (0:ℚ) ≤ 8000 * ((6 + 1 / 10 * |i - 50|) * (1 / 1000) + 0) by positivity)]
  rw [abs_of_nonneg (show (0:ℚ) ≤ 6 * 8000 * ((6 + 1 / 10 * |j - 50|) * (1 / 1000) + 1 / 1000 +
    (6 + 1 / 10 * |j - 50|) * (1 / 1000)) by positivity)]
  rw [abs_of_nonneg (show (0:ℚ) ≤ 1 + 2 * 1500 / 1500 by norm_num)]
  unfold kfil
  ring

private theorem ac_bound (j : ℚ) :
    2742 / 10 ≤ 3 * (|j| * vce j) + 96 / 10 * |j - 50| + 408 / 10000 * j ^ 2 := by
  unfold vce
  rcases abs_cases j with ⟨h, h'⟩ | ⟨h, h'⟩ <;> rcases abs_cases (j - 50) with ⟨k, k'⟩ | ⟨k, k'⟩ <;>
    rw [h, k] <;> split_ifs with hc <;> nlinarith

private theorem dc_bound (i d : ℚ) (hd : 1 ≤ d) :
    365 / 10 ≤ |i| * vce i * d + 8 / 10 * |i - 50| + 136 / 10000 * i ^ 2 := by
  have hx : |i| * vce i ≤ |i| * vce i * d := by
    have := mul_nonneg (abs_nonneg i) (vce_nonneg i); nlinarith
  suffices 365 / 10 ≤ |i| * vce i + 8 / 10 * |i - 50| + 136 / 10000 * i ^ 2 by linarith
  unfold vce
  rcases abs_cases i with ⟨h, h'⟩ | ⟨h, h'⟩ <;> rcases abs_cases (i - 50) with ⟨k, k'⟩ | ⟨k, k'⟩ <;>
    rw [h, k] <;> split_ifs with hc <;> nlinarith [sq_nonneg (i - 8)]

private theorem per_ge (v i : ℚ) (hv : 0 ≤ v) : 1290 ≤ init.lossPerInverter v i := by
  rw [loss_closed v i hv]
  have h1 := ac_bound (i * v / 1500)
  have h2 := dc_bound i (1 + v / 750) (by have : 0 ≤ v / 750 := by positivity
                                          linarith)
  have h3 := kfil_bounds.1
  linarith

/-- **C32 (part that holds).** For every nominal power, voltage and current the losses are defined and strictly
positive: at least 1.29 kW for each inverter (the documented 1.5 kW does not hold, see below). -/
theorem converter_losses_partial (P v i : ℚ) (n : ℕ) (hP : 0 < P) (h : JustEnough P n) (hn : n ≤ 2147483647)
    (hv : 0 ≤ v) : ∃ l, (init.setPower P).getLosses v i = .ok l ∧ 0 < l ∧ n * 1290 ≤ l := by
  have h1 : (1 : ℚ) ≤ n := by exact_mod_cast justEnough_pos hP h
  refine ⟨_, getLosses_eq P v i n hP h hn, ?_, ?_⟩ <;> nlinarith [per_ge v (i / n) hv]

example : JustEnough 500000 3 := by constructor <;> norm_num

/-- **C32 (part that holds).** Charging never loses less than discharging with the same current. -/
theorem converter_charge_discharge (P v i : ℚ) (n : ℕ) (hP : 0 < P) (h : JustEnough P n) (hn : n ≤ 2147483647)
    (hv : 0 ≤ v) (hi : 0 ≤ i) :
    ∃ ld lc, (init.setPower P).getLosses v i = .ok ld ∧ (init.setPower P).getLosses v (-i) = .ok lc ∧ ld ≤ lc := by
  have h1 : (1 : ℚ) ≤ n := by exact_mod_cast justEnough_pos hP h
  refine ⟨_, _, getLosses_eq P v i n hP h hn, getLosses_eq P v (-i) n hP h hn, ?_⟩
  refine mul_le_mul_of_nonneg_right ?_ (by linarith)
  rw [neg_div, loss_closed v _ hv, loss_closed v _ hv]
  have hx : 0 ≤ i / n := by positivity
  have hj : 0 ≤ i / n * v / 1500 := by positivity
  set x := i / n
  have e : -x * v / 1500 = -(x * v / 1500) := by ring
  rw [e]
  set j := x * v / 1500
  rw [vce_even, vce_even, abs_neg, abs_neg]
  have k1 : |x - 50| ≤ |(-x) - 50| := by
    rcases abs_cases (x - 50) with ⟨a, b⟩ | ⟨a, b⟩ <;> rcases abs_cases (-x - 50) with ⟨c, d⟩ | ⟨c, d⟩ <;> rw [a, c] <;>
      linarith
  have k2 : |j - 50| ≤ |(-j) - 50| := by
    rcases abs_cases (j - 50) with ⟨a, b⟩ | ⟨a, b⟩ <;> rcases abs_cases (-j - 50) with ⟨c, d⟩ | ⟨c, d⟩ <;> rw [a, c] <;>
      linarith
  nlinarith

private theorem g_mono {x y : ℚ} (hx : 0 ≤ x) (h : x ≤ y) : |x| * vce x ≤ |y| * vce y := by
  unfold vce
  rw [abs_of_nonneg hx, abs_of_nonneg (hx.trans h)]
  split_ifs <;> nlinarith

/-- The loss of one charging inverter grows with the current. -/
private theorem per_charge_mono (v : ℚ) (hv : 0 ≤ v) {x y : ℚ} (hx : 0 ≤ x) (h : x ≤ y) :
    init.lossPerInverter v (-x) ≤ init.lossPerInverter v (-y) := by
  rw [loss_closed v _ hv, loss_closed v _ hv]
  have e : ∀ z : ℚ, -z * v / 1500 = -(z * v / 1500) := fun z => by ring
  rw [e, e]
  have hj : 0 ≤ x * v / 1500 := by positivity
  have hjk : x * v / 1500 ≤ y * v / 1500 := by
    have := mul_le_mul_of_nonneg_right h hv
    linarith
  set j := x * v / 1500
  set k := y * v / 1500
  rw [vce_even, vce_even, vce_even, vce_even, abs_neg, abs_neg, abs_neg, abs_neg]
  have m1 := g_mono hx h
  have m2 := g_mono hj hjk
  have a1 : |(-x) - 50| ≤ |(-y) - 50| := by
    rw [abs_of_nonpos (by linarith), abs_of_nonpos (by linarith)]; linarith
  have a2 : |(-j) - 50| ≤ |(-k) - 50| := by
    rw [abs_of_nonpos (by linarith), abs_of_nonpos (by linarith)]; linarith
  have m3 : |x| * vce x * (1 + v / 750) ≤ |y| * vce y * (1 + v / 750) :=
    mul_le_mul_of_nonneg_right m1 (by positivity)
  have s1 : (-x) ^ 2 ≤ (-y) ^ 2 := by nlinarith
  have s2 : (-j) ^ 2 ≤ (-k) ^ 2 := by nlinarith
  linarith

private theorem per_zero (v : ℚ) (hv : 0 ≤ v) : init.lossPerInverter v 0 = 1192 + kfil := by
  rw [loss_closed v 0 hv]
  unfold vce
  norm_num

/-- **C32 (part that holds).** While charging (negative current) and at rest the documented 1.5 kW per inverter holds
and the losses grow with the current. -/
theorem converter_charging_partial (P v i : ℚ) (n : ℕ) (hP : 0 < P) (h : JustEnough P n) (hn : n ≤ 2147483647)
    (hv : 0 ≤ v) (hi : i ≤ 0) :
    ∃ l, (init.setPower P).getLosses v i = .ok l ∧ n * 1500 ≤ l ∧
      ∀ i' l', i ≤ i' → i' ≤ 0 → (init.setPower P).getLosses v i' = .ok l' → l' ≤ l := by
  have h1 : (1 : ℚ) ≤ n := by exact_mod_cast justEnough_pos hP h
  have hn0 : (0 : ℚ) < n := by linarith
  refine ⟨_, getLosses_eq P v i n hP h hn, ?_, ?_⟩
  · have := per_charge_mono v hv (x := 0) (y := -i / n) le_rfl (div_nonneg (by linarith) hn0.le)
    rw [neg_zero, per_zero v hv] at this
    have e : -(-i / (n : ℚ)) = i / n := by ring
    rw [e] at this
    nlinarith [kfil_bounds.1]
  · intro i' l' hii hi' hl
    rw [getLosses_eq P v i' n hP h hn] at hl
    cases hl
    have := per_charge_mono v hv (x := -i' / n) (y := -i / n) (div_nonneg (by linarith) hn0.le)
      (div_le_div_of_nonneg_right (by linarith) hn0.le)
    have e : ∀ z : ℚ, -(-z / (n : ℚ)) = z / n := fun z => by ring
    rw [e, e] at this
    exact mul_le_mul_of_nonneg_right this hn0.le

/-- **C32 (part that holds).** The idle losses do not depend on the voltage and are proportional to the number of
inverters, between 1.501 kW and 1.502 kW each. -/
theorem converter_idle_partial : ∃ k : ℚ, 1501 < k ∧ k < 1502 ∧ ∀ (P v : ℚ) (n : ℕ), 0 < P → JustEnough P n →
    n ≤ 2147483647 → 0 ≤ v → (init.setPower P).getLosses v 0 = .ok (n * k) := by
  refine ⟨1192 + kfil, by linarith [kfil_bounds.1], by linarith [kfil_bounds.2], fun P v n hP h hn hv => ?_⟩
  rw [getLosses_eq P v 0 n hP h hn, zero_div, per_zero v hv, mul_comm]

/-- Below the documented 1.5 kW: 50 A at 1500 V from a single 200 kW inverter (losses ≈ 1461.7 W). -/
theorem converter_below_documented :
    ∃ l, (init.setPower 200000).getLosses 1500 50 = .ok l ∧ l < 1500 := by
  refine ⟨_, getLosses_eq 200000 1500 50 1 (by norm_num) (by constructor <;> norm_num) (by norm_num), ?_⟩
  rw [loss_closed _ _ (by norm_num)]
  unfold vce
  norm_num [abs_of_nonneg]
  linarith [kfil_bounds.2]

/-- The sign of the current matters: 50 A at 1500 V discharging and charging. -/
theorem converter_not_even :
    ∃ l l', (init.setPower 200000).getLosses 1500 50 = .ok l ∧ (init.setPower 200000).getLosses 1500 (-50) = .ok l' ∧
      l + 1000 < l' := by
  refine ⟨_, _, getLosses_eq 200000 1500 50 1 (by norm_num) (by constructor <;> norm_num) (by norm_num),
    getLosses_eq 200000 1500 (-50) 1 (by norm_num) (by constructor <;> norm_num) (by norm_num), ?_⟩
  rw [loss_closed _ _ (by norm_num), loss_closed _ _ (by norm_num)]
  unfold vce
  norm_num [abs_of_nonneg, abs_of_nonpos]
  linarith

/-- More inverters can lose less: 3000 A at 1500 V with one and with two inverters. -/
theorem converter_not_growing :
    ∃ l l', (init.setPower 200000).getLosses 1500 3000 = .ok l ∧ (init.setPower 400000).getLosses 1500 3000 = .ok l' ∧
      l' < l := by
  refine ⟨_, _, getLosses_eq 200000 1500 3000 1 (by norm_num) (by constructor <;> norm_num) (by norm_num),
    getLosses_eq 400000 1500 3000 2 (by norm_num) (by constructor <;> norm_num) (by norm_num), ?_⟩
  rw [loss_closed _ _ (by norm_num), loss_closed _ _ (by norm_num)]
  unfold vce
  norm_num [abs_of_nonneg]
  linarith [kfil_bounds.2]

/-- **C32** is false of the code. -/
theorem not_converterLossesPhysical : ¬ ConverterLossesPhysical := by
  intro H
  obtain ⟨l, h1, _, _, h2, _⟩ := H 200000 1500 50 1 (by norm_num) (by constructor <;> norm_num) (by norm_num) (by norm_num)
  obtain ⟨l', h3, h4⟩ := converter_below_documented
  rw [h1] at h3
  cases h3
  norm_num at h2
  linarith

/-- A converter whose nominal power is not positive divides by zero inverters (powers above −200 kW). -/
theorem converter_no_power_ub (P v i : ℚ) (h : P ≤ 0) (h' : -200000 < P) :
    (init.setPower P).getLosses v i = .ub "division by zero inverters" := by
  have hc : ⌈P / 200000⌉ = 0 := by
    rw [Int.ceil_eq_iff]
    constructor
    · push_cast; rw [lt_div_iff₀ (by norm_num)]; linarith
    · push_cast; rw [div_le_iff₀ (by norm_num)]; linarith
  unfold getLosses nInverters toInt
  have : (init.setPower P).Pnom = P := rfl
  rw [this, hc]
  norm_num

end Slide

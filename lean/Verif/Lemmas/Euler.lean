import Mathlib.Analysis.SpecialFunctions.ExpDeriv
import Mathlib.Analysis.Calculus.MeanValue
import Mathlib.Tactic.Linarith
import Mathlib.Tactic.FieldSimp
import Mathlib.Tactic.Ring

/-!
# Explicit Euler steps of a linear equation
-/

namespace Slide

/-- `exp (-h)` differs from `1 - h` by at most `h² / 2`. -/
theorem exp_neg_linear {h : ℝ} (h0 : 0 ≤ h) : |Real.exp (-h) - (1 - h)| ≤ h ^ 2 / 2 := by
  have h1 := Real.add_one_le_exp (-h)
  have h2 := Real.quadratic_le_exp_of_nonneg h0
  have h3 : Real.exp (-h) * Real.exp h = 1 := by rw [← Real.exp_add]; simp
  have h4 := Real.exp_pos (-h)
  rw [abs_of_nonneg (by linarith)]
  have h5 : Real.exp (-h) * (1 + h + h ^ 2 / 2) ≤ 1 := (mul_le_mul_of_nonneg_left h2 h4.le).trans h3.le
  have h6 : 1 ≤ (1 - h + h ^ 2 / 2) * (1 + h + h ^ 2 / 2) := by
    have : (1 - h + h ^ 2 / 2) * (1 + h + h ^ 2 / 2) = 1 + (h ^ 2) ^ 2 / 4 := by ring
    rw [this]; nlinarith [sq_nonneg (h ^ 2)]
  have h7 : 0 < 1 + h + h ^ 2 / 2 := by positivity
  have : Real.exp (-h) ≤ 1 - h + h ^ 2 / 2 := le_of_mul_le_mul_right (h5.trans h6) h7
  linarith

theorem pow_dist {a b : ℝ} (ha : 0 ≤ a) (ha1 : a ≤ 1) (hb : 0 ≤ b) (hb1 : b ≤ 1) (n : ℕ) :
    |a ^ n - b ^ n| ≤ n * |a - b| := by
  induction n with
  | zero => simp
  | succ n ih =>
    have e : a ^ (n + 1) - b ^ (n + 1) = a * (a ^ n - b ^ n) + b ^ n * (a - b) := by ring
    have h1 : |a * (a ^ n - b ^ n)| ≤ |a ^ n - b ^ n| := by
      rw [abs_mul, abs_of_nonneg ha]; exact mul_le_of_le_one_left (abs_nonneg _) ha1
    have h2 : |b ^ n * (a - b)| ≤ |a - b| := by
      rw [abs_mul, abs_of_nonneg (pow_nonneg hb n)]
      exact mul_le_of_le_one_left (abs_nonneg _) (pow_le_one₀ hb hb1)
    rw [e]; push_cast
    have := abs_add_le (a * (a ^ n - b ^ n)) (b ^ n * (a - b))
    linarith

/-- The solution of `x' = l x + b`. -/
theorem linear_solution {l b : ℝ} {x : ℝ → ℝ} (h : ∀ t, HasDerivAt x (l * x t + b) t) (t : ℝ) :
    l * x t + b = Real.exp (l * t) * (l * x 0 + b) := by
  have hd : ∀ s, HasDerivAt (fun s => Real.exp (-(l * s)) * (l * x s + b)) 0 s := by
    intro s
    have h1 : HasDerivAt (fun s => -(l * s)) (-(l * 1)) s := ((hasDerivAt_id s).const_mul l).neg
    have h2 : HasDerivAt (fun s => Real.exp (-(l * s)) * (l * x s + b)) _ s :=
      h1.exp.mul (((h s).const_mul l).add_const b)
    have e : Real.exp (-(l * s)) * -(l * 1) * (l * x s + b) + Real.exp (-(l * s)) * (l * (l * x s + b)) = 0 := by ring
    exact e ▸ h2
  have hc := is_const_of_deriv_eq_zero (fun s => (hd s).differentiableAt) (fun s => (hd s).deriv) t 0
  simp only [mul_zero, neg_zero, Real.exp_zero, one_mul] at hc
  rw [← hc, ← mul_assoc, ← Real.exp_add]; simp

theorem linear_solution_zero {b : ℝ} {x : ℝ → ℝ} (h : ∀ t, HasDerivAt x b t) (t : ℝ) : x t = x 0 + b * t := by
  have hd : ∀ s, HasDerivAt (fun s => x s - b * s) 0 s := by
    intro s
    have h2 : HasDerivAt (fun s => x s - b * s) (b - b * 1) s := (h s).sub ((hasDerivAt_id s).const_mul b)
    have e : b - b * 1 = 0 := by ring
    exact e ▸ h2
  have hc := is_const_of_deriv_eq_zero (fun s => (hd s).differentiableAt) (fun s => (hd s).deriv) t 0
  simp only [mul_zero, sub_zero] at hc
  linarith

/-- Euler steps of length `dt` for `x' = l x + b` with `-1 ≤ l dt`: after `n` steps the error is at most half the time
times the step times the initial second derivative. -/
theorem euler_error {l b dt : ℝ} {x : ℝ → ℝ} {y : ℕ → ℝ} (hl : l ≤ 0) (hdt : 0 ≤ dt) (h1 : -(l * dt) ≤ 1)
    (hx : ∀ t, HasDerivAt x (l * x t + b) t) (hy : ∀ k, y (k + 1) = y k + dt * (l * y k + b)) (h0 : y 0 = x 0) (n : ℕ) :
    |y n - x (n * dt)| ≤ n * dt * dt / 2 * (-l * |l * x 0 + b|) := by
  by_cases hz : l = 0
  · subst hz
    have e := linear_solution_zero (b := b) (x := x) (fun t => by simpa using hx t) (n * dt)
    have ey : ∀ k : ℕ, y k = x 0 + b * (k * dt) := by
      intro k
      induction k with
      | zero => simpa using h0
      | succ k ih => rw [hy, ih]; push_cast; ring
    rw [e, ey]; simp
  · have e := linear_solution hx (n * dt)
    have ey : ∀ k : ℕ, l * y k + b = (1 + l * dt) ^ k * (l * x 0 + b) := by
      intro k
      induction k with
      | zero => simp [h0]
      | succ k ih =>
        have : l * y (k + 1) + b = (1 + l * dt) * (l * y k + b) := by rw [hy]; ring
        rw [this, ih]; ring
    have eE : Real.exp (l * (n * dt)) = Real.exp (l * dt) ^ n := by
      rw [← Real.exp_nat_mul]; congr 1; ring
    have hld : 0 ≤ -(l * dt) := by nlinarith
    have hE : |Real.exp (l * dt) - (1 + l * dt)| ≤ (l * dt) ^ 2 / 2 := by
      have := exp_neg_linear hld
      rw [neg_neg, neg_sq] at this
      simpa using this
    have hE1 : Real.exp (l * dt) ≤ 1 := Real.exp_le_one_iff.mpr (by linarith)
    have hp := pow_dist (a := 1 + l * dt) (b := Real.exp (l * dt)) (by linarith) (by linarith) (Real.exp_pos _).le hE1 n
    have hd : l * (y n - x (n * dt)) = ((1 + l * dt) ^ n - Real.exp (l * dt) ^ n) * (l * x 0 + b) := by
      have := ey n
      rw [eE] at e
      linear_combination this - e
    have hl' : 0 < -l := by
      rcases lt_or_eq_of_le hl with h | h
      · linarith
      · exact absurd h hz
    have ha : -l * |y n - x (n * dt)| ≤ n * ((l * dt) ^ 2 / 2) * |l * x 0 + b| := by
      have e1 : -l * |y n - x (n * dt)| = |l * (y n - x (n * dt))| := by rw [abs_mul, abs_of_neg (by linarith : l < 0)]
      rw [e1, hd, abs_mul]
      refine mul_le_mul_of_nonneg_right (hp.trans ?_) (abs_nonneg _)
      rw [abs_sub_comm] at hE
      exact mul_le_mul_of_nonneg_left hE (Nat.cast_nonneg n)
    have hb : n * ((l * dt) ^ 2 / 2) * |l * x 0 + b| = -l * (n * dt * dt / 2 * (-l * |l * x 0 + b|)) := by ring
    rw [hb] at ha
    exact le_of_mul_le_mul_left ha hl'

end Slide

import Verif.Spec.DefaultCell

/-!
Specification for a single-particle cell at rest (C90).
-/

namespace Slide.Spec

/-- A rest: the current is set to zero (without checking the voltage, as `Cycler::rest` does), then `n` time steps of
`dt` seconds. -/
def restFor {N : ℕ} (c : SPM N) (dt : ℚ) (n : ℕ) : Outcome Unit × SPM N := (c.setCurrent 0 false).2.timeStep dt n

/-- `f` converges to `l` up to a tolerance `tol`. -/
def ConvergesUpTo (f : ℕ → Option ℚ) (l tol : ℚ) : Prop :=
  ∀ ε, 0 < ε → ∃ K, ∀ n, K ≤ n → ∃ v, f n = some v ∧ |v - l| ≤ tol + ε

/-- Voltage reported after a rest of `n` steps; `none` if the rest or the voltage fails. -/
def restVoltage {N : ℕ} (c : SPM N) (dt : ℚ) (n : ℕ) : Option ℚ :=
  match restFor c dt n with
  | (.ok _, c2) => match c2.V.1 with
    | .ok v => some v
    | _ => none
  | _ => none

/-- C90, full statement, for a function `ocv` from the state of charge to the open-circuit voltage: after every
profile of currents (with degradation and heat blocked) that ends at a state of charge between 0 and 1, the voltage of
the default cell at rest converges to the open-circuit voltage of its state of charge, whatever the length of the time
steps. -/
def RestSettles (ocv : ℚ → ℚ) : Prop :=
  ∀ (e : Default.Env), Libm e → (∀ x, x ≤ 0 → e.exp x ≤ 1) → ∀ (ps : List (ℚ × ℚ × ℕ)) (c : SPM 5),
    spmProfile { Default.cell e with block := true } ps = some c → 0 ≤ c.st.SOC → c.st.SOC ≤ 1 →
    ∀ dt, 0 < dt → ConvergesUpTo (restVoltage c dt) (ocv c.st.SOC) (3 / 10 ^ 10)

end Slide.Spec

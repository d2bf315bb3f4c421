import Verif.Model.ECM

/-!
# Specification: how a voltage is held (C146)
-/

namespace Slide.Spec

variable {n : ℕ}

/-- The open-circuit curve is known from the state of charge `lo` to `hi`, does not fall, and rises by at most `M` volt
per unit of state of charge. -/
def CurveBetween (p : ECMPar n) (M lo hi : ℚ) : Prop :=
  ∀ y z, lo ≤ y → y ≤ z → z ≤ hi → ∃ v w, p.ocv y = some v ∧ p.ocv z = some w ∧ v ≤ w ∧ w - v ≤ M * (z - y)

/-- A time step of `dt` is short for the cell: the current that changes the voltage by `R I` at once changes it by at most
the fraction `ε` of that during the step, and no RC pair moves by more than this fraction of its distance. -/
structure CellShortStep (p : ECMPar n) (M dt ε : ℚ) : Prop where
  le_one : ε ≤ 1
  charge : dt * (M / (3600 * p.cap) + ∑ i, p.Rp i * p.invTau i) ≤ ε * p.Rdc
  pairs : ∀ i, dt * p.invTau i ≤ ε

/-- Holding `v` volt asks the cell for a current in the direction `σ` (1 discharge, -1 charge) until the state of charge
`target`, and the RC pairs carry no current in the other direction. -/
structure Towards (σ v target : ℚ) (u : ECM n) : Prop where
  known : ∃ o, u.par.ocv u.st.SOC = some o ∧ 0 ≤ σ * (o - v - ∑ i, u.par.Rp i * u.st.Ir i)
  pairs : ∀ i, 0 ≤ σ * u.st.Ir i
  side : 0 ≤ σ * (u.st.SOC - target)

/-- What a cell and a request have to fulfil for the voltage to be held from the state of charge `s0` to `t`. -/
structure HoldSetting (p : ECMPar n) (σ Vset t s0 M dt ε : ℚ) : Prop where
  dir : σ = 1 ∨ σ = -1
  cap : 0 < p.cap
  Rdc : 0 < p.Rdc
  Rp : ∀ i, 0 ≤ p.Rp i
  tau : ∀ i, 0 ≤ p.invTau i
  slope : 0 ≤ M
  curve : CurveBetween p M (min s0 t) (max s0 t)
  short : CellShortStep p M dt ε
  dt : 0 < dt
  target : p.ocv t = some Vset
  low : 27/10 ≤ Vset
  high : Vset ≤ 42/10
  tol : ∃ o0, p.ocv s0 = some o0 ∧ ε * |o0 - Vset| < 1/100

end Slide.Spec

import Verif.Model.ECM

/-!
# Specification: rate capability (C134)
-/

namespace Slide.Spec

variable {n : ℕ}

/-- No current anywhere in the circuit, at a state of charge on the curve. -/
structure CircuitAtRest (u : ECM n) : Prop where
  known : ∃ o, u.par.ocv u.st.SOC = some o
  I : u.st.I = 0
  Ir : ∀ i, u.st.Ir i = 0

/-- Positive capacity, an open-circuit voltage that does not fall with the state of charge, resistances that are not
negative, and time constants that are no shorter than the time step `dt`. -/
structure RatedCell (p : ECMPar n) (dt : ℚ) : Prop where
  cap : 0 < p.cap
  rising : ∀ y z v w, y ≤ z → p.ocv y = some v → p.ocv z = some w → v ≤ w
  Rdc : 0 ≤ p.Rdc
  Rp : ∀ i, 0 ≤ p.Rp i
  tau0 : ∀ i, 0 ≤ p.invTau i
  tau1 : ∀ i, dt * p.invTau i ≤ 1

/-- The voltage `v` is at least as close to the end of a phase at the current `i` as `w`: no higher on discharge, no lower
on charge. -/
def FurtherAlong (i v w : ℚ) : Prop := (0 < i → v ≤ w) ∧ (i < 0 → w ≤ v)

end Slide.Spec

import Verif.Model.ECM

/-!
# Specification: what a capacity test should find (C133)
-/

namespace Slide.Spec

variable {n : ℕ}

/-- Positive capacity, resistances that are not negative, time constants of at least one second. -/
structure CircuitSound (p : ECMPar n) : Prop where
  cap : 0 < p.cap
  Rdc : 0 ≤ p.Rdc
  Rp : ∀ i, 0 ≤ p.Rp i
  tau0 : ∀ i, 0 ≤ p.invTau i
  tau1 : ∀ i, p.invTau i ≤ 1

/-- Voltage drop at the current `i` when the RC pairs have settled. -/
def dropAt (p : ECMPar n) (i : ℚ) : ℚ := (p.Rdc + ∑ j, p.Rp j) * i

/-- The open-circuit voltage rises by at least `m` volt per unit of state of charge. -/
def SlopeAtLeast (p : ECMPar n) (m : ℚ) : Prop :=
  ∀ y z v w, y ≤ z → p.ocv y = some v → p.ocv z = some w → m * (z - y) ≤ w - v

/-- A cell ready for the test: not fuller than full, and no more than 1/25 C anywhere in its circuit. -/
structure ReadyForTest (u : ECM n) : Prop where
  known : ∃ o, u.par.ocv u.st.SOC = some o
  notOver : u.V ≤ 42 / 10
  I : |u.st.I| ≤ u.par.cap / 25
  Ir : ∀ i, |u.st.Ir i| ≤ u.par.cap / 25

end Slide.Spec

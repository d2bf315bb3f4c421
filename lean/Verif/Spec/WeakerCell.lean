import Verif.Model.ECM

/-!
# Specification: a weaker cell (C148)
-/

namespace Slide.Spec

variable {n : ℕ}

/-- For a phase at the current `i`, the cell `w` is no better than the cell `u`: the same open-circuit voltage curve, no
more capacity, no less resistance, RC pairs that respond no slower, and a state of charge that is no further from the end of the
phase (no higher on discharge, no lower on charge). -/
structure NoBetter (i : ℚ) (u w : ECM n) : Prop where
  curve : w.par.ocv = u.par.ocv
  cap : w.par.cap ≤ u.par.cap
  Rdc : u.par.Rdc ≤ w.par.Rdc
  Rp : ∀ j, u.par.Rp j ≤ w.par.Rp j
  invTau : ∀ j, u.par.invTau j ≤ w.par.invTau j
  discharge : 0 < i → w.st.SOC ≤ u.st.SOC
  charge : i < 0 → u.st.SOC ≤ w.st.SOC

end Slide.Spec

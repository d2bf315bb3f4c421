import Verif.Spec.SpmUse

/-!
# Potentials are differences (C119)

The open-circuit potentials of the two electrodes and the potentials of the side reactions are given against a
reference electrode (lithium metal).  Which reference is used is a convention: measuring all of them against another
electrode adds the same number to each.
-/

namespace Slide.Spec

variable {N : ℕ}

/-- The same cell described against another reference electrode, all five potentials shifted by `x`. -/
def against (x : ℚ) (c : SPM N) : SPM N :=
  { c with par := { c.par with
      ocvP := fun z => (c.par.ocvP z).map (· + x), ocvN := fun z => (c.par.ocvN z).map (· + x),
      OCVsei := c.par.OCVsei + x, OCVpl := c.par.OCVpl + x, OCVnmc := c.par.OCVnmc + x } }

end Slide.Spec

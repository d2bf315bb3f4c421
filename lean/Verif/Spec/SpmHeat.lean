import Verif.Spec.SPM

/-!
Specification for the heat and the temperature of a single-particle cell (C91, C92).
-/

namespace Slide.Spec

variable {N : ℕ}

/-- The same time step of a twin whose degradation and heat are blocked: the cell as it is when its heat is computed. -/
def blockedTwin (c : SPM N) (dt : ℚ) (n : ℤ) : SPM N := (({ c with block := true } : SPM N).timeStep dt n).2

/-- Heat developed per second by a cell with open-circuit voltage `o`, voltage `v` and entropic coefficient `d`: the
voltage loss times the current, and the entropic heat. -/
def lossHeat (I T o v d : ℚ) : ℚ := I * (o - v) - I * T * d

/-- What is used of libm: `exp` is positive, `sqrt` is not negative, `asinh` has the sign of its argument. -/
structure LibmSigns (p : SpmPar N) : Prop where
  exp : ∀ x, 0 < p.exp x
  sqrt : ∀ x, 0 ≤ p.sqrt x
  asinh_pos : ∀ x, 0 ≤ x → 0 ≤ p.asinh x
  asinh_neg : ∀ x, x ≤ 0 → p.asinh x ≤ 0

/-- Positive geometry and temperature, no negative resistance or rate constant. -/
structure LossSigns (c : SPM N) : Prop where
  T : 0 < c.st.T
  n : 0 < c.par.n
  elecSurf : 0 < c.par.elecSurf
  ap : 0 < c.st.ap
  an : 0 < c.st.an
  thickp : 0 < c.st.thickp
  thickn : 0 < c.st.thickn
  kp : 0 ≤ c.par.kp
  kn : 0 ≤ c.par.kn
  rsei : 0 ≤ c.st.delta * c.par.rsei
  rDC : 0 ≤ c.st.rDCp ∧ 0 ≤ c.st.rDCn ∧ 0 ≤ c.st.rDCcc

end Slide.Spec

import Verif.Model.SPM

/-!
# Specification: the kinetics of the main reaction (C129)

Textbook relations, written without the formulas the cell evaluates.  The gas constant and Faraday's constant are
the numbers of `PhyConst` (8.314 and 96487).
-/

namespace Slide

namespace Spec

variable {N : ℕ}

/-- The symmetric Butler–Volmer equation (both transfer coefficients ½): the current density `i` through the surface
of an electrode of exchange current density `i0` whose overpotential is `η`, at the temperature `T`. -/
def ButlerVolmer (exp : ℚ → ℚ) (n T i0 i η : ℚ) : Prop :=
  i = i0 * (exp (1 / 2 * n * 96487 * η / (8314 / 1000 * T)) - exp (-(1 / 2 * n * 96487 * η / (8314 / 1000 * T))))

/-- The exchange current density: positive root of `(n F k(T))² c_elec c (cmax - c)` with an Arrhenius law for the
rate constant. -/
def ExchangeCurrent (exp : ℚ → ℚ) (n k kT T Tref celec c cmax i0 : ℚ) : Prop :=
  0 ≤ i0 ∧ i0 ^ 2 = (n * 96487 * (k * exp (kT / (8314 / 1000) * (1 / Tref - 1 / T)))) ^ 2 * (celec * (c * (cmax - c)))

/-- What is assumed of the functions of the C library: the exponential is positive and increasing, `asinh` inverts
the hyperbolic sine of that exponential, and the square roots the cell takes are right. -/
structure LibmRight (c : SPM N) : Prop where
  expPos : ∀ x, 0 < c.par.exp x
  expMono : StrictMono c.par.exp
  asinh : ∀ x, c.par.exp (c.par.asinh x) - c.par.exp (-c.par.asinh x) = 2 * x
  sqrt : ∀ x, x = c.par.C_elec * c.cps * (c.par.Cmaxpos - c.cps) ∨
    x = c.par.C_elec * c.cns * (c.par.Cmaxneg - c.cns) → 0 ≤ c.par.sqrt x ∧ c.par.sqrt x ^ 2 = x

/-- Parameters and states that are physical: temperature, charge number, rate constants, and the dimensions of the
electrodes are positive, no resistance is negative. -/
structure PhysicalCell (c : SPM N) : Prop where
  T : 0 < c.st.T
  n : 0 < c.par.n
  kp : 0 < c.par.kp
  kn : 0 < c.par.kn
  surf : 0 < c.par.elecSurf
  ap : 0 < c.st.ap
  an : 0 < c.st.an
  thickp : 0 < c.st.thickp
  thickn : 0 < c.st.thickn
  rsei : 0 ≤ c.st.delta * c.par.rsei
  rp : 0 ≤ c.st.rDCp
  rn : 0 ≤ c.st.rDCn
  rcc : 0 ≤ c.st.rDCcc

/-- The total active surface of an electrode: specific surface times volume. -/
def activeSurface (a surf thick : ℚ) : ℚ := a * (surf * thick)

/-- The voltage `v` of a cell whose open-circuit voltage is `u`: both electrodes obey the Butler–Volmer equation at
the current density the cell current makes on their active surface (the positive electrode is reduced on discharge,
the negative one oxidised), and the voltage is what is left of `u` after both overpotentials and the ohmic loss in
the SEI layer, both electrodes and the collector. -/
def ObeysKinetics (c : SPM N) (u v : ℚ) : Prop :=
  ∀ i0p i0n ηp ηn : ℚ,
    ExchangeCurrent c.par.exp c.par.n c.par.kp c.par.kp_T c.st.T c.par.T_ref c.par.C_elec c.cps c.par.Cmaxpos i0p →
    ExchangeCurrent c.par.exp c.par.n c.par.kn c.par.kn_T c.st.T c.par.T_ref c.par.C_elec c.cns c.par.Cmaxneg i0n →
    ButlerVolmer c.par.exp c.par.n c.st.T i0p (-c.st.I / activeSurface c.st.ap c.par.elecSurf c.st.thickp) ηp →
    ButlerVolmer c.par.exp c.par.n c.st.T i0n (c.st.I / activeSurface c.st.an c.par.elecSurf c.st.thickn) ηn →
    v = u + ηp - ηn -
      c.st.I * ((c.st.delta * c.par.rsei + c.st.rDCn) / activeSurface c.st.an c.par.elecSurf c.st.thickn +
        c.st.rDCp / activeSurface c.st.ap c.par.elecSurf c.st.thickp + c.st.rDCcc / c.par.elecSurf)

/-- Such exchange currents and overpotentials exist. -/
def KineticsSolvable (c : SPM N) : Prop :=
  ∃ i0p i0n ηp ηn : ℚ,
    ExchangeCurrent c.par.exp c.par.n c.par.kp c.par.kp_T c.st.T c.par.T_ref c.par.C_elec c.cps c.par.Cmaxpos i0p ∧
    ExchangeCurrent c.par.exp c.par.n c.par.kn c.par.kn_T c.st.T c.par.T_ref c.par.C_elec c.cns c.par.Cmaxneg i0n ∧
    ButlerVolmer c.par.exp c.par.n c.st.T i0p (-c.st.I / activeSurface c.st.ap c.par.elecSurf c.st.thickp) ηp ∧
    ButlerVolmer c.par.exp c.par.n c.st.T i0n (c.st.I / activeSurface c.st.an c.par.elecSurf c.st.thickn) ηn

end Spec

end Slide

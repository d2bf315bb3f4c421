import Verif.Model.ECM
import Verif.Spec.Kinetics
import Mathlib.Analysis.SpecialFunctions.ExpDeriv

/-!
# Specification: the exact course of a cell at constant current (C130)

The differential equations of the circuit and of diffusion, over the real numbers.
-/

namespace Slide.Spec

variable {n N : ℕ}

/-- The currents `x i` through the resistors of the RC pairs, as functions of time, at the present cell current: the
current that does not flow through the resistor charges the capacitor. -/
structure ExactCircuit (c : ECM n) (x : Fin n → ℝ → ℝ) : Prop where
  start : ∀ i, x i 0 = c.st.Ir i
  law : ∀ i t, HasDerivAt (x i) (((c.st.I : ℚ) - x i t) * (c.par.invTau i : ℚ)) t

/-- The voltage of that circuit at time `t`, where `o` is the open-circuit voltage at that time. -/
noncomputable def exactVoltage (c : ECM n) (x : Fin n → ℝ → ℝ) (o : ℚ) (t : ℝ) : ℝ :=
  o - (c.st.I * c.par.Rdc : ℚ) - ∑ i, (c.par.Rp i : ℝ) * x i t

/-- Diffusion constants at the temperature of the cell, by Arrhenius' law. -/
def diffusionP (c : SPM N) : ℚ := c.st.Dp * c.par.exp (c.par.Dp_T / (8314 / 1000) * (1 / c.par.T_ref - 1 / c.st.T))
def diffusionN (c : SPM N) : ℚ := c.st.Dn * c.par.exp (c.par.Dn_T / (8314 / 1000) * (1 / c.par.T_ref - 1 / c.st.T))

/-- Moles of lithium leaving a square metre of active surface per second. -/
def fluxP (c : SPM N) : ℚ := -c.st.I / (activeSurface c.st.ap c.par.elecSurf c.st.thickp * (c.par.n * 96487))
def fluxN (c : SPM N) : ℚ := c.st.I / (activeSurface c.st.an c.par.elecSurf c.st.thickn * (c.par.n * 96487))

/-- The amplitudes of the modes of both particles as functions of time, at the present current and temperature. -/
structure ExactDiffusion (c : SPM N) (zp zn : Fin N → ℝ → ℝ) : Prop where
  startP : ∀ j, zp j 0 = c.st.zp j
  startN : ∀ j, zn j 0 = c.st.zn j
  lawP : ∀ j t, HasDerivAt (zp j)
    ((diffusionP c * c.par.M.Ap j : ℚ) * zp j t + (c.par.M.Bp j * fluxP c : ℚ)) t
  lawN : ∀ j t, HasDerivAt (zn j)
    ((diffusionN c * c.par.M.An j : ℚ) * zn j t + (c.par.M.Bn j * fluxN c : ℚ)) t

/-- The concentration at a node of a particle whose modes have the amplitudes `z`. -/
noncomputable def exactNode (C : Fin N → ℚ) (D j d : ℚ) (z : Fin N → ℝ) : ℝ := ∑ k, (C k : ℝ) * z k + (D * j / d : ℚ)

end Slide.Spec

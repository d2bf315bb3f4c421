import Verif.Spec.SPM

/-!
# How fast the side reactions may run (C120, C121)

The published models behind the ageing of a single-particle cell, written down as equations: a rate constant at a
temperature, a reaction driven by a potential, a film through which the solvent has to diffuse; and the limits the
program promises for the rates.
-/

namespace Slide.Spec

open SPM

variable {N : ℕ}

/-- A constant at the temperature of the cell, with activation energy `E` (Arrhenius). -/
def atTemperature (c : SPM N) (k E : ℚ) : ℚ := k * c.par.exp (E * ((1 / c.par.T_ref - 1 / c.st.T) / (8314 / 1000)))

/-- The Tafel factor of a reaction which takes up `n` electrons at the overpotential `eta`. -/
def tafel (c : SPM N) (n alpha eta : ℚ) : ℚ := c.par.exp (-n * 96487 / ((8314 / 1000) * c.st.T) * alpha * eta)

/-- The overpotential of the growth of the SEI layer when the open-circuit potential of the anode is `o`: the potential of
the anode against the reaction, with the drop over the layer. -/
def seiOver (c : SPM N) (o : ℚ) : ℚ := o + c.etan - c.par.OCVsei + c.par.rsei * c.st.delta * c.st.I

/-- `j` is the current density of a reaction with `n` electrons and rate constant `k` whose reactant (concentration `c0`
outside) has to diffuse through a layer of thickness `δ`: a concentration `s` at the particle is such that the reaction
consumes what arrives. -/
def ThroughLayer (n k D c0 δ j : ℚ) : Prop :=
  ∃ s, 0 ≤ s ∧ s ≤ c0 ∧ j = n * 96487 * k * s ∧ δ * j = n * 96487 * D * (c0 - s)

/-- C120: `j` is the current density of the growth of the SEI layer by model `i` as published: reaction only (1), reaction
and diffusion of the solvent (2), and with a concentration in the layer that follows the overpotential of the anode
(3, 4). -/
def SeiLaw (c : SPM N) (o : ℚ) : ℕ → ℚ → Prop
  | 0, j => j = 0
  | 1, j => j = c.par.nsei * 96487 * (atTemperature c c.par.sei.k1 c.par.sei.k1_T *
      tafel c c.par.nsei c.par.alphasei (seiOver c o))
  | 2, j => ThroughLayer c.par.nsei
      (atTemperature c c.par.sei.k2 c.par.sei.k2_T * tafel c c.par.nsei c.par.alphasei (seiOver c o))
      (atTemperature c c.par.sei.D2 c.par.sei.D2_T) c.par.c_elec0 c.st.delta j
  | 3, j => ThroughLayer c.par.nsei
      (atTemperature c c.par.sei.k3 c.par.sei.k3_T * tafel c c.par.nsei c.par.alphasei (o - c.par.OCVsei))
      (atTemperature c c.par.sei.D3 c.par.sei.D3_T)
      (134461 / 1000000 * tafel c c.par.nsei 1 (c.etan + c.par.rsei * c.st.delta * c.st.I)) c.st.delta j
  | 4, j => ThroughLayer c.par.nsei
      (atTemperature c c.par.sei.k4 c.par.sei.k4_T * tafel c c.par.nsei c.par.alphasei (o - c.par.OCVsei))
      (atTemperature c c.par.sei.D4 c.par.sei.D4_T) (134461 / 1000000 * tafel c c.par.nsei 1 c.etan) c.st.delta j
  | _, _ => False

/-- The time a sequence of operations asks the cell to simulate; time steps of negative length are refused. -/
def askedOp : SpmOp N → ℚ
  | .step dt n => if dt < 0 then 0 else dt * n
  | _ => 0

def asked (ops : List (SpmOp N)) : ℚ := (ops.map askedOp).sum

/-- No call of the time integration lasts longer than `H`. -/
def StepsAtMost (H : ℚ) (ops : List (SpmOp N)) : Prop := ∀ o ∈ ops, askedOp o ≤ H

/-- The cell with a layer of another thickness. -/
def withLayer (c : SPM N) (δ : ℚ) : SPM N := { c with st := { c.st with delta := δ } }

/-- A growing function is used as exponential function. -/
structure SeiMonotone (p : SpmPar N) : Prop where
  exp : ∀ x y, x ≤ y → p.exp x ≤ p.exp y
  alpha : 0 ≤ p.alphasei
  rsei : 0 ≤ p.rsei

/-- C120, full statement for the thickness: the layer protects the particle – under otherwise equal conditions a thicker
layer does not grow faster. -/
def LayerProtects (N : ℕ) : Prop :=
  ∀ (c : SPM N) (δ₁ δ₂ : ℚ) (d₁ d₂ : DegRate N), SpmPhysical c.par → SeiMonotone c.par → 0 < c.st.T → 0 < δ₁ → δ₁ ≤ δ₂ →
    (withLayer c δ₁).degRate = .ok d₁ → (withLayer c δ₂).degRate = .ok d₂ → d₂.delta ≤ d₁.delta

/-- C121, full statement for the surface: the SEI layer grows on the surface of the cracks as on the rest of the surface of
the anode. -/
def CracksCountOnce (N : ℕ) : Prop :=
  ∀ (c : SPM N) (d : DegRate N), SpmPhysical c.par → c.st.an ≠ 0 → c.st.thickn ≠ 0 → c.degRate = .ok d → c.deg.pl = 0 →
    (∃ i ∈ c.deg.CS, i ≠ 0) →
    d.LLI = c.par.nsei * 96487 * c.par.rhosei * d.delta * (c.st.an * c.st.thickn * c.par.elecSurf + c.st.CS)

/-- C121, full statement for the crack model with a largest crack surface: the surface stays below it. -/
def CracksSaturate (N : ℕ) : Prop :=
  ∀ (c : SPM N) (ops : List (SpmOp N)), SpmPhysical c.par → SpmValid c → c.deg.CS = [4] → (∀ o ∈ ops, ordinary o) →
    (spmRun c ops).st.CS ≤ max c.par.cs.Amax c.st.CS

end Slide.Spec

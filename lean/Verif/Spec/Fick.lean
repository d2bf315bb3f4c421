import Verif.Model.SPM
import Mathlib.Algebra.Polynomial.Derivative

/-!
# Fick's laws in a particle (C126)

The concentration in a spherical particle of radius `R` is described by a polynomial in the distance `r` from the centre.
-/

namespace Slide.Spec
open Polynomial

variable {N : ℕ}

/-- The radii of the surface and of the inner nodes. -/
def nodeRadius (x : Fin N → ℚ) (R : ℚ) : Fin (N + 1) → ℚ := Fin.cases R fun i => x i * R

/-- A concentration profile the discretisation can represent: symmetric about the centre, of degree at most `2N`. -/
def IsProfile (N : ℕ) (P : ℚ[X]) : Prop := P.comp (-X) = P ∧ P.natDegree ≤ 2 * N

/-- `P` is the profile with the given concentrations at the surface, the inner nodes and the centre. -/
structure ProfileOf (x : Fin N → ℚ) (R : ℚ) (node : Fin (N + 1) → ℚ) (centre : ℚ) (P : ℚ[X]) : Prop where
  shape : IsProfile N P
  nodes : ∀ i, P.eval (nodeRadius x R i) = node i
  centre : P.eval 0 = centre

/-- Fick's first law at the surface: the flux out of the particle is `-D` times the slope. -/
def FickSurface (R D j : ℚ) (P : ℚ[X]) : Prop := -D * (derivative P).eval R = j

/-- Fick's second law in a sphere, `∂c/∂t = D/r² ∂/∂r (r² ∂c/∂r)`, in a step of `dt` seconds, at the inner nodes. -/
def FickStep (x : Fin N → ℚ) (R D dt : ℚ) (P P' : ℚ[X]) : Prop :=
  ∀ i, (x i * R) ^ 2 * (P'.eval (x i * R) - P.eval (x i * R)) = dt * D * (derivative (X ^ 2 * derivative P)).eval (x i * R)

/-- What the tables of one electrode have to satisfy (the shipped ones do, up to rounding): the weights `Cc` differentiate
profiles at the surface; the amplitudes `w` and the flux `g` (divided by the diffusion constant) stand for a profile that
has this flux at its surface, and the spreading of this profile has the amplitudes `A*w + B*g`. -/
structure FickSphere (A B : Fin N → ℚ) (C : Fin (N + 1) → Fin N → ℚ) (Dv Cc : Fin (N + 1) → ℚ) (x : Fin N → ℚ) (R : ℚ) :
    Prop where
  slope : ∀ P : ℚ[X], IsProfile N P →
    R * (derivative P).eval R = ∑ i, Cc i * P.eval (nodeRadius x R i) + 2 * P.eval 0
  modes : ∀ (w : Fin N → ℚ) (g : ℚ), ∃ P : ℚ[X], IsProfile N P ∧
    (∀ i, P.eval (nodeRadius x R i) = ∑ k, C i k * w k + Dv i * g) ∧ (derivative P).eval R = -g ∧
    ∀ i, (derivative (X ^ 2 * derivative P)).eval (x i * R) = (x i * R) ^ 2 * ∑ k, C i.succ k * (A k * w k + B k * g)

end Slide.Spec

import Verif.Model.GammaPrior
import Mathlib.MeasureTheory.Integral.IntegralEqImproper

/-!
What C107 talks about: probability densities of a positive quantity.
-/

namespace Slide.Spec
open MeasureTheory Set

/-- `f` is the density of a positive random quantity with mean `m` and mean square `q`. -/
structure PositiveDensity (f : ℝ → ℝ) (m q : ℝ) : Prop where
  pos : ∀ x, 0 < x → 0 < f x
  total : ∫ x in Ioi 0, f x = 1
  mean : ∫ x in Ioi 0, x * f x = m
  square : ∫ x in Ioi 0, x ^ 2 * f x = q

/-- The full statement of C107: the functor for shape `a` and scale `b` is the density of a positive quantity with mean
`a b` and variance `a b²`, and zero for negative arguments. -/
def GammaFunctorIsDensity : Prop :=
  ∀ a b : ℝ, 0 < a → 0 < b → ∃ f g, GammaDensity.mk' a b = .ok f ∧ (∀ x, 0 < x → f.eval x = .ok (g x)) ∧
    PositiveDensity g (a * b) (a * b ^ 2 + (a * b) ^ 2) ∧ ∀ x, x < 0 → f.eval x = .ok 0

end Slide.Spec

import Verif.Model.Outcome
import Mathlib.Analysis.SpecialFunctions.Gamma.Basic

/-!
The gamma density that serves as a prior in the estimation of parameters: `slide::GammaDensityFunctor`,
`/repo/src/utility/slide_aux.hpp:72-79`.

Simplifications: doubles are real numbers; results that are infinite or NaN in C++ are `ub`.
-/

namespace Slide

/-- `std::pow` of libm.  For a negative base the exponent has to be an integer (otherwise NaN), for the base zero it must
not be negative (otherwise infinity). -/
noncomputable def libPow (x y : ℝ) : Outcome ℝ :=
  open Classical in
  if 0 < x then .ok (x ^ y)
  else if x = 0 then (if 0 < y then .ok 0 else if y = 0 then .ok 1 else .ub "pow: pole")
  else if h : ∃ n : ℤ, y = n then .ok (x ^ h.choose) else .ub "pow: domain"

/-- `std::tgamma`: poles at zero and the negative integers. -/
noncomputable def libGamma (a : ℝ) : Outcome ℝ :=
  open Classical in if ∃ n : ℕ, a = -n then .ub "tgamma: pole" else .ok (Real.Gamma a)

/-- The members of `GammaDensityFunctor` – `slide_aux.hpp:74`. -/
structure GammaDensity where
  a : ℝ
  inv_b : ℝ
  scale : ℝ

/-- `inv_b(1 / b_), scale(1 / std::tgamma(a_) / std::pow(b_, a_))` – `slide_aux.hpp:76`. -/
noncomputable def GammaDensity.mk' (a b : ℝ) : Outcome GammaDensity := do
  let g ← libGamma a
  let p ← libPow b a
  if b = 0 ∨ g = 0 ∨ p = 0 then .ub "division by zero"
  else .ok { a := a, inv_b := 1 / b, scale := 1 / g / p }

/-- `operator()`: `scale * std::exp(-inv_b * x) * std::pow(x, a - 1)` – `slide_aux.hpp:77`. -/
noncomputable def GammaDensity.eval (f : GammaDensity) (x : ℝ) : Outcome ℝ := do
  let p ← libPow x (f.a - 1)
  .ok (f.scale * Real.exp (-f.inv_b * x) * p)

end Slide

import Verif.Model.MCMC
import Mathlib.Analysis.SpecialFunctions.Log.ERealExp

/-!
What the parameter estimation should compute: Bayes' rule for independent parameters and Gaussian measurement noise.
-/

namespace Slide
namespace Spec
open scoped BigOperators

/-- Density of a measurement error `e` with variance `R`. -/
noncomputable def gauss (R e : ℝ) : ℝ := 1 / √(2 * Real.pi * R) * Real.exp (-e ^ 2 / (2 * R))

/-- Density of independent parameters and independent errors (without the normalising constant of Bayes' rule). -/
noncomputable def posterior {np n : ℕ} (dens : Fin np → ℝ → ℝ) (b : Fin np → ℝ) (R : ℝ) (e : Fin n → ℝ) : ℝ :=
  (∏ i, dens i (b i)) * ∏ k, gauss R (e k)

/-- The sum of squared errors of a simulation with the errors `e`. -/
def sse {n : ℕ} (e : Fin n → ℝ) : ℝ := ∑ k, e k ^ 2

/-- Every value of a record can be read with its index. -/
def RecordReadable : Prop :=
  ∀ (np no : ℕ) (r : MCMC.Record np no), 0 < no → ∀ i < r.size, ∃ x, r.get i = .ok x

end Spec
end Slide

import Verif.Spec.Thermal
import Mathlib.Analysis.SpecialFunctions.Log.Basic

/-!
# Specification: sums over the bodies of a pack (C161)
-/

namespace Slide.Spec
open Slide

mutual
/-- The sum over all cells and coolants of heat capacity times `f` of the temperature. -/
noncomputable def heatSum (f : ℝ → ℝ) : HTree → ℝ
  | .cell c => (c.C : ℝ) * f c.T
  | .plain _ => 0
  | .module _ cool ks => ((cool.rho * cool.cp * cool.vol : ℚ) : ℝ) * f cool.T + heatSums f ks
termination_by structural u => u
noncomputable def heatSums (f : ℝ → ℝ) : List HTree → ℝ
  | [] => 0
  | u :: us => heatSum f u + heatSums f us
termination_by structural us => us
end

/-- The entropy of the bodies of a pack, up to a constant: the sum of heat capacity times logarithm of the temperature. -/
noncomputable def entropy (u : HTree) : ℝ := heatSum Real.log u

/-- How far the temperatures of the bodies are from `T`: the sum of heat capacity times squared difference. -/
noncomputable def spreadAbout (T : ℝ) (u : HTree) : ℝ := heatSum (fun x => (x - T) ^ 2) u

mutual
/-- The temperatures of all bodies are in `s`. -/
def EachT (s : Set ℝ) : HTree → Prop
  | .cell c => (c.T : ℝ) ∈ s
  | .plain T => (T : ℝ) ∈ s
  | .module _ cool ks => (cool.T : ℝ) ∈ s ∧ EachTs s ks
termination_by structural u => u
def EachTs (s : Set ℝ) : List HTree → Prop
  | [] => True
  | u :: us => EachT s u ∧ EachTs s us
termination_by structural us => us
end

end Slide.Spec

import Verif.Spec.Isothermal

/-!
# Specification: how fast a pack gets one temperature (C165)
-/

namespace Slide.Spec
open Slide

mutual
/-- How deep modules are nested: 0 for a cell, 1 for a module of cells. -/
def depthOf : HTree → ℕ
  | .cell _ => 0
  | .plain _ => 0
  | .module _ _ ks => depthsOf ks + 1
termination_by structural u => u
def depthsOf : List HTree → ℕ
  | [] => 0
  | u :: us => max (depthOf u) (depthsOf us)
termination_by structural us => us
end

/-- The part of the spread that goes away in each interval of at least `t`: conductance `h` times the smallest area `a` times `t`,
divided by eight times the total heat capacity times the depth squared. -/
noncomputable def decayRate (h a t : ℚ) (u : HTree) : ℝ :=
  ((h * a * t : ℚ) : ℝ) / (8 * (depthOf u : ℝ) ^ 2 * heatSum (fun _ => 1) u)

end Slide.Spec

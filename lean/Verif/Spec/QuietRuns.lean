import Verif.Spec.Isothermal

/-!
# Specification: packs whose temperatures are allowed (C165)
-/

namespace Slide.Spec
open Slide

mutual
/-- Temperatures from `lo` to `hi` are allowed for all cells, no module has more than 100 children, there is no air
conditioning, and the clocks of all modules show `x`. -/
def Allows (x lo hi : ℚ) : HTree → Prop
  | .cell c => c.Tmin ≤ lo ∧ hi ≤ c.Tmax
  | .plain _ => True
  | .module th cool ks => th.time = x ∧ cool.kind ≠ .hvac ∧ ks.length ≤ 100 ∧ Allowss x lo hi ks
termination_by structural u => u
def Allowss (x lo hi : ℚ) : List HTree → Prop
  | [] => True
  | u :: us => Allows x lo hi u ∧ Allowss x lo hi us
termination_by structural us => us
end

end Slide.Spec

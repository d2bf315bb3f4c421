import Verif.Model.Cooling
import Mathlib.Analysis.SpecialFunctions.Sqrt

/-!
Model of the convective heat-transfer coefficient of the cooling systems – `CoolSystem::getH`
(`/repo/src/cooling/CoolSystem.cpp:126-172`, inherited by `CoolSystem_HVAC`) and `CoolSystem_open::getH`
(`/repo/src/cooling/CoolSystem_open.cpp:25`).  Numbers are reals because of the square root.
-/

namespace Slide
namespace CoolSystem

/-- `getH()`.  A division by zero (a system for 0 cells) and the square root of a negative number (infinity and NaN in
C++) are made explicit as undefined. -/
noncomputable def getH (c : CoolSystem) : Outcome ℝ :=
  match c.kind with
  | .openSys => .ok 90
  | _ =>
    if c.flowrate = 0 then .ok 0
    else if c.Across = 0 then .ub "division by zero"
    else if c.flowrate / c.Across < 0 then .ub "square root of a negative number"
    else
      let v : ℝ := ((c.flowrate / c.Across : ℚ) : ℝ)
      .ok (1212 / 100 - 116 / 100 * v + 116 / 10 * √v)

end CoolSystem
end Slide

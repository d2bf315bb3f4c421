import Verif.Model.Status
import Mathlib.Algebra.Order.Field.Rat
import Mathlib.Data.Rat.Cast.Order

/-!
Model of `free::check_voltage`, `free::check_safety`, `free::check_SOC`
(`/repo/src/utility/free_functions.hpp`) and of the cell limits.
-/

namespace Slide

/-- Voltage limits of a storage unit: `Vmin ≤ Vmax` operating window, `VMIN ≤ VMAX` safety window.
`/repo/src/cells/cell_limits.hpp`, `/repo/src/cells/Cell.hpp:50-55`. -/
structure VLimits where
  Vmin : ℚ
  Vmax : ℚ
  VMIN : ℚ
  VMAX : ℚ
  deriving Repr, DecidableEq

/-- `defaultCellLimits`: Vmin 2.7, Vmax 4.2, VMIN 2.0, VMAX 4.3 – `/repo/src/cells/cell_limits.hpp`. -/
def cellLimits : VLimits := { Vmin := 27/10, Vmax := 42/10, VMIN := 2, VMAX := 43/10 }

/-- `settings::MODULE_P_V_ABSTOL` – `/repo/src/settings/tolerances.hpp:26`. -/
def P_V_ABSTOL : ℚ := 1/100
/-- `settings::MODULE_P_I_ABSTOL` – `/repo/src/settings/tolerances.hpp:29`. -/
def P_I_ABSTOL : ℚ := 5/1000

/-- `free::check_voltage` – `/repo/src/utility/free_functions.hpp:138-210`.
`v` is the voltage returned by `su.V()`; `I > 0` is discharging, `I < 0` charging
(`/repo/src/StorageUnit.hpp:59-60`).  The `catch (int)` branch is `vOpt = none`. -/
def checkVoltage (lim : VLimits) (vOpt : Option ℚ) (I : ℚ) : Status :=
  match vOpt with
  | none => .V_not_calculated
  | some v =>
    if v ≤ 0 then .V_not_calculated
    else if v > lim.Vmin - P_V_ABSTOL ∧ v < lim.Vmax + P_V_ABSTOL then .Success
    else if v < lim.VMIN ∧ I > 0 then .VMIN_violation
    else if v > lim.VMAX ∧ I < 0 then .VMAX_violation
    else if v < lim.Vmin - P_V_ABSTOL ∧ I > 0 then .Vmin_violation
    else if v > lim.Vmax + P_V_ABSTOL ∧ I < 0 then .Vmax_violation
    else .Success

/-- `free::check_safety` – `/repo/src/utility/free_functions.hpp:213-236`; `lo`/`hi` are
`cyc.getSafetyVmin()` / `cyc.getSafetyVmax()`. -/
def checkSafety (lo hi v : ℚ) : Status :=
  if v < lo then .VMINsafety_violation
  else if v > hi then .VMAXsafety_violation
  else .SafeVoltage

/-- `free::check_SOC` with the default range – `/repo/src/utility/free_functions.hpp:104-115`. -/
def checkSOC (soc : ℚ) : Bool := !(soc < 0 || soc > 1)

end Slide

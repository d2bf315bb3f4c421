import Verif.Model.Voltage

/-!
Independent specification of the voltage classification (property C15).
Written as a table "condition on (voltage, direction) ⇒ status", with no reference to `checkVoltage`.
-/

namespace Slide.Spec

/-- The limits are nested with at least the 10 mV margin used for CV control. -/
structure Nested (lim : VLimits) : Prop where
  low : lim.VMIN ≤ lim.Vmin - 1/100
  mid : lim.Vmin ≤ lim.Vmax
  high : lim.Vmax + 1/100 ≤ lim.VMAX

/-- Complete classification table: which status belongs to which (voltage, current). -/
inductive Classified (lim : VLimits) : ℚ → ℚ → Status → Prop
  | notCalculated {v I} : v ≤ 0 → Classified lim v I .V_not_calculated
  | belowSafety {v I} : 0 < v → v < lim.VMIN → 0 < I → Classified lim v I .VMIN_violation
  | aboveSafety {v I} : 0 < v → lim.VMAX < v → I < 0 → Classified lim v I .VMAX_violation
  | below {v I} : 0 < v → lim.VMIN ≤ v → v < lim.Vmin - 1/100 → 0 < I →
      Classified lim v I .Vmin_violation
  | above {v I} : 0 < v → v ≤ lim.VMAX → lim.Vmax + 1/100 < v → I < 0 →
      Classified lim v I .Vmax_violation
  | inside {v I} : 0 < v → lim.Vmin - 1/100 ≤ v → v ≤ lim.Vmax + 1/100 →
      Classified lim v I .Success
  | lowButNotDischarging {v I} : 0 < v → v < lim.Vmin - 1/100 → I ≤ 0 → Classified lim v I .Success
  | highButNotCharging {v I} : 0 < v → lim.Vmax + 1/100 < v → 0 ≤ I → Classified lim v I .Success

end Slide.Spec

import Verif.Spec.Isothermal

/-!
# Specification: a battery that is left alone (C165)
-/

namespace Slide.Spec
open Slide

/-- The battery is left alone for `t` with a converter without losses, then the thermal model is updated; `none` if the update
fails. -/
def quietBattery (H : CoolSystem → ℚ) (t : ℚ) (b : BatteryTherm) : Option BatteryTherm :=
  match ({ b with cells := passing t b.cells } : BatteryTherm).thermal H 0 0 t with
  | (.ok _, b') => some b'
  | _ => none

/-- Thermal energy of the battery and its coolant divided by their heat capacity. -/
noncomputable def batteryMean (b : BatteryTherm) : ℝ :=
  ((b.cool.rho * b.cool.cp * b.cool.vol : ℚ) * (b.cool.T : ℝ) + heatSum id b.cells) /
    ((b.cool.rho * b.cool.cp * b.cool.vol : ℚ) + heatSum (fun _ => 1) b.cells)

end Slide.Spec

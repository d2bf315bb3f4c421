import Verif.Spec.Overheat

/-!
# Specification: heat that is not taken away from a battery (C166)
-/

namespace Slide.Spec
open Slide

/-- One interval of use of a battery: its pack works for `t`, the converter loses the power `losses`; together this is at least
`q` more heat than the air conditioning of the modules and of the battery removes; then the thermal model is updated and succeeds. -/
def BatteryWorkStep (H : CoolSystem → ℚ) (q : ℚ) (b b' : BatteryTherm) : Prop :=
  ∃ (t losses T' : ℚ) (w : HTree), 0 < t ∧ SameBodies b.cells w ∧ Synced t w ∧
    q + removed t w + (if b.cool.kind = .hvac then b.cool.Qac * t else 0) ≤ pending w + losses * t ∧
    ({ b with cells := w } : BatteryTherm).thermal H losses 0 t = (.ok T', b')

/-- C166 for batteries. -/
def BatteryOverheatsInTime : Prop :=
  ∀ (H : CoolSystem → ℚ) (q : ℚ) (b : ℕ → BatteryTherm), Areas (b 0).cells → CapsOk (b 0).cells →
    0 ≤ (b 0).cool.rho * (b 0).cool.cp * (b 0).cool.vol →
    ∀ k, (∀ i ≤ k, BatteryWorkStep H q (b i) (b (i + 1))) →
      (k + 1) * q ≤ (b 0).cool.rho * (b 0).cool.cp * (b 0).cool.vol * (273 + 75 - (b 0).cool.T) +
        (maxEnergy (b 0).cells - energy (b 0).cells)

end Slide.Spec

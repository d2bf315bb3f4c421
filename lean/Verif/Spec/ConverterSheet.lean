import Verif.Model.Converter

/-!
# The data sheet behind the converter (C128)

`Converter.cpp:60-83` derives the losses from the data sheet of an IGBT: two straight lines for the voltage over a conducting
switch, one for the energy of switching it.
-/

namespace Slide.Spec

/-- The straight line through two points. -/
def lineThrough (p q : ℚ × ℚ) (x : ℚ) : ℚ := p.2 + (q.2 - p.2) / (q.1 - p.1) * (x - p.1)

/-- Voltage over a conducting switch: 1 V at 30 A, 3 V at 300 A, proportional to the current below 30 A. -/
def sheetVolt (i : ℚ) : ℚ := if |i| ≤ 30 then lineThrough (0, 0) (30, 1) |i| else lineThrough (30, 1) (300, 3) |i|

/-- Energy [J] of switching on: 6 mJ at 50 A, 21 mJ at 200 A. -/
def sheetOn (i : ℚ) : ℚ := lineThrough (50, 6 / 1000) (200, 21 / 1000) |i|

/-- Energy of switching off: 1 mJ more. -/
def sheetOff (i : ℚ) : ℚ := sheetOn i + 1 / 1000

/-- Losses [W] of one inverter with an input of `v` volt and `i` ampere: 8000 switchings a second, a DC stage with one switch,
an AC stage with six that switch on and off, both with 1500 V, and filters. -/
def sheetLoss (v i : ℚ) : ℚ :=
  let j := i * v / 1500
  |i| * sheetVolt i * (1 + 2 * v / 1500) + 8000 * sheetOn i +
  |j| * sheetVolt j * 3 + 6 * 8000 * (sheetOn j + sheetOff j) +
  136 / 10000 * (i ^ 2 + 3 * j ^ 2 + (2 * (3141592653589793 / 1000000000000000) * 8000 * (3 / 1000)) ^ 2)

/-- Full statement of C128: `n` inverters that share the current lose what the data sheet says. -/
def LossesFollowSheet : Prop :=
  ∀ (P v i : ℚ) (n : ℕ), 0 < P → P ≤ n * 200000 → (n - 1 : ℚ) * 200000 < P → n ≤ 2147483647 → 0 ≤ v →
    (Converter.init.setPower P).getLosses v i = .ok (n * sheetLoss v (i / n))

end Slide.Spec

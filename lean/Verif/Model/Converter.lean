import Verif.Model.Containers
import Mathlib.Algebra.Order.Ring.Rat
import Mathlib.Algebra.Order.Group.Abs
import Mathlib.Data.Rat.Floor

/-!
Model of the power-electronic converter – `/repo/src/power_conversion/Converter.{hpp,cpp}`.
All constants are the decimal literals of the source read as exact rationals; `PhyConst::pi` is the literal
`3.141592653589793` (`/repo/src/settings/constants.hpp:23`).
-/

namespace Slide

/-- `class Converter` – `Converter.hpp:13-24`. -/
structure Converter where
  Vdc : ℚ
  Vac : ℚ
  Pnom : ℚ
  deriving DecidableEq

namespace Converter

/-- Default constructor – `Converter.cpp:18-23`. -/
def init : Converter := { Vdc := 1500, Vac := 1500, Pnom := 200000 }

/-- `setPower` – `Converter.cpp:25-28`. -/
def setPower (c : Converter) (P : ℚ) : Converter := { c with Pnom := P }

/-- The voltage over the switches `Vce = a + b (|I| - c)` – `Converter.cpp:68-74, 88` (DC stage) and `97-106`
(AC stage). -/
def vce (i : ℚ) : ℚ := if |i| > 30 then 1 + 2 / 270 * (|i| - 30) else 0 + 1 / 30 * (|i| - 0)

/-- The losses per inverter for the input current of one inverter – `Converter.cpp:86-129`. -/
def lossPerInverter (c : Converter) (vin iin : ℚ) : ℚ :=
  let f : ℚ := 8000
  let D := 1 + 2 * vin / c.Vdc
  let Eoff := (6 + 1 / 10 * |iin - 50|) * (1 / 1000)
  let dcCond := iin * vce iin * D
  let dcSwitch := f * (Eoff + 0)
  let idc := iin * vin / c.Vdc
  let D' := 1 + 2 * c.Vdc / c.Vac
  let Eon' := (6 + 1 / 10 * |idc - 50|) * (1 / 1000)
  let Eoff' := Eon' + 1 / 1000
  let acCond := idc * vce idc * D'
  let acSwitch := 6 * f * (Eoff' + Eon')
  let filCdc : ℚ := 136 / 10000 * (2 * (3141592653589793 / 1000000000000000) * f * (3 / 1000) * 1) ^ 2
  let filLg := 3 * (136 / 10000) * idc ^ 2
  let filLb := 136 / 10000 * iin ^ 2
  |dcCond| + |dcSwitch| + |acCond| + |acSwitch| + filCdc + filLg + filLb

/-- `nInverters = static_cast<int>(std::ceil(Pnom / 200e3))` – `Converter.cpp:56-57`; converting a value outside the
range of `int` is undefined. -/
def nInverters (c : Converter) : Outcome ℤ := toInt (⌈c.Pnom / 200000⌉ : ℚ)

/-- `getLosses` – `Converter.cpp:30-142`.  With 0 inverters `Iin /= nInverters` divides by zero (the result of the C++
code is then an infinity or NaN); a negative number of inverters is computed with as it is. -/
def getLosses (c : Converter) (vin iin : ℚ) : Outcome ℚ :=
  match c.nInverters with
  | .ok n => if n = 0 then .ub "division by zero inverters" else .ok (c.lossPerInverter vin (iin / n) * n)
  | .throw e => .throw e
  | .ub w => .ub w

end Converter
end Slide

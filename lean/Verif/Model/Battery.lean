import Verif.Model.Modules
import Verif.Model.Converter
import Verif.Model.Cooling

/-!
Model of `Battery` – `/repo/src/system/Battery.{hpp,cpp}`: one module `cells` that stands for `ns × np` copies, a
converter and an HVAC cooling system.  Polymorphic in the type of the module.

Not modelled: the thermal model (`settings::T_MODEL` is 0, so `thermalModel` only returns the temperature,
`Battery.cpp:129-130`), data storage.
-/

namespace Slide
open StorageUnit

/-- `class Battery` – `Battery.hpp:22-36`. -/
structure Battery (M : Type) where
  cells : M
  cool : CoolSystem
  conv : Converter
  ns : ℕ := 1
  np : ℕ := 1
  convlosses : ℚ := 0
  convlossesTot : ℚ := 0

namespace Battery
variable {M : Type} [StorageUnit M]

/-- `setSeriesandParallel` – `Battery.cpp:22-26`. -/
def setSeriesParallel (b : Battery M) (s p : ℕ) : Battery M := { b with ns := s, np := p }

/-- `Battery::setModule` on a battery without module – `Battery.cpp:28-84`.  `hasParent` tells whether the module
already has a parent, `cool` is its cooling system.  The HVAC is sized with twice the losses of the converter at
maximal voltage and 1C *before* the converter is scaled. -/
def setModule (m : M) (hasParent : Bool) (mcool : Option CoolSystem) (ns np : ℕ) : Outcome (Battery M) :=
  if hasParent then .throw 10
  else
    match mcool with
    | none => .throw 10
    | some mc =>
      if mc.kind = .hvac then .throw 10
      else
        let vmax := (lim m).Vmax * ns
        let cap := Cap m * np
        (Converter.init.getLosses vmax cap).bind fun q =>
          (CoolSystem.makeHVAC (nCells m * ns * np) mc.strategy (q * 2)).bind fun c =>
            .ok { cells := m, cool := c, conv := Converter.init.setPower (cap * vmax), ns := ns, np := np }

/-- `Cap` – `Battery.hpp:45`. -/
def Cap (b : Battery M) : ℚ := StorageUnit.Cap b.cells * b.np
/-- `I` – `Battery.hpp:50`. -/
def I (b : Battery M) : ℚ := StorageUnit.I b.cells * b.np
/-- `V` – `Battery.hpp:71`. -/
def V (b : Battery M) : ℚ := StorageUnit.V b.cells * b.ns
/-- `getOCV` – `Battery.hpp:70`. -/
def OCV (b : Battery M) : Option ℚ := (StorageUnit.OCV b.cells).map (· * b.ns)
/-- `getRtot` – `Battery.hpp:51`. -/
def Rtot (b : Battery M) : ℚ := StorageUnit.Rtot b.cells * b.ns / b.np
/-- `Vmin, VMIN, Vmax, VMAX` – `Battery.hpp:46-49`. -/
def lim (b : Battery M) : VLimits where
  Vmin := (StorageUnit.lim b.cells).Vmin * b.ns
  Vmax := (StorageUnit.lim b.cells).Vmax * b.ns
  VMIN := (StorageUnit.lim b.cells).VMIN * b.ns
  VMAX := (StorageUnit.lim b.cells).VMAX * b.ns

/-- `setCurrent` – `Battery.hpp:59-62`.  With 0 parallel copies the code divides by zero. -/
def setCurrent (b : Battery M) (i : ℚ) (check : Bool) : Outcome Status × Battery M :=
  if b.np = 0 then (.ub "division by zero copies", b)
  else
    let r := StorageUnit.setCurrent b.cells (i / b.np) check
    (r.1, { b with cells := r.2 })

/-- `getStates` – `Battery.cpp:93-98`. -/
def getStates (b : Battery M) : List ℚ := StorageUnit.getStates b.cells ++ [b.cool.T]

/-- `setStates` – `Battery.cpp:106-111`: the temperature is taken from the *last* element of the remaining span, whatever
the status; the span is not advanced over it. -/
def setStates (b : Battery M) (s : List ℚ) (check : Bool) : Outcome (Status × List ℚ) × Battery M :=
  match StorageUnit.setStates b.cells s check with
  | (.ok (st, s'), m') =>
    match s'.getLast? with
    | none => (.ub "back() of an empty span", { b with cells := m' })
    | some t =>
      match b.cool.setT t with
      | (.ok (), c') => (.ok (st, s'), { b with cells := m', cool := c' })
      | (.throw e, c') => (.throw e, { b with cells := m', cool := c' })
      | (.ub w, c') => (.ub w, { b with cells := m', cool := c' })
  | (.throw e, m') => (.throw e, { b with cells := m' })
  | (.ub w, m') => (.ub w, { b with cells := m' })

/-- `timeStep_CC` – `Battery.cpp:200-226` (the control of the cooling system, lines 218-220, takes the temperatures of
the module's children, here the arguments `tl`, `tg` of the class instance below are the module's temperature). -/
def timeStepWith (b : Battery M) (dt : ℚ) (n : ℕ) (tl tg : M → ℚ) : Outcome Unit × Battery M :=
  match StorageUnit.timeStep b.cells dt n with
  | (.ok (), m') =>
    let b' := { b with cells := m' }
    match b.conv.getLosses b'.V b'.I with
    | .ok l =>
      let e := l * dt * n
      (.ok (), { b' with
        convlosses := b.convlosses + e
        convlossesTot := b.convlossesTot + e
        cool := b.cool.control (tl m') (max (tg m') b.cool.T) })
    | .throw c => (.throw c, b')
    | .ub w => (.ub w, b')
  | (.throw c, m') => (.throw c, { b with cells := m' })
  | (.ub w, m') => (.ub w, { b with cells := m' })

/-- `getAndResetConvLosses` – `Battery.cpp:113-118`. -/
def getAndResetConvLosses (b : Battery M) : ℚ × Battery M := (b.convlosses, { b with convlosses := 0 })

/-- `resetConvLosses` – `Battery.hpp:67`. -/
def resetConvLosses (b : Battery M) : Battery M := { b with convlosses := 0 }

instance : StorageUnit (Battery M) where
  V := V
  I := I
  T b := b.cool.T
  Cap := Cap
  OCV := OCV
  Rtot := Rtot
  lim := lim
  checkVoltage b := StorageUnit.checkVoltage b.cells
  Vhigh b := StorageUnit.Vhigh b.cells * b.ns
  Vlow b := StorageUnit.Vlow b.cells * b.ns
  nCells b := StorageUnit.nCells b.cells * b.ns * b.np
  setCurrent := setCurrent
  getStates := getStates
  setStates := setStates
  timeStep b dt n := b.timeStepWith dt n StorageUnit.T StorageUnit.T

end Battery
end Slide

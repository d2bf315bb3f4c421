import Verif.Model.Outcome
import Mathlib.Algebra.Order.Ring.Rat
import Mathlib.Algebra.Order.Group.Abs

/-!
Model of the cooling systems – `/repo/src/cooling/CoolSystem*.{hpp,cpp}` and of the collection of their operating
energy – `Module::getCoolingLoad`, `Battery::getCoolingLoad`.

Not modelled here: the heat-transfer coefficient `getH` (see `CoolFan`), data storage.
-/

namespace Slide

/-- The dynamic type of a cooling system. -/
inductive CoolKind where
  | conventional  -- `CoolSystem`
  | hvac          -- `CoolSystem_HVAC`
  | openSys       -- `CoolSystem_open`
  deriving DecidableEq, Repr

/-- The members of `CoolSystem` (`CoolSystem.hpp:27-52`), `CoolSystem_HVAC` (`CoolSystem_HVAC.hpp:27-36`) and the
cumulative data used here (`data_storage/cool_data.hpp:22-32, 57-61`).  The AC members are unused for other kinds. -/
structure CoolSystem where
  kind : CoolKind
  T : ℚ
  flowrate : ℚ
  rho : ℚ := 1225 / 1000
  cp : ℚ := 1005
  vol : ℚ
  strategy : ℤ
  Ton : ℚ
  Toff : ℚ
  flr : ℚ
  propT : ℚ
  gain : ℚ
  Across : ℚ
  eta : ℚ := 1 / 2
  -- HVAC
  Qac : ℚ := 0
  COP : ℚ := 3
  acTon : ℚ := 0
  acToff : ℚ := 0
  acQ : ℚ := 0
  acPropT : ℚ := 0
  acGain : ℚ := 0
  -- cumulative data
  Qevac : ℚ := 0
  Qabs : ℚ := 0
  tLife : ℚ := 0
  E : ℚ := 0
  Eoperate : ℚ := 0
  Eac : ℚ := 0
  QcoolAC : ℚ := 0
  deriving DecidableEq, Repr

namespace CoolSystem

/-- `settings::T_ENV` – `/repo/src/settings/settings.hpp:70` (15 °C). -/
def T_ENV : ℚ := 273 + 15

/-- `CoolSystem::CoolSystem(Ncells, control)` – `CoolSystem.cpp:20-108` (the delegating constructor sets the control
thresholds). -/
def make (n : ℕ) (control : ℤ) : CoolSystem where
  kind := .conventional
  T := T_ENV
  flowrate := 5 / 10000 * n
  vol := 1 * n
  strategy := control
  Ton := 273 + 35
  Toff := max (273 + 25) (T_ENV + 5)
  flr := 5 / 10000 * n
  propT := 273 + 25
  gain := 1 / ((273 + 35) - (273 + 25))
  Across := 25 / 1000000 * n

/-- `CoolSystem_open::CoolSystem_open(Ncells, control)` – `CoolSystem_open.cpp:20-23`. -/
def makeOpen (n : ℕ) (control : ℤ) : CoolSystem := { make n control with kind := .openSys, flowrate := 0 }

/-- `CoolSystem_HVAC::CoolSystem_HVAC(Ncells, control, Q0)` – `CoolSystem_HVAC.cpp:43-73`.  With 0 cells the volume is
`0 * Q0 / 0` (NaN in C++), made explicit as undefined. -/
def makeHVAC (n : ℕ) (control : ℤ) (Q0 : ℚ) : Outcome CoolSystem :=
  if n = 0 then .ub "coolant volume 0/0"
  else
    let q : ℚ := 75 / 10 * n + Q0
    let ton : ℚ := if control = 3 then 273 + 30 else 273 + 25
    let ton : ℚ := if control = 5 then 273 + 30 else ton
    let pT : ℚ := if control = 5 then 273 + 25 else 273 + 20
    .ok { make n control with
      kind := .hvac
      vol := (1 * n) * q / (75 / 10 * n)
      Qac := q, acQ := q, acTon := ton, acToff := 273 + 20, acPropT := pT, acGain := 1 / (ton - pT) }

/-- `setT` – `CoolSystem.cpp:110-123`. -/
def setT (c : CoolSystem) (t : ℚ) : Outcome Unit × CoolSystem :=
  if t < 273 ∨ t > 273 + 75 then (.throw 99, c) else (.ok (), { c with T := t })

/-- `setControl` – `CoolSystem.hpp:74`. -/
def setControl (c : CoolSystem) (k : ℤ) : CoolSystem := { c with strategy := k }

/-- The on/off rule of strategies 2 and 3 – `CoolSystem.cpp:242-245, 251-254`. -/
def onOff (c : CoolSystem) (t : ℚ) : CoolSystem :=
  let c := if t ≥ c.Ton then { c with flowrate := c.flr } else c
  if t ≤ c.Toff then { c with flowrate := 0 } else c

/-- The proportional rule of strategies 4 and 5 – `CoolSystem.cpp:259-264, 269-274`. -/
def prop (c : CoolSystem) (t : ℚ) : CoolSystem :=
  let terr := max (t - c.propT) 0
  if c.gain * terr > 2 / 10 then { c with flowrate := c.flr * c.gain * terr } else { c with flowrate := 0 }

/-- `CoolSystem::control` – `CoolSystem.cpp:216-280`. -/
def controlFan (c : CoolSystem) (local_ global : ℚ) : CoolSystem :=
  if c.strategy = 1 then c
  else if c.strategy = 2 then c.onOff local_
  else if c.strategy = 3 then c.onOff global
  else if c.strategy = 4 then c.prop local_
  else if c.strategy = 5 then c.prop global
  else c

/-- The proportional AC rule – `CoolSystem_HVAC.cpp:225-233, 239-247`.  The threshold uses the gain of the *fan*
(`control_prop_gain`), as in the code. -/
def acProp (c : CoolSystem) (t : ℚ) : CoolSystem :=
  let terr := max (t - c.acPropT) 0
  if c.T ≤ c.acToff then { c with Qac := 0 }
  else if c.gain * terr > 2 / 10 then { c with Qac := c.acQ * min (c.acGain * terr) 1 }
  else { c with Qac := 0 }

/-- The AC part of `CoolSystem_HVAC::control` – `CoolSystem_HVAC.cpp:200-253`. -/
def controlAC (c : CoolSystem) (global : ℚ) : CoolSystem :=
  if c.strategy = 1 then (if c.T < c.acToff then { c with Qac := 0 } else { c with Qac := c.acQ })
  else if c.strategy = 2 then
    (if c.T ≤ c.acToff then { c with Qac := 0 } else if c.T ≥ c.acTon then { c with Qac := c.acQ } else c)
  else if c.strategy = 3 then
    (if c.T ≤ c.acToff then { c with Qac := 0 } else if global ≥ c.acTon then { c with Qac := c.acQ } else c)
  else if c.strategy = 4 then c.acProp c.T
  else if c.strategy = 5 then c.acProp global
  else c

/-- Virtual `control`: `CoolSystem.cpp:216`, `CoolSystem_HVAC.cpp:161-254`, `CoolSystem_open.cpp:27-30`. -/
def control (c : CoolSystem) (local_ global : ℚ) : CoolSystem :=
  match c.kind with
  | .conventional => c.controlFan local_ global
  | .hvac => (c.controlFan local_ global).controlAC global
  | .openSys => { c with flowrate := 0 }

/-- The electrical power of the fan – `CoolSystem.cpp:206-207`, `CoolSystem_HVAC.cpp:109-110`. -/
def fanPower (c : CoolSystem) : ℚ :=
  let v := c.flowrate / c.Across
  (c.rho * c.Across * v * v * v / 2) / c.eta

/-- `getACoperatingPower(Qac, t)` (an energy) – `CoolSystem_HVAC.cpp:130-159`. -/
def acEnergy (c : CoolSystem) (q t : ℚ) : ℚ :=
  if q = 0 ∨ t = 0 then 0
  else if T_ENV > c.T - 5 then c.COP * q * t
  else
    let flr := q / (c.rho * c.cp * (c.T - T_ENV))
    let acr := c.Across * 2
    let v := flr / acr
    (c.rho * acr * v ^ 3 / 2) / c.eta * t

/-- `dstate(Qtotal, Qchildren, t)`: the new coolant temperature (not set) – `CoolSystem.cpp:174-214` with
`CoolSystemData.hpp:26-36`; `CoolSystem_HVAC.cpp:75-128`. -/
def dstate (c : CoolSystem) (qtot qch t : ℚ) : Outcome ℚ × CoolSystem :=
  match c.kind with
  | .hvac =>
    if |qtot - qch| > 1 / 1000000000000 then (.throw 10, c)
    else
      let q := qtot - c.Qac * t
      let e := c.fanPower * t
      let eac := c.acEnergy c.Qac t
      (.ok (c.T + q / (c.rho * c.cp * c.vol)),
        { c with
          Qevac := c.Qevac + qch, Qabs := c.Qabs + q, tLife := c.tLife + t, E := c.E + e,
          Eoperate := c.Eoperate + (e + eac), Eac := c.Eac + eac, QcoolAC := c.QcoolAC + c.Qac * t })
  | _ =>
    (.ok (c.T + qtot / (c.rho * c.cp * c.vol)),
      { c with
        Qevac := c.Qevac + qch, Qabs := c.Qabs + qtot, tLife := c.tLife + t, E := c.E + c.fanPower * t,
        Eoperate := c.Eoperate + c.fanPower * t })

/-- `reset_Eoperation` – `CoolSystem.hpp:72`. -/
def resetE (c : CoolSystem) : CoolSystem := { c with Eoperate := 0 }

end CoolSystem

/-! ### The cooling systems of a tree of modules -/

/-- A storage unit seen by `getCoolingLoad`: a cell (or any unit that is not a `Module`) or a module with its
cooling system. -/
inductive CoolTree where
  | cell
  | module (cool : CoolSystem) (kids : List CoolTree)

namespace CoolTree

mutual
/-- `Module::getCoolingLoad` – `/repo/src/modules/Module.cpp:482-507`: the returned energy and the tree afterwards.  For
a unit that is not a module the dynamic cast fails and nothing is added. -/
def load : CoolTree → ℚ × CoolTree
  | .cell => (0, .cell)
  | .module c ks =>
    let r := loadKids ks
    (c.Eoperate + r.1, .module c.resetE r.2)
termination_by structural t => t
/-- The loop over the children – `Module.cpp:499-504`, including the second reset of the child's system. -/
def loadKids : List CoolTree → ℚ × List CoolTree
  | [] => (0, [])
  | k :: ks =>
    let r := load k
    let s := loadKids ks
    (r.1 + s.1, (match r.2 with
      | .cell => .cell
      | .module c ks' => .module c.resetE ks') :: s.2)
termination_by structural ks => ks
end

end CoolTree

/-- The cooling part of a `Battery` – `/repo/src/system/Battery.hpp:25-26`. -/
structure BatteryCool where
  cool : CoolSystem
  cells : CoolTree

/-- `Battery::getCoolingLoad` – `Battery.cpp:177-198`. -/
def BatteryCool.load (b : BatteryCool) : ℚ × BatteryCool :=
  let r := b.cells.load
  (b.cool.Eoperate + r.1, { cool := b.cool.resetE, cells := r.2 })

end Slide

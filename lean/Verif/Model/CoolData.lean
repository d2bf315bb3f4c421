import Verif.Model.Cooling
import Verif.Model.Containers
import Verif.Model.DataStorage

/-!
Model of the data recording of the cooling systems – `/repo/src/cooling/data_storage/*`, `CoolSystem::storeData`,
`writeData` (`/repo/src/cooling/CoolSystem.cpp:282-328`), `CoolSystem_HVAC::storeData`, `writeData`
(`CoolSystem_HVAC.cpp:256-309`) and of the histogram document of `Procedure::checkMod`
(`/repo/src/procedures/Procedure.cpp:28-37, 560-579`).

The compile-time setting `DATASTORE_COOL` (`/repo/src/settings/settings.hpp:62`) is the parameter `mode`: 0 nothing,
1 histograms, 2 one data point per call.  A division by zero cells or zero time cannot happen in `storeData` (both are
excluded before).  A file is a list of tokens as in `DataStorage`.
-/

namespace Slide

/-- `CoolSystemInst` – `cool_data.hpp:34-40`. -/
structure CoolPoint where
  time : ℚ
  Q : ℚ
  E : ℚ
  flr : ℚ
  deriving DecidableEq, Repr

/-- `CoolSystemHist` – `cool_data.hpp:42-47`. -/
structure CoolHist where
  Q : Histogram := .default
  flr : Histogram := .default
  E : Histogram := .default
  T : Histogram := .default
  deriving DecidableEq, Repr

/-- A cooling system with its recording: the members of `CoolSystem`, `Ncells` (`CoolSystem.hpp:36`), the part of the
cumulative data that `Cooling` leaves out (`cool_data.hpp:24, 30-31`; `sys.E` is `cData.E`), the recorded data, and the
member `HVACdata.tData`, which has the *type of the data of a conventional system* (`CoolSystem_HVACData.hpp:22`). -/
structure CoolRec where
  sys : CoolSystem
  N : ℕ
  qev : ℚ := 0
  time : ℚ := 0
  timeLife : ℚ := 0
  hist : CoolHist := {}
  points : List CoolPoint := []
  acHist : CoolHist := {}
  acPoints : List CoolPoint := []
  file : List Tok := []
  deriving DecidableEq, Repr

namespace CoolRec

/-- `settings::DATASTORE_NHIST` – `settings.hpp:49`. -/
def NHIST : ℕ := 100

/-- `CoolSystemData::initialise(cs, CoolSystemHist_t&)` – `CoolSystemData.cpp:34-45`.  It is called by the default
constructor (`CoolSystem.cpp:77`), when the cross section is that of one cell (`CoolSystem.cpp:57`). -/
def initHist : Outcome CoolHist := do
  let flrMax : ℚ := 11 / 10 * (5 / 10000)
  let across : ℚ := 25 / 1000000
  let vMax := flrMax / across
  let eMax := 1225 / 1000 * across * vMax * vMax * vMax / (1 / 2)
  let flr ← Histogram.make 0 flrMax NHIST
  let q ← Histogram.make 0 5 NHIST
  let t ← Histogram.make 273 (273 + 100) NHIST
  let e ← Histogram.make 0 eMax NHIST
  pure { Q := q, flr := flr, E := e, T := t }

/-- A system for `n` cells with its recording.  `CoolSystem_HVACData::initialise` does nothing, because its argument has
the wrong type for the overload that makes the histograms (`CoolSystem_HVACData.hpp:46-49`, `.cpp:16-19`). -/
def init (mode : ℕ) (sys : CoolSystem) (n : ℕ) : Outcome CoolRec :=
  if mode = 1 then do
    let h ← initHist
    pure { sys := sys, N := n, hist := h }
  else .ok { sys := sys, N := n }

/-- `dstate` with the accounting of the data-collection interval – `CoolSystemData.hpp:26-36`,
`CoolSystem_HVAC.cpp:113-121`. -/
def dstate (c : CoolRec) (qtot qch t : ℚ) : Outcome ℚ × CoolRec :=
  match c.sys.dstate qtot qch t with
  | (.ok r, s) =>
    (.ok r, { c with sys := s, qev := c.qev + qch, time := c.time + t, timeLife := c.timeLife + t })
  | (o, s) => (o, { c with sys := s })

/-- `CoolSystemData::storeData(cs, CoolSystemHist_t&)` – `CoolSystemData.cpp:48-63`. -/
def storeHist (c : CoolRec) : Outcome Unit × CoolRec :=
  let r : Outcome CoolHist := do
    let e ← c.hist.E.add (c.sys.E / c.time / c.N)
    let t ← c.hist.T.add c.sys.T
    let q ← c.hist.Q.add (c.qev / c.time / c.N)
    let f ← c.hist.flr.add (c.sys.flowrate / c.N)
    pure { Q := q, flr := f, E := e, T := t }
  match r with
  | .ok h => (.ok (), { c with hist := h, sys := { c.sys with E := 0 }, qev := 0, time := 0 })
  | .throw k => (.throw k, c)
  | .ub s => (.ub s, c)

/-- `CoolSystemData::storeData(cs, CoolSystemInst_t&)` – `CoolSystemData.cpp:65-71`. -/
def storeInst (c : CoolRec) : CoolRec :=
  { c with points := c.points ++ [⟨c.timeLife, c.qev / c.time, c.sys.E / c.time, c.sys.flowrate⟩] }

/-- `CoolSystemData::storeData(cs)` – `CoolSystemData.cpp:23-27`. -/
def storeFan (mode : ℕ) (c : CoolRec) : Outcome Unit × CoolRec :=
  if c.time ≠ 0 then
    if mode = 1 then c.storeHist
    else if mode = 2 then (.ok (), c.storeInst)
    else (.ok (), c)
  else (.ok (), c)

/-- `CoolSystem_HVACData::storeData(cs)` – `CoolSystem_HVACData.cpp:21-25`: the call `storeData(cs, tData)` selects the
generic overload (`CoolSystem_HVACData.hpp:52-58`), which does nothing, in every mode. -/
def storeAC (c : CoolRec) : CoolRec := c

/-- `CoolSystem::storeData(n)`, `CoolSystem_HVAC::storeData(n)` – `CoolSystem.cpp:282-313`,
`CoolSystem_HVAC.cpp:256-290` (the checks of the latter are those of the former). -/
def store (mode : ℕ) (c : CoolRec) (n : ℕ) : Outcome Unit × CoolRec :=
  if mode = 1 ∧ (n ≠ c.N ∨ c.N = 0) then (.throw 10, c)
  else if c.sys.kind = .hvac then storeFan mode c.storeAC
  else storeFan mode c

/-- `operator<<(ostream, Histogram)` – `Histogram.hpp:72-92`: edges and bins; the two headings are the token `states`. -/
def printHist (h : Histogram) : Outcome (List Tok) := do
  let es ← h.edges
  pure ([.states, .nl] ++ es.flatMap (fun x => [.num (fmt6 x), .comma]) ++ [.nl, .states, .nl] ++
    h.bins.flatMap (fun (b : ℕ) => [.num (b : ℚ), .comma]) ++ [.nl])

/-- `CoolSystemData::writeData(cs, prefix, CoolSystemHist_t&)` – `CoolSystemData.cpp:101-117`: what is appended.  (The
line ends of the four empty lines are collected.) -/
def histText (c : CoolRec) : Outcome (List Tok) := do
  let t ← printHist c.hist.T
  let q ← printHist c.hist.Q
  let f ← printHist c.hist.flr
  let e ← printHist c.hist.E
  pure ([.num c.N, .nl, .num (fmt6 c.sys.E), .nl, .nl, .nl] ++ t ++ [.nl] ++ q ++ [.nl] ++ f ++ [.nl] ++ e ++
    [.nl, .nl, .nl])

/-- One row – `CoolSystemData.cpp:122-124`. -/
def row (p : CoolPoint) : List Tok :=
  [.num (fmt6 p.time), .comma, .num (fmt6 p.Q), .comma, .num (fmt6 p.E), .comma, .num (fmt6 p.flr), .nl]

/-- `writeData(prefix)` – `CoolSystem.cpp:315-328`, `CoolSystemData.cpp:73-128`, `CoolSystem_HVAC.cpp:292-308` (the second
call again selects the generic overload, `CoolSystem_HVACData.hpp:64-70`, and writes nothing).  `canOpen`: the file can be
opened for appending. -/
def write (mode : ℕ) (c : CoolRec) (canOpen : Bool) : Outcome Unit × CoolRec :=
  if mode = 1 then
    if canOpen then
      match c.histText with
      | .ok ts => (.ok (), { c with file := c.file ++ ts })
      | .throw k => (.throw k, c)
      | .ub s => (.ub s, c)
    else (.throw 11, c)
  else if mode = 2 then
    if canOpen then (.ok (), { c with file := c.file ++ c.points.flatMap row, points := [] })
    else (.throw 11, c)
  else (.ok (), c)

/-- The histograms of a system in the check-up document – `Procedure.cpp:560-578` with `GetHistograms`
(`Procedure.cpp:28-37`): heading and histogram.  For an HVAC system `GetHistograms(HVACdata.tData)` is made from data of a
conventional system, so that `.Qac` is the static `EmptyHistogram` (`Histogram.hpp:94`); both AC sections print `.Qac`. -/
def checkHist (c : CoolRec) : List (String × Histogram) :=
  [("Temperature", c.hist.T), ("Cooling power per cell", c.hist.Q), ("Flow rate per cell", c.hist.flr),
    ("Fan power per cell", c.hist.E)] ++
    (if c.sys.kind = .hvac then [("Qac", Histogram.default), ("Eac", Histogram.default)] else [])

end CoolRec
end Slide

import Verif.Model.Unit
import Verif.Model.DataStorage

/-!
Model of the recording of a module's own data – `Module::storeData`, `Module::writeData`
(`/repo/src/modules/Module.hpp:58-59, 132-165`) when `DATASTORE_MODULE` is `storeTimeData`
(`/repo/src/settings/enum_definitions.hpp:27-31`; the default is `noStorage`).  The data of the cells is modelled in
`DataStorage`, that of the cooling system in `CoolData`.
-/

namespace Slide

/-- A module with its own recording: `st_module` (`Module.hpp:58`), `data` (`Module.hpp:59`) and its file
`<prefix>_<full ID>_ModuleData.csv`. -/
structure ModRec (U : Type) where
  unit : U
  stTime : ℚ := 0
  stAh : ℚ := 0
  stWh : ℚ := 0
  data : List ℚ := []
  file : List Tok := []

namespace ModRec
variable {U : Type} [StorageUnit U]

/-- `setCurrent`: changes the unit only. -/
def setCurrent (r : ModRec U) (i : ℚ) (b : Bool) : Outcome Status × ModRec U :=
  let p := StorageUnit.setCurrent r.unit i b
  (p.1, { r with unit := p.2 })

/-- `timeStep_CC`: no statement of `Module_s::timeStep_CC` or `Module_p::timeStep_CC`
(`/repo/src/modules/Module_s.cpp`, `Module_p.cpp`) touches `st_module`. -/
def timeStep (r : ModRec U) (dt : ℚ) (n : ℕ) : Outcome Unit × ModRec U :=
  let p := StorageUnit.timeStep r.unit dt n
  (p.1, { r with unit := p.2 })

/-- `storeData` – `Module.hpp:140-141`. -/
def store (r : ModRec U) : ModRec U :=
  { r with data := r.data ++ [r.stAh, r.stWh, r.stTime, StorageUnit.I r.unit, StorageUnit.V r.unit,
      StorageUnit.T r.unit] }

/-- `writeData` – `Module.hpp:150-165`: `free::write_data(file, data, 6)` appends to the file and clears the data. -/
def write (r : ModRec U) (canOpen : Bool) : Outcome Unit × ModRec U :=
  if canOpen then
    let p := writeVec r.data 6
    (.ok (), { r with file := r.file ++ p.1, data := p.2 })
  else (.throw 11, r)

end ModRec
end Slide

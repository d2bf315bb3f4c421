import Verif.Model.Cycler
import Verif.Model.Structure

/-!
Model of the two check-ups that write documents, `Procedure::checkUp`, `Procedure::checkUp_prep` and `Procedure::checkMod`,
`/repo/src/procedures/Procedure.cpp:412-604`.

A document is a list of lines, a line a list of fields (the text between the commas).  Numbers are kept exactly; the six
digits of `operator<<` are the subject of C29.  The histograms of `checkMod` are left out (`DATASTORE_COOL` is 0 by default,
`settings.hpp`).  That the copies of the cells are never freed is not modelled.
-/

namespace Slide
open StorageUnit

/-- The text between two commas. -/
inductive Field where
  | str (s : List Char)
  | num (q : ℚ)
  deriving DecidableEq, Repr

/-- What `checkUp` asks a cell for, beyond the interface of storage units. -/
class CheckCell (C : Type) extends StorageUnit C where
  /-- `typeid(cell) == typeid(Cell_SPM)` -/
  isSPM : C → Bool
  /-- `getVariations()` – `Cell.hpp:107` (four zeros), `Cell_SPM.hpp:172` -/
  variations : C → ℚ × ℚ × ℚ × ℚ
  /-- `getThroughputs()` – `Cell.hpp:105`, `Cell_SPM.hpp:236`, `Cell_ECM.hpp:88` -/
  throughputs : C → Thr
  /-- `viewStates()` -/
  view : C → List ℚ

/-- `Cell_ECM`: no variations; the state with the counters – `Cell_ECM.hpp:66, 88`. -/
instance {n : ℕ} : CheckCell (ECM n) where
  isSPM _ := false
  variations _ := (0, 0, 0, 0)
  throughputs c := ⟨c.st.time, c.st.Ah, c.st.Wh⟩
  view c := ECM.getStates c

/-- The cells of a unit as `visit_SUs(su, copyCells)` collects them (`Procedure.cpp:449-454`), with their full
identifications.  The copies keep the parent pointers and thus the identification (C28). -/
class HasCells (U C : Type) where
  cells : U → List (List Char × C)

/-- A single cell is visited itself. -/
instance {n : ℕ} : HasCells (ECM n) (ECM n) where
  cells c := [("ECM".toList, c)]

/-- `settings::nch` – `settings.hpp`. -/
def nch : ℕ := 5

/-- The first line – `Procedure.cpp:468-469`: between `CycleNumber` and `time [s]` there is no comma. -/
def checkHeading : List Field :=
  ["ID", "var_cap", "var_R", "var_degSEI", "var_degLAM", "Ah", "CycleNumbertime [s]", "Current throughput [Ah]",
    "Energy throughput [Wh]", "Capacity [Ah]", "States"].map fun s => .str s.toList

/-- The fields of a row before the capacity is measured – `Procedure.cpp:472-480`. -/
def rowStart {C : Type} [CheckCell C] (id : List Char) (Ah : ℚ) (nrCycle : ℤ) (c : C) : List Field :=
  let v := CheckCell.variations c
  [.str id, .num v.1, .num v.2.1, .num v.2.2.1, .num v.2.2.2, .num Ah, .num nrCycle]

section
variable {U C : Type} [CheckCell C]

/-- The loop over the copies of the cells – `Procedure.cpp:471-494`.  An exception ends the line at the comma behind the
cycle number (an empty field). -/
def checkRows (fuel start : ℕ) (Ah : ℚ) (nrCycle : ℤ) : List (List Char × C) → Outcome Unit × List (List Field)
  | [] => (.ok (), [])
  | (id, c) :: rest =>
    let th := CheckCell.throughputs c
    match Cyc.testCapacity fuel { su := c } 0 0 with
    | (.ok cap, c', _, _) =>
      let row := rowStart id Ah nrCycle c ++ [.num th.time, .num th.Ah, .num th.Wh, .num cap]
        ++ ((CheckCell.view c'.su).drop start).map .num
      match checkRows fuel start Ah nrCycle rest with
      | (o, rows) => (o, row :: [] :: rows)
    | (.throw e, _) => (.throw e, [rowStart id Ah nrCycle c ++ [.str []]])
    | (.ub w, _) => (.ub w, [rowStart id Ah nrCycle c ++ [.str []]])

variable [StorageUnit U]

/-- `Procedure::checkUp_prep` – `Procedure.cpp:502-521`; how the charge ends is not looked at. -/
def checkUpPrep (fuel : ℕ) (u : U) : Outcome Unit × U :=
  match Cyc.CC fuel { su := u, diagnostic := true } (-(Cap u) / 25) (3/4 * (lim u).Vmax + 1/4 * (lim u).Vmin) TIME_INF 2 0
    Thr.zero with
  | (.ok _, c, _) => (.ok (), c.su)
  | (.throw e, c, _) => (.throw e, c.su)
  | (.ub w, c, _) => (.ub w, c.su)

variable [HasCells U C]

/-- `Procedure::checkUp` – `Procedure.cpp:412-500`.  `file` is the contents of `<ID>_checkUp.csv` before; it is opened for
appending.  `cells[0]` of an empty vector is undefined. -/
def checkUp (C : Type) [CheckCell C] [HasCells U C] (fuel : ℕ) (u : U) (Ah : ℚ) (nrCycle : ℤ) (file : List (List Field)) :
    Outcome Unit × U × List (List Field) :=
  match checkUpPrep fuel u with
  | (.ok (), u1) =>
    match (HasCells.cells u1 : List (List Char × C)) with
    | [] => (.ub "first element of an empty vector", u1, file)
    | (id, c) :: rest =>
      let start := if CheckCell.isSPM c then 2 * nch else 0
      match checkRows fuel start Ah nrCycle ((id, c) :: rest) with
      | (o, rows) => (o, u1, file ++ checkHeading :: rows)
  | (.throw e, u1) => (.throw e, u1, file)
  | (.ub w, u1) => (.ub w, u1, file)

end

/-! ### Check-up of the modules -/

/-- The totals of a cooling system: time [s], heat evacuated from the children [J], heat absorbed in the coolant [J]. -/
structure CoolTotals where
  time : ℚ
  evac : ℚ
  absorbed : ℚ
  deriving DecidableEq

/-- `file_overall << …` – `Procedure.cpp:548-552`. -/
def modHeading : List Field :=
  ["Full ID", "Number of cells", "Total time", "Total evacuated heat", "Total absorbed heat"].map fun s => .str s.toList

/-- The document so far, or how the program ended. -/
structure ModDoc where
  out : Outcome Unit
  rows : List (List Field)

/-- The lambda `writeModMain` with `writeModData` – `Procedure.cpp:554-589`; `cool` gives the cooling system of a module
or battery (`none`: the pointer is null, as for modules made without one). -/
def modRow {α : Type} (cool : α → Option CoolTotals) (mem : Obj α) (fuel : ℕ) (d : ModDoc) (o : Obj α) : ModDoc :=
  if o.kind = .cell then d
  else
    match d.out with
    | .ok () =>
      match Obj.fullID mem fuel o with
      | .ok id =>
        match o.getNcells with
        | .ok n =>
          match cool o.data with
          | some t => ⟨.ok (), d.rows ++ [[.str id, .num n, .num t.time, .num t.evac, .num t.absorbed]]⟩
          | none => ⟨.ub "null pointer dereference", d.rows ++ [[.str id, .num n, .str []]]⟩
        | .throw e => ⟨.throw e, d.rows⟩
        | .ub w => ⟨.ub w, d.rows⟩
      | .throw e => ⟨.throw e, d.rows⟩
      | .ub w => ⟨.ub w, d.rows⟩
    | _ => d

/-- `Procedure::checkMod` – `Procedure.cpp:523-604`: the file is written from scratch. -/
def checkMod {α : Type} (cool : α → Option CoolTotals) (mem : Obj α) (fuel : ℕ) (su : Obj α) : ModDoc :=
  su.visit (modRow cool mem fuel) ⟨.ok (), [modHeading]⟩

end Slide

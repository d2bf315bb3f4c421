import Verif.Model.Outcome
import Mathlib.Data.Int.Log
import Mathlib.Data.Rat.Floor

/-!
Model of the recording of cell data and of its export to `csv` files.

* `CellDataStorage<storeTimeData>` — `src/types/data_storage/CellDataStorage.hpp`, lines 56-78
  (the level selected in `src/settings/settings.hpp`, line 51)
* `CellDataWriter::writeData`, `writeDataImpl`, `writeVarAndStates` —
  `src/types/data_storage/CellDataWriter.hpp`, lines 32-72
* `free::write_data`, `free::openFile` — `src/utility/free_functions.hpp`, lines 48-61, 245-259
* `Cycler::storeData`, `Cycler::writeData` — `src/procedures/Cycler.cpp`, lines 40-57
* `Module::storeData`, `Module::writeData` — `src/modules/Module.hpp`, lines 132-173

Simplifications: a file is a list of tokens, not of characters: a number written by
`file << x` is the token `num (fmt6 x)`, where `fmt6` is the rounding to six significant digits of
the default stream precision.  Whether a file can be opened is an input of each call.  The data of
modules and cooling systems is not stored at the configured levels (`DATASTORE_MODULE = noStorage`,
`DATASTORE_COOL = 0`).
-/

namespace Slide

/-- What the writer puts in a file: numbers, separators, line ends and the word `States:`. -/
inductive Tok where
  | num (x : ℚ)
  | comma
  | nl
  | states
  deriving Repr, DecidableEq

/-- Rounding to the nearest integer, halves to even (what `printf` does with an exact half). -/
def roundEven (x : ℚ) : ℤ :=
  let n := ⌊x⌋
  if x - n < 1 / 2 then n
  else if 1 / 2 < x - n then n + 1
  else if n % 2 = 0 then n else n + 1

/-- `file << x` with the default precision: `x` rounded to six significant digits. -/
def fmt6 (x : ℚ) : ℚ :=
  if x = 0 then 0
  else
    let e : ℤ := Int.log 10 |x| - 5
    roundEven (x / 10 ^ e) * 10 ^ e

/-- The seven numbers of one data point (`CellDataStorage.hpp`, lines 64-76). -/
structure Record where
  I : ℚ
  V : ℚ
  SOC : ℚ
  T : ℚ
  time : ℚ
  Ah : ℚ
  Wh : ℚ
  deriving Repr, DecidableEq

/-- What a cell reports at the moment it is asked to store data. -/
structure CellView where
  I : ℚ
  V : ℚ
  SOC : ℚ
  T : ℚ
  time : ℚ
  Ah : ℚ
  Wh : ℚ
  /-- `viewStates()`, written before the data at each export -/
  st : List ℚ
  deriving Repr, DecidableEq

/-- `CellDataStorage<storeTimeData>::storeData` (`CellDataStorage.hpp`, lines 63-76): seven
`push_back`s. -/
def storePoint (data : List ℚ) (c : CellView) : List ℚ :=
  data ++ [c.I] ++ [c.V] ++ [c.SOC] ++ [c.T] ++ [c.time] ++ [c.Ah] ++ [c.Wh]

/-- `writeVarAndStates` (`CellDataWriter.hpp`, lines 32-38). -/
def writeVarAndStates (st : List ℚ) : List Tok :=
  [.states, .comma] ++ st.flatMap (fun x => [.num (fmt6 x), .comma]) ++ [.nl, .nl, .nl]

/-- The loop of `free::write_data` (`free_functions.hpp`, lines 50-58) from index `i` on. -/
def writeLoop (N : ℕ) : ℕ → List ℚ → List Tok
  | _, [] => []
  | i, x :: xs =>
      (if i % N = 0 then (if i ≠ 0 then [Tok.nl] else []) else [Tok.comma])
        ++ Tok.num (fmt6 x) :: writeLoop N (i + 1) xs

/-- `free::write_data` (`free_functions.hpp`, lines 48-61): what is appended to the file and the
vector afterwards (`data.clear()`). -/
def writeVec (data : List ℚ) (N : ℕ) : List Tok × List ℚ :=
  (writeLoop N 0 data, [])

/-- One recording cell: the full identifier that names its file and its stored data. -/
structure RecCell where
  name : String
  data : List ℚ
  deriving Repr, DecidableEq

/-- The contents of the result directory; an absent file reads as empty. -/
abbrev Files := String → List Tok

/-- Appending to one file. -/
def Files.append (fs : Files) (n : String) (ts : List Tok) : Files :=
  fun m => if m = n then fs m ++ ts else fs m

/-- `CellDataWriter::writeData` (`CellDataWriter.hpp`, lines 40-72): open the file named after the
cycler's prefix and the cell for appending (`openFile` throws 11 if that fails), write the states,
then the data, seven numbers to a row. -/
def cellWrite (pre : String) (canOpen : String → Bool) (st : List ℚ) (fs : Files) (c : RecCell) :
    Outcome Unit × Files × RecCell :=
  let file := pre ++ "_" ++ c.name ++ "_cellData.csv"
  if canOpen file then
    let (ts, rest) := writeVec c.data 7
    (.ok (), fs.append file (writeVarAndStates st ++ ts), { c with data := rest })
  else (.throw 11, fs, c)

/-- `Module::writeData` (`Module.hpp`, lines 144-148): every cell in turn; an exception leaves the
remaining cells untouched.  `views` are the cells' present states. -/
def writeCells (pre : String) (canOpen : String → Bool) :
    List CellView → Files → List RecCell → Outcome Unit × Files × List RecCell
  | v :: vs, fs, c :: cs =>
      match cellWrite pre canOpen v.st fs c with
      | (.ok (), fs', c') =>
          match writeCells pre canOpen vs fs' cs with
          | (o, fs'', cs') => (o, fs'', c' :: cs')
      | (o, fs', c') => (o, fs', c' :: cs)
  | _, fs, cs => (.ok (), fs, cs)

/-- `Module::storeData` (`Module.hpp`, lines 132-136). -/
def storeCells : List CellView → List RecCell → List RecCell
  | v :: vs, c :: cs => { c with data := storePoint c.data v } :: storeCells vs cs
  | _, cs => cs

/-- A cycler with the storage unit connected to it, and the result directory. -/
structure Recorder where
  /-- `Cycler::ID`, the prefix of the file names -/
  id : String
  /-- `Cycler::index` -/
  index : ℕ
  cells : List RecCell
  files : Files

/-- `Cycler::writeData` (`Cycler.cpp`, lines 40-46): an exception skips the reset of the index. -/
def Recorder.writeData (r : Recorder) (canOpen : String → Bool) (views : List CellView) :
    Outcome Unit × Recorder :=
  match writeCells r.id canOpen views r.files r.cells with
  | (.ok (), fs, cs) => (.ok (), { r with index := 0, cells := cs, files := fs })
  | (o, fs, cs) => (o, { r with cells := cs, files := fs })

/-- `Cycler::storeData` (`Cycler.cpp`, lines 48-57), with the threshold `CELL_NDATA_MAX` (100000,
`settings.hpp`, line 78, `derived_settings.hpp`, line 14) as the parameter `nMax`. -/
def Recorder.storeData (r : Recorder) (nMax : ℕ) (canOpen : String → Bool)
    (views : List CellView) : Outcome Unit × Recorder :=
  let push (r : Recorder) : Recorder :=
    { r with cells := storeCells views r.cells, index := r.index + 1 }
  if nMax ≤ r.index then
    match r.writeData canOpen views with
    | (.ok (), r') => (.ok (), push r')
    | (o, r') => (o, r')
  else (.ok (), push r)

/-- One call on the cycler. -/
inductive RecOp where
  | store (canOpen : String → Bool) (views : List CellView)
  | write (canOpen : String → Bool) (views : List CellView)

/-- Running one call. -/
def Recorder.step (nMax : ℕ) (r : Recorder) : RecOp → Outcome Unit × Recorder
  | .store o v => r.storeData nMax o v
  | .write o v => r.writeData o v

/-- Running a sequence of calls; the caller may catch exceptions and go on. -/
def Recorder.run (nMax : ℕ) : Recorder → List RecOp → Recorder
  | r, [] => r
  | r, op :: ops => Recorder.run nMax (r.step nMax op).2 ops

/-- The threshold in force: `CELL_NDATA_INST_MAX` (`settings.hpp`, line 78). -/
def cellNDataMax : ℕ := 100000

end Slide

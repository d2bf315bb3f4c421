import Verif.Model.DataStorage

/-!
Specification vocabulary for recorded data: what a reader of the exported file finds.
-/

/-- The cells connected have distinct identifiers, hence distinct files. -/
abbrev Slide.Recorder.Distinct (r : Slide.Recorder) : Prop :=
  (r.cells.map Slide.RecCell.name).Nodup

namespace Slide.Spec

open Slide

/-- The numbers a careful reader takes from a file: everything outside the `States:` lines. -/
def numbers : Bool → List Tok → List ℚ
  | _, [] => []
  | _, .nl :: ts => numbers false ts
  | _, .states :: ts => numbers true ts
  | h, .comma :: ts => numbers h ts
  | true, .num _ :: ts => numbers true ts
  | false, .num x :: ts => x :: numbers false ts

/-- The seven documented columns of one data point. -/
def columns (v : CellView) : List ℚ := [v.I, v.V, v.SOC, v.T, v.time, v.Ah, v.Wh]

/-- Splitting a list at a separator. -/
def splitAt' {α : Type} [DecidableEq α] (s : α) : List α → List (List α)
  | [] => [[]]
  | x :: xs =>
      if x = s then [] :: splitAt' s xs
      else match splitAt' s xs with
        | [] => [[x]]
        | l :: ls => (x :: l) :: ls

/-- The lines of a file. -/
def lines (f : List Tok) : List (List Tok) := splitAt' Tok.nl f

/-- The fields of a line. -/
def fields (l : List Tok) : List (List Tok) := splitAt' Tok.comma l

/-- A line that holds exactly one data point: seven fields, each one number. -/
def DataRow (l : List Tok) : Prop :=
  (fields l).length = 7 ∧ ∀ f ∈ fields l, ∃ x, f = [Tok.num x]

/-- The documented layout: each line is blank, a `States:` line, or one data point. -/
def Documented (f : List Tok) : Prop :=
  ∀ l ∈ lines f, l = [] ∨ l.head? = some Tok.states ∨ DataRow l

/-- The file of a cell. -/
def fileOf (r : Recorder) (c : RecCell) : List Tok :=
  r.files (r.id ++ "_" ++ c.name ++ "_cellData.csv")

/-- What cell `k` was asked to record by one call that returned normally: a `store` records the
cell's present values, a `write` nothing. -/
def recordedBy (nMax : ℕ) (k : ℕ) (r : Recorder) (op : RecOp) : List ℚ :=
  match op with
  | .store o v =>
      match (r.storeData nMax o v).1, v[k]? with
      | .ok (), some x => columns x
      | _, _ => []
  | .write _ _ => []

/-- What cell `k` was asked to record over a sequence of calls, in order. -/
def recorded (nMax : ℕ) (k : ℕ) : Recorder → List RecOp → List ℚ
  | _, [] => []
  | r, op :: ops => recordedBy nMax k r op ++ recorded nMax k (r.step nMax op).2 ops

/-- Each call supplies the present values of all the cells connected. -/
def Complete (n : ℕ) : RecOp → Prop
  | .store _ v => v.length = n
  | .write _ v => v.length = n

/-- What is known of cell `k`: the numbers in its file, then those in memory. -/
def known (r : Recorder) (k : ℕ) : List ℚ :=
  match r.cells[k]? with
  | some c => numbers false (fileOf r c) ++ c.data.map fmt6
  | none => []

end Slide.Spec

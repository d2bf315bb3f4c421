import Verif.Model.CheckUp
import Verif.Spec.Structure

/-!
Vocabulary for the documents written by check-ups (C86, C87).
-/

namespace Slide.Spec

/-- The value of a row under a column name. -/
def under (name : String) : List Field → List Field → Option Field
  | h :: hs, f :: fs => if h = .str name.toList then some f else under name hs fs
  | _, _ => none

/-- The first eleven values documented for a cell: identification, four variations, the throughput and cycle number the
check-up is told, the throughput of the cell and its capacity. -/
def documented {C : Type} [CheckCell C] (Ah : ℚ) (nrCycle : ℤ) (x : List Char × C) (cap : ℚ) : List Field :=
  let v := CheckCell.variations x.2
  let th := CheckCell.throughputs x.2
  [.str x.1, .num v.1, .num v.2.1, .num v.2.2.1, .num v.2.2.2, .num Ah, .num nrCycle, .num th.time, .num th.Ah, .num th.Wh,
    .num cap]

/-- The states worth documenting: without the concentrations (two times five) of a single-particle cell. -/
def ownStates {C : Type} [CheckCell C] (c : C) : List Field :=
  (if CheckCell.isSPM c then (CheckCell.view c).drop 10 else CheckCell.view c).map .num

/-- The row of a module or battery. -/
def modRowOf {α : Type} (cool : α → Option CoolTotals) (mem : Obj α) (fuel : ℕ) (o : Obj α) (r : List Field) : Prop :=
  ∃ id n t, Obj.fullID mem fuel o = .ok id ∧ o.getNcells = .ok n ∧ cool o.data = some t
    ∧ r = [.str id, .num n, .num t.time, .num t.evac, .num t.absorbed]

end Slide.Spec

import Verif.Spec.Tree

/-!
Comparing two trees cell by cell, for the properties about what a call may change.
-/

namespace Slide.Spec
open StorageUnit

variable {n : ℕ}

/-- Two trees of the same shape, with the same contact resistances and module temperatures, whose cells are related
one by one by `Q`. -/
def CellWise {C : Type} (Q : C → C → Prop) : (d : ℕ) → Tree C d → Tree C d → Prop
  | 0, a, b => Q a b
  | _ + 1, .cell a, .cell b => Q a b
  | d + 1, .series a, .series b =>
    a.T = b.T ∧ List.Forall₂ (fun x y => Kid.rc x = Kid.rc y ∧ CellWise Q d (Kid.su x) (Kid.su y)) a.kids b.kids
  | d + 1, .parallel a, .parallel b =>
    a.T = b.T ∧ List.Forall₂ (fun x y => Kid.rc x = Kid.rc y ∧ CellWise Q d (Kid.su x) (Kid.su y)) a.kids b.kids
  | _ + 1, _, _ => False

/-- The second cell is the first one, except (possibly) for its current. -/
def OnlyCurrent (a b : ECM n) : Prop := b = { a with st := { a.st with I := b.st.I } }

/-- The second cell is what the first one becomes when it alone is stepped `k` times with `dt` at its own current,
except (possibly) for its current afterwards. -/
def Stepped (dt : ℚ) (k : ℕ) (a b : ECM n) : Prop := OnlyCurrent (timeStep a dt k).2 b

/-- A series-connected string, possibly nested: no parallel module, and no module has more than 100 children
(`settings::MODULE_NSUs_MAX`). -/
def SeriesString {C : Type} : (d : ℕ) → Tree C d → Prop
  | 0, _ => True
  | _ + 1, .cell _ => True
  | d + 1, .series m => m.kids.length ≤ 100 ∧ ∀ k ∈ m.kids, SeriesString d k.su
  | _ + 1, .parallel _ => False

end Slide.Spec

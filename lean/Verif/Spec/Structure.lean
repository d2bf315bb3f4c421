import Verif.Model.Structure
import Mathlib.Data.List.Infix

/-!
Vocabulary for trees of objects, in terms of positions: a position is the list of child indices from the root.
-/

namespace Slide.Spec
variable {α : Type}

/-- The object at a position. -/
def at? : Obj α → List ℕ → Option (Obj α)
  | t, [] => some t
  | t, i :: p =>
    match t.kids[i]? with
    | some k => at? k p
    | none => none

/-- Different positions hold different objects (ownership by `unique_ptr`). -/
def DistinctAddr (t : Obj α) : Prop :=
  ∀ p q u v, at? t p = some u → at? t q = some v → u.addr = v.addr → p = q

/-- Every unit but the root has its owner as parent; cells have no children. -/
def Linked (t : Obj α) : Prop :=
  ∀ p u i k, at? t p = some u → at? u [i] = some k → k.parent = some u.addr

/-- No cell has children. -/
def CellsAreLeaves (t : Obj α) : Prop := ∀ p u, at? t p = some u → u.kind = .cell → u.kids = []

/-- Names without separator; different among siblings. -/
def GoodNames (t : Obj α) : Prop :=
  ∀ p u, at? t p = some u → '_' ∉ u.id ∧ (u.kids.map Obj.id).Nodup

/-- The number of cells a function passed to `visit_SUs` sees. -/
def cellsReached (t : Obj α) : ℕ := t.visit (fun n o => if o.kind = .cell then n + 1 else n) 0

/-- `l` is a list of all positions of `t`, each exactly once, every position before the positions below it. -/
def Enumerates (t : Obj α) (l : List (List ℕ)) : Prop :=
  l.Nodup ∧ (∀ p, p ∈ l ↔ (at? t p).isSome) ∧ l.Pairwise fun p q => ¬ q <+: p

/-- Addresses of the objects of a tree. -/
def HasAddr (t : Obj α) (a : ℕ) : Prop := ∃ p u, at? t p = some u ∧ u.addr = a

/-- Two trees are the same but for the addresses of the objects. -/
def SameUpToAddr (t t' : Obj α) : Prop :=
  ∀ p, (at? t p).map (fun u => (u.kind, u.id, u.parent, u.data, u.kids.length)) =
    (at? t' p).map (fun u => (u.kind, u.id, u.parent, u.data, u.kids.length))

end Slide.Spec

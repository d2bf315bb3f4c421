import Verif.Model.StateStorage

/-!
# Specification for C163 and C164: saved numbers come back, views show what they cover
-/

namespace Slide.Spec
open Slide

/-- What a program does with a storage and its memory. -/
inductive StoreOp
  | save (b n : ℕ)
  | write (a : ℕ) (v : ℚ)
  | forget
  | restore

/-- The abstract storage: memory, and for each address the number that was last saved. -/
structure Snapshot where
  mem : ℕ → ℚ
  saved : ℕ → Option ℚ := fun _ => none

/-- What the operations mean. -/
def Snapshot.step (s : Snapshot) : StoreOp → Snapshot
  | .save b n => { s with saved := fun a => if b ≤ a ∧ a < b + n then some (s.mem a) else s.saved a }
  | .write a v => { s with mem := fun x => if x = a then v else s.mem x }
  | .forget => { s with saved := fun _ => none }
  | .restore => { s with mem := fun a => (s.saved a).getD (s.mem a) }

/-- The operations on the real storage. -/
def storeStep (s : StateStorage × Memory) : StoreOp → Outcome (StateStorage × Memory)
  | .save b n => .ok (s.1.add s.2 b n, s.2)
  | .write a v => .ok (s.1, Function.update s.2 a v)
  | .forget => .ok (s.1.clear, s.2)
  | .restore =>
    match s.1.restore s.2 with
    | .ok m => .ok (s.1, m)
    | .throw c => .throw c
    | .ub w => .ub w

/-- One operation after the other. -/
def storeRun : StateStorage × Memory → List StoreOp → Outcome (StateStorage × Memory)
  | s, [] => .ok s
  | s, o :: os =>
    match storeStep s o with
    | .ok s' => storeRun s' os
    | .throw c => .throw c
    | .ub w => .ub w

/-- C164, in full: the spans of an `ArrayVec` show the elements that were appended, whatever the growth of the buffer; an
interval over a container visits its elements. -/
def ViewsShow (α : Type) : Prop :=
  (∀ (grow : ℕ → ℕ) (cap : ℕ) (ls : List (List α)), ∃ v, ArrayVec.pushAll grow (ArrayVec.reserve {} cap) ls = .ok v ∧
    v.spans.map v.look = ls.map .ok) ∧
  (∀ data : List α, (IndexInterval.over data).visit data = .ok data) ∧
  (∀ data : List α, ptrVisit data = .ok data ∧ ptrSize data = .ok data.length)

end Slide.Spec

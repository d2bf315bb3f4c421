import Mathlib.Tactic.Basic
import Mathlib.Data.Nat.Notation
import Mathlib.Tactic.Linarith

/-!
Outcomes of C++ calls: normal return, `throw <int>`, or undefined behaviour.

Nothing in `/repo` corresponds to this file directly; it is the vocabulary in which the model
makes error paths explicit (`throw 10;`, out-of-bounds accesses, ...).
-/

namespace Slide

/-- Result of running a piece of C++: it returns, throws an `int`, or is undefined. -/
inductive Outcome (α : Type _) where
  | ok (a : α)
  | throw (code : Int)
  | ub (what : String)
  deriving Repr, DecidableEq

namespace Outcome

variable {α β : Type _}

/-- Sequencing: errors and undefined behaviour propagate. -/
def bind (o : Outcome α) (f : α → Outcome β) : Outcome β :=
  match o with
  | ok a => f a
  | throw c => throw c
  | ub w => ub w

instance : Monad Outcome where
  pure := ok
  bind := bind

@[simp] theorem pure_eq (a : α) : (pure a : Outcome α) = ok a := rfl
@[simp] theorem ok_bind (a : α) (f : α → Outcome β) : (ok a >>= f) = f a := rfl
@[simp] theorem throw_bind (c : Int) (f : α → Outcome β) : (throw c >>= f) = throw c := rfl
@[simp] theorem ub_bind (w : String) (f : α → Outcome β) : (ub w >>= f) = ub w := rfl
@[simp] theorem map_ok (f : α → β) (a : α) : (f <$> (ok a : Outcome α)) = ok (f a) := rfl

/-- The call has defined behaviour. -/
def Defined : Outcome α → Prop
  | ub _ => False
  | _ => True

@[simp] theorem defined_ok (a : α) : Defined (ok a) := trivial
@[simp] theorem defined_throw (c : Int) : Defined (throw c : Outcome α) := trivial
@[simp] theorem not_defined_ub (w : String) : ¬ Defined (ub w : Outcome α) := id

theorem bind_eq_ok {o : Outcome α} {f : α → Outcome β} {b : β} :
    (o >>= f) = ok b ↔ ∃ a, o = ok a ∧ f a = ok b := by
  cases o <;> simp

end Outcome

/-- Read element `i` of a C++ container without bounds check (`xdat[i]`): out of range is UB. -/
def readAt {α : Type _} (xs : List α) (i : ℕ) : Outcome α :=
  match xs[i]? with
  | some a => .ok a
  | none => .ub "out-of-bounds read"

theorem readAt_of_lt {α : Type _} {xs : List α} {i : ℕ} (h : i < xs.length) :
    readAt xs i = .ok xs[i] := by
  simp [readAt, List.getElem?_eq_getElem h]

theorem readAt_of_ge {α : Type _} {xs : List α} {i : ℕ} (h : xs.length ≤ i) :
    readAt xs i = .ub "out-of-bounds read" := by
  simp [readAt, List.getElem?_eq_none h]

end Slide

import Verif.Model.Outcome
import Mathlib.Logic.Function.Basic
import Mathlib.Algebra.Order.Field.Rat

/-!
Model of the storage and view helpers `StateStorage` (`/repo/src/types/data_storage/StateStorage.hpp`), `ArrayVec`
(`/repo/src/types/ArrayVec.hpp`), `Interval` (`/repo/src/types/Interval.hpp`) and `PtrInterval`
(`/repo/src/types/PtrInterval.hpp`).

Not modelled: `StateStorage::add(T &)` (its body `add({ &x, 1 })` deduces no template argument, so it does not compile when
used), `Interval::cbegin`/`cend` (`std::advance` of a temporary does not compile when used), containers that are given a
span of their own buffer.
-/

namespace Slide

/-! ### StateStorage -/

/-- The memory of the program: a number at each address. -/
abbrev Memory := ℕ → ℚ

/-- `StateStorage` – `StateStorage.hpp:16-22`; a `std::span<double>` is an address and a length. -/
structure StateStorage where
  spans : List (ℕ × ℕ) := []
  states : List ℚ := []
  index : ℕ := 0

namespace StateStorage

/-- The numbers of a span. -/
def contents (mem : Memory) (b : ℕ) : ℕ → List ℚ
  | 0 => []
  | n + 1 => mem b :: contents mem (b + 1) n

/-- `clear` – `StateStorage.hpp:23-28`. -/
def clear (_ : StateStorage) : StateStorage := {}

/-- `add(std::span)` – `StateStorage.hpp:36-41`. -/
def add (s : StateStorage) (mem : Memory) (b n : ℕ) : StateStorage :=
  { s with spans := s.spans ++ [(b, n)], states := s.states ++ contents mem b n }

/-- `std::copy_n(from, n, to)` – `StateStorage.hpp:51`; reading past the end of `states` is undefined. -/
def copyN (mem : Memory) (b : ℕ) : ℕ → List ℚ → Outcome Memory
  | 0, _ => .ok mem
  | _ + 1, [] => .ub "read past the end of states"
  | n + 1, v :: vs => copyN (Function.update mem b v) (b + 1) n vs

/-- The loop of `restore` – `StateStorage.hpp:50-53`; `i` is the position in `states`. -/
def restoreLoop (states : List ℚ) : ℕ → List (ℕ × ℕ) → Memory → Outcome Memory
  | _, [], mem => .ok mem
  | i, (b, n) :: spans, mem =>
    match copyN mem b n (states.drop i) with
    | .ok mem' => restoreLoop states (i + n) spans mem'
    | .throw c => .throw c
    | .ub w => .ub w

/-- `restore` – `StateStorage.hpp:46-54`. -/
def restore (s : StateStorage) (mem : Memory) : Outcome Memory := restoreLoop s.states 0 s.spans mem

end StateStorage

/-! ### ArrayVec -/

/-- A pointer range into a buffer: which allocation, offset and length. -/
structure BufView where
  gen : ℕ
  off : ℕ
  len : ℕ
  deriving DecidableEq, Repr

/-- `ArrayVec` – `ArrayVec.hpp:20-26`: the spans, and the buffer of `data` (`gen` counts its allocations, `cap` is its
capacity). -/
structure ArrayVec (α : Type) where
  spans : List BufView := []
  data : List α := []
  gen : ℕ := 0
  cap : ℕ := 0

namespace ArrayVec
variable {α : Type}

/-- `data.reserve(n)` on the public member. -/
def reserve (v : ArrayVec α) (n : ℕ) : ArrayVec α :=
  if n ≤ v.cap then v else { v with gen := v.gen + 1, cap := n }

/-- What `data.insert` and `data.push_back` do to the buffer: a new one of some larger capacity (`grow`) if the elements do
not fit. -/
def append (grow : ℕ → ℕ) (v : ArrayVec α) (l : List α) : ArrayVec α :=
  if v.data.length + l.length ≤ v.cap then { v with data := v.data ++ l }
  else { v with data := v.data ++ l, gen := v.gen + 1, cap := max (v.data.length + l.length) (grow v.cap) }

/-- `push_back(std::span)` – `ArrayVec.hpp:28-33` – and, for one element, `push_back(const Tdata &)` – `ArrayVec.hpp:35-40`:
the iterator `new_begin` is taken before the elements are appended and used afterwards, which is undefined if the buffer has
moved (by the letter of the standard also if it has not). -/
def pushBack (grow : ℕ → ℕ) (v : ArrayVec α) (l : List α) : Outcome (ArrayVec α) :=
  let v' := v.append grow l
  if v'.gen = v.gen then .ok { v' with spans := v'.spans ++ [⟨v.gen, v.data.length, l.length⟩] }
  else .ub "new_begin points into a freed buffer"

/-- Several calls of `push_back`. -/
def pushAll (grow : ℕ → ℕ) : ArrayVec α → List (List α) → Outcome (ArrayVec α)
  | v, [] => .ok v
  | v, l :: ls =>
    match v.pushBack grow l with
    | .ok v' => pushAll grow v' ls
    | .throw c => .throw c
    | .ub w => .ub w

/-- What one sees through a span. -/
def look (v : ArrayVec α) (s : BufView) : Outcome (List α) :=
  if s.gen = v.gen then .ok ((v.data.drop s.off).take s.len) else .ub "dangling span"

end ArrayVec

/-! ### Interval and PtrInterval -/

/-- `Interval` – `Interval.hpp:18-21`. -/
structure IndexInterval where
  beg : ℤ := 0
  en : ℤ := 0

/-- `Interval(Tcontainer &)` – `Interval.hpp:26`. -/
def IndexInterval.over {α : Type} (data : List α) : IndexInterval := { en := (data.length : ℤ) - 1 }

/-- A loop from `begin()` to `end()` – `Interval.hpp:30-31`. -/
def IndexInterval.visit {α : Type} (data : List α) (i : IndexInterval) : Outcome (List α) :=
  if 0 ≤ i.beg ∧ i.beg ≤ i.en ∧ i.en ≤ data.length then .ok ((data.drop i.beg.toNat).take (i.en - i.beg).toNat)
  else .ub "iterator out of range"

/-- A loop from `begin()` to `end()` of a `PtrInterval` over a container – `PtrInterval.hpp:26-27, 37-54`; `x[0]` and
`x.back()` do not exist in an empty container. -/
def ptrVisit {α : Type} (data : List α) : Outcome (List α) :=
  if data = [] then .ub "x[0] of an empty container" else .ok (data.take (data.length - 1 + 1))

/-- `PtrInterval::size` – `PtrInterval.hpp:29`. -/
def ptrSize {α : Type} (data : List α) : Outcome ℕ :=
  if data = [] then .ub "x[0] of an empty container" else .ok (data.length - 1 + 1)

end Slide

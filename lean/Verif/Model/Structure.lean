import Verif.Model.Outcome
import Mathlib.Data.List.Basic

/-!
Model of the structure of a battery system as objects in memory: addresses, identification strings, parent pointers, owned
children and the cached number of cells – `/repo/src/StorageUnit.hpp`, `/repo/src/modules/Module.{hpp,cpp}`,
`/repo/src/system/Battery.{hpp,cpp}`, `/repo/src/types/Deep_ptr.hpp`, `/repo/src/procedures/procedure_util.hpp`.

Children are owned through `Deep_ptr` (a `unique_ptr`), so the objects form a tree; the raw `parent` pointers are plain
addresses.  Everything else in an object (electrical and thermal state) is a value of an arbitrary type `α`.
-/

namespace Slide

/-- What the object is: a `Cell`, a `Module` with its member `Ncells` (`Module.hpp:52`, *not* initialised by the
constructors: `none`), or a `Battery` with `nseries` and `nparallel`. -/
inductive Kind where
  | cell
  | module (ncells : Option ℕ)
  | battery (ns np : ℕ)
  deriving DecidableEq

/-- A `StorageUnit` object and the objects it owns. A battery owns at most one (its module). -/
inductive Obj (α : Type) where
  | mk (addr : ℕ) (kind : Kind) (id : List Char) (parent : Option ℕ) (data : α) (kids : List (Obj α))

namespace Obj
variable {α : Type}

def addr : Obj α → ℕ | mk a _ _ _ _ _ => a
def kind : Obj α → Kind | mk _ k _ _ _ _ => k
/-- `getID` – `StorageUnit.hpp:45`. -/
def id : Obj α → List Char | mk _ _ i _ _ _ => i
/-- `getParent` – `StorageUnit.hpp:53`. -/
def parent : Obj α → Option ℕ | mk _ _ _ p _ _ => p
def data : Obj α → α | mk _ _ _ _ d _ => d
/-- `getSUs` – `Module.hpp:83`, or the module of a battery. -/
def kids : Obj α → List (Obj α) | mk _ _ _ _ _ ks => ks

/-- `setParent` – `StorageUnit.hpp:65`. -/
def setParent (p : Option ℕ) : Obj α → Obj α | mk a k i _ d ks => mk a k i p d ks

mutual
/-- `visit_SUs(su, fn)` – `procedure_util.hpp:13-28`; `fn` acts on some state. -/
def visit {σ : Type} (fn : σ → Obj α → σ) (s : σ) : Obj α → σ
  | mk a k i p d ks =>
    match k with
    | .cell => fn s (mk a k i p d ks)
    | .module _ => visitAll fn (fn s (mk a k i p d ks)) ks
    | .battery _ _ => visitAll fn (fn s (mk a k i p d ks)) ks
termination_by structural t => t
/-- The loop over the children. -/
def visitAll {σ : Type} (fn : σ → Obj α → σ) (s : σ) : List (Obj α) → σ
  | [] => s
  | t :: ts => visitAll fn (visit fn s t) ts
termination_by structural ts => ts
end

mutual
/-- `getNcells` – `Cell.hpp:63`, `Module.hpp:193`, `Battery.hpp:52`. -/
def getNcells : Obj α → Outcome ℕ
  | mk _ k _ _ _ ks =>
    match k with
    | .cell => .ok 1
    | .module (some n) => .ok n
    | .module none => .ub "Ncells is not initialised"
    | .battery ns np =>
      match firstNcells ks with
      | .ok n => .ok (n * ns * np)
      | .throw c => .throw c
      | .ub w => .ub w
termination_by structural t => t
/-- `cells->getNcells()`. -/
def firstNcells : List (Obj α) → Outcome ℕ
  | [] => .ub "battery without module"
  | t :: _ => getNcells t
termination_by structural ts => ts
end

/-- The summation `r += SU->getNcells()` – `Module.cpp:101-103`. -/
def sumNcells : List (Obj α) → Outcome ℕ
  | [] => .ok 0
  | t :: ts => do
    let n ← t.getNcells
    let r ← sumNcells ts
    pure (n + r)

/-- `Module::setSUs` – `Module.cpp:66-110`.  If a unit already belongs to another module, the error message is made
with `parent->getFullID()`, where `parent` is the parent of *this* module: a null pointer for a top-level module. -/
def setSUs (m : Obj α) (c : List (Obj α)) (print : Bool) : Outcome Unit × Obj α :=
  if c.any fun t => t.parent ≠ none && t.parent ≠ some m.addr then
    if print = true ∧ m.parent = none then (.ub "null pointer dereference", m) else (.throw 10, m)
  else
    match sumNcells c with
    | .ok n => (.ok (), mk m.addr (.module (some n)) m.id m.parent m.data (c.map (setParent (some m.addr))))
    | .throw e => (.throw e, m)
    | .ub w => (.ub w, m)

/-- `Battery::setModule` (connection part) – `Battery.cpp:40-67`. -/
def setModule (b : Obj α) (t : Obj α) : Outcome Unit × Obj α :=
  if t.parent ≠ none then (.throw 10, b)
  else if b.kids ≠ [] then (.throw 10, b)
  else (.ok (), mk b.addr b.kind b.id b.parent b.data [t.setParent (some b.addr)])

mutual
/-- `copy()` – `Module_s.hpp:48`, `Module_p.hpp`, `Battery.hpp`, `Deep_ptr.hpp:31`: `new T(*this)` copies all members;
children are copied recursively; the pointer `parent` is copied as it is.  `next` is the next free address. -/
def copy (next : ℕ) : Obj α → Obj α × ℕ
  | mk _ k i p d ks =>
    let r := copyAll (next + 1) ks
    (mk next k i p d r.1, r.2)
termination_by structural t => t
/-- Copy of the vector of children. -/
def copyAll (next : ℕ) : List (Obj α) → List (Obj α) × ℕ
  | [] => ([], next)
  | t :: ts =>
    let r := copy next t
    let q := copyAll r.2 ts
    (r.1 :: q.1, q.2)
termination_by structural ts => ts
end

mutual
/-- The object at an address, among the objects of a tree. -/
def find (a : ℕ) : Obj α → Option (Obj α)
  | mk b k i p d ks => if b = a then some (mk b k i p d ks) else findAll a ks
termination_by structural t => t
def findAll (a : ℕ) : List (Obj α) → Option (Obj α)
  | [] => none
  | t :: ts => (find a t).or (findAll a ts)
termination_by structural ts => ts
end

/-- `getFullID` – `StorageUnit.hpp:49`, when `mem` are the live objects; following a pointer to an object that does not
exist (any more) is undefined.  `fuel` bounds the length of the chain of parents. -/
def fullID (mem : Obj α) : ℕ → Obj α → Outcome (List Char)
  | 0, _ => .ub "endless chain of parents"
  | fuel + 1, o =>
    match o.parent with
    | none => .ok o.id
    | some a =>
      match find a mem with
      | none => .ub "dangling parent pointer"
      | some q =>
        match fullID mem fuel q with
        | .ok s => .ok (s ++ '_' :: o.id)
        | .throw c => .throw c
        | .ub w => .ub w

mutual
/-- Any change of the object at address `a` (its data, names, children). -/
def poke (a : ℕ) (f : Obj α → Obj α) : Obj α → Obj α
  | mk b k i p d ks =>
    let t := mk b k i p d (pokeAll a f ks)
    if b = a then f t else t
termination_by structural t => t
def pokeAll (a : ℕ) (f : Obj α → Obj α) : List (Obj α) → List (Obj α)
  | [] => []
  | t :: ts => poke a f t :: pokeAll a f ts
termination_by structural ts => ts
end

end Obj
end Slide

import Verif.Model.Outcome
import Mathlib.Algebra.Order.Field.Rat
import Mathlib.Algebra.Order.Floor.Ring
import Mathlib.Data.Rat.Floor

/-!
Model of small containers and utilities: `SmallVector`, `DegArray`, `DynamicMatrix`, `FixedData`, `linspace`,
`Histogram`.  (`/repo/src/types/*.hpp`, `/repo/src/utility/util.hpp`, `/repo/src/cells/Cell_SPM/param/DEG_ID.hpp`.)
-/

namespace Slide

/-- Write element `i` of a C++ container without bounds check: out of range is UB. -/
def writeAt {α : Type _} (xs : List α) (i : ℕ) (a : α) : Outcome (List α) :=
  if i < xs.length then .ok (xs.set i a) else .ub "out-of-bounds write"

/-- `static_cast<int>(double)`: truncation towards zero; a value that does not fit a 32-bit `int` is undefined
behaviour. -/
def toInt (q : ℚ) : Outcome ℤ :=
  let t := if 0 ≤ q then ⌊q⌋ else ⌈q⌉
  if -2147483648 ≤ t ∧ t ≤ 2147483647 then .ok t else .ub "conversion to int out of range"

/-! ### SmallVector -/

/-- `SmallVector<T, Nmax>` – `/repo/src/types/SmallVector.hpp:9-15`: an array of `Nmax` elements and the used length. -/
structure SmallVector (α : Type) where
  data : List α
  N : ℕ
  deriving Repr, DecidableEq

namespace SmallVector
variable {α : Type}

/-- `SmallVector() = default` with value-initialised storage – `SmallVector.hpp:12-17`. -/
def empty (Nmax : ℕ) (zero : α) : SmallVector α := ⟨List.replicate Nmax zero, 0⟩

/-- `push_back` – `SmallVector.hpp:29-38` (`if (N > Nmax) throw 1234; data[N] = elem; N++;`). -/
def pushBack (v : SmallVector α) (a : α) : Outcome (SmallVector α) :=
  if v.N > v.data.length then .throw 1234
  else do
    let d ← writeAt v.data v.N a
    pure ⟨d, v.N + 1⟩

/-- Non-const `operator[]` – `SmallVector.hpp:40-48`. -/
def get (v : SmallVector α) (i : ℕ) : Outcome α :=
  if i < v.N then readAt v.data i else .throw 1234

/-- Const `operator[]` – `SmallVector.hpp:52` (no check). -/
def getConst (v : SmallVector α) (i : ℕ) : Outcome α := readAt v.data i

/-- The elements visited by a range-based for loop – `SmallVector.hpp:54-58` (`begin() .. begin() + N`). -/
def elems (v : SmallVector α) : List α := v.data.take v.N

/-- A sequence of `push_back`s. -/
def pushAll (v : SmallVector α) : List α → Outcome (SmallVector α)
  | [] => .ok v
  | a :: as => do
    let w ← v.pushBack a
    w.pushAll as

end SmallVector

/-- `DegArray::add_model` – `/repo/src/cells/Cell_SPM/param/DEG_ID.hpp:36-40`. -/
def addModel (v : SmallVector ℕ) (e : ℕ) : Outcome (SmallVector ℕ) :=
  if e ≠ 0 then v.pushBack e else .ok v

/-- A sequence of `add_model`s. -/
def addModels (v : SmallVector ℕ) : List ℕ → Outcome (SmallVector ℕ)
  | [] => .ok v
  | a :: as => do
    let w ← addModel v a
    addModels w as

/-! ### DynamicMatrix -/

/-- `DynamicMatrix` – `/repo/src/types/DynamicMatrix.hpp:14-22`. -/
structure DynMatrix (α : Type) where
  m : ℕ
  n : ℕ
  data : List α

namespace DynMatrix
variable {α : Type}

/-- `DynamicMatrix(m, n, x)` – `DynamicMatrix.hpp:26`. -/
def make (m n : ℕ) (x : α) : DynMatrix α := ⟨m, n, List.replicate (m * n) x⟩

/-- `operator()(i, j)` for reading – `DynamicMatrix.hpp:52-55`. -/
def get (M : DynMatrix α) (i j : ℕ) : Outcome α := readAt M.data (i + j * M.m)

/-- Assignment through `operator()(i, j)` – `DynamicMatrix.hpp:47-50`. -/
def set (M : DynMatrix α) (i j : ℕ) (a : α) : Outcome (DynMatrix α) := do
  let d ← writeAt M.data (i + j * M.m) a
  pure { M with data := d }

/-- `std::vector::resize`: cut, or fill up with `x`. -/
def vecResize (xs : List α) (k : ℕ) (x : α) : List α := xs.take k ++ List.replicate (k - xs.length) x

/-- `resize` – `DynamicMatrix.hpp:28-33`. -/
def resize (M : DynMatrix α) (m n : ℕ) (x : α) : DynMatrix α := ⟨m, n, vecResize M.data (m * n) x⟩

/-- `reshape` – `DynamicMatrix.hpp:35-41` (the storage is not touched). -/
def reshape (M : DynMatrix α) (m n : ℕ) : DynMatrix α := { M with m := m, n := n }

end DynMatrix

/-! ### FixedData, linspace -/

/-- `FixedData` with the default function – `/repo/src/types/FixedData.hpp:90-102`. -/
structure FixedData where
  xMin : ℚ
  dx : ℚ
  n : ℤ
  deriving Repr, DecidableEq

namespace FixedData

/-- `operator[]`/`operator()` – `FixedData.hpp:104-122` (`extrapolation = true`: no bounds check). -/
def at_ (f : FixedData) (i : ℤ) : ℚ := f.xMin + i * f.dx

/-- The values of a range-based for loop `begin() .. end()` – `FixedData.hpp:124-125`. For `n < 0` the iterator never
meets `end()`. -/
def values (f : FixedData) : Outcome (List ℚ) :=
  if f.n < 0 then .ub "iterator runs past end" else .ok ((List.range f.n.toNat).map fun i : ℕ => f.at_ (i : ℤ))

/-- `back()`, `front()` – `FixedData.hpp:130-131`. -/
def back (f : FixedData) : ℚ := f.at_ (f.n - 1)
def front (f : FixedData) : ℚ := f.at_ 0

/-- `prev`, `next` – `FixedData.hpp:134-148`. -/
def prev (f : FixedData) (x : ℚ) : ℚ := { f with xMin := x }.at_ (-1)
def next (f : FixedData) (x : ℚ) : ℚ := { f with xMin := x }.at_ 1

end FixedData

/-- `range_fix` – `/repo/src/utility/util.hpp:90-94`; `x_step = 0` divides by zero (conversion of inf/NaN). -/
def rangeFix (xMin xMax step : ℚ) : Outcome FixedData :=
  if step = 0 then .ub "division by zero" else do
    let k ← toInt ((xMax - xMin) / step)
    pure ⟨xMin, step, k + 1⟩

/-- `linspace_fix` – `util.hpp:108-116`. -/
def linspaceFix (x1 x2 : ℚ) (N : ℤ) : FixedData :=
  if N < 1 then ⟨x2, 0, 0⟩ else if N = 1 then ⟨x2, 0, 1⟩ else ⟨x1, (x2 - x1) / ((N - 1 : ℤ) : ℚ), N⟩

/-- The loop of `linspace`: iterations `k, k+1, …, N-1` (`left` of them) – `util.hpp:129-131`. -/
def linspaceLoop (x2 dx : ℚ) (N : ℕ) : ℕ → ℕ → List ℚ → Outcome (List ℚ)
  | 0, _, out => .ok out
  | left + 1, k, out => do
    let out ← writeAt out (N - 1 - k) (x2 - k * dx)
    linspaceLoop x2 dx N left (k + 1) out

/-- `linspace(x1, x2, N)` – `util.hpp:118-134` (the `std::array` version at 68-84 has the same loop). -/
def linspace (x1 x2 : ℚ) (N : ℤ) : Outcome (List ℚ) :=
  let N := N.toNat
  let out := List.replicate N (0 : ℚ)
  if N < 1 then .ok out
  else
    let dx := if N > 1 then (x2 - x1) / ((N - 1 : ℕ) : ℚ) else 1
    linspaceLoop x2 dx N N 0 out

/-! ### Histogram -/

/-- `Histogram` – `/repo/src/types/Histogram.hpp:29-34`. -/
structure Histogram where
  bins : List ℕ
  xMin : ℚ
  xMax : ℚ
  dx : ℚ
  deriving Repr, DecidableEq

namespace Histogram

/-- Constructor – `Histogram.hpp:39-42`. `N = 0` divides by zero (the C++ result is an infinite or NaN `dx`). -/
def make (xMin xMax : ℚ) (N : ℕ) : Outcome Histogram :=
  if N = 0 then .ub "division by zero" else .ok ⟨List.replicate (N + 2) 0, xMin, xMax, (xMax - xMin) / N⟩

/-- `Histogram() = default` – `Histogram.hpp:33-37`. -/
def default : Histogram := ⟨[], 0, 0, 1⟩

/-- `add` – `Histogram.hpp:44-57`; `dx = 0` divides by zero. -/
def add (h : Histogram) (x : ℚ) : Outcome Histogram :=
  if h.dx = 0 then .ub "division by zero" else do
    let i ← toInt (1 + (x - h.xMin) / h.dx)
    let i := max 0 (min i ((h.bins.length : ℤ) - 1))
    let b ← readAt h.bins i.toNat
    let bins ← writeAt h.bins i.toNat (b + 1)
    pure { h with bins := bins }

/-- A sequence of `add`s. -/
def addAll (h : Histogram) : List ℚ → Outcome Histogram
  | [] => .ok h
  | x :: xs => do
    let h ← h.add x
    h.addAll xs

/-- `getEdgeValues` – `Histogram.hpp:64`. -/
def edges (h : Histogram) : Outcome (List ℚ) := do
  let f ← rangeFix h.xMin h.xMax h.dx
  f.values

end Histogram
end Slide

import Verif.Model.Outcome
import Mathlib.Algebra.Order.Field.Rat
import Mathlib.Algebra.Order.Floor.Ring
import Mathlib.Data.Rat.Floor

/-!
Model of table interpolation: `/repo/src/utility/interpolation.hpp` and
`/repo/src/types/XYdata.hpp`.
-/

namespace Slide
namespace Interp

/-- `std::lower_bound(first, first+len, x)` on the table `xs`, as the textbook/libstdc++ halving loop.
Called at `/repo/src/utility/interpolation.hpp:76`.  Returns an index. -/
def lowerBound (xs : List ℚ) (x : ℚ) (first len : ℕ) : Outcome ℕ :=
  if _h : len = 0 then .ok first
  else
    let half := len / 2
    match readAt xs (first + half) with
    | .ok v =>
      if v < x then lowerBound xs x (first + half + 1) (len - half - 1)
      else lowerBound xs x first half
    | .throw c => .throw c
    | .ub w => .ub w
termination_by len
decreasing_by all_goals omega

/-- The loop of `check_is_fixed` from index `i` on: `fuel` remaining iterations.
`/repo/src/types/XYdata.hpp:33-39`. -/
def fixedLoop (xs : List ℚ) (dt tol : ℚ) : ℕ → ℕ → Outcome Bool
  | _, 0 => .ok true
  | i, fuel + 1 => do
    let a ← readAt xs (i + 1)
    let b ← readAt xs i
    if |a - b - dt| > tol then pure false else fixedLoop xs dt tol (i + 1) fuel

/-- `check_is_fixed` – `/repo/src/types/XYdata.hpp:25-42`.  The loop bound `xdat.size() - 1` is an
unsigned subtraction; for fewer than two points already `xdat[1]` is out of bounds, so the wrap-around
is never reached with defined behaviour. -/
def checkIsFixed (xs : List ℚ) : Outcome Bool := do
  let x1 ← readAt xs 1
  let x0 ← readAt xs 0
  let dt := x1 - x0
  let tol := dt / 100
  fixedLoop xs dt tol 1 (xs.length - 2)

/-- Index of the right neighbour used by `linInt_noexcept` – `interpolation.hpp:66-78`.
`static_cast<int>` truncates towards zero; it is only reached for `x > xdat[0]` where truncation is `⌊·⌋`
(`dt > 0`).  For `dt ≤ 0` we make it UB (division by zero / negative index). -/
def rightIndex (xs : List ℚ) (isFixed : Bool) (x : ℚ) : Outcome ℕ :=
  if isFixed then do
    let x1 ← readAt xs 1
    let x0 ← readAt xs 0
    let dt := x1 - x0
    if dt ≤ 0 then .ub "fixed table with non-positive step"
    else pure ((⌊(x - x0) / dt⌋).toNat + 1)
  else lowerBound xs x 0 xs.length

/-- `linInt_noexcept` – `/repo/src/utility/interpolation.hpp:26-88` with `nin = xdat.size()`
(as called from `XYdata::interp`).  Returns `(yy, status)`. Division by `xr - xl = 0` is made UB. -/
def linIntNoexcept (bound : Bool) (xs ys : List ℚ) (isFixed : Bool) (x : ℚ) : Outcome (ℚ × Int) := do
  let n := xs.length
  if n = 0 then .ub "empty table" else
  let x0 ← readAt xs 0
  let xn ← readAt xs (n - 1)
  if bound = true ∧ x < x0 then pure (0, -1)
  else if bound = true ∧ x > xn then pure (0, 1)
  else if x ≤ x0 then do
    let y0 ← readAt ys 0
    pure (y0, 0)
  else if x ≥ xn then do
    let yn ← readAt ys (n - 1)
    pure (yn, 0)
  else do
    let i ← rightIndex xs isFixed x
    if i = 0 then .ub "index -1" else
    let xr ← readAt xs i
    let yr ← readAt ys i
    let xl ← readAt xs (i - 1)
    let yl ← readAt ys (i - 1)
    if xr - xl = 0 then .ub "division by zero"
    else pure (yl + (yr - yl) * (x - xl) / (xr - xl), 0)

/-- `linInt` – `/repo/src/utility/interpolation.hpp:91-125`: throws 1 when the status is non-zero. -/
def linInt (bound : Bool) (xs ys : List ℚ) (isFixed : Bool) (x : ℚ) : Outcome ℚ := do
  let (yy, status) ← linIntNoexcept bound xs ys isFixed x
  if status ≠ 0 then .throw 1 else pure yy

/-- `XYdata::interp` after `check_is_fixed` – `/repo/src/types/XYdata.hpp:45-80`: the flag is the one
computed from the table itself. -/
def tableInterp (xs ys : List ℚ) (x : ℚ) : Outcome ℚ := do
  let fixed ← checkIsFixed xs
  linInt true xs ys fixed x

end Interp
end Slide

import Mathlib.Algebra.Order.Field.Rat
import Mathlib.Data.List.Sort

/-!
Independent specification of piecewise linear interpolation (properties C17, C18).
-/

namespace Slide.Spec

/-- `y` is the value at `x` of the polygon through the table points: either `x` is a table point, or it lies
strictly between two consecutive ones and `(x,y)` lies on the line joining them. -/
def OnPolygon (xs ys : List ℚ) (x y : ℚ) : Prop :=
  (∃ i, ∃ (hx : i < xs.length) (hy : i < ys.length), x = xs[i] ∧ y = ys[i]) ∨
  (∃ i, ∃ (hx : i + 1 < xs.length) (hy : i + 1 < ys.length),
    xs[i] < x ∧ x < xs[i+1] ∧ (y - ys[i]) * (xs[i+1] - xs[i]) = (ys[i+1] - ys[i]) * (x - xs[i]))

/-- `xs` is exactly equidistant with step `dt`. -/
def Equidistant (xs : List ℚ) (x0 dt : ℚ) : Prop :=
  ∀ i (h : i < xs.length), xs[i] = x0 + i * dt

end Slide.Spec

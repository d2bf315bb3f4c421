import Verif.Model.OcvFit
import Verif.Spec.Interp

/-!
Specification of the OCV fit.
-/

namespace Slide.Spec
open OcvFit

/-- A curve as the user has to supply it: the first column strictly increasing from 0 (to 1, if `full`), the second one
between 0 and 10 volts. -/
structure ValidCurve (full : Bool) (c : Curve) : Prop where
  increasing : c.x.Pairwise (· < ·)
  start : ∀ a, c.x.head? = some a → |a| < 1 / 100000
  stop : full = true → ∀ a, c.x.getLast? = some a → |a - 1| < 1 / 100000
  volts : ∀ v ∈ c.y, 0 ≤ v ∧ v ≤ 10

/-- A table that can be interpolated. -/
structure Table (c : Curve) : Prop where
  length : c.x.length = c.y.length
  ne : c.x ≠ []
  increasing : c.x.Pairwise (· < ·)

/-- `s` is between two values of the first column. -/
def InTable (c : Curve) (s : ℚ) : Prop := (∃ a ∈ c.x, a ≤ s) ∧ ∃ b ∈ c.x, s ≤ b

/-- Lithium fractions after discharging `q` ampere hours. -/
def fracP (c : Cell) (sp q : ℚ) : ℚ := sp + 3600 * q / (F * c.AMp * c.cmaxp)
def fracN (c : Cell) (sn q : ℚ) : ℚ := sn - 3600 * q / (F * c.AMn * c.cmaxn)

/-- The open circuit voltage at given fractions: the difference of the electrode potentials, 0 outside of the tables. -/
def IsVoltage (c : Cell) (sp sn v : ℚ) : Prop :=
  (InTable c.p sp ∧ InTable c.n sn ∧ ∃ vp vn, OnPolygon c.p.x c.p.y sp vp ∧ OnPolygon c.n.x c.n.y sn vn ∧ v = vp - vn) ∨
  (¬ (InTable c.p sp ∧ InTable c.n sn) ∧ v = 0)

/-- The discharge ends here. -/
def Stops (Vend sp sn v : ℚ) : Prop := v ≤ Vend ∨ sp < 0 ∨ sp > 1 ∨ sn < 0 ∨ sn > 1

/-- Predicted voltages at the charges of the measured curve: the voltage of the cell at this charge until the discharge
has ended (first argument), 0 after that. -/
inductive Predicted (c : Cell) (Vend sp sn : ℚ) : Prop → List ℚ → List ℚ → Prop
  | nil (b : Prop) : Predicted c Vend sp sn b [] []
  | ended (b : Prop) (q : ℚ) (qs vs : List ℚ) : b → Predicted c Vend sp sn b qs vs →
      Predicted c Vend sp sn b (q :: qs) (0 :: vs)
  | running (b : Prop) (q v : ℚ) (qs vs : List ℚ) : ¬ b → IsVoltage c (fracP c sp q) (fracN c sn q) v →
      Predicted c Vend sp sn (Stops Vend (fracP c sp q) (fracN c sn q) v) qs vs →
      Predicted c Vend sp sn b (q :: qs) (v :: vs)

/-- Sum of squared differences. -/
def squares (ys vs : List ℚ) : ℚ := (List.zipWith (fun y v => (y - v) ^ 2) ys vs).sum

/-- `q` is a combination of values of the four search spaces. -/
def InGrid (s : Spaces) (q : Par) : Prop :=
  ∃ i j k l : ℕ, (i : ℤ) < s.AMp.n ∧ (j : ℤ) < s.AMn.n ∧ (k : ℤ) < s.sp.n ∧ (l : ℤ) < s.sn.n ∧
    q = ⟨s.AMp.xMin + i * s.AMp.dx, s.AMn.xMin + j * s.AMn.dx, s.sp.xMin + k * s.sp.dx, s.sn.xMin + l * s.sn.dx⟩

/-- Measured curves that `validOCV` accepts and that are not too long. -/
structure GoodData (d : Data) : Prop where
  p : Table d.p
  n : Table d.n
  len : d.cell.x.length = d.cell.y.length
  ne : d.cell.y ≠ []
  short : d.cell.y.length < 25000000
  voltsP : ∀ v ∈ d.p.y, 0 ≤ v ∧ v ≤ 10
  voltsN : ∀ v ∈ d.n.y, 0 ≤ v ∧ v ≤ 10
  volts : ∀ v ∈ d.cell.y, 0 ≤ v ∧ v ≤ 10
  cmaxp : d.cmaxp ≠ 0
  cmaxn : d.cmaxn ≠ 0

/-- `q` is a combination with the lowest cost of all, `e` its cost per measured point. -/
def IsBest (d : Data) (s : Spaces) (q : Par) (e : ℚ) : Prop :=
  InGrid s q ∧ d.cost q = .ok (e * d.cell.y.length) ∧
    ∀ q', InGrid s q' → ∃ c, d.cost q' = .ok c ∧ e * d.cell.y.length ≤ c

/-- The values of `f` are `n` equally spaced ones, the first is `a`, the last is `b`. -/
def Covers (f : FixedData) (a b : ℚ) (n : ℤ) : Prop := f.n = n ∧ f.xMin = a ∧ f.xMin + (n - 1) * f.dx = b

/-- `s'` are the search spaces around `q`: one step to both sides, fractions between 0 and 1, as many points as before. -/
structure Zoomed (s : Spaces) (q : Par) (s' : Spaces) : Prop where
  AMp : Covers s'.AMp (q.AMp - s.AMp.dx) (q.AMp + s.AMp.dx) s.AMp.n
  AMn : Covers s'.AMn (q.AMn - s.AMn.dx) (q.AMn + s.AMn.dx) s.AMn.n
  sp : Covers s'.sp (max (q.sp - s.sp.dx) 0) (min (q.sp + s.sp.dx) 1) s.sp.n
  sn : Covers s'.sn (max (q.sn - s.sn.dx) 0) (min (q.sn + s.sn.dx) 1) s.sn.n

/-- The search: the best combination of the last level, every level around the best combination of the one before.
`h` zooms lead from the spaces `s` to the spaces `s'`. -/
inductive Search (d : Data) : ℕ → Spaces → Spaces → Par → ℚ → Prop
  | last (s : Spaces) (q : Par) (e : ℚ) : IsBest d s q e → Search d 0 s s q e
  | zoom (h : ℕ) (s s1 s' : Spaces) (q0 q : Par) (e0 e : ℚ) : IsBest d s q0 e0 → Zoomed s q0 s1 →
      Search d h s1 s' q e → Search d (h + 1) s s' q e

/-- At least five values between `lo` and `hi`, at least two steps away from both. -/
def Room (f : FixedData) (lo hi : ℚ) : Prop :=
  5 ≤ f.n ∧ 0 ≤ f.dx ∧ lo ≤ f.xMin - 2 * f.dx ∧ f.xMin + (f.n - 1) * f.dx + 2 * f.dx ≤ hi

/-- Search spaces that can be refined without leaving the allowed values. -/
structure Roomy (s : Spaces) : Prop where
  AMp : ∃ lo hi, 0 < lo ∧ Room s.AMp lo hi
  AMn : ∃ lo hi, 0 < lo ∧ Room s.AMn lo hi
  sp : Room s.sp 0 1
  sn : Room s.sn 0 1

/-- The simulated curve, continued outside of its range by 0 (`bound`) or by its end points. -/
def IsExtended (bound : Bool) (c : Curve) (x v : ℚ) : Prop :=
  (InTable c x ∧ OnPolygon c.x c.y x v) ∨
  (¬ InTable c x ∧ bound = true ∧ v = 0) ∨
  (¬ InTable c x ∧ bound = false ∧
    ((∀ a ∈ c.x, x < a) ∧ c.y.head? = some v ∨ (∀ a ∈ c.x, a < x) ∧ c.y.getLast? = some v))

/-- The potentials of cathode and anode after discharging `q` ampere hours. -/
def OcvAt (c : Cell) (sp sn q vp vn : ℚ) : Prop :=
  OnPolygon c.p.x c.p.y (fracP c sp q) vp ∧ OnPolygon c.n.x c.n.y (fracN c sn q) vn

end Slide.Spec

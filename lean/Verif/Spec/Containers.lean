import Mathlib.Algebra.Order.Field.Rat
import Mathlib.Data.Nat.Notation

/-!
Specifications for the containers: histogram edges and bins.
-/

namespace Slide.Spec

/-- Edge `i` of a histogram with `N` equal bins from `lo` to `hi`. -/
def histEdge (lo hi : ℚ) (N i : ℕ) : ℚ := lo + i * ((hi - lo) / N)

/-- `x` belongs to bin `i` of `N + 2` bins: bin 0 holds the values below `lo`, bin `N + 1` those from `hi` on, and
bin `i` in between those from edge `i - 1` (inclusive) to edge `i` (exclusive). -/
def InBin (lo hi : ℚ) (N : ℕ) (x : ℚ) (i : ℕ) : Prop :=
  (i = 0 ∧ x < lo) ∨ (1 ≤ i ∧ i ≤ N ∧ histEdge lo hi N (i - 1) ≤ x ∧ x < histEdge lo hi N i) ∨ (i = N + 1 ∧ hi ≤ x)

instance (lo hi : ℚ) (N : ℕ) (x : ℚ) (i : ℕ) : Decidable (InBin lo hi N x i) := by unfold InBin; infer_instance

/-- Number of samples that belong to bin `i`. -/
def binCount (lo hi : ℚ) (N : ℕ) (xs : List ℚ) (i : ℕ) : ℕ := xs.countP fun x => decide (InBin lo hi N x i)

/-- The sample is less than about 2·10⁹ bin widths away from the range (so that the bin number fits an `int`). -/
def NotHuge (lo hi : ℚ) (N : ℕ) (x : ℚ) : Prop :=
  lo - 2147483648 * ((hi - lo) / N) ≤ x ∧ x < lo + 2147483647 * ((hi - lo) / N)

end Slide.Spec

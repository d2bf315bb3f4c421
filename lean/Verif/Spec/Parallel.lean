import Verif.Model.Modules

/-!
What the parallel-module properties mean, written without the module's own functions.
-/

namespace Slide.Spec

variable {U : Type} [StorageUnit U]

/-- Total current of the children from position `j` to the end – the current through contact resistor `j`. -/
def currentFrom (ks : List (Kid U)) (j : ℕ) : ℚ := ((ks.drop j).map fun k => StorageUnit.I k.su).sum

/-- Voltage drop over the contact resistors between the terminal and child `i`. -/
def ladderDrop (ks : List (Kid U)) (i : ℕ) : ℚ :=
  ∑ j ∈ Finset.range (i + 1), ((ks.map Kid.rc)[j]?.getD 0) * currentFrom ks j

/-- All terminal voltages in a list agree pairwise up to `tol`. -/
def Agree (tol : ℚ) (vs : List ℚ) : Prop := ∀ x ∈ vs, ∀ y ∈ vs, |x - y| < tol

/-- Sum of the child currents. -/
def totalCurrent (ks : List (Kid U)) : ℚ := (ks.map fun k => StorageUnit.I k.su).sum

end Slide.Spec

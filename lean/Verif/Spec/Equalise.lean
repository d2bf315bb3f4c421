import Verif.Spec.Circuit

/-!
# Specification: when the equalisation of a parallel module must succeed (C156)
-/

namespace Slide.Spec

/-- Cells of `c` Ah whose branches have at least `R` ohm, such that `c` times the resistance of a branch, all contacts counted
once per branch, is at most one. -/
structure Gentle (c R : ℚ) (as : List Arm) : Prop where
  cap : 0 < c
  res : 0 < R
  least : AtLeast R as
  most : ∀ a ∈ as, c * (a.res + as.length * (as.map Arm.rc).sum) ≤ 1

/-- Every branch stays inside the safety window of a cell at every current within `B` of the circuit's. -/
def SafeAround (B : ℚ) (as : List Arm) (js : List ℚ) : Prop :=
  List.Forall₂ (fun a j => ∀ i, |i - j| ≤ B → 2 ≤ a.emf - a.res * i ∧ a.emf - a.res * i ≤ 43 / 10) as js

/-- The branches start within `D` of the circuit's currents; `B` leaves enough room; and `N` corrections are enough for an
error of `tol`. -/
structure Reachable (c R D B tol : ℚ) (N : ℕ) (as : List Arm) (is js : List ℚ) : Prop where
  start : List.Forall₂ (fun i j => |i - j| ≤ D) is js
  room : as.length * (D * D) ≤ c * R * (B * B)
  pos : 0 ≤ B
  enough : (1 - c * R) ^ N * (as.length * as.length * (D * D)) < c * c * (tol * tol)

/-- All cells have the capacity `c`. -/
def SameCap {n : ℕ} (c : ℚ) (ks : List (Kid (ECM n))) : Prop := ∀ k ∈ ks, k.su.par.cap = c

end Slide.Spec

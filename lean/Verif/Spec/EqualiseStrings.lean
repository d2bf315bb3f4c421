import Verif.Spec.Equalise

/-!
# Specification: strings of cells as the branches of a parallel module (C156)
-/

namespace Slide.Spec

/-- An equivalent-circuit cell of `c` Ah, a source of voltage `e` behind a resistance `r`, that stays inside the safety window
at every current within `B` of `j`. -/
def SafeCell {n : ℕ} (B j : ℚ) (u : ECM n) (e r c : ℚ) : Prop :=
  CellSource u e r ∧ u.par.cap = c ∧ ∀ i, |i - j| ≤ B → 2 ≤ e - r * i ∧ e - r * i ≤ 43 / 10

/-- A string of up to a hundred units that are sources in the sense of `Q`: source voltages and resistances, those of the
contacts included, add up, the smallest capacity is the capacity of the string, and its voltage is positive at every current
within `B` of `j`. -/
def InSeries {U : Type} (B j : ℚ) (Q : U → ℚ → ℚ → ℚ → Prop) (m : ModuleS U) (e r c : ℚ) : Prop :=
  m.kids ≠ [] ∧ m.kids.length ≤ 100 ∧ ∃ l : List (Arm × ℚ),
    List.Forall₂ (fun k x => Q k.su x.1.emf x.1.res x.2 ∧ k.rc = x.1.rc) m.kids l ∧
    e = (l.map fun x => x.1.emf).sum ∧ r = (l.map fun x => x.1.res + x.1.rc).sum ∧
    (∃ x ∈ l, x.2 = c) ∧ (∀ x ∈ l, c ≤ x.2) ∧ ∀ i, |i - j| ≤ B → 0 < e - r * i

/-- The branches of a parallel module: each is a source in the sense of `Q` around its own current, all of capacity `c`. -/
def BranchesOf {U : Type} (Q : ℚ → U → ℚ → ℚ → ℚ → Prop) (c : ℚ) : List (Kid U) → List Arm → List ℚ → Prop
  | [], [], [] => True
  | k :: ks, a :: as, j :: js => (Q j k.su a.emf a.res c ∧ k.rc = a.rc) ∧ BranchesOf Q c ks as js
  | _, _, _ => False

/-- All members of a string carry its current, and each of them is well in the sense of `P`. -/
def SharesCurrent {U : Type} [StorageUnit U] (P : U → Prop) (m : ModuleS U) : Prop :=
  ∀ k ∈ m.kids, StorageUnit.I k.su = StorageUnit.I m ∧ P k.su

end Slide.Spec

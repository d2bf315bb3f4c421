import Verif.Model.Modules

/-!
What the properties about whole trees talk about, independently of the module functions: the list of cells of a
tree, "same structure and parameters", "valid states" and "contains no parallel module".
-/

namespace Slide.Spec
open StorageUnit

variable {C : Type}

/-- The cells of a tree, from left to right. -/
def cells : (d : ℕ) → Tree C d → List C
  | 0, c => [c]
  | _ + 1, .cell c => [c]
  | d + 1, .series m => m.kids.flatMap fun k => cells d k.su
  | d + 1, .parallel m => m.kids.flatMap fun k => cells d k.su

/-- No module of the tree is parallel-connected. -/
def NoParallel : (d : ℕ) → Tree C d → Prop
  | 0, _ => True
  | _ + 1, .cell _ => True
  | d + 1, .series m => ∀ k ∈ m.kids, NoParallel d k.su
  | _ + 1, .parallel _ => False

/-- No module of the tree is series-connected. -/
def NoSeries : (d : ℕ) → Tree C d → Prop
  | 0, _ => True
  | _ + 1, .cell _ => True
  | _ + 1, .series _ => False
  | d + 1, .parallel m => ∀ k ∈ m.kids, NoSeries d k.su

/-- Every module of the tree has at least one child. -/
def NoEmpty : (d : ℕ) → Tree C d → Prop
  | 0, _ => True
  | _ + 1, .cell _ => True
  | d + 1, .series m => m.kids ≠ [] ∧ ∀ k ∈ m.kids, NoEmpty d k.su
  | d + 1, .parallel m => m.kids ≠ [] ∧ ∀ k ∈ m.kids, NoEmpty d k.su

/-- Two trees of cells have the same shape, the same contact resistances and the same cell parameters (they may
differ in all states). -/
def SameStructure {n : ℕ} : (d : ℕ) → Tree (ECM n) d → Tree (ECM n) d → Prop
  | 0, a, b => ECM.par a = ECM.par b
  | _ + 1, .cell a, .cell b => a.par = b.par
  | d + 1, .series a, .series b =>
    List.Forall₂ (fun x y => Kid.rc x = Kid.rc y ∧ SameStructure d (Kid.su x) (Kid.su y)) a.kids b.kids
  | d + 1, .parallel a, .parallel b =>
    List.Forall₂ (fun x y => Kid.rc x = Kid.rc y ∧ SameStructure d (Kid.su x) (Kid.su y)) a.kids b.kids
  | _ + 1, _, _ => False

/-- All cells have a SOC between 0 and 1 and a temperature between 0 and 60 °C, all modules a temperature of
at least 0 °C. -/
def ValidStates {n : ℕ} : (d : ℕ) → Tree (ECM n) d → Prop
  | 0, c => 0 ≤ (ECM.st c).SOC ∧ (ECM.st c).SOC ≤ 1 ∧ 273 ≤ (ECM.st c).T ∧ (ECM.st c).T ≤ 333
  | _ + 1, .cell c => 0 ≤ c.st.SOC ∧ c.st.SOC ≤ 1 ∧ 273 ≤ c.st.T ∧ c.st.T ≤ 333
  | d + 1, .series m => 273 ≤ m.T ∧ ∀ k ∈ m.kids, ValidStates d k.su
  | d + 1, .parallel m => 273 ≤ m.T ∧ ∀ k ∈ m.kids, ValidStates d k.su

/-- Calls of the common interface. -/
inductive Call where
  | setCurrent (i : ℚ) (check : Bool)
  | timeStep (dt : ℚ) (n : ℕ)
  | setStates (s : List ℚ) (check : Bool)

/-- The unit after a call, whatever its outcome. -/
def call {U : Type} [StorageUnit U] (u : U) : Call → U
  | .setCurrent i b => (StorageUnit.setCurrent u i b).2
  | .timeStep dt n => (StorageUnit.timeStep u dt n).2
  | .setStates s b => (StorageUnit.setStates u s b).2

end Slide.Spec

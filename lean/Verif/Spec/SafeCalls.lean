import Verif.Spec.Tree
import Verif.Spec.Phases

/-!
# Specification for C162: no call is undefined
-/

namespace Slide.Spec
open Slide

/-- A call on a unit returns a value or throws; it is not undefined. -/
def CallDefined {U : Type} [StorageUnit U] (u : U) : Call → Prop
  | .setCurrent i b => (StorageUnit.setCurrent u i b).1.Defined
  | .timeStep dt n => (StorageUnit.timeStep u dt n).1.Defined
  | .setStates s b => (StorageUnit.setStates u s b).1.Defined

/-- No module of the tree is colder than 0 °C. -/
def WarmModules {C : Type} : (d : ℕ) → Tree C d → Prop
  | 0, _ => True
  | _ + 1, .cell _ => True
  | d + 1, .series m => 273 ≤ m.T ∧ ∀ k ∈ m.kids, WarmModules d k.su
  | d + 1, .parallel m => 273 ≤ m.T ∧ ∀ k ∈ m.kids, WarmModules d k.su

/-- States that are to be written come from a pack of the same build whose modules are not colder than 0 °C; the states of its
cells may be anything. -/
def StatesFit {n : ℕ} (d : ℕ) (u : Tree (ECM n) d) : Call → Prop
  | .setStates s _ => ∃ w : Tree (ECM n) d, SameStructure d u w ∧ WarmModules d w ∧ s = StorageUnit.getStates w
  | _ => True

/-- The units of each module have the same build. -/
def EqualBranches {n : ℕ} : (d : ℕ) → Tree (ECM n) d → Prop
  | 0, _ => True
  | _ + 1, .cell _ => True
  | d + 1, .series m => (∀ a ∈ m.kids, ∀ b ∈ m.kids, SameStructure d a.su b.su) ∧ ∀ k ∈ m.kids, EqualBranches d k.su
  | d + 1, .parallel m => (∀ a ∈ m.kids, ∀ b ∈ m.kids, SameStructure d a.su b.su) ∧ ∀ k ∈ m.kids, EqualBranches d k.su

/-- C162, in full: on a pack with at most 100 units in each module no call is undefined, whatever calls were made before. -/
def CallsDefined (n : ℕ) : Prop :=
  ∀ (d : ℕ) (u : Tree (ECM n) d), NarrowTree d u → ∀ (calls : List Call) (c : Call), StatesFit d u c →
    CallDefined (calls.foldl call u) c

end Slide.Spec

import Verif.Spec.Tree
import Verif.Spec.Parallel

/-!
# Specification: power at the terminals of a pack (C136)
-/

namespace Slide.Spec
open StorageUnit

variable {C : Type} [StorageUnit C]

/-- Power that the cells of a pack deliver. -/
def cellPower (d : ℕ) (t : Tree C d) : ℚ := ((cells d t).map fun c => StorageUnit.V c * StorageUnit.I c).sum

/-- Power lost in the contact resistances of a parallel module: resistance times square of the current through it, which
is that of all branches behind it. -/
def ladderLoss {U : Type} [StorageUnit U] (ks : List (Kid U)) : ℚ :=
  ∑ j ∈ Finset.range ks.length, ((ks.map Kid.rc)[j]?.getD 0) * currentFrom ks j ^ 2

/-- Power lost in all contact resistances of a pack. -/
def contactLoss : (d : ℕ) → Tree C d → ℚ
  | 0, _ => 0
  | _ + 1, .cell _ => 0
  | d + 1, .series m => (m.kids.map fun k => k.rc * StorageUnit.I k.su ^ 2 + contactLoss d k.su).sum
  | d + 1, .parallel m => ladderLoss m.kids + (m.kids.map fun k => contactLoss d k.su).sum

/-- No contact resistance of the pack is negative. -/
def ContactsNonneg : (d : ℕ) → Tree C d → Prop
  | 0, _ => True
  | _ + 1, .cell _ => True
  | d + 1, .series m => ∀ k ∈ m.kids, 0 ≤ k.rc ∧ ContactsNonneg d k.su
  | d + 1, .parallel m => ∀ k ∈ m.kids, 0 ≤ k.rc ∧ ContactsNonneg d k.su

/-- Branch currents of all parallel modules of a pack, without sign. -/
def branchCurrents : (d : ℕ) → Tree C d → ℚ
  | 0, _ => 0
  | _ + 1, .cell _ => 0
  | d + 1, .series m => (m.kids.map fun k => branchCurrents d k.su).sum
  | d + 1, .parallel m => (m.kids.map fun k => |StorageUnit.I k.su| + branchCurrents d k.su).sum

/-- A pack in operation: the members of each string carry the same current and have valid voltages; the branches of each
parallel module have the same voltage at its terminals up to `ε`. -/
def InOperation (ε : ℚ) : (d : ℕ) → Tree C d → Prop
  | 0, _ => True
  | _ + 1, .cell _ => True
  | d + 1, .series m => (∀ k ∈ m.kids, 0 < StorageUnit.V k.su) ∧
      (∀ k ∈ m.kids, ∀ j ∈ m.kids, StorageUnit.I k.su = StorageUnit.I j.su) ∧ ∀ k ∈ m.kids, InOperation ε d k.su
  | d + 1, .parallel m => (∀ i j a b, m.kids[i]? = some a → m.kids[j]? = some b →
      |(StorageUnit.V a.su - ladderDrop m.kids i) - (StorageUnit.V b.su - ladderDrop m.kids j)| ≤ ε) ∧
      ∀ k ∈ m.kids, InOperation ε d k.su

/-- Sum of the energy meters of the cells. -/
def metersWh {n : ℕ} (d : ℕ) (t : Tree (ECM n) d) : ℚ := ((cells d t).map fun c => c.st.Wh).sum

end Slide.Spec

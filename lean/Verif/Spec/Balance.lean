import Verif.Model.Balance

/-!
Specification of balancing in terms of the cells of a unit, in order.
-/

namespace Slide.Spec
open Slide

variable {C : Type}

/-- A cell of a unit: whether it is inside a battery, its class, its blocking flag and its contents. -/
structure Leaf (C : Type) where
  inBattery : Bool
  spm : Bool
  block : Bool
  c : C

mutual
/-- All cells of a unit, left to right. -/
def leaves (inBattery : Bool) : Pack C → List (Leaf C)
  | .cell s b c => [⟨inBattery, s, b, c⟩]
  | .module _ l => leavesAll inBattery l
  | .battery _ p => leaves true p
/-- All cells of some units. -/
def leavesAll (inBattery : Bool) : List (Pack C) → List (Leaf C)
  | [] => []
  | p :: l => leaves inBattery p ++ leavesAll inBattery l
end

/-- The cells of a unit. -/
def cellsOf (p : Pack C) : List (Leaf C) := leaves false p

/-- What balancing does to one cell: a `Cell_SPM` that is not inside a battery goes through a CCCV phase to the balance
voltage (however that ends) and then has its current set to zero with an acceptable voltage; any other cell keeps what
it has. -/
def CellBalanced [StorageUnit C] [VoltageUnit C] (fuel : ℕ) (Vbal : ℚ) (x y : Leaf C) : Prop :=
  y.inBattery = x.inBattery ∧ y.spm = x.spm ∧ y.block = x.block ∧
    (if x.spm = true ∧ x.inBattery = false then
      ∃ (st st' : Status) (c1 : Cyc C) (th : Thr),
        Cyc.CCCV fuel { su := x.c } (StorageUnit.Cap x.c / 2) Vbal (StorageUnit.Cap x.c / 1000) 1 0 ⟨0, 0, 0⟩
          = (.ok st, c1, th)
        ∧ StorageUnit.setCurrent c1.su 0 true = (.ok st', y.c) ∧ st'.isBad = false
    else y.c = x.c)

end Slide.Spec

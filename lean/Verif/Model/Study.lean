import Verif.Model.UseCase
import Verif.Model.CheckUp
import Verif.Model.SetVoltage
import Verif.Model.SpmUnit

/-!
Model of balancing and check-up as the ageing procedures call them, on trees of modules of single-particle cells:
`Procedure::balanceCheckup`, `rebalance` and `checkUp`, `/repo/src/procedures/Procedure.cpp:300-520`.

The trees are those of `Model/Modules.lean`; `Pack` of `Model/Balance.lean` forgets everything but the classes.  The
documents written are left out (they are the subject of `Model/CheckUp.lean`).
-/

namespace Slide
open StorageUnit Cyc

section
variable {C : Type} [StorageUnit C] [VoltageUnit C]

/-- The branch for a `Cell_SPM` – `Procedure.cpp:398-406`. -/
def balanceCell (fuel : ℕ) (Vbal : ℚ) (c : C) : Outcome Status × C :=
  match Cyc.CCCV fuel { su := c } (StorageUnit.Cap c * (1/2)) Vbal (StorageUnit.Cap c * (1/1000)) 1 0 Thr.zero with
  | (.ok _, c1, _) =>
    match StorageUnit.setCurrent c1.su 0 true with
    | (.ok st, u) => (.ok (if st.isBad then st else .Success), u)
    | (.throw e, u) => (.throw e, u)
    | (.ub w, u) => (.ub w, u)
  | (.throw e, c1, _) => (.throw e, c1.su)
  | (.ub w, c1, _) => (.ub w, c1.su)

/-- The loop over the children – `Procedure.cpp:386-396`, with the function for one child.  If a child fails, the distance
between the *objects* of the first child and of this child is computed, undefined unless they are the same object. -/
def balanceKids {U : Type} (f : U → Outcome Status × U) (first : Bool) : List (Kid U) → Outcome Status × List (Kid U)
  | [] => (.ok .Success, [])
  | k :: ks =>
    match f k.su with
    | (.ok st, u) =>
      if st.isSuccessful then
        match balanceKids f false ks with
        | (o, ks') => (o, { k with su := u } :: ks')
      else if first then (.ok st, { k with su := u } :: ks)
      else (.ub "difference of pointers to different objects", { k with su := u } :: ks)
    | (.throw e, u) => (.throw e, { k with su := u } :: ks)
    | (.ub w, u) => (.ub w, { k with su := u } :: ks)

/-- `Procedure::rebalance` – `Procedure.cpp:368-410`, on a tree of modules of cells of class `Cell_SPM`. -/
def rebalanceTree (fuel : ℕ) (Vbal : ℚ) : (d : ℕ) → Tree C d → Outcome Status × Tree C d
  | 0, (c : C) => balanceCell fuel Vbal c
  | _ + 1, .cell c =>
    match balanceCell fuel Vbal c with
    | (o, c') => (o, .cell c')
  | d + 1, .series m =>
    match balanceKids (rebalanceTree fuel Vbal d) true m.kids with
    | (o, ks) => (o, .series { m with kids := ks })
  | d + 1, .parallel m =>
    match balanceKids (rebalanceTree fuel Vbal d) true m.kids with
    | (o, ks) => (o, .parallel { m with kids := ks })

/-- `su->setBlockDegAndTherm(block)` through a `StorageUnit *` – `StorageUnit.hpp:64`: not virtual, so that it reaches a
cell only if the unit is one (`Procedure.cpp:328, 335`). -/
def blockTop (set : Bool → C → C) (b : Bool) : (d : ℕ) → Tree C d → Tree C d
  | 0, (c : C) => set b c
  | _ + 1, .cell c => .cell (set b c)
  | _ + 1, .series m => .series m
  | _ + 1, .parallel m => .parallel m

/-- Balancing in `balanceCheckup` – `Procedure.cpp:325-340`. -/
def balancingTree (set : Bool → C → C) (fuel : ℕ) (Vbal : ℚ) (d : ℕ) (t : Tree C d) : Outcome Unit × Tree C d :=
  match rebalanceTree fuel Vbal d (blockTop set true d t) with
  | (.ok _, t') => (.ok (), blockTop set false d t')
  | (.throw e, t') => (.throw e, t')
  | (.ub w, t') => (.ub w, t')

omit [VoltageUnit C] in
/-- The capacity tests of the copies of the cells, one after the other – `Procedure.cpp:471-494`. -/
def capacityTests (fuel : ℕ) : List C → Outcome Unit
  | [] => .ok ()
  | c :: cs =>
    match (Cyc.testCapacity fuel { su := c } 0 0).1 with
    | .ok _ => capacityTests fuel cs
    | .throw e => .throw e
    | .ub w => .ub w

/-- `copyCells` – `Procedure.cpp:447-454`. -/
def treeCells {C : Type} : (d : ℕ) → Tree C d → List C
  | 0, (c : C) => [c]
  | _ + 1, .cell c => [c]
  | d + 1, .series m => m.kids.flatMap fun k => treeCells d k.su
  | d + 1, .parallel m => m.kids.flatMap fun k => treeCells d k.su

omit [VoltageUnit C] in
/-- What `Procedure::checkUp` does to the unit, and how it ends – `Procedure.cpp:412-500`: the unit is brought to a middle
voltage; the capacities are measured on copies of the cells. -/
def checkUpTree (fuel : ℕ) (d : ℕ) (t : Tree C d) : Outcome Unit × Tree C d :=
  match checkUpPrep fuel t with
  | (.ok (), t1) =>
    match treeCells d t1 with
    | [] => (.ub "first element of an empty vector", t1)
    | c :: cs => (capacityTests fuel (c :: cs), t1)
  | (.throw e, t1) => (.throw e, t1)
  | (.ub w, t1) => (.ub w, t1)

/-- Balancing and check-up as the ageing procedures have them. -/
def studyChecks (set : Bool → C → C) (fuel : ℕ) (Vbal : ℚ) (d : ℕ) : Checks (Tree C d) where
  rebalance := balancingTree set fuel Vbal d
  checkUp := checkUpTree fuel d

end

/-- `setBlockDegAndTherm` of a single-particle cell – `StorageUnit.hpp:64`. -/
def AgedUnit.setBlock {N : ℕ} (b : Bool) (u : AgedUnit N) : AgedUnit N where
  cell := { u.cell with block := b }
  sound := u.sound.congr rfl rfl

end Slide

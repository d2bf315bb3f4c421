import Verif.Model.Cycler

/-!
Model of balancing, `Procedure::rebalance`, `/repo/src/procedures/Procedure.cpp:368-410`, of the part of
`Procedure::balanceCheckup` around it (`:325-340`), and of the three functions `setBlockDegAndTherm`.

A unit is seen as these functions see it: its dynamic class and its flag `blockDegAndTherm` (`StorageUnit.hpp:31`).  The
cells themselves are arbitrary (`C`); the coolers, contact resistances and stored voltages of modules are left out, since
none of these functions reads or writes them.
-/

namespace Slide
open Cyc

/-- `cell`: a cell, `spm` tells whether its class is exactly `Cell_SPM`; `module`: a `Module_s` or `Module_p`;
`battery`: a `Battery` with its module (`Battery.hpp:34`; `Battery` derives from `StorageUnit`, not from `Module`). -/
inductive Pack (C : Type) where
  | cell (spm block : Bool) (c : C)
  | module (block : Bool) (subs : List (Pack C))
  | battery (block : Bool) (cells : Pack C)

namespace Pack
variable {C : Type}

/-- `StorageUnit::setBlockDegAndTherm`, not virtual – `StorageUnit.hpp:64`.  This is what a call through a
`StorageUnit *` reaches, whatever the class of the unit. -/
def setBlock (b : Bool) : Pack C → Pack C
  | .cell s _ c => .cell s b c
  | .module _ l => .module b l
  | .battery _ p => .battery b p

/-- `Module::setBlockDegAndTherm`, reached through a `Module *` – `Module.hpp:173-179`; the children are
`StorageUnit`s. -/
def setBlockM (b : Bool) : Pack C → Pack C
  | .module _ l => .module b (l.map (setBlock b))
  | p => p

/-- `Battery::setBlockDegAndTherm`, reached through a `Battery *` – `Battery.cpp:100-104`; `cells` is a `Module`. -/
def setBlockB (b : Bool) : Pack C → Pack C
  | .battery _ p => .battery b (p.setBlockM b)
  | p => p

variable [StorageUnit C] [VoltageUnit C]

mutual
/-- `Procedure::rebalance` – `Procedure.cpp:368-410`. -/
def rebalance (fuel : ℕ) (Vbal : ℚ) : Pack C → Outcome Status × Pack C
  | .cell true b c =>
    let Iset := StorageUnit.Cap c * (1/2)
    let Ilim := StorageUnit.Cap c * (1/1000)
    match Cyc.CCCV fuel { su := c } Iset Vbal Ilim 1 0 Thr.zero with
    | (.ok _, c1, _) =>
      match StorageUnit.setCurrent c1.su 0 true with
      | (.ok st, u) => (.ok (if st.isBad then st else .Success), .cell true b u)
      | (.throw e, u) => (.throw e, .cell true b u)
      | (.ub w, u) => (.ub w, .cell true b u)
    | (.throw e, c1, _) => (.throw e, .cell true b c1.su)
    | (.ub w, c1, _) => (.ub w, .cell true b c1.su)
  | .cell false b c => (.ok .Success, .cell false b c)
  | .battery b p => (.ok .Success, .battery b p)
  | .module b l => ((rebalanceAll fuel Vbal true l).1, .module b (rebalanceAll fuel Vbal true l).2)

/-- The loop over the children – `Procedure.cpp:386-396`.  If a child fails, the distance between the *objects* of the
first child and of this child is computed, which is undefined unless they are the same object. -/
def rebalanceAll (fuel : ℕ) (Vbal : ℚ) (first : Bool) : List (Pack C) → Outcome Status × List (Pack C)
  | [] => (.ok .Success, [])
  | p :: l =>
    match rebalance fuel Vbal p with
    | (.ok st, p') =>
      if st.isSuccessful then
        ((rebalanceAll fuel Vbal false l).1, p' :: (rebalanceAll fuel Vbal false l).2)
      else if first then (.ok st, p' :: l)
      else (.ub "difference of pointers to different objects", p' :: l)
    | (.throw e, p') => (.throw e, p' :: l)
    | (.ub w, p') => (.ub w, p' :: l)
end

/-- Balancing in `balanceCheckup` – `Procedure.cpp:325-340`, through a `StorageUnit *`; a bad status is printed. -/
def balancing (fuel : ℕ) (Vbal : ℚ) (p : Pack C) : Outcome Unit × Pack C :=
  match (p.setBlock true).rebalance fuel Vbal with
  | (.ok _, p') => (.ok (), p'.setBlock false)
  | (.throw e, p') => (.throw e, p')
  | (.ub w, p') => (.ub w, p')

end Pack
end Slide

import Verif.Model.Cycler

/-!
Model of the cycle-ageing procedure, `/repo/src/procedures/Procedure.cpp`, over an arbitrary storage unit.

The effect of balancing and of a check-up on the unit (`rebalance`, `checkUp`) is a parameter (`Checks`): the theorems
hold whatever these do.  Of the throughput records only the charge and energy columns are kept (`storeThroughput`
also records the cooling load and converter losses).  Printing, the `_state.csv` file and the module check-up file are
left out.
-/

namespace Slide

/-- Addition of meter readings. -/
def Thr.add (a b : Thr) : Thr := ⟨a.time + b.time, a.Ah + b.Ah, a.Wh + b.Wh⟩

/-- What balancing (`Procedure::rebalance`, `Procedure.cpp:369-407`) and a check-up (`Procedure::checkUp`,
`Procedure.cpp:409-495`, which charges the unit to a middle voltage) do to the unit. -/
structure Checks (U : Type) where
  rebalance : U → Outcome Unit × U
  checkUp : U → Outcome Unit × U

/-- Arguments of `cycleAge` and the members of `Procedure` it uses – `Procedure.hpp:24-27, 40`. -/
structure AgeParams where
  Ncycle : ℤ
  Ncheck : ℤ
  Nbal : ℤ
  testCV : Bool
  Ccha : ℚ
  Cdis : ℚ
  Vmax : ℚ
  Vmin : ℚ
  balance : Bool
  ndata : ℤ
  deriving Repr

/-- The local variables of `cycleAge`, the `throughput` vector and the throughput file. -/
structure Age (U : Type) where
  cyc : Cyc U
  th : Thr
  /-- `Procedure::throughput` -/
  mem : List Thr
  /-- rows of `<ID>_throughput.csv` below the heading -/
  file : List Thr
  /-- the check-ups done: charge throughput and number of cycles they are told (`Procedure.hpp:52`) -/
  ups : List (ℚ × ℤ) := []

namespace Age
variable {U : Type}

/-- `Procedure::storeThroughput` – `Procedure.cpp:272-298`. -/
def storeThroughput (a : Age U) : Age U := { a with mem := a.mem ++ [a.th] }

/-- `Procedure::writeThroughput` – `Procedure.cpp:606-641`: with no throughput so far the file is started afresh. -/
def writeThroughput (a : Age U) (Ahtot : ℚ) : Age U :=
  { a with file := (if Ahtot = 0 then [] else a.file) ++ a.mem, mem := [] }

/-- Running an effect on the unit connected to the cycler. -/
def onUnit (a : Age U) (f : U → Outcome Unit × U) : Outcome Unit × Age U :=
  match f a.cyc.su with
  | (o, u) => (o, { a with cyc := a.cyc.withSU u })

/-- The call `checkUp(su, Ah, nrCycle)`. -/
def checkUp (k : Checks U) (a : Age U) (Ah : ℚ) (nrCycle : ℤ) : Outcome Unit × Age U :=
  ({ a with ups := a.ups ++ [(Ah, nrCycle)] } : Age U).onUnit k.checkUp

/-- `Procedure::balanceCheckup` – `Procedure.cpp:300-367`. -/
def balanceCheckup (k : Checks U) (a : Age U) (bal check : Bool) (Ahtot : ℚ) (nrCycle : ℤ) : Outcome Unit × Age U :=
  match (if bal then a.onUnit k.rebalance else (.ok (), a)) with
  | (.ok (), a1) => if check then (a1.writeThroughput Ahtot).checkUp k Ahtot nrCycle else (.ok (), a1)
  | (.throw e, a1) => (.throw e, a1)
  | (.ub w, a1) => (.ub w, a1)

variable [StorageUnit U]

/-- One constant-current phase, `cyc.CC(I, vlim, TIME_INF, dt, ndata, th)`; `dt` is 2. -/
def cc (fuel : ℕ) (p : AgeParams) (I vlim : ℚ) (a : Age U) : Outcome Status × Age U :=
  match a.cyc.CC fuel I vlim TIME_INF 2 p.ndata a.th with
  | (o, c, th) => (o, { a with cyc := c, th := th })

variable [VoltageUnit U]

/-- One constant-voltage phase if asked for – `Procedure.cpp:86-98, 110-119`: `false` means stop cycling. -/
def cv (p : AgeParams) (Vset : ℚ) (a : Age U) : Outcome Bool × Age U :=
  if p.testCV then
    match a.cyc.CV Vset (1/10) TIME_INF 2 p.ndata a.th with
    | (.ok st, c, th) =>
      if st.isCurrentLimitReached then (.ok true, ({ a with cyc := c, th := th } : Age U).storeThroughput)
      else (.ok false, { a with cyc := c, th := th })
    | (.throw e, c, th) => (.throw e, { a with cyc := c, th := th })
    | (.ub w, c, th) => (.ub w, { a with cyc := c, th := th })
  else (.ok true, a)

/-- The constant-current discharge and what follows – `Procedure.cpp:101-119`. -/
def discharge (fuel : ℕ) (p : AgeParams) (Idis : ℚ) (a : Age U) : Outcome Bool × Age U :=
  match a.cc fuel p Idis p.Vmin with
  | (.ok st, a1) =>
    let a2 := a1.storeThroughput
    if st.isVoltageLimitReached then a2.cv p p.Vmin else (.ok false, a2)
  | (.throw e, a1) => (.throw e, a1)
  | (.ub w, a1) => (.ub w, a1)

/-- One cycle – `Procedure.cpp:69-121`: `true` means go on with the next cycle, `false` is `break`. -/
def cycle (fuel : ℕ) (p : AgeParams) (Icha Idis : ℚ) (a : Age U) : Outcome Bool × Age U :=
  let before := a.th.Ah
  match a.cc fuel p Icha p.Vmax with
  | (.ok st, a1) =>
    if !st.isVoltageLimitReached then (.ok false, a1)
    else
      let a2 := a1.storeThroughput
      if a2.th.Ah - before < 1/100000 then (.ok false, a2)
      else
        match a2.cv p p.Vmax with
        | (.ok true, a3) => a3.discharge fuel p Idis
        | (.ok false, a3) => (.ok false, a3)
        | (.throw e, a3) => (.throw e, a3)
        | (.ub w, a3) => (.ub w, a3)
  | (.throw e, a1) => (.throw e, a1)
  | (.ub w, a1) => (.ub w, a1)

/-- `x % n == 0`; a remainder by zero is undefined. -/
def everyNth (i : ℕ) (n : ℤ) : Outcome Bool :=
  if n = 0 then .ub "remainder by zero" else .ok (decide ((i : ℤ) % n = 0))

/-- The condition of the calls – `Procedure.cpp:68`: `balance && (i % Nbal == 0)`, `i % Ncheck == 0`. -/
def when (p : AgeParams) (i : ℕ) : Outcome (Bool × Bool) := do
  let b ← if p.balance then everyNth i p.Nbal else .ok false
  let c ← everyNth i p.Ncheck
  .ok (b, c)

/-- `for (int i = 0; i < Ncycle; i++)` – `Procedure.cpp:61-122`; `left` iterations remain, the result is the number of
cycles completed. -/
def loop (fuel : ℕ) (k : Checks U) (p : AgeParams) (Icha Idis : ℚ) : ℕ → ℕ → Age U → Outcome ℕ × Age U
  | 0, i, a => (.ok i, a)
  | left + 1, i, a =>
    match when p i with
    | .ok (b, c) =>
      match a.balanceCheckup k b c a.th.Ah i with
      | (.ok (), a1) =>
        match a1.cycle fuel p Icha Idis with
        | (.ok true, a2) => loop fuel k p Icha Idis left (i + 1) a2
        | (.ok false, a2) => (.ok i, a2)
        | (.throw e, a2) => (.throw e, a2)
        | (.ub w, a2) => (.ub w, a2)
      | (.throw e, a1) => (.throw e, a1)
      | (.ub w, a1) => (.ub w, a1)
    | .throw e => (.throw e, a)
    | .ub w => (.ub w, a)

end Age

/-- `Procedure::cycleAge` – `Procedure.cpp:42-132`.  Returns the number of cycles completed.  `mem` and `file` are the
throughput records in memory and in the file beforehand. -/
def cycleAge {U : Type} [StorageUnit U] [VoltageUnit U] (fuel : ℕ) (k : Checks U) (p : AgeParams) (u : U)
    (mem file : List Thr) : Outcome ℕ × Age U :=
  let Icha := -p.Ccha * StorageUnit.Cap u
  let Idis := p.Cdis * StorageUnit.Cap u
  let a : Age U := { cyc := { su := u, diagnostic := true }, th := Thr.zero, mem := mem, file := file }
  match Age.loop fuel k p Icha Idis p.Ncycle.toNat 0 a with
  | (.ok n, a1) =>
    match (a1.writeThroughput a1.th.Ah).checkUp k a1.th.Ah p.Ncycle with
    | (.ok (), a2) => (.ok n, a2)
    | (.throw e, a2) => (.throw e, a2)
    | (.ub w, a2) => (.ub w, a2)
  | (.throw e, a1) => (.throw e, a1)
  | (.ub w, a1) => (.ub w, a1)

/-! ### Headings of the exported tables -/

/-- Heading written by `writeThroughput` – `Procedure.cpp:625-628`. -/
def throughputHeading : List String :=
  ["ID number", "cells charge throughput", "Cells energy throughput",
    "total energy to operate the thermal management system", "losses in the converter"]

/-- A row written by `writeThroughput` – `Procedure.cpp:633-635`. -/
def throughputRow (charge energy coolSystemLoad convloss : ℚ) : List ℚ :=
  [charge, energy, coolSystemLoad, convloss]

end Slide

import Verif.Model.Procedure

/-!
Model of the use-case ageing, `Procedure::useCaseAge`, `/repo/src/procedures/Procedure.cpp:151-270`, over an arbitrary
storage unit.  Simplified as in `Model/Procedure.lean`; in addition the final module check-up (files only) is left out.
-/

namespace Slide

/-- The statements of a day: a rest, checked to reach its time limit; a constant-current phase at the given C-rate to
the upper or lower voltage limit of the unit, whose status is looked at only if `checked`. -/
inductive UseStep where
  | rest (hours : ℚ)
  | cc (C : ℚ) (upper checked : Bool)

/-- The nine statements in the body of the loop – `Procedure.cpp:202-251`. -/
def useDay : List UseStep :=
  [.rest 4, .cc (-1) true false, .rest 1, .cc 1 false false, .rest 4, .cc (-1/2) true false, .rest 4,
   .cc (1/2) false true, .rest 5]

namespace Age
variable {U : Type} [StorageUnit U]

/-- One statement with its `storeThroughput`; `true` means go on, `false` is `break`. -/
def useStep (fuel : ℕ) (ndata : ℤ) (a : Age U) : UseStep → Outcome Bool × Age U
  | .rest hours =>
    match a.cyc.rest fuel (hours * 3600) 1 ndata a.th with
    | (.ok st, c, th) => (.ok (decide (st = .ReachedTimeLimit)), ({ a with cyc := c, th := th } : Age U).storeThroughput)
    | (.throw e, c, th) => (.throw e, { a with cyc := c, th := th })
    | (.ub w, c, th) => (.ub w, { a with cyc := c, th := th })
  | .cc C upper checked =>
    let lim := StorageUnit.lim a.cyc.su
    match a.cyc.CC fuel (C * StorageUnit.Cap a.cyc.su) (if upper then lim.Vmax else lim.Vmin) TIME_INF 1 ndata a.th with
    | (.ok st, c, th) => (.ok (!checked || decide (st = .ReachedVoltageLimit)),
        ({ a with cyc := c, th := th } : Age U).storeThroughput)
    | (.throw e, c, th) => (.throw e, { a with cyc := c, th := th })
    | (.ub w, c, th) => (.ub w, { a with cyc := c, th := th })

/-- The statements of the `try` block one after the other; an exception is caught and ends the loop. -/
def useSteps (fuel : ℕ) (ndata : ℤ) : List UseStep → Age U → Outcome Bool × Age U
  | [], a => (.ok true, a)
  | s :: l, a =>
    match a.useStep fuel ndata s with
    | (.ok true, a1) => useSteps fuel ndata l a1
    | (.ok false, a1) => (.ok false, a1)
    | (.throw _, a1) => (.ok false, a1)
    | (.ub w, a1) => (.ub w, a1)

/-- `for (unsigned i = 0; i < Ncycle; i++)` – `Procedure.cpp:191-256`, `Nbal` is 7 and `Ncheck` 10; the result is the
number of days completed. -/
def useLoop (fuel : ℕ) (k : Checks U) (balance : Bool) (ndata : ℤ) : ℕ → ℕ → Age U → Outcome ℕ × Age U
  | 0, i, a => (.ok i, a)
  | left + 1, i, a =>
    match a.balanceCheckup k (balance && decide (i % 7 = 0)) (decide (i % 10 = 0)) a.th.Ah i with
    | (.ok (), a1) =>
      match useSteps fuel ndata useDay a1 with
      | (.ok true, a2) => useLoop fuel k balance ndata left (i + 1) a2
      | (.ok false, a2) => (.ok i, a2)
      | (.throw e, a2) => (.throw e, a2)
      | (.ub w, a2) => (.ub w, a2)
    | (.throw e, a1) => (.throw e, a1)
    | (.ub w, a1) => (.ub w, a1)

end Age

/-- `Procedure::useCaseAge` – `Procedure.cpp:151-270`; 20 days.  The status of the initial discharge is not looked at
(a message is printed). -/
def useCaseAge {U : Type} [StorageUnit U] (fuel : ℕ) (k : Checks U) (balance : Bool) (ndata : ℤ) (u : U)
    (mem file : List Thr) : Outcome ℕ × Age U :=
  let c : Cyc U := { su := u, diagnostic := true }
  match c.CC fuel (StorageUnit.Cap u / 2) (StorageUnit.lim u).Vmin TIME_INF 1 ndata Thr.zero with
  | (.ok _, c1, th) =>
    match Age.useLoop fuel k balance ndata 20 0 { cyc := c1, th := th, mem := mem, file := file } with
    | (.ok n, a1) =>
      match (a1.writeThroughput a1.th.Ah).checkUp k a1.th.Ah 20 with
      | (.ok (), a2) => (.ok n, a2)
      | (.throw e, a2) => (.throw e, a2)
      | (.ub w, a2) => (.ub w, a2)
    | (.throw e, a1) => (.throw e, a1)
    | (.ub w, a1) => (.ub w, a1)
  | (.throw e, c1, th) => (.throw e, { cyc := c1, th := th, mem := mem, file := file })
  | (.ub w, c1, th) => (.ub w, { cyc := c1, th := th, mem := mem, file := file })

end Slide

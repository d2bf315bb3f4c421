import Verif.Model.UseCase
import Verif.Spec.Cycler
import Verif.Spec.Procedure

/-!
Specification of a day of the use case, phase by phase, each with its own meter.
-/

namespace Slide.Spec
open Slide

variable {U : Type} [StorageUnit U]

/-- A rest of `h` hours that is completed: all clocks advance by exactly that time; the meter shows the time and no
throughput. -/
def Rested [Clocked U] (fuel : ℕ) (ndata : ℤ) (h : ℚ) (c c' : Cyc U) (m : Thr) : Prop :=
  c.rest fuel (h * 3600) 1 ndata ⟨0, 0, 0⟩ = (.ok .ReachedTimeLimit, c', m) ∧ m = ⟨h * 3600, 0, 0⟩
    ∧ Clocked.clocks c'.su = (Clocked.clocks c.su).map fun t => t + h * 3600

/-- A charge at the given C-rate to the maximum voltage of the unit. -/
def Charged (fuel : ℕ) (ndata : ℤ) (C : ℚ) (c c' : Cyc U) (st : Status) (m : Thr) : Prop :=
  c.CC fuel (-(C * StorageUnit.Cap c.su)) (StorageUnit.lim c.su).Vmax TIME_INF 1 ndata ⟨0, 0, 0⟩ = (.ok st, c', m)

/-- A discharge at the given C-rate to the minimum voltage of the unit. -/
def Discharged (fuel : ℕ) (ndata : ℤ) (C : ℚ) (c c' : Cyc U) (st : Status) (m : Thr) : Prop :=
  c.CC fuel (C * StorageUnit.Cap c.su) (StorageUnit.lim c.su).Vmin TIME_INF 1 ndata ⟨0, 0, 0⟩ = (.ok st, c', m)

/-- The documented day (`Procedure.cpp:153-166`): rests of 4, 1, 4, 4 and 5 hours, with a 1C charge, a 1C discharge, a
C/2 charge and a C/2 discharge in between, which end with the given states.  `ms` are the nine meter readings. -/
def Day [Clocked U] (fuel : ℕ) (ndata : ℤ) (c c' : Cyc U) (st2 st4 st6 st8 : Status) (ms : List Thr) : Prop :=
  ∃ c1 c2 c3 c4 c5 c6 c7 c8 m1 m2 m3 m4 m5 m6 m7 m8 m9,
    Rested fuel ndata 4 c c1 m1 ∧ Charged fuel ndata 1 c1 c2 st2 m2 ∧ Rested fuel ndata 1 c2 c3 m3 ∧
    Discharged fuel ndata 1 c3 c4 st4 m4 ∧ Rested fuel ndata 4 c4 c5 m5 ∧ Charged fuel ndata (1/2) c5 c6 st6 m6 ∧
    Rested fuel ndata 4 c6 c7 m7 ∧ Discharged fuel ndata (1/2) c7 c8 st8 m8 ∧ Rested fuel ndata 5 c8 c' m9 ∧
    ms = [m1, m2, m3, m4, m5, m6, m7, m8, m9]

/-- Before day number `i`: balancing every seventh day if asked for, a check-up every tenth day, nothing else. -/
def BetweenDays (k : Checks U) (balance : Bool) (i : ℕ) (c c' : Cyc U) : Prop :=
  ∃ u1, (if balance = true ∧ 7 ∣ i then k.rebalance c.su = (.ok (), u1) else u1 = c.su) ∧
    ∃ u2, (if 10 ∣ i then k.checkUp u1 = (.ok (), u2) else u2 = u1) ∧ c' = c.withSU u2

/-- `n` days from day number `i` on; in each the last discharge reaches the minimum voltage. -/
inductive Days [Clocked U] (fuel : ℕ) (k : Checks U) (balance : Bool) (ndata : ℤ) :
    ℕ → ℕ → Cyc U → Cyc U → List Thr → Prop where
  | zero (i : ℕ) (c : Cyc U) : Days fuel k balance ndata i 0 c c []
  | succ (i n : ℕ) (c c0 c1 c' : Cyc U) (st2 st4 st6 : Status) (ms ms' : List Thr) (hb : BetweenDays k balance i c c0)
      (h : Day fuel ndata c0 c1 st2 st4 st6 .ReachedVoltageLimit ms) (hr : Days fuel k balance ndata (i + 1) n c1 c' ms') :
      Days fuel k balance ndata i (n + 1) c c' (ms ++ ms')

end Slide.Spec

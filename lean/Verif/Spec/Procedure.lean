import Verif.Model.Procedure

/-!
Specification of cycle ageing in terms of separate phases, each measured by a meter that starts at zero.
-/

namespace Slide.Spec
open Slide

variable {U : Type} [StorageUnit U] [VoltageUnit U]

/-- One constant-current phase on its own meter. -/
def ccPhase (fuel : ℕ) (p : AgeParams) (I vlim : ℚ) (c : Cyc U) : Outcome Status × Cyc U × Thr :=
  c.CC fuel I vlim TIME_INF 2 p.ndata ⟨0, 0, 0⟩

/-- One constant-voltage phase on its own meter. -/
def cvPhase (p : AgeParams) (Vset : ℚ) (c : Cyc U) : Outcome Status × Cyc U × Thr :=
  c.CV Vset (1/10) TIME_INF 2 p.ndata ⟨0, 0, 0⟩

/-- The optional constant-voltage phase: it reaches its current limit; its meter readings are listed. -/
def CvDone (p : AgeParams) (Vset : ℚ) (c c' : Cyc U) (ms : List Thr) : Prop :=
  if p.testCV then ∃ m, cvPhase p Vset c = (.ok .ReachedCurrentLimit, c', m) ∧ ms = [m]
  else c' = c ∧ ms = []

/-- The optional constant-voltage phase ends otherwise. -/
def CvFails (p : AgeParams) (Vset : ℚ) (c : Cyc U) : Prop :=
  p.testCV = true ∧ ∃ st, (cvPhase p Vset c).1 = .ok st ∧ st ≠ .ReachedCurrentLimit

/-- One complete cycle: all phases reach their limits and the constant-current charge transfers at least 10⁻⁵ Ah. -/
def FullCycle (fuel : ℕ) (p : AgeParams) (Icha Idis : ℚ) (c c' : Cyc U) (ms : List Thr) : Prop :=
  ∃ c1 c2 c3 m1 ms2 m3 ms4,
    ccPhase fuel p Icha p.Vmax c = (.ok .ReachedVoltageLimit, c1, m1) ∧ 1/100000 ≤ m1.Ah ∧
    CvDone p p.Vmax c1 c2 ms2 ∧
    ccPhase fuel p Idis p.Vmin c2 = (.ok .ReachedVoltageLimit, c3, m3) ∧
    CvDone p p.Vmin c3 c' ms4 ∧
    ms = [m1] ++ ms2 ++ [m3] ++ ms4

/-- A documented reason to stop in the cycle that starts at `c`; the meter readings of the phases whose throughput is
on record are listed. -/
inductive MayStop (fuel : ℕ) (p : AgeParams) (Icha Idis : ℚ) (c : Cyc U) : List Thr → Prop where
  | chargeLimit (st : Status) (h : (ccPhase fuel p Icha p.Vmax c).1 = .ok st) (hst : st ≠ .ReachedVoltageLimit) :
      MayStop fuel p Icha Idis c []
  | noCharge (c1 : Cyc U) (m : Thr) (h : ccPhase fuel p Icha p.Vmax c = (.ok .ReachedVoltageLimit, c1, m))
      (hm : m.Ah < 1/100000) : MayStop fuel p Icha Idis c [m]
  | chargeCV (c1 : Cyc U) (m : Thr) (h : ccPhase fuel p Icha p.Vmax c = (.ok .ReachedVoltageLimit, c1, m))
      (hcv : CvFails p p.Vmax c1) : MayStop fuel p Icha Idis c [m]
  | dischargeLimit (c1 c2 c3 : Cyc U) (m m3 : Thr) (ms : List Thr) (st : Status)
      (h : ccPhase fuel p Icha p.Vmax c = (.ok .ReachedVoltageLimit, c1, m)) (hcv : CvDone p p.Vmax c1 c2 ms)
      (h2 : ccPhase fuel p Idis p.Vmin c2 = (.ok st, c3, m3)) (hst : st ≠ .ReachedVoltageLimit) :
      MayStop fuel p Icha Idis c ([m] ++ ms ++ [m3])
  | dischargeCV (c1 c2 c3 : Cyc U) (m m3 : Thr) (ms : List Thr)
      (h : ccPhase fuel p Icha p.Vmax c = (.ok .ReachedVoltageLimit, c1, m)) (hcv : CvDone p p.Vmax c1 c2 ms)
      (h2 : ccPhase fuel p Idis p.Vmin c2 = (.ok .ReachedVoltageLimit, c3, m3)) (hcv2 : CvFails p p.Vmin c3) :
      MayStop fuel p Icha Idis c ([m] ++ ms ++ [m3])

/-- What may happen to the unit between cycles: balancing and a check-up where asked for, nothing else. -/
def Between (k : Checks U) (p : AgeParams) (i : ℕ) (c c' : Cyc U) : Prop :=
  ∃ u1, (if p.balance ∧ (i : ℤ) % p.Nbal = 0 then k.rebalance c.su = (.ok (), u1) else u1 = c.su) ∧
    ∃ u2, (if (i : ℤ) % p.Ncheck = 0 then k.checkUp u1 = (.ok (), u2) else u2 = u1) ∧ c' = c.withSU u2

/-- `n` cycles starting with cycle number `i`, each preceded by balancing and check-up where asked for. -/
inductive Cycles (fuel : ℕ) (k : Checks U) (p : AgeParams) (Icha Idis : ℚ) :
    ℕ → ℕ → Cyc U → Cyc U → List Thr → Prop where
  | zero (i : ℕ) (c : Cyc U) : Cycles fuel k p Icha Idis i 0 c c []
  | succ (i n : ℕ) (c c0 c1 c' : Cyc U) (ms ms' : List Thr) (hb : Between k p i c c0)
      (h : FullCycle fuel p Icha Idis c0 c1 ms) (hr : Cycles fuel k p Icha Idis (i + 1) n c1 c' ms') :
      Cycles fuel k p Icha Idis i (n + 1) c c' (ms ++ ms')

/-- Running totals. -/
def totals : Thr → List Thr → List Thr
  | _, [] => []
  | t, m :: ms =>
    ⟨t.time + m.time, t.Ah + m.Ah, t.Wh + m.Wh⟩ ::
      totals ⟨t.time + m.time, t.Ah + m.Ah, t.Wh + m.Wh⟩ ms

end Slide.Spec

import Verif.Model.Cycler
import Verif.Spec.Energy

/-!
# Specification: a cycler never reports more energy out than in (C153)
-/

namespace Slide.Spec

/-- A passive cell whose open-circuit voltage is positive and known exactly from 0 to 100 %. -/
structure CurveCell {n : ℕ} (p : ECMPar n) : Prop where
  passive : PassiveCell p
  tight : ∀ z v, p.ocv z = some v → 0 ≤ z ∧ z ≤ 1
  positive : ∀ z v, p.ocv z = some v → 0 < v

/-- One phase of a test: a rest, a constant current (positive is a discharge), or a charge with constant current and then
constant voltage. -/
inductive TestPhase where
  | rest (tlim dt : ℚ) (ndt : ℤ)
  | cc (I vlim tlim dt : ℚ) (ndt : ℤ)
  | charge (I Vset Ilim dt : ℚ) (ndt : ℤ)

variable {U : Type} [StorageUnit U] [VoltageUnit U]

/-- The call for a phase, with cleared counters. -/
def perform (fuel : ℕ) (c : Cyc U) : TestPhase → Outcome Status × Cyc U × Thr
  | .rest tlim dt ndt => c.rest fuel tlim dt ndt Thr.zero
  | .cc I vlim tlim dt ndt => c.CC fuel I vlim tlim dt ndt Thr.zero
  | .charge I Vset Ilim dt ndt => c.CCCV fuel I Vset Ilim dt ndt Thr.zero

/-- The phase ended by itself, with one of its regular results. -/
def Finished : TestPhase → Status → Prop
  | .rest .., st => st = .ReachedTimeLimit
  | .cc .., st => st = .ReachedTimeLimit ∨ st = .ReachedVoltageLimit
  | .charge .., st => st = .ReachedCurrentLimit ∨ st = .ReachedSmallCurrent

/-- The phase is a discharge. -/
def TestPhase.discharges : TestPhase → Bool
  | .cc I .. => 0 < I
  | _ => false

/-- A charge starts at a voltage not above the one it ends at. -/
def ChargesUp (c : Cyc U) : TestPhase → Prop
  | .charge _ Vset .. => StorageUnit.V (StorageUnit.setCurrent c.su 0 false).2 ≤ Vset
  | _ => True

/-- The time step of a phase. -/
def TestPhase.dt : TestPhase → ℚ
  | .rest _ dt _ => dt
  | .cc _ _ _ dt _ => dt
  | .charge _ _ _ dt _ => dt

/-- Every phase of the test finished, and every charge is one; `out` and `inn` are the sums of the watt hours the cycler reported for the
discharges and for the other phases. -/
inductive Tested (fuel : ℕ) : Cyc U → List TestPhase → Cyc U → ℚ → ℚ → Prop
  | nil (c : Cyc U) : Tested fuel c [] c 0 0
  | cons {c c1 c2 : Cyc U} {p : TestPhase} {ps : List TestPhase} {st : Status} {th : Thr} {out inn : ℚ}
      (h : perform fuel c p = (.ok st, c1, th)) (hst : Finished p st) (hup : ChargesUp c p) (hs : Tested fuel c1 ps c2 out inn) :
      Tested fuel c (p :: ps) c2 (out + if p.discharges then th.Wh else 0) (inn + if p.discharges then 0 else th.Wh)

/-- No phase of the test is a charge with constant voltage. -/
def NoHold (ps : List TestPhase) : Prop := ∀ I Vset Ilim dt ndt, TestPhase.charge I Vset Ilim dt ndt ∉ ps

/-- The cells of a string are such cells, within 0 to 100 % and at rest, contact resistances are not negative, and there
are at most 100 cells. -/
structure CurveString {n : ℕ} (m : ModuleS (ECM n)) : Prop where
  some : m.kids ≠ []
  few : m.kids.length ≤ 100
  contacts : ∀ k ∈ m.kids, 0 ≤ k.rc
  curve : ∀ k ∈ m.kids, CurveCell k.su.par
  soc : ∀ k ∈ m.kids, 0 ≤ k.su.st.SOC ∧ k.su.st.SOC ≤ 1
  rested : ∀ k ∈ m.kids, ∀ j, k.su.st.Ir j = 0

/-- **The claim.**  However a test of discharges, charges and rests is put together, with time steps above zero and up to
the time constants of the cell: if a cell that starts at rest ends no emptier than it started, the cycler has not reported
more watt hours for the discharges than for the charges. -/
def NoGainReported : Prop :=
  ∀ (n fuel : ℕ) (c c' : Cyc (ECM n)) (ps : List TestPhase) (out inn : ℚ), CurveCell c.su.par → 0 ≤ c.su.st.SOC →
    c.su.st.SOC ≤ 1 → (∀ j, c.su.st.Ir j = 0) → (∀ p ∈ ps, 0 < p.dt ∧ ∀ j, p.dt * c.su.par.invTau j ≤ 1) →
    Tested fuel c ps c' out inn → c.su.st.SOC ≤ c'.su.st.SOC → out ≤ inn

end Slide.Spec

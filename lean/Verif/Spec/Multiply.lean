import Verif.Model.Battery
import Verif.Model.Cycler

/-!
# Specification: a battery stands for copies of its module (C131)
-/

namespace Slide.Spec
open StorageUnit

variable {M : Type} [StorageUnit M]

/-- The battery stands for `p` parallel strings of `s` copies of `m` in series, and its converter has inverters. -/
structure Stands (s p : ℕ) (b : Battery M) (m : M) : Prop where
  cells : b.cells = m
  ns : b.ns = s
  np : b.np = p
  conv : ∃ k, b.conv.nInverters = .ok k ∧ k ≠ 0

/-- The accounts of the battery are those of the module, times the number of copies that share the current, and for the
energy times all copies. -/
structure Multiplied (s p : ℕ) (tb tm : Thr) : Prop where
  time : tb.time = tm.time
  Ah : tb.Ah = p * tm.Ah
  Wh : tb.Wh = s * p * tm.Wh

/-- One cycler works on the battery, the other on the module, in the same mode. -/
structure SideBySide (s p : ℕ) (cb : Cyc (Battery M)) (cm : Cyc M) : Prop where
  su : Stands s p cb.su cm.su
  diagnostic : cb.diagnostic = cm.diagnostic

/-- Both phases ended in the same way and left the same module behind, with multiplied accounts. -/
structure SameCourse (s p : ℕ) (rb : Outcome Status × Cyc (Battery M) × Thr) (rm : Outcome Status × Cyc M × Thr) :
    Prop where
  outcome : rb.1 = rm.1
  cycler : SideBySide s p rb.2.1 rm.2.1
  accounts : Multiplied s p rb.2.2 rm.2.2

/-- Full statement: `p` times the current and `s` times the voltage limit have the same effect on the module of a
battery as the current and the limit on the module alone. -/
def BatteryCyclesLikeModule (M : Type) [StorageUnit M] : Prop :=
  ∀ (s p fuel : ℕ) (cb : Cyc (Battery M)) (cm : Cyc M) (I vlim tlim dt : ℚ) (ndt : ℤ) (tb tm : Thr), 0 < s → 0 < p →
    SideBySide s p cb cm → Multiplied s p tb tm →
    SameCourse s p (cb.CC fuel (p * I) (s * vlim) tlim dt ndt tb) (cm.CC fuel I vlim tlim dt ndt tm)

end Slide.Spec

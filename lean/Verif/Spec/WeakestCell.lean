import Verif.Model.Cycler
import Verif.Spec.RateCapability

/-!
# Specification: the weakest cell limits a string (C154)
-/

namespace Slide.Spec

variable {n : ℕ}

/-- Giving the charge `q` [Ah] would leave the cell with an open-circuit voltage below its operating window (2.7 V, with the
margin of 10 mV). -/
def EmptyAfter (u : ECM n) (q : ℚ) : Prop :=
  0 ≤ q ∧ ∃ v, u.par.ocv (u.st.SOC - q / u.par.cap) = some v ∧ v < 27 / 10 - 1 / 100

/-- Taking the charge `q` [Ah] would leave the cell with an open-circuit voltage above its operating window (4.2 V, with the
margin of 10 mV). -/
def FullAfter (u : ECM n) (q : ℚ) : Prop :=
  0 ≤ q ∧ ∃ v, u.par.ocv (u.st.SOC + q / u.par.cap) = some v ∧ 42 / 10 + 1 / 100 < v

/-- A string of sound cells whose RC pairs carry no current. -/
def RestedString (m : ModuleS (ECM n)) (dt : ℚ) : Prop :=
  ∀ k ∈ m.kids, RatedCell k.su.par dt ∧ ∀ i, k.su.st.Ir i = 0

/-- **The claim.**  With individual checks, a constant-current phase on a string reports no more charge than any one of its
cells can give or take. -/
def WeakestLimits : Prop :=
  ∀ (n fuel : ℕ) (c : Cyc (ModuleS (ECM n))) (I vlim tlim dt : ℚ) (ndt : ℤ) (th : Thr), c.diagnostic = true →
    RestedString c.su dt → ∀ k ∈ c.su.kids, ∀ q,
      (0 < I → EmptyAfter k.su q → (c.CC fuel I vlim tlim dt ndt th).2.2.Ah ≤ th.Ah + q) ∧
      (I < 0 → FullAfter k.su q → (c.CC fuel I vlim tlim dt ndt th).2.2.Ah ≤ th.Ah + q)

end Slide.Spec

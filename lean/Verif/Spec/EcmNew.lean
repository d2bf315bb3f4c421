import Verif.Model.EcmNew

/-!
# Specification: new equivalent-circuit cells (C135)
-/

namespace Slide.Spec

variable {n : ℕ}

/-- A cell of `cap` Ah that has never been used: at rest, at 15 °C, with the state of charge `soc`. -/
structure Unused (cap soc : ℚ) (c : ECM n) : Prop where
  cap : c.par.cap = cap
  soc : c.st.SOC = soc
  I : c.st.I = 0
  Ir : ∀ i, c.st.Ir i = 0
  T : c.st.T = 273 + 15
  time : c.st.time = 0
  Ah : c.st.Ah = 0
  Wh : c.st.Wh = 0

/-- The circuit of a cell. -/
structure HasCircuit (Rdc : ℚ) (R tau : Fin n → ℚ) (c : ECM n) : Prop where
  Rdc : c.par.Rdc = Rdc
  R : ∀ i, c.par.Rp i = R i
  tau : ∀ i, c.par.invTau i = 1 / tau i

/-- The open-circuit voltage rises from 2.0 V when empty to 4.3 V when full, on a straight line. -/
def straightOcv (z : ℚ) : ℚ := 2 + 23 / 10 * z

/-- Voltage of a cell with a straight curve after a current pulse of `k` steps of `dt` seconds from rest: open-circuit
voltage at the charge that is left, drop in the DC resistance, and drop in the RC pairs, which charge by the explicit
Euler rule. -/
def pulseVoltage (cap soc Rdc : ℚ) (R tau : Fin n → ℚ) (i dt : ℚ) (k : ℕ) : ℚ :=
  straightOcv (soc - i * (k * dt) / 3600 / cap) - Rdc * i - ∑ j, R j * (1 - (1 - dt / tau j) ^ k) * i

/-- Full statement: a cell whose capacity is not positive is refused. -/
def BadCapacityRefused : Prop := ∀ (n : ℕ) (cap soc : ℚ), cap ≤ 0 → ∃ e, ECM.new2 n cap soc = .throw e

/-- Full statement: the current reported for the parallel resistance is that of the first RC pair; a cell without RC
pairs reports none. -/
def ReportsRcCurrent : Prop := ∀ (n : ℕ) (c : ECM n) (x : ℚ), c.getIr = .ok x → ∃ h : 0 < n, x = c.st.Ir ⟨0, h⟩

end Slide.Spec

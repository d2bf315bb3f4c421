import Verif.Model.Cycler

/-!
# Specification: cells of another size (C150)
-/

namespace Slide.Spec

/-- The same cell `k` times as large (`k` times the electrode area): `k` times the capacity, the `k`-th part of every
resistance, the same curve and time constants; it carries `k` times the current and has `k` times the throughput, at the same
temperature, state of charge and time. -/
def largerCell {n : ℕ} (k : ℚ) (u : ECM n) : ECM n where
  par := { cap := k * u.par.cap, Rdc := u.par.Rdc / k, Rp := fun i => u.par.Rp i / k, invTau := u.par.invTau, ocv := u.par.ocv }
  st := { T := u.st.T, SOC := u.st.SOC, I := k * u.st.I, Ir := fun i => k * u.st.Ir i, time := u.st.time,
          Ah := k * u.st.Ah, Wh := k * u.st.Wh }

/-- The same call recorded for another unit. -/
def Ev.mapUnit {U W : Type} (φ : U → W) : Ev U → Ev W
  | .store u => .store (φ u)
  | .write => .write

/-- A cycler connected to another unit, with the record of that unit. -/
def cycMap {U W : Type} (φ : U → W) (c : Cyc U) : Cyc W :=
  { su := φ c.su, index := c.index, diagnostic := c.diagnostic, log := c.log.map (Ev.mapUnit φ) }

/-- `k` times the charge and energy in the same time. -/
def thrTimes (k : ℚ) (th : Thr) : Thr := { time := th.time, Ah := k * th.Ah, Wh := k * th.Wh }

/-- The current limits that are above the smallest current the cycler distinguishes (1 microampere), also after division by
ten. -/
def AboveSmallest (i : ℚ) : Prop := 1 / 100000 ≤ i

/-- Full statement for constant-voltage phases: the larger cell does the same, whatever the current limit. -/
def LargerHoldsAlike : Prop :=
  ∀ (c : Cyc (ECM 0)) (k Vset Ilim tlim dt : ℚ), 0 < k → 0 < Ilim →
    (Cyc.CV (cycMap (largerCell k) c) Vset (k * Ilim) tlim dt 0 Thr.zero).1 = (Cyc.CV c Vset Ilim tlim dt 0 Thr.zero).1

end Slide.Spec

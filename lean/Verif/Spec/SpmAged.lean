import Verif.Model.SpmUnit
import Verif.Spec.SpmUse
import Verif.Spec.SpmUnit
import Verif.Spec.Frame
import Verif.Model.Cycler

/-! What cycling does to the ageing single-particle cells of a pack (C110). -/

namespace Slide.Spec

variable {N : ℕ}

/-- The second cell is the first one, except (possibly) for its current and the voltage it remembers. -/
def AgedOnlyCurrent (a b : AgedUnit N) : Prop := OnlyCurrentDiffers a.cell b.cell

/-- Nothing that only goes one way has gone back between `a` and `b`: the meters run forward; the SEI layer, the cracks
and the plated lithium of a cell with physical parameters do not shrink; the parameters, the selection of ageing models and
the switch for ageing are as they were. -/
structure OneWay (a b : SPM N) : Prop where
  fixed : b.par = a.par ∧ b.deg = a.deg ∧ b.block = a.block
  meters : MetersForward a b
  sei : SpmPhysical a.par → 0 ≤ a.st.delta → a.st.delta ≤ b.st.delta
  cracks : SpmPhysical a.par → 0 ≤ a.st.delta → a.st.CS ≤ b.st.CS
  plated : SpmPhysical a.par → 0 ≤ a.st.delta → a.st.deltaPl ≤ b.st.deltaPl

/-- `b` is `a` after it has been simulated for `τ` seconds with the current `I`, ageing included: clock, charge counter
and state of charge have changed by what this amounts to. -/
structure Simulated (I τ : ℚ) (a b : SPM N) : Prop where
  time : b.st.time = a.st.time + τ
  ah : b.st.Ah = a.st.Ah + |I| * τ / 3600
  soc : b.st.SOC = a.st.SOC - I * τ / 3600 / a.par.cap
  cap : b.par.cap = a.par.cap

/-- A phase of a cycling program, with its arguments. -/
inductive Phase where
  | rest (tlim dt : ℚ) (ndt : ℤ)
  | cc (I vlim tlim dt : ℚ) (ndt : ℤ)
  | cv (Vset Ilim tlim dt : ℚ) (ndt : ℤ)
  | cccv (I Vset Ilim tlim dt : ℚ) (ndt : ℤ)

/-- The cycler after a phase, however it ended. -/
def runPhase {U : Type} [StorageUnit U] [VoltageUnit U] (fuel : ℕ) (c : Cyc U) : Phase → Cyc U
  | .rest tlim dt ndt => (Cyc.rest fuel c tlim dt ndt Thr.zero).2.1
  | .cc I vlim tlim dt ndt => (Cyc.CC fuel c I vlim tlim dt ndt Thr.zero).2.1
  | .cv Vset Ilim tlim dt ndt => (Cyc.CV c Vset Ilim tlim dt ndt Thr.zero).2.1
  | .cccv I Vset Ilim tlim dt ndt => (Cyc.CCCVt fuel c I Vset Ilim tlim dt ndt Thr.zero).2.1

end Slide.Spec

import Verif.Spec.SPM

/-! What a failing time step may do to a single-particle cell (C108). -/

namespace Slide.Spec
open Slide SPM

variable {N : ℕ}

/-- The strong guarantee: a time step that throws has no effect. -/
def SpmFailedStepNoEffect (N : ℕ) : Prop :=
  ∀ (c : SPM N) (dt : ℚ) (n : ℤ) (e : Int), (c.timeStep dt n).1 = .throw e → (c.timeStep dt n).2 = c

/-- The cell `b` is the same cell as `a`, at the same current and of the same age. -/
structure SameCellSameAge (a b : SPM N) : Prop where
  par : b.par = a.par
  deg : b.deg = a.deg
  block : b.block = a.block
  parent : b.parent = a.parent
  T_env : b.T_env = a.T_env
  I : b.st.I = a.st.I
  delta : b.st.delta = a.st.delta
  LLI : b.st.LLI = a.st.LLI
  thickp : b.st.thickp = a.st.thickp
  thickn : b.st.thickn = a.st.thickn
  ep : b.st.ep = a.st.ep
  en : b.st.en = a.st.en
  ap : b.st.ap = a.st.ap
  an : b.st.an = a.st.an
  CS : b.st.CS = a.st.CS
  Dp : b.st.Dp = a.st.Dp
  Dn : b.st.Dn = a.st.Dn
  deltaPl : b.st.deltaPl = a.st.deltaPl
  rDCp : b.st.rDCp = a.st.rDCp
  rDCn : b.st.rDCn = a.st.rDCn
  rDCcc : b.st.rDCcc = a.st.rDCcc

/-- `b` is `a` after `k` steps of `dt` seconds, as far as time, charge and the lithium content of the electrodes go. -/
structure AfterSteps (a : SPM N) (dt : ℚ) (k : ℕ) (b : SPM N) : Prop where
  time : b.st.time = a.st.time + k * dt
  soc : b.st.SOC = a.st.SOC - a.st.I * (k * dt) / (a.par.cap * 3600)
  ah : b.st.Ah = a.st.Ah + |a.st.I| * (k * dt) / 3600
  cathode : ∀ j, a.par.M.Ap j = 0 → b.st.zp j = a.st.zp j + k * dt * (a.par.M.Bp j * a.jp)
  anode : ∀ j, a.par.M.An j = 0 → b.st.zn j = a.st.zn j + k * dt * (a.par.M.Bn j * a.jn)

/-- The curves of the cell have a value for every lithium fraction. -/
def CurvesCover (p : SpmPar N) : Prop :=
  ∀ z, 0 ≤ z → z ≤ 1 → p.ocvP z ≠ none ∧ p.ocvN z ≠ none ∧ p.dTot z ≠ none ∧ p.dNeg z ≠ none ∧ p.laresCurve z ≠ none

/-- The stress models the selected degradation models need are switched on (as the constructor does). -/
def StressPrepared (c : SPM N) : Prop :=
  ((c.deg.CS.any (· == 2) || c.deg.LAM.any (· == 1)) = true → c.stress.dai = true) ∧
  (c.deg.CS.any (· == 1) = true → c.stress.lares = true)

/-- The reasons for which a time step with a non-negative step size may fail, and the codes it throws. -/
inductive StepFailure (c : SPM N) : Int → Prop
  | curve : ¬ CurvesCover c.par → StepFailure c 1
  | overheat : c.block = false → c.parent = false → c.par.tModel ≠ 0 → StepFailure c 9
  | concentration : c.block = false → StepFailure c 101
  | unknown : c.block = false → unknownModel c.deg → StepFailure c 106
  | stress : c.block = false → ¬ StressPrepared c → StepFailure c 108

end Slide.Spec

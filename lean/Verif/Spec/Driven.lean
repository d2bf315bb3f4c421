import Verif.Spec.Dai
import Verif.Spec.Lithium

/-! When ageing by cycling is driven (C114). -/

namespace Slide.Spec

variable {N : ℕ}

/-- No current and uniform concentrations. -/
structure Relaxed (c : SPM N) : Prop where
  I : c.st.I = 0
  zp : ∀ j, j ≠ c.par.M.ind → c.st.zp j = 0
  zn : ∀ j, j ≠ c.par.M.ind → c.st.zn j = 0

/-- The cell computes its stress by the model of Dai et al. (`Model/Dai.lean`), with an exact quadrature. -/
def UsesDai (c : SPM N) : Prop :=
  ∃ mp mn Q, Exact c.par.M.xch Q ∧ ∀ s, Dai.ofCell mp mn Q ({ c with st := s } : SPM N) = .ok (c.par.dai s)

/-- Among the selected models there is none of ageing at rest: no SEI growth, no plating; cracks only by changes of stress, by
concentration gradients or by throughput (models 1 to 4); loss of active material only by changes of stress or by current
(models 1 and 2). -/
structure CyclicOnly (d : DegSel) : Prop where
  SEI : ∀ i ∈ d.SEI, i = 0
  CS : ∀ i ∈ d.CS, i ≤ 4
  LAM : ∀ i ∈ d.LAM, i ≤ 2
  pl : d.pl = 0

/-- What the theorems suppose of a cell: it ages by cycling only, and its parameters are sensible. -/
structure RestsWell (c : SPM N) : Prop where
  only : CyclicOnly c.deg
  cons : Consistent c
  noDecay : NoDecay c
  dai : UsesDai c
  sqrt : c.par.sqrt 0 = 0

/-- The stress remembered from the last step is the one of a relaxed cell. -/
structure Settled (c : SPM N) : Prop where
  dai : c.stress.dai = true → c.stress.daiP = 0 ∧ c.stress.daiN = 0
  lares : c.stress.lares = true → c.par.laresCurve (c.cns / c.par.Cmaxneg) = some c.stress.laresN

/-- The cell is as old as before: all states which ageing changes are the same, and so are the concentrations. -/
structure NotAged (a b : SPM N) : Prop where
  fixed : b.par = a.par ∧ b.deg = a.deg
  sei : b.st.delta = a.st.delta ∧ b.st.LLI = a.st.LLI ∧ b.st.deltaPl = a.st.deltaPl
  cracks : b.st.CS = a.st.CS ∧ b.st.Dn = a.st.Dn ∧ b.st.Dp = a.st.Dp
  material : b.st.thickp = a.st.thickp ∧ b.st.thickn = a.st.thickn ∧ b.st.ep = a.st.ep ∧ b.st.en = a.st.en ∧
    b.st.ap = a.st.ap ∧ b.st.an = a.st.an
  conc : b.st.zp = a.st.zp ∧ b.st.zn = a.st.zn

/-- What may be done with a cell at rest: read and write everything but states and parameters, wait, ask for no current. -/
def restOp : SpmOp N → Prop
  | .setCurrent i _ => i = 0
  | o => simulating o

end Slide.Spec

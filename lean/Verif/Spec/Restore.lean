import Verif.Spec.SPM

/-! Restoring the saved states of a cell that has aged (C115). -/

namespace Slide.Spec

variable {N : ℕ}

/-- The active surface per volume is that of spheres of the given volume fraction and radius. -/
def Spheres (c : SPM N) : Prop :=
  c.st.ap = 3 * c.st.ep / c.par.Rp ∧ c.st.an = 3 * c.st.en / c.par.Rn

/-- What a user sees to be in range: state of charge, temperature and surface concentrations; and nothing is used up. -/
structure InRange (c : SPM N) : Prop where
  soc : 0 ≤ c.st.SOC ∧ c.st.SOC ≤ 1
  temp : 273 ≤ c.st.T ∧ c.st.T ≤ 333
  concP : 0 < c.cps ∧ c.cps < c.par.Cmaxpos
  concN : 0 < c.cns ∧ c.cns < c.par.Cmaxneg
  left : c.finite = true

/-- C115, full statement: the states of a cell, taken at any time of its ordinary use, can be given back to it or to another
cell of the same kind. -/
def RestoresOwnStates (N : ℕ) : Prop :=
  ∀ (c : SPM N) (ops : List (SpmOp N)) (d : SPM N), SpmPhysical c.par → SpmPhysicalLam c.par → Spec.SpmValid c → Spheres c →
    (∀ o ∈ ops, ordinary o) → InRange (spmRun c ops) → d.par = c.par →
    (d.setStates (spmRun c ops).getStates false).1 = .ok (.Success, []) ∧
    (d.setStates (spmRun c ops).getStates false).2.st = (spmRun c ops).st

end Slide.Spec

import Verif.Spec.SPM
import Verif.Model.Dai

/-!
# Specification: a larger single-particle cell, ageing and warming (C152)
-/

namespace Slide.Spec

variable {N : ℕ}

/-- The state of the cell `k` times as large: the totals (current, lithium lost, throughput) are `k` times as large. -/
def largerSt (k : ℚ) (s : SpmState N) : SpmState N :=
  { s with I := k * s.I, LLI := k * s.LLI, Ah := k * s.Ah, Wh := k * s.Wh }

/-- The same cell `k` times as large and with cooling surface `A`: `k` times the capacity, the electrode area and the
heat.  (The stress of Dai's model is that of the small cell in the corresponding state, see `larger_dai`.) -/
def largerAged (k A : ℚ) (c : SPM N) : SPM N :=
  { c with
    par := { c.par with cap := k * c.par.cap, elecSurf := k * c.par.elecSurf, Acell := A,
                        dai := fun s => c.par.dai (largerSt k⁻¹ s) }
    st := largerSt k c.st
    Qgen := k * c.Qgen
    Qtot := k * c.Qtot }

/-- None of the models selected contains a quantity that should grow with the cell but does not: the voltage drop over
the surface layer computed from the total current (SEI models 1 to 3 and plating), the surface of the cracks (all crack
models). -/
def SizeFree (p : SpmPar N) (d : DegSel) : Prop :=
  (p.rsei = 0 ∨ (∀ i ∈ d.SEI, i ≠ 1 ∧ i ≠ 2 ∧ i ≠ 3) ∧ d.pl ≠ 1) ∧ (∀ i ∈ d.CS, i = 0 ∨ 5 < i)

/-- The heat leaves the larger cell as it leaves the small one: the module sees to it, no thermal model is used, or
the cooling surface is `k` times as large. -/
def CoolsAlike (k A : ℚ) (c : SPM N) : Prop := c.parent = true ∨ c.par.tModel = 0 ∨ A = k * c.par.Acell

/-- What ordinary use of a cell reports of it. -/
def ages (c : SPM N) : Outcome ℚ × (ℚ × ℚ × ℚ) × (ℚ × ℚ × ℚ × ℚ × ℚ × ℚ) :=
  (c.V.1, (c.st.T, c.st.delta, c.st.deltaPl), (c.st.thickp, c.st.thickn, c.st.ep, c.st.en, c.st.ap, c.st.an))

/-- A cell nothing has happened to, alone, and whose stress (if asked for) does not depend on the totals. -/
structure FreshCell (c : SPM N) : Prop where
  I : c.st.I = 0
  LLI : c.st.LLI = 0
  Ah : c.st.Ah = 0
  Wh : c.st.Wh = 0
  Qgen : c.Qgen = 0
  Qtot : c.Qtot = 0
  dai : ∀ k s, c.par.dai (largerSt k s) = c.par.dai s

/-- A cell made with capacity factor `k` and loaded with `k` times the current warms and ages as the cell made with
capacity factor 1, and loses `k` times as much lithium. -/
def LargerAgesAlike (c : SPM N) (deg : DegSel) : Prop :=
  ∀ (k : ℚ), 0 < k → ∀ ops : List (SpmOp N), (∀ o ∈ ops, blockedUse o) →
    let a := spmRun (c.build deg 1 1 1 1) ops
    let b := spmRun (c.build deg k 1 1 1) (ops.map (scaleOp k))
    ages b = ages a ∧ b.st.LLI = k * a.st.LLI

end Slide.Spec

import Verif.Model.SpmUnit
import Verif.Spec.Tree

/-!
What C106 talks about: trees of single-particle cells with valid states and the same structure.
-/

namespace Slide.Spec

variable {N : ℕ}

/-- A state that the documentation of the cell calls valid: everything within its limits, and the specific surfaces
belong to the volume fractions. -/
structure SpmValidState (c : SPM N) : Prop where
  LLI : 0 ≤ c.st.LLI
  SOC : 0 ≤ c.st.SOC ∧ c.st.SOC ≤ 1
  T : 273 ≤ c.st.T ∧ c.st.T ≤ 333
  pos : 0 < c.cps ∧ c.cps < c.par.Cmaxpos
  neg : 0 < c.cns ∧ c.cns < c.par.Cmaxneg
  delta : 0 < c.st.delta
  ap : c.st.ap = 3 * c.st.ep / c.par.Rp
  an : c.st.an = 3 * c.st.en / c.par.Rn
  CS : 0 ≤ c.st.CS
  r : 0 ≤ c.st.rDCp ∧ 0 ≤ c.st.rDCn ∧ 0 ≤ c.st.rDCcc
  pl : 0 ≤ c.st.deltaPl

/-- Two cells that differ in their states only. -/
def SpmSameBuild (a b : SPM N) : Prop := ({ a with st := b.st } : SPM N) = b

/-- Two trees of single-particle cells with the same shape, contact resistances and cells, up to the states. -/
def SpmSameStructure : (d : ℕ) → Tree (SpmUnit N) d → Tree (SpmUnit N) d → Prop
  | 0, a, b => SpmSameBuild (SpmUnit.cell a) (SpmUnit.cell b)
  | _ + 1, .cell a, .cell b => SpmSameBuild a.cell b.cell
  | d + 1, .series a, .series b =>
    List.Forall₂ (fun x y => Kid.rc x = Kid.rc y ∧ SpmSameStructure d (Kid.su x) (Kid.su y)) a.kids b.kids
  | d + 1, .parallel a, .parallel b =>
    List.Forall₂ (fun x y => Kid.rc x = Kid.rc y ∧ SpmSameStructure d (Kid.su x) (Kid.su y)) a.kids b.kids
  | _ + 1, _, _ => False

/-- All cells have valid states and all modules a temperature of at least 0 °C. -/
def SpmValidStates : (d : ℕ) → Tree (SpmUnit N) d → Prop
  | 0, c => SpmValidState (SpmUnit.cell c)
  | _ + 1, .cell c => SpmValidState c.cell
  | d + 1, .series m => 273 ≤ m.T ∧ ∀ k ∈ m.kids, SpmValidStates d k.su
  | d + 1, .parallel m => 273 ≤ m.T ∧ ∀ k ∈ m.kids, SpmValidStates d k.su

/-- A cell on which someone reads the voltage and then makes a call. -/
def spmReadCall (c : SPM N) : Call → SPM N
  | .setCurrent i b => (c.V.2.setCurrent i b).2
  | .timeStep dt n => (c.V.2.timeStep dt n).2
  | .setStates s b => (c.V.2.setStates s b).2

end Slide.Spec

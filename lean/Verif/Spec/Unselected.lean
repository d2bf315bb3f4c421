import Verif.Spec.SPM

/-! Mechanisms of ageing that have not been selected (C137). -/

namespace Slide.Spec

variable {N : ℕ}

/-- Between `a` and `b` nothing has aged but by the mechanisms selected for `a`.  The identifiers are those of the program:
0 selects nothing; 1 to 4 are the models of the loss of active material – 1 thins the electrodes, 2 takes volume fraction
of both, 3 takes volume fraction of the cathode, 4 takes surface of both; a volume fraction that goes takes surface with
it. -/
structure OnlySelected (a b : SPM N) : Prop where
  par : b.par = a.par
  deg : b.deg = a.deg
  sei : (∀ i ∈ a.deg.SEI, i = 0) → b.st.delta = a.st.delta
  cracks : (∀ i ∈ a.deg.CS, i = 0) → b.st.CS = a.st.CS
  plated : a.deg.pl = 0 → b.st.deltaPl = a.st.deltaPl
  diffusion : a.deg.CSdiff = 0 → b.st.Dn = a.st.Dn
  lithium : (∀ i ∈ a.deg.SEI, i = 0) → a.deg.pl = 0 → b.st.LLI = a.st.LLI
  thickness : 1 ∉ a.deg.LAM → b.st.thickp = a.st.thickp ∧ b.st.thickn = a.st.thickn
  cathode : 2 ∉ a.deg.LAM → 3 ∉ a.deg.LAM → b.st.ep = a.st.ep
  anode : 2 ∉ a.deg.LAM → a.deg.SEIpor = 0 → b.st.en = a.st.en
  cathodeSurface : 2 ∉ a.deg.LAM → 3 ∉ a.deg.LAM → 4 ∉ a.deg.LAM → b.st.ap = a.st.ap
  anodeSurface : 2 ∉ a.deg.LAM → 4 ∉ a.deg.LAM → a.deg.SEIpor = 0 → b.st.an = a.st.an

end Slide.Spec

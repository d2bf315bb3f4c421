import Verif.Spec.SPM

/-! Where the lithium of a single-particle cell is (C113). -/

namespace Slide.Spec

variable {N : ℕ}

/-- The lithium in the negative particle [As], read off the amplitude of the uniform concentration.  That this is the
amount of lithium for a uniform concentration is `spm_lithium_content`. -/
def anodeLi (c : SPM N) : ℚ :=
  -(c.par.n * Faraday * (c.par.elecSurf * c.st.thickn * c.st.an)) * c.st.zn c.par.M.ind / c.par.M.Bn c.par.M.ind

/-- The lithium in the positive particle [As]. -/
def cathodeLi (c : SPM N) : ℚ :=
  -(c.par.n * Faraday * (c.par.elecSurf * c.st.thickp * c.st.ap)) * c.st.zp c.par.M.ind / c.par.M.Bp c.par.M.ind

/-- All of it: in the two particles and lost to side reactions. -/
def allLi (c : SPM N) : ℚ := anodeLi c + cathodeLi c + c.st.LLI

/-- The discretisation can count lithium: the amplitude of the uniform concentration does not decay and reacts to the flux
through the surface; main reaction and side reactions take the same number of electrons per lithium ion. -/
structure CountsLi (c : SPM N) : Prop where
  noDecay : NoDecay c
  Bp : c.par.M.Bp c.par.M.ind ≠ 0
  Bn : c.par.M.Bn c.par.M.ind ≠ 0
  nsei : c.par.nsei = c.par.n
  npl : c.par.npl = c.par.n

/-- The selected ageing models do not remove active material. -/
def KeepsMaterial (d : DegSel) : Prop := (∀ i ∈ d.LAM, i = 0) ∧ d.SEIpor = 0

/-- The operations which move lithium only by simulating: everything except writing states or parameters. -/
def simulating : SpmOp N → Prop
  | .readV => True
  | .setCurrent _ _ => True
  | .setSOC _ _ => True
  | .setT _ => True
  | .setTenv _ => True
  | .step _ _ => True
  | .block _ => True
  | _ => False

/-- The particles conserve lithium: what the flux `j` adds to the amplitude of the uniform concentration is what it adds to
the sphere (true of the shipped `Cheb_*.csv` up to rounding). -/
def ExactSphere (c : SPM N) : Prop :=
  c.par.M.Bp c.par.M.ind = -3 * ∑ i, c.par.M.Vp c.par.M.ind i * c.par.M.xch i ∧
  c.par.M.Bn c.par.M.ind = -3 * ∑ i, c.par.M.Vn c.par.M.ind i * c.par.M.xch i

/-- Parameters and selected models are the same, and the lithium is all there. -/
structure SameLithium (a b : SPM N) : Prop where
  par : b.par = a.par
  deg : b.deg = a.deg
  all : CountsLi a → KeepsMaterial a.deg → allLi b = allLi a

end Slide.Spec

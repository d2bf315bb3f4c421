import Verif.Spec.SideReactions
import Verif.Spec.SpmHeat

/-!
# The ageing of a time step as published (C122, C123)

The laws of plating, surface cracks and loss of active material in the papers cited by the program, and what a time step
has to do with them; and what it means to multiply the parameters of the ageing models.
-/

namespace Slide.Spec

open SPM

variable {N : ℕ}

/-- `o` is the potential of the anode in equilibrium at the temperature of the cell; its entropic coefficient is taken at
the lithium fraction `z`. -/
def AnodePotential (c : SPM N) (z o : ℚ) : Prop :=
  ∃ u k, c.par.ocvN (c.cns / c.par.Cmaxneg) = some u ∧ c.par.dNeg z = some k ∧ o = u + (c.st.T - c.par.T_ref) * k

/-- The current density of lithium plating (Yang et al.): a reaction driven by the potential of the anode against plated
lithium, with the drop over the SEI layer. -/
def PlatingLaw (c : SPM N) (o : ℚ) : ℕ → ℚ → Prop
  | 0, j => j = 0
  | 1, j => j = c.par.npl * 96487 * (atTemperature c c.par.pl.k c.par.pl.k_T *
      tafel c c.par.n c.par.alphapl (o + c.etan - c.par.OCVpl + c.par.rsei * c.st.delta * c.st.I))
  | _, _ => False

/-- The rate constant of Ekström's cracks: the layer breaks on charge, while the particles expand. -/
def expansion (c : SPM N) : ℚ :=
  let k := atTemperature c c.par.cs.k5 c.par.cs.k5_T
  if 0 < c.st.I then 0
  else if c.cns / c.par.Cmaxneg < 3 / 10 then 2 * k
  else if c.cns / c.par.Cmaxneg < 7 / 10 then 0
  else k

/-- Growth of the crack surface per second, if `s` are the stresses before the step and `h` is its duration: root of the
change of stress per second (Laresgoiti; with the stress of Laresgoiti or Dai), square of the difference of concentration
over the particle (Deshpande), throughput times what is left to crack (Barai), side reaction (Ekström). -/
def CrackLaw (c : SPM N) (s : SpmStress) (h o : ℚ) : ℕ → ℚ → Prop
  | 0, g => g = 0
  | 1, g => ∃ x, c.par.laresCurve (c.cns / c.par.Cmaxneg) = some x ∧
      g = c.par.cs.a1 * c.par.sqrt (|x - s.laresN| / h)
  | 2, g => g = c.par.cs.a2 * c.par.sqrt (|(c.par.dai c.st).2 - s.daiN| / h)
  | 3, g => g = c.par.cs.a3 * ((c.cns - c.centreN) / c.par.Cmaxneg) ^ 2
  | 4, g => g = if c.st.CS ≤ c.par.cs.Amax then c.par.cs.a4 * (c.par.cs.Amax - c.st.CS) * |c.st.I| else 0
  | 5, g => g = c.par.nsei * 96487 * (expansion c * tafel c c.par.nsei c.par.alphasei (seiOver c o))
  | _, _ => False

/-- Change of the amount of active material per second: change of stress per second (1), flux of lithium and its root
(Delacourt, 2), dissolution of the cathode by its potential, limited (Kindermann, 3), fraction of the surface (4). -/
def LamLaw (c : SPM N) (s : SpmStress) (h : ℚ) : ℕ → LamOut → Prop
  | 0, r => r = {}
  | 1, r => r = { thickp := -(c.par.lam.p1 * (|(c.par.dai c.st).1 - s.daiP| / h)),
                  thickn := -(c.par.lam.n1 * (|(c.par.dai c.st).2 - s.daiN| / h)) }
  | 2, r => ∃ fp fn, fp = |c.st.I / c.par.elecSurf / (c.st.ap * c.par.n * 96487 * c.st.thickp)| ∧
      fn = |c.st.I / c.par.elecSurf / (c.st.an * c.par.n * 96487 * c.st.thickn)| ∧
      r = { ep := atTemperature c c.par.lam.ap2 c.par.lam.t2 * fp + atTemperature c c.par.lam.bp2 c.par.lam.t2 * c.par.sqrt fp,
            en := atTemperature c c.par.lam.an2 c.par.lam.t2 * fn + atTemperature c c.par.lam.bn2 c.par.lam.t2 * c.par.sqrt fn }
  | 3, r => ∃ u, c.par.ocvP (c.cps / c.par.Cmaxpos) = some u ∧
      r = { ep := -min (5 / 1000000) (atTemperature c c.par.lam.k3 c.par.lam.k3_T *
        c.par.exp (c.par.n * 96487 / (8314 / 1000) / c.st.T * (u + c.etap - c.par.OCVnmc)) / (c.par.n * 96487)) }
  | 4, r => r = { ap := -(c.par.lam.p4 * c.st.ap), an := -(c.par.lam.n4 * c.st.an) }
  | _, _ => False

/-- `x` is a sum of one contribution for each of the models. -/
inductive SumOf (law : ℕ → ℚ → Prop) : List ℕ → ℚ → Prop
  | nil : SumOf law [] 0
  | cons {i is x y} : law i x → SumOf law is y → SumOf law (i :: is) (x + y)

/-- The same for the loss of active material, quantity by quantity. -/
inductive LamSumOf (law : ℕ → LamOut → Prop) : List ℕ → LamOut → Prop
  | nil : LamSumOf law [] {}
  | cons {i is a b r} : law i a → LamSumOf law is b → r.thickp = a.thickp + b.thickp → r.thickn = a.thickn + b.thickn →
      r.ap = a.ap + b.ap → r.an = a.an + b.an → r.ep = a.ep + b.ep → r.en = a.en + b.en → LamSumOf law (i :: is) r

/-- The change of the volume fraction of the anode per second by an SEI layer growing with `j` (Ashwin et al.). -/
def PorosityLaw (c : SPM N) (j : ℚ) : ℕ → ℚ → Prop
  | 0, e => e = 0
  | 1, e => e = -(c.par.sei.porosity * (c.st.I / c.par.elecSurf / (c.st.an * c.par.n * 96487 * c.st.thickn) * c.par.Vmain +
      j * c.par.Vsei))
  | _, _ => False

/-- The change of the diffusion constant of the anode per second by cracks growing with `g` (Barai et al.), limited. -/
def DiffusionLaw (c : SPM N) (g : ℚ) : ℕ → ℚ → Prop
  | 0, x => x = 0
  | 1, x => ∃ A, A = max c.par.cs.Amax c.st.CS ∧ A ≠ 0 ∧
      x = -(min (2 / 10000000) (c.par.cs.diffusion * c.par.pow (1 - c.st.CS / A) (c.par.cs.diffusion - 1) / A * g) * c.st.Dn)
  | _, _ => False

/-- The models which need a stress have it computed. -/
def StressKept (c : SPM N) : Prop :=
  (1 ∈ c.deg.CS → c.stress.lares = true) ∧ (2 ∈ c.deg.CS ∨ 1 ∈ c.deg.LAM → c.stress.dai = true)

/-- The cell at the end of a time step of `n` times `dt` seconds before it ages: diffusion as with blocked degradation, and
its new temperature. -/
def beforeAgeing (c : SPM N) (dt : ℚ) (n : ℤ) : SPM N :=
  { blockedTwin c dt n with st := { (blockedTwin c dt n).st with T := (c.timeStep dt n).2.st.T } }

/-- C122: the step of a cell `c` ending in `a` has added the published rates, taken for the cell `b`, over `h` seconds; the
entropic coefficient of the anode is taken at the lithium fraction `z`. -/
def StepLaws (c b a : SPM N) (z h : ℚ) : Prop :=
  ∃ o js g jp l e x, AnodePotential b z o ∧ SumOf (SeiLaw b o) c.deg.SEI js ∧ SumOf (CrackLaw b c.stress h o) c.deg.CS g ∧
    PlatingLaw b o c.deg.pl jp ∧ LamSumOf (LamLaw b c.stress h) c.deg.LAM l ∧ PorosityLaw b js c.deg.SEIpor e ∧
    DiffusionLaw b g c.deg.CSdiff x ∧
    a.st.delta = c.st.delta + js / (c.par.nsei * 96487 * c.par.rhosei) * h ∧
    a.st.deltaPl = c.st.deltaPl + jp / (c.par.npl * 96487 * c.par.rhopl) * h ∧
    a.st.CS = c.st.CS + g * h ∧
    a.st.LLI = c.st.LLI + (js * (c.st.an * c.st.thickn * c.par.elecSurf + (c.deg.CS.countP (· ≠ 0)) * c.st.CS) +
      jp * (c.st.an * c.st.thickn * c.par.elecSurf)) * h ∧
    a.st.thickp = c.st.thickp + l.thickp * h ∧ a.st.thickn = c.st.thickn + l.thickn * h ∧
    a.st.ep = c.st.ep + l.ep * h ∧ a.st.en = c.st.en + (l.en + e) * h ∧
    a.st.ap = c.st.ap + (l.ap + 3 / c.par.Rp * l.ep) * h ∧ a.st.an = c.st.an + (l.an + 3 / c.par.Rn * (l.en + e)) * h ∧
    a.st.Dn = c.st.Dn + x * h

/-- C122, full statement: every successful step of a cell which ages adds the published rates of the selected models. -/
def AgeingAsPublished (N : ℕ) : Prop :=
  ∀ (c : SPM N) (dt : ℚ) (n : ℤ), SpmPhysical c.par → 0 < c.st.delta → StressKept c → c.block = false →
    (c.timeStep dt n).1 = .ok () →
    StepLaws c (beforeAgeing c dt n) (c.timeStep dt n).2
      ((beforeAgeing c dt n).cns / (beforeAgeing c dt n).par.Cmaxneg) (dt * n)

/-- The cell with all parameters of the side reactions at the anode multiplied by `f` and those of the loss of active material
by `g`, as the program does with its variation factors. -/
def fasterBy (f g : ℚ) (c : SPM N) : SPM N :=
  { c with par := { c.par with
      sei := c.par.sei.scale f
      cs := c.par.cs.scale f
      pl := c.par.pl.scale f
      lam := c.par.lam.scale g } }

/-- The rates `d'` are `f` times the rates `d` for layer, plating and cracks, and `g` times for the active material. -/
structure Faster (f g : ℚ) (d d' : DegRate N) : Prop where
  delta : d'.delta = f * d.delta
  LLI : d'.LLI = f * d.LLI
  CS : d'.CS = f * d.CS
  deltaPl : d'.deltaPl = f * d.deltaPl
  thickp : d'.thickp = g * d.thickp
  thickn : d'.thickn = g * d.thickn
  ep : d'.ep = g * d.ep
  en : d'.en = g * d.en
  ap : d'.ap = g * d.ap
  an : d'.an = g * d.an

/-- C123, full statement: multiplying the parameters of the ageing models by a factor makes the cell age faster by the
factor (cathode dissolution, whose rate is capped by design, and the effect of the layer on the active material aside). -/
def FactorsMultiply (N : ℕ) : Prop :=
  ∀ (c : SPM N) (f g : ℚ) (d d' : DegRate N), 0 < f → 0 < g → SpmPhysical c.par → 0 < c.st.delta → c.deg.SEIpor = 0 →
    3 ∉ c.deg.LAM → c.degRate = .ok d → (fasterBy f g c).degRate = .ok d' → Faster f g d d'

end Slide.Spec

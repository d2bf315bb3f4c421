import Verif.Model.SPM

/-!
Specifications for the single-particle cell (C35–C38, C43): sequences of public operations, what "up to date",
"atomic" and "one way" mean.
-/

namespace Slide

/-- Public operations on a single-particle cell. -/
inductive SpmOp (N : ℕ) where
  | readV
  | setCurrent (i : ℚ) (check : Bool)
  | setSOC (s : ℚ) (check : Bool)
  | setT (t : ℚ)
  | setTenv (t : ℚ)
  | setC (fp fn : ℚ)
  | setStates (s : List ℚ) (check : Bool)
  | setStateObj (st : SpmState N)
  | step (dt : ℚ) (n : ℤ)
  | block (b : Bool)
  | overwriteChar (Dp Dn r : ℚ)
  | overwriteGeo (thickp thickn ep en ap an : ℚ)
  | setGeometric (cap surf ep en thickp thickn : ℚ)
  | setCharacterisation (Dp Dn kp kn Rdc : ℚ)

namespace Spec

variable {N : ℕ}

/-- The cell after one operation, however the operation ended. -/
def spmAfter (c : SPM N) : SpmOp N → SPM N
  | .readV => c.V.2
  | .setCurrent i b => (c.setCurrent i b).2
  | .setSOC s b => (c.setSOC s b).2
  | .setT t => c.setT t
  | .setTenv t => (c.setTenv t).2
  | .setC fp fn => (c.setC fp fn).2
  | .setStates s b => (c.setStates s b).2
  | .setStateObj st => c.setStateObj st
  | .step dt n => (c.timeStep dt n).2
  | .block b => { c with block := b }
  | .overwriteChar a b r => c.overwriteChar a b r
  | .overwriteGeo a b e f g h => c.overwriteGeo a b e f g h
  | .setGeometric a b e f g h => c.setGeometric a b e f g h
  | .setCharacterisation a b e f g => c.setCharacterisation a b e f g

/-- The cell after a sequence of operations. -/
def spmRun (c : SPM N) : List (SpmOp N) → SPM N
  | [] => c
  | o :: os => spmRun (spmAfter c o) os

/-- What `V()` reports is what it would compute from the present states and parameters. -/
def Fresh (c : SPM N) : Prop := c.V.1 = ({ c with valid := false } : SPM N).V.1

/-- C35, full statement: no sequence of public operations makes `V()` report an outdated voltage. -/
def SpmAlwaysFresh (N : ℕ) : Prop :=
  ∀ (c : SPM N) (ops : List (SpmOp N)), c.valid = false → Fresh (spmRun c ops)

/-- The operations whose effect on the voltage the cell does not forget: everything except setting the temperature,
the parametrisation functions `overwrite…`/`setCharacterisationParam`, and time steps with degradation and thermal
model switched on. -/
def quiet (c : SPM N) : SpmOp N → Prop
  | .setT _ => False
  | .overwriteChar .. => False
  | .overwriteGeo .. => False
  | .setCharacterisation .. => False
  | .step _ _ => c.block = true
  | _ => True

/-- A sequence of quiet operations. -/
def quietRun (c : SPM N) : List (SpmOp N) → Prop
  | [] => True
  | o :: os => quiet c o ∧ quietRun (spmAfter c o) os

/-- C36, full statement: whatever `setStates` is given, it either accepts it or leaves the cell as it was. -/
def SpmSetStatesAtomic (N : ℕ) : Prop :=
  ∀ (c : SPM N) (s : List ℚ) (check : Bool),
    (∃ r rest, (c.setStates s check).1 = .ok (r, rest) ∧ r.isBad = false) ∨ (c.setStates s check).2 = c

/-- The documented conditions on the states of a single-particle cell (`Cell_SPM.cpp:380-394`): SOC and temperature
in range, surface concentrations inside the particle's range, effective surface equal to three times the volume
fraction over the radius (up to a relative error of 1e-5), everything else not negative. -/
structure SpmValid (c : SPM N) : Prop where
  soc : 0 ≤ c.st.SOC ∧ c.st.SOC ≤ 1
  temp : 273 ≤ c.st.T ∧ c.st.T ≤ 333
  concP : 0 < c.cps ∧ c.cps < c.par.Cmaxpos
  concN : 0 < c.cns ∧ c.cns < c.par.Cmaxneg
  delta : 0 < c.st.delta
  LLI : 0 ≤ c.st.LLI
  surfP : |c.st.ap - 3 * c.st.ep / c.par.Rp| ≤ 1 / 100000 * |c.st.ap|
  surfN : |c.st.an - 3 * c.st.en / c.par.Rn| ≤ 1 / 100000 * |c.st.an|
  CS : 0 ≤ c.st.CS
  rDC : 0 ≤ c.st.rDCp ∧ 0 ≤ c.st.rDCn ∧ 0 ≤ c.st.rDCcc
  deltaPl : 0 ≤ c.st.deltaPl

/-- C72, full statement: a vector accepted by `setStates` gives valid states. -/
def SpmAcceptsOnlyValid (N : ℕ) : Prop :=
  ∀ (c : SPM N) (s : List ℚ) (check : Bool) r rest,
    (c.setStates s check).1 = .ok (r, rest) → r.isBad = false → SpmValid (c.setStates s check).2

/-- C37, full statement: the degradation factors given to the constructor multiply the rate constants of SEI growth,
cracking and plating, and of loss of active material. -/
def SpmFactorsApplied (N : ℕ) : Prop :=
  ∀ (c : SPM N) (deg : DegSel) (capf resf fsei flam : ℚ), c.par.varSEI = 1 → c.par.varLAM = 1 →
    let b := c.build deg capf resf fsei flam
    b.par.sei.k1 = c.par.sei.k1 * fsei ∧ b.par.cs.a1 = c.par.cs.a1 * fsei ∧
    b.par.lam.p1 = c.par.lam.p1 * flam ∧ b.par.pl.k = c.par.pl.k * fsei

/-- Physical parameters: rate constants and densities are not negative, numbers of electrons, densities and areas are
positive; `exp` and `sqrt` are not negative. -/
structure SpmPhysical (p : SpmPar N) : Prop where
  exp : ∀ x, 0 ≤ p.exp x
  sqrt : ∀ x, 0 ≤ p.sqrt x
  nsei : 0 < p.nsei
  npl : 0 < p.npl
  rhosei : 0 < p.rhosei
  rhopl : 0 < p.rhopl
  elecSurf : 0 < p.elecSurf
  c_elec0 : 0 ≤ p.c_elec0
  k1 : 0 ≤ p.sei.k1
  k2 : 0 ≤ p.sei.k2
  k3 : 0 ≤ p.sei.k3
  k4 : 0 ≤ p.sei.k4
  D2 : 0 ≤ p.sei.D2
  D3 : 0 ≤ p.sei.D3
  D4 : 0 ≤ p.sei.D4
  a1 : 0 ≤ p.cs.a1
  a2 : 0 ≤ p.cs.a2
  a3 : 0 ≤ p.cs.a3
  a4 : 0 ≤ p.cs.a4
  k5 : 0 ≤ p.cs.k5
  kpl : 0 ≤ p.pl.k

/-- Physical parameters of the loss of active material. -/
structure SpmPhysicalLam (p : SpmPar N) : Prop where
  p1 : 0 ≤ p.lam.p1
  n1 : 0 ≤ p.lam.n1
  ap2 : p.lam.ap2 ≤ 0
  bp2 : p.lam.bp2 ≤ 0
  an2 : p.lam.an2 ≤ 0
  bn2 : p.lam.bn2 ≤ 0
  k3 : 0 ≤ p.lam.k3
  p4 : 0 ≤ p.lam.p4
  n4 : 0 ≤ p.lam.n4
  Rp : 0 < p.Rp
  Rn : 0 < p.Rn
  n : 0 < p.n
  por : 0 ≤ p.sei.porosity
  Vmain : 0 ≤ p.Vmain
  Vsei : 0 ≤ p.Vsei

/-- The operations of ordinary use: everything except overwriting states or parameters. -/
def ordinary : SpmOp N → Prop
  | .readV => True
  | .setCurrent _ _ => True
  | .setSOC _ _ => True
  | .setT _ => True
  | .setTenv _ => True
  | .setC _ _ => True
  | .step _ n => 0 ≤ n
  | .block _ => True
  | _ => False

/-- The four degradation states that must not decrease: thickness of the SEI layer, lost lithium, crack surface,
thickness of the plated lithium. -/
structure NotYounger (a b : SPM N) : Prop where
  delta : a.st.delta ≤ b.st.delta
  LLI : a.st.LLI ≤ b.st.LLI
  CS : a.st.CS ≤ b.st.CS
  deltaPl : a.st.deltaPl ≤ b.st.deltaPl

/-- `P` holds of the cell before every operation and at the end. -/
def throughout (P : SPM N → Prop) (c : SPM N) : List (SpmOp N) → Prop
  | [] => P c
  | o :: os => P c ∧ throughout P (spmAfter c o) os

/-- C38, full statement: in ordinary use the four states never decrease. -/
def SpmAgesOneWay (N : ℕ) : Prop :=
  ∀ (c : SPM N) (ops : List (SpmOp N)), SpmPhysical c.par → SpmValid c → 0 < c.st.an → 0 < c.st.thickn →
    (∀ o ∈ ops, ordinary o) → NotYounger c (spmRun c ops)

/-- C38, full statement for the length of a time step: every step that is not refused with an exception has defined
results. -/
def SpmStepsDefined (N : ℕ) : Prop :=
  ∀ (c : SPM N) (dt : ℚ) (n : ℤ), SpmPhysical c.par → SpmValid c → (∃ v, c.V.1 = .ok v) →
    ∀ w, (c.timeStep dt n).1 ≠ .ub w

/-- C38, full statement for the number of steps: time steps never make the cell younger, whatever the arguments. -/
def SpmStepsNeverUnage (N : ℕ) : Prop :=
  ∀ (c : SPM N) (dt : ℚ) (n : ℤ), SpmPhysical c.par → SpmValid c → 0 < c.st.an → 0 < c.st.thickn →
    NotYounger c (c.timeStep dt n).2

/-- A selected model identifier that the cell does not know. -/
def unknownModel (d : DegSel) : Prop :=
  (∃ i ∈ d.SEI, 4 < i) ∨ 1 < d.SEIpor ∨ (∃ i ∈ d.CS, 5 < i) ∨ 1 < d.CSdiff ∨ (∃ i ∈ d.LAM, 4 < i) ∨ 1 < d.pl

/-- The selected models the cell does know can be evaluated at the anode potential `o` (stresses updated, time step not
zero, no `0/0`). -/
structure KnownModelsRun (c : SPM N) (o : ℚ) : Prop where
  sei : ∀ i ∈ c.deg.SEI, i ≤ 4 → ∃ x, c.seiModel o i = .ok x
  cs : ∀ i ∈ c.deg.CS, i ≤ 5 → ∃ x, c.csModel o i = .ok x
  lam : ∀ i ∈ c.deg.LAM, i ≤ 4 → ∃ x, c.lamModel i = .ok x
  area : max c.par.cs.Amax c.st.CS ≠ 0

/-- Amounts of active material that must not increase. -/
structure NotMore (a b : SPM N) : Prop where
  thickp : b.st.thickp ≤ a.st.thickp
  thickn : b.st.thickn ≤ a.st.thickn
  ep : b.st.ep ≤ a.st.ep
  en : b.st.en ≤ a.st.en
  ap : b.st.ap ≤ a.st.ap
  an : b.st.an ≤ a.st.an

/-- C75, full statement: in ordinary use the amount of active material never increases. -/
def SpmLosesMaterial (N : ℕ) : Prop :=
  ∀ (c : SPM N) (ops : List (SpmOp N)), SpmPhysical c.par → SpmPhysicalLam c.par → SpmValid c →
    0 < c.st.an → 0 < c.st.thickn → 0 < c.st.ap → (∀ o ∈ ops, ordinary o) → NotMore c (spmRun c ops)

/-- C43: set a current, then take a number of steps; `none` if something is refused. -/
def spmLeg (c : SPM N) (i dt : ℚ) (n : ℕ) : Option (SPM N) :=
  match c.setCurrent i true with
  | (.ok r, c1) =>
    if r.isBad then none
    else match c1.timeStep dt n with
      | (.ok _, c2) => some c2
      | _ => none
  | _ => none

/-- C43: a sequence of (current, step length, number of steps). -/
def spmProfile (c : SPM N) : List (ℚ × ℚ × ℕ) → Option (SPM N)
  | [] => some c
  | p :: rest => (spmLeg c p.1 p.2.1 p.2.2).bind fun c2 => spmProfile c2 rest

/-- Charge taken out by such a sequence (in coulombs). -/
def profileCharge : List (ℚ × ℚ × ℕ) → ℚ
  | [] => 0
  | (i, dt, n) :: rest => i * dt * n + profileCharge rest

/-- The rows of the diffusion matrices belonging to the uniform concentration do not decay (exactly true of the shipped
`Cheb_Ap.csv`, `Cheb_An.csv`). -/
def NoDecay (c : SPM N) : Prop := c.par.M.Ap c.par.M.ind = 0 ∧ c.par.M.An c.par.M.ind = 0

/-- The discretisation represents uniform concentrations exactly: transforming a uniform concentration to the states
and back gives it at all nodes, and the matrix for the centre node is exact for constants. -/
structure Consistent (c : SPM N) : Prop where
  p : ∀ k, c.par.M.Cp k c.par.M.ind * ∑ i, c.par.M.Vp c.par.M.ind i * (c.par.M.xch i * c.par.Rp) = 1
  n : ∀ k, c.par.M.Cn k c.par.M.ind * ∑ i, c.par.M.Vn c.par.M.ind i * (c.par.M.xch i * c.par.Rn) = 1
  centre : ∑ i, c.par.M.Cc i = -2

/-- No degradation model is selected. -/
def noDegradation (d : DegSel) : Prop :=
  d.SEI = [] ∧ d.SEIpor = 0 ∧ d.CS = [] ∧ d.CSdiff = 0 ∧ d.LAM = [] ∧ d.pl = 0

/-- C73: the operations with the currents multiplied by `f`. -/
def scaleOp (f : ℚ) : SpmOp N → SpmOp N
  | .setCurrent i b => .setCurrent (f * i) b
  | o => o

/-- C73: `b` is `a` with capacity and electrode area multiplied by `f`, carrying `f` times the current (and throughput). -/
structure ScaledBy (f : ℚ) (a b : SPM N) : Prop where
  par : b.par = { a.par with cap := f * a.par.cap, elecSurf := f * a.par.elecSurf }
  st : b.st = { a.st with I := f * a.st.I, Ah := f * a.st.Ah, Wh := f * a.st.Wh }
  valid : b.valid = a.valid
  block : a.block = true ∧ b.block = true

/-- The operations of C73: ordinary use with degradation and heat blocked. -/
def blockedUse : SpmOp N → Prop
  | .readV => True
  | .setCurrent _ _ => True
  | .setSOC _ _ => True
  | .setT _ => True
  | .setTenv _ => True
  | .setC _ _ => True
  | .step _ _ => True
  | _ => False

end Spec
end Slide

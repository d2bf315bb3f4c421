import Verif.Model.Outcome
import Verif.Model.Voltage
import Mathlib.Algebra.BigOperators.Fin
import Mathlib.Data.List.OfFn

/-!
Model of the single-particle cell `Cell_SPM`, `/repo/src/cells/Cell_SPM/*.cpp`.

Simplifications.
* Doubles are rationals.  The functions `exp`, `sqrt`, `asinh`, `pow` of libm are parameters of the cell
  (`SpmPar.exp`, ...); what a theorem needs to know about them is a hypothesis of that theorem.
* A division by zero (which gives `inf` or NaN in C++) is the outcome `ub`.  The only exception are the
  SEI rates of the form `num / (1/a + delta/d)`, where infinities disappear again and the model computes the
  resulting 0 (`seriesRate`).
* The OCV and entropic curves are functions `ℚ → Option ℚ`; `none` means that the interpolation throws 1.
* The number of discretisation nodes is a parameter `N` (`settings::nch = 5`).
* The stress of Dai's model is a function of the state (`SpmPar.dai`; `getDaiStress` itself is modelled in
  `Verif.Model.Dai`), Laresgoiti's table is a curve (`SpmPar.laresCurve`).
* Printing, the data recorder, the initial state `s_ini` and the ID are left out.
-/

namespace Slide

/-- Faraday's constant and the gas constant – `/repo/src/settings/constants.hpp:21-22`. -/
def Faraday : ℚ := 96487
def Rgas : ℚ := 8314 / 1000

/-- Fitting parameters of SEI growth – `/repo/src/cells/Cell_SPM/param/SEIparam.hpp:15-36`. -/
@[ext] structure SeiPar where
  porosity : ℚ
  k1 : ℚ
  k1_T : ℚ
  k2 : ℚ
  k2_T : ℚ
  D2 : ℚ
  D2_T : ℚ
  k3 : ℚ
  k3_T : ℚ
  D3 : ℚ
  D3_T : ℚ
  k4 : ℚ
  k4_T : ℚ
  D4 : ℚ
  D4_T : ℚ
  deriving DecidableEq

/-- `SEIparam::operator*=`: every member, activation energies included. -/
def SeiPar.scale (p : SeiPar) (a : ℚ) : SeiPar :=
  { porosity := p.porosity * a, k1 := p.k1 * a, k1_T := p.k1_T * a, k2 := p.k2 * a, k2_T := p.k2_T * a,
    D2 := p.D2 * a, D2_T := p.D2_T * a, k3 := p.k3 * a, k3_T := p.k3_T * a, D3 := p.D3 * a, D3_T := p.D3_T * a,
    k4 := p.k4 * a, k4_T := p.k4_T * a, D4 := p.D4 * a, D4_T := p.D4_T * a }

/-- Fitting parameters of surface cracking – `/repo/src/cells/Cell_SPM/param/CSparam.hpp`. -/
@[ext] structure CsPar where
  a1 : ℚ
  a2 : ℚ
  a3 : ℚ
  a4 : ℚ
  Amax : ℚ
  k5 : ℚ
  k5_T : ℚ
  diffusion : ℚ
  deriving DecidableEq

/-- `CSparam::operator*=`. -/
def CsPar.scale (p : CsPar) (a : ℚ) : CsPar :=
  { a1 := p.a1 * a, a2 := p.a2 * a, a3 := p.a3 * a, a4 := p.a4 * a, Amax := p.Amax * a,
    k5 := p.k5 * a, k5_T := p.k5_T * a, diffusion := p.diffusion * a }

/-- Fitting parameters of loss of active material – `/repo/src/cells/Cell_SPM/param/LAMparam.hpp`. -/
@[ext] structure LamPar where
  p1 : ℚ
  n1 : ℚ
  ap2 : ℚ
  bp2 : ℚ
  an2 : ℚ
  bn2 : ℚ
  t2 : ℚ
  k3 : ℚ
  k3_T : ℚ
  p4 : ℚ
  n4 : ℚ
  deriving DecidableEq

/-- `LAMparam::operator*=`. -/
def LamPar.scale (p : LamPar) (a : ℚ) : LamPar :=
  { p1 := p.p1 * a, n1 := p.n1 * a, ap2 := p.ap2 * a, bp2 := p.bp2 * a, an2 := p.an2 * a, bn2 := p.bn2 * a,
    t2 := p.t2 * a, k3 := p.k3 * a, k3_T := p.k3_T * a, p4 := p.p4 * a, n4 := p.n4 * a }

/-- Fitting parameters of lithium plating – `/repo/src/cells/Cell_SPM/param/PLparam.hpp`. -/
@[ext] structure PlPar where
  k : ℚ
  k_T : ℚ
  deriving DecidableEq

/-- `PLparam::operator*=`. -/
def PlPar.scale (p : PlPar) (a : ℚ) : PlPar := { k := p.k * a, k_T := p.k_T * a }

/-- Selected degradation models – `/repo/src/cells/Cell_SPM/param/DEG_ID.hpp`. -/
structure DegSel where
  SEI : List ℕ
  SEIpor : ℕ
  CS : List ℕ
  CSdiff : ℕ
  LAM : List ℕ
  pl : ℕ
  deriving DecidableEq, Repr

/-- Matrices of the spatial discretisation – `/repo/src/cells/Cell_SPM/Model_SPM.hpp:25-52`.
`ind` is `Input[3]`, the row of the uniform concentration. -/
structure SpmModel (N : ℕ) where
  ind : Fin N
  xch : Fin N → ℚ
  Ap : Fin N → ℚ
  An : Fin N → ℚ
  Bp : Fin N → ℚ
  Bn : Fin N → ℚ
  Cp : Fin (N + 1) → Fin N → ℚ
  Cn : Fin (N + 1) → Fin N → ℚ
  Cc : Fin (N + 1) → ℚ
  Dp : Fin (N + 1) → ℚ
  Dn : Fin (N + 1) → ℚ
  Vp : Fin N → Fin N → ℚ
  Vn : Fin N → Fin N → ℚ

/-- `State_SPM` – `/repo/src/cells/Cell_SPM/State_SPM.hpp:27-52` and the cumulative part of
`/repo/src/types/State.hpp:24-30`. -/
@[ext] structure SpmState (N : ℕ) where
  I : ℚ
  V : ℚ
  T : ℚ
  delta : ℚ
  LLI : ℚ
  thickp : ℚ
  thickn : ℚ
  ep : ℚ
  en : ℚ
  ap : ℚ
  an : ℚ
  CS : ℚ
  Dp : ℚ
  Dn : ℚ
  deltaPl : ℚ
  zp : Fin N → ℚ
  zn : Fin N → ℚ
  rDCp : ℚ
  rDCn : ℚ
  rDCcc : ℚ
  SOC : ℚ
  time : ℚ
  Ah : ℚ
  Wh : ℚ

/-- Parameters of the cell – `/repo/src/cells/Cell_SPM/Cell_SPM.hpp:46-118,150-153`, the functions of libm, the
curves, the discretisation and `settings::T_MODEL` (`/repo/src/settings/settings.hpp:92`). -/
structure SpmPar (N : ℕ) where
  exp : ℚ → ℚ
  sqrt : ℚ → ℚ
  asinh : ℚ → ℚ
  pow : ℚ → ℚ → ℚ
  tModel : ℕ
  cap : ℚ
  Cmaxpos : ℚ
  Cmaxneg : ℚ
  C_elec : ℚ
  n : ℚ
  kp : ℚ
  kp_T : ℚ
  kn : ℚ
  kn_T : ℚ
  Dp_T : ℚ
  Dn_T : ℚ
  T_ref : ℚ
  Qch : ℚ
  rho : ℚ
  Cp : ℚ
  L : ℚ
  Acell : ℚ
  elecSurf : ℚ
  Rp : ℚ
  Rn : ℚ
  rsei : ℚ
  nsei : ℚ
  alphasei : ℚ
  OCVsei : ℚ
  rhosei : ℚ
  c_elec0 : ℚ
  Vmain : ℚ
  Vsei : ℚ
  sei : SeiPar
  cs : CsPar
  OCVnmc : ℚ
  lam : LamPar
  npl : ℚ
  alphapl : ℚ
  OCVpl : ℚ
  rhopl : ℚ
  pl : PlPar
  M : SpmModel N
  ocvP : ℚ → Option ℚ
  ocvN : ℚ → Option ℚ
  dTot : ℚ → Option ℚ
  dNeg : ℚ → Option ℚ
  dai : SpmState N → ℚ × ℚ
  laresCurve : ℚ → Option ℚ
  varCap : ℚ
  varR : ℚ
  varSEI : ℚ
  varLAM : ℚ

/-- The variable part of `StressParam` – `/repo/src/cells/Cell_SPM/param/StressParam.hpp:26-38`. -/
@[ext] structure SpmStress where
  dai : Bool
  lares : Bool
  daiUpd : Bool
  laresUpd : Bool
  daiP : ℚ
  daiN : ℚ
  laresN : ℚ
  daiPprev : ℚ
  daiNprev : ℚ
  laresNprev : ℚ
  dt : ℚ
  deriving DecidableEq

/-- A single-particle cell: parameters, states, `Vcell_valid`, stress bookkeeping, thermal bookkeeping,
`deg_id`, `blockDegAndTherm`, and whether the cell has a parent module. -/
@[ext] structure SPM (N : ℕ) where
  par : SpmPar N
  st : SpmState N
  valid : Bool
  stress : SpmStress
  Qgen : ℚ
  Qtot : ℚ
  thermTime : ℚ
  T_env : ℚ
  deg : DegSel
  block : Bool
  parent : Bool

namespace SPM

variable {N : ℕ}

/-- `calcArrheniusCoeff` – `Cell_SPM.hpp:120`. -/
def arrh (c : SPM N) : ℚ := (1 / c.par.T_ref - 1 / c.st.T) / Rgas

/-- `calcDiffConstant` – `Cell_SPM_diffusion.cpp:75-84`. -/
def Dpt (c : SPM N) : ℚ := c.st.Dp * c.par.exp (c.par.Dp_T * c.arrh)
def Dnt (c : SPM N) : ℚ := c.st.Dn * c.par.exp (c.par.Dn_T * c.arrh)

/-- `calcMolarFlux` – `Cell_SPM_diffusion.cpp:65-73`. -/
def iApp (c : SPM N) : ℚ := c.st.I / c.par.elecSurf
def jp (c : SPM N) : ℚ := -c.iApp / (c.st.ap * c.par.n * Faraday * c.st.thickp)
def jn (c : SPM N) : ℚ := c.iApp / (c.st.an * c.par.n * Faraday * c.st.thickn)

/-- The denominators of the three functions above and of the surface concentrations are nonzero. -/
def finite (c : SPM N) : Bool :=
  !(c.par.T_ref = 0 || c.st.T = 0 || c.par.elecSurf = 0 || c.st.ap = 0 || c.st.an = 0 || c.par.n = 0 ||
    c.st.thickp = 0 || c.st.thickn = 0 || c.Dpt = 0 || c.Dnt = 0 || c.par.Cmaxpos = 0 || c.par.Cmaxneg = 0)

/-- `calcSurfaceConcentration` – `Cell_SPM_diffusion.cpp:23-41`. -/
def cps (c : SPM N) : ℚ := ∑ j, c.par.M.Cp 0 j * c.st.zp j + c.par.M.Dp 0 * c.jp / c.Dpt
def cns (c : SPM N) : ℚ := ∑ j, c.par.M.Cn 0 j * c.st.zn j + c.par.M.Dn 0 * c.jn / c.Dnt

/-- The flag of `getCSurf` – `Cell_SPM.cpp:123-145`: both surface concentrations strictly between 0 and their
maximum. -/
def concOk (c : SPM N) : Bool :=
  !(c.cps ≤ 0 || c.cns ≤ 0 || c.cps ≥ c.par.Cmaxpos || c.cns ≥ c.par.Cmaxneg)

/-- Concentrations at the surface and inner nodes of the negative particle, and at its centre – `getC`,
`Cell_SPM.cpp:147-201`; the same for the positive particle. -/
def nodeN (c : SPM N) (i : Fin (N + 1)) : ℚ := ∑ j, c.par.M.Cn i j * c.st.zn j + c.par.M.Dn i * c.jn / c.Dnt
def centreN (c : SPM N) : ℚ := -1 / 2 * (∑ i, c.par.M.Cc i * c.nodeN i + c.jn * c.par.Rn / c.Dnt)
def nodeP (c : SPM N) (i : Fin (N + 1)) : ℚ := ∑ j, c.par.M.Cp i j * c.st.zp j + c.par.M.Dp i * c.jp / c.Dpt
def centreP (c : SPM N) : ℚ := -1 / 2 * (∑ i, c.par.M.Cc i * c.nodeP i + c.jp * c.par.Rp / c.Dpt)

/-- `calcOverPotential` – `Cell_SPM_diffusion.cpp:43-63`. -/
def i0p (c : SPM N) : ℚ :=
  c.par.kp * c.par.exp (c.par.kp_T * c.arrh) * c.par.n * Faraday *
    c.par.sqrt (c.par.C_elec * c.cps * (c.par.Cmaxpos - c.cps))
def i0n (c : SPM N) : ℚ :=
  c.par.kn * c.par.exp (c.par.kn_T * c.arrh) * c.par.n * Faraday *
    c.par.sqrt (c.par.C_elec * c.cns * (c.par.Cmaxneg - c.cns))
def etap (c : SPM N) : ℚ :=
  2 * Rgas * c.st.T / (c.par.n * Faraday) * c.par.asinh (-1 / 2 * c.iApp / (c.st.ap * c.st.thickp) / c.i0p)
def etan (c : SPM N) : ℚ :=
  2 * Rgas * c.st.T / (c.par.n * Faraday) * c.par.asinh (1 / 2 * c.iApp / (c.st.an * c.st.thickn) / c.i0n)

/-- `getRdc` – `Cell_SPM.cpp:24-37`. -/
def Rdc (c : SPM N) : ℚ :=
  c.st.delta * c.par.rsei / (c.st.an * c.par.elecSurf * c.st.thickn) +
  c.st.rDCp / (c.st.ap * c.par.elecSurf * c.st.thickp) +
  c.st.rDCn / (c.st.an * c.par.elecSurf * c.st.thickn) + c.st.rDCcc / c.par.elecSurf

/-- `OCV_curves.….interp(x, …, bound = true)`. -/
def look (f : ℚ → Option ℚ) (x : ℚ) : Outcome ℚ :=
  match f x with
  | some y => .ok y
  | none => .throw 1

/-- `getOCV` – `Cell_SPM.cpp:203-232`. -/
def getOCV (c : SPM N) : Outcome ℚ :=
  if !c.finite then .ub "division by zero" else do
    let d ← look c.par.dTot (c.cps / c.par.Cmaxpos)
    let n ← look c.par.ocvN (c.cns / c.par.Cmaxneg)
    let p ← look c.par.ocvP (c.cps / c.par.Cmaxpos)
    .ok (p - n + (c.st.T - c.par.T_ref) * d)

/-- The voltage computed from the states by `V()` when nothing is cached – `Cell_SPM.cpp:256-302`.
`none`: the surface concentration is out of bounds and `V()` returns 0. -/
def calcV (c : SPM N) : Outcome (Option ℚ) :=
  if !c.finite then .ub "division by zero"
  else if !c.concOk then .ok none
  else do
    let d ← look c.par.dTot (c.cps / c.par.Cmaxpos)
    let n ← look c.par.ocvN (c.cns / c.par.Cmaxneg)
    let p ← look c.par.ocvP (c.cps / c.par.Cmaxpos)
    if c.i0p = 0 || c.i0n = 0 then .ub "division by zero"
    else .ok (some (p - n + (c.st.T - c.par.T_ref) * d + (c.etap - c.etan) - c.Rdc * c.st.I))

/-- `st.V() = v; Vcell_valid = true` – `Cell_SPM.cpp:300-301`. -/
def cache (c : SPM N) (v : ℚ) : SPM N := { c with st := { c.st with V := v }, valid := true }

/-- `Cell_SPM::V` – `Cell_SPM.cpp:234-305`. -/
def V (c : SPM N) : Outcome ℚ × SPM N :=
  if c.valid then (.ok c.st.V, c)
  else match c.calcV with
    | .ok none => (.ok 0, c)
    | .ok (some v) => (.ok v, c.cache v)
    | .throw e => (.throw e, c)
    | .ub w => (.ub w, c)

/-- `Cell::checkVoltage` with `free::check_voltage` – `/repo/src/cells/Cell.hpp:79`,
`/repo/src/utility/free_functions.hpp:138-210`: an exception of `V()` becomes a status. -/
def checkV (c : SPM N) : Outcome Status × SPM N :=
  match c.V with
  | (.ok v, c') => (.ok (checkVoltage cellLimits (some v) c.st.I), c')
  | (.throw _, c') => (.ok (checkVoltage cellLimits none c.st.I), c')
  | (.ub w, c') => (.ub w, c')

/-- `Cell::checkCurrent` – `/repo/src/cells/Cell.hpp:65-71`. -/
def checkCurrent (c : SPM N) (check : Bool) : Outcome Status × SPM N :=
  if check then c.checkV else (.ok .Success, c)

/-- `Cell_SPM::setCurrent` – `Cell_SPM.cpp:77-121`. -/
def setCurrent (c : SPM N) (i : ℚ) (check : Bool) : Outcome Status × SPM N :=
  let c1 : SPM N := { c with st := { c.st with I := i }, valid := false }
  match c1.checkCurrent check with
  | (.ok s, c2) =>
    if s.isBad then (.ok s, { c2 with st := { c2.st with I := c.st.I, V := c.st.V }, valid := c.valid })
    else (.ok s, c2)
  | (.throw e, c2) => (.throw e, c2)
  | (.ub w, c2) => (.ub w, c2)

/-- `Cell_SPM::setSOC` – `Cell_SPM.cpp:39-75`: only the SOC counter, not the concentrations. -/
def setSOC (c : SPM N) (s : ℚ) (check : Bool) : Outcome Status × SPM N :=
  if !checkSOC s then (.ok .SOC_limits_violation, c)
  else
    let c1 : SPM N := { c with st := { c.st with SOC := s } }
    if check then
      match c1.checkV with
      | (.ok r, c2) =>
        if r.isBad then (.ok r, { c2 with st := { c2.st with SOC := c.st.SOC } }) else (.ok r, c2)
      | (.throw e, c2) => (.throw e, c2)
      | (.ub w, c2) => (.ub w, c2)
    else (.ok .Success, c1)

/-- `Cell_SPM::setT` – `Cell_SPM.cpp:546-560`: the cached voltage is not invalidated. -/
def setT (c : SPM N) (t : ℚ) : SPM N :=
  { c with st := { c.st with T := t }, stress := { c.stress with daiUpd := false, laresUpd := false } }

/-- `Cell_SPM::setTenv` – `Cell_SPM.cpp:488-512`. -/
def setTenv (c : SPM N) (t : ℚ) : Outcome Unit × SPM N :=
  if t < 273 ∨ t > 333 then (.throw 102, c) else (.ok (), { c with T_env := t })

/-- The states of a uniform concentration – `Cell_SPM.cpp:590-619`. -/
def uniformZp (c : SPM N) (cp : ℚ) : Fin N → ℚ := fun k =>
  if k = c.par.M.ind then ∑ i, c.par.M.Vp c.par.M.ind i * (cp * c.par.M.xch i * c.par.Rp) else 0
def uniformZn (c : SPM N) (cn : ℚ) : Fin N → ℚ := fun k =>
  if k = c.par.M.ind then ∑ i, c.par.M.Vn c.par.M.ind i * (cn * c.par.M.xch i * c.par.Rn) else 0

/-- `Cell_SPM::setC` – `Cell_SPM.cpp:562-629`. -/
def setC (c : SPM N) (fp fn : ℚ) : Outcome Unit × SPM N :=
  if fp < 0 ∨ fp > 1 ∨ fn < 0 ∨ fn > 1 then (.throw 104, c)
  else (.ok (), { c with
    st := { c.st with zp := c.uniformZp (fp * c.par.Cmaxpos), zn := c.uniformZn (fn * c.par.Cmaxneg), I := 0 },
    stress := { c.stress with daiUpd := false, laresUpd := false },
    valid := false })

/-- `Cell_SPM::getStates` – `Cell_SPM.hpp:270`. -/
def getStates (c : SPM N) : List ℚ :=
  let s := c.st
  [s.I, s.V, s.T, s.delta, s.LLI, s.thickp, s.thickn, s.ep, s.en, s.ap, s.an, s.CS, s.Dp, s.Dn, s.deltaPl] ++
  (List.ofFn s.zp ++ (List.ofFn s.zn ++ [s.rDCp, s.rDCn, s.rDCcc, s.SOC, s.time, s.Ah, s.Wh]))

/-- `std::copy(s.begin(), s.begin() + st.size(), st.begin())` – `Cell_SPM.cpp:364`; reading beyond the span is
undefined (`none`). -/
def decode (N : ℕ) (s : List ℚ) : Option (SpmState N) :=
  if h : 22 + 2 * N ≤ s.length then
    some { I := s[0], V := s[1], T := s[2], delta := s[3], LLI := s[4], thickp := s[5], thickn := s[6],
           ep := s[7], en := s[8], ap := s[9], an := s[10], CS := s[11], Dp := s[12], Dn := s[13],
           deltaPl := s[14], zp := fun i => s[15 + i.val], zn := fun i => s[15 + N + i.val],
           rDCp := s[15 + 2 * N], rDCn := s[16 + 2 * N], rDCcc := s[17 + 2 * N], SOC := s[18 + 2 * N],
           time := s[19 + 2 * N], Ah := s[20 + 2 * N], Wh := s[21 + 2 * N] }
  else none

/-- `std::abs(a - b) / a > 1e-5` in floating-point arithmetic – `Cell_SPM.cpp:438,446`: for `a = 0` the quotient is
`inf` (greater) if `b ≠ 0` and NaN (not greater) if `b = 0`. -/
def relOff (a b : ℚ) : Bool := if a = 0 then b ≠ 0 else |a - b| / a > 1 / 100000

/-- `Cell_SPM::validStates` – `Cell_SPM.cpp:378-486`.  A negative `LLI` throws 15. -/
def validStates (c : SPM N) : Outcome Bool :=
  if !c.finite then .ub "division by zero"
  else if c.st.LLI < 0 then .throw 15
  else .ok (checkSOC c.st.SOC && !(c.st.T < 273 || c.st.T > 333) && c.concOk && !(c.st.delta ≤ 0) &&
    !(relOff c.st.ap (3 * c.st.ep / c.par.Rp)) && !(relOff c.st.an (3 * c.st.en / c.par.Rn)) &&
    !(c.st.CS < 0) && !(c.st.rDCp < 0 || c.st.rDCn < 0 || c.st.rDCcc < 0) && !(c.st.deltaPl < 0))

/-- `free::check_Cell_states` – `/repo/src/utility/free_functions.hpp:118-135`. -/
def checkStates (c : SPM N) (check : Bool) : Outcome Status × SPM N :=
  match c.validStates with
  | .ok false => (.ok .Invalid_states, c)
  | .ok true => if check then c.checkV else (.ok .Success, c)
  | .throw e => (.throw e, c)
  | .ub w => (.ub w, c)

/-- `Cell_SPM::setStates` – `Cell_SPM.cpp:355-376`.  An exception of `validStates` escapes before the back-up is
restored. -/
def setStates (c : SPM N) (s : List ℚ) (check : Bool) : Outcome (Status × List ℚ) × SPM N :=
  match decode N s with
  | none => (.ub "state span too short", c)
  | some st =>
    let c1 : SPM N := { c with st := st, valid := false }
    match c1.checkStates check with
    | (.ok r, c2) =>
      if r.isBad then (.ok (r, s.drop (22 + 2 * N)), { c2 with st := c.st, valid := c.valid })
      else (.ok (r, s.drop (22 + 2 * N)), c2)
    | (.throw e, c2) => (.throw e, c2)
    | (.ub w, c2) => (.ub w, c2)

/-- `Cell_SPM::setStateObj` – `Cell_SPM.hpp:166-170`. -/
def setStateObj (c : SPM N) (st : SpmState N) : SPM N := { c with st := st, valid := false }

/-- `Cell_SPM::overwriteCharacterisationStates` – `Cell_SPM.hpp:238-243`, `State_SPM.hpp:134-154`. -/
def overwriteChar (c : SPM N) (Dp Dn r : ℚ) : SPM N :=
  { c with st := { c.st with Dp := Dp, Dn := Dn, rDCp := r, rDCn := r } }

/-- `Cell_SPM::overwriteGeometricStates` – `Cell_SPM.hpp:245-250`. -/
def overwriteGeo (c : SPM N) (thickp thickn ep en ap an : ℚ) : SPM N :=
  { c with st := { c.st with thickp := thickp, thickn := thickn, ep := ep, en := en, ap := ap, an := an } }

/-! ### Time integration -/

/-- `dState_diffusion` – `Cell_SPM_dstate.cpp:23-55`. -/
def dzp (c : SPM N) (j : Fin N) : ℚ := c.Dpt * c.par.M.Ap j * c.st.zp j + c.par.M.Bp j * c.jp
def dzn (c : SPM N) (j : Fin N) : ℚ := c.Dnt * c.par.M.An j * c.st.zn j + c.par.M.Bn j * c.jn
def dSOC (c : SPM N) : ℚ := -c.st.I / (c.par.cap * 3600)

/-- One diffusion step without the energy counter – `Cell_SPM_dstate.cpp:281-301`. -/
def diffState (c : SPM N) (dt : ℚ) : SPM N :=
  { c with
    st := { c.st with
      zp := fun j => c.st.zp j + dt * c.dzp j, zn := fun j => c.st.zn j + dt * c.dzn j,
      SOC := c.st.SOC + dt * c.dSOC,
      time := c.st.time + dt, Ah := c.st.Ah + |c.st.I * (dt / 3600)| },
    valid := false,
    stress := { c.stress with daiUpd := false, laresUpd := false } }

/-- Body of the loop – `Cell_SPM_dstate.cpp:280-304`.  `V()` in the energy counter is not guarded: its exception
leaves the loop. -/
def diffStep (c : SPM N) (dt : ℚ) : Outcome Unit × SPM N :=
  if !c.finite ∨ c.par.cap = 0 then (.ub "division by zero", c)
  else
    match (c.diffState dt).V with
    | (.ok v, c2) => (.ok (), { c2 with st := { c2.st with Wh := c2.st.Wh + |c.st.I * (dt / 3600) * v| } })
    | (.throw e, c2) => (.throw e, c2)
    | (.ub w, c2) => (.ub w, c2)

/-- `r; f()`: go on with the state `r` left, unless `r` threw (or was undefined). -/
def andThen (r : Outcome Unit × SPM N) (f : SPM N → Outcome Unit × SPM N) : Outcome Unit × SPM N :=
  match r.1 with
  | .ok _ => f r.2
  | .throw e => (.throw e, r.2)
  | .ub w => (.ub w, r.2)

/-- The loop over the steps. -/
def diffLoop (dt : ℚ) : ℕ → SPM N → Outcome Unit × SPM N
  | 0, c => (.ok (), c)
  | k + 1, c => andThen (c.diffStep dt) (diffLoop dt k)

/-- `dState_thermal` – `Cell_SPM_dstate.cpp:57-124`. -/
def heat (c : SPM N) : Outcome ℚ :=
  if !c.finite then .ub "division by zero"
  else if !c.concOk then .throw 101
  else if c.i0p = 0 || c.i0n = 0 then .ub "division by zero"
  else do
    let d ← look c.par.dTot (c.cps / c.par.Cmaxpos)
    .ok (-c.st.I * c.st.T * d + c.st.I * (c.etan - c.etap) + c.st.I * c.st.I * c.Rdc)

/-- `Therm_Qgentot += Therm_Qgen; Therm_Qgen = 0; Therm_time = 0` – `Cell_SPM_thermal.cpp:213-219`. -/
def thermDone (c : SPM N) : SPM N := { c with Qtot := c.Qtot + c.Qgen, Qgen := 0, thermTime := 0 }

/-- `thermalModel(1, {T_env}, {Qch}, {A}, Therm_time)` of a cell without parent – `Cell_SPM_dstate.cpp:332-340`,
`Cell_SPM_thermal.cpp:34-80,82-160,194-222`; for `T_MODEL` 0 the temperature stays, 1 and 2 are the same balance
here (one neighbour, same time, same area). -/
def thermAlone (c : SPM N) : Outcome ℚ × SPM N :=
  if c.par.tModel = 0 then (.ok c.st.T, c.thermDone)
  else if c.par.rho * c.par.Cp * c.par.L * c.par.elecSurf = 0 then (.ub "division by zero", c)
  else
    let t := c.st.T + (c.Qgen + c.par.Qch * c.par.Acell * (c.T_env - c.st.T) * c.thermTime) /
      (c.par.rho * c.par.Cp * c.par.L * c.par.elecSurf)
    if t > 333 ∨ t < 273 then (.throw 9, c.thermDone) else (.ok t, c.thermDone)

/-- `num / (1.0 / a + delta / d)` – `Cell_SPM_degradation.cpp:77-79,91-93,104-106`, in floating-point arithmetic:
an infinite `1.0 / a` (`a = 0`) or `delta / d` (`d = 0`) makes the quotient 0, `0 / 0` is NaN. -/
def seriesRate (num a delta d : ℚ) : Outcome ℚ :=
  if d = 0 then (if delta = 0 then .ub "0 / 0" else .ok 0)
  else if a = 0 then .ok 0
  else if 1 / a + delta / d = 0 then .ub "division by zero"
  else .ok (num / (1 / a + delta / d))

/-- The constant `a_L_K` – `Cell_SPM_degradation.cpp:89,102`. -/
def aLK : ℚ := 134461 / 1000000

/-- Overpotential of the SEI reaction – `Cell_SPM_degradation.cpp:56,77,229`. -/
def etaSei (c : SPM N) (OCVnt : ℚ) : ℚ :=
  OCVnt + c.etan - c.par.OCVsei + c.par.rsei * c.st.delta * c.st.I

/-- One SEI model – `Cell_SPM_degradation.cpp:46-112`. -/
def seiModel (c : SPM N) (OCVnt : ℚ) (id : ℕ) : Outcome ℚ :=
  let p := c.par
  match id with
  | 0 => .ok 0
  | 1 => .ok (p.nsei * Faraday * (p.sei.k1 * p.exp (p.sei.k1_T * c.arrh)) *
      p.exp (-p.nsei * Faraday / (Rgas * c.st.T) * p.alphasei * c.etaSei OCVnt))
  | 2 => seriesRate p.c_elec0
      (p.nsei * Faraday * (p.sei.k2 * p.exp (p.sei.k2_T * c.arrh)) *
        p.exp (-p.nsei * Faraday / (Rgas * c.st.T) * p.alphasei * c.etaSei OCVnt))
      c.st.delta (p.nsei * Faraday * (p.sei.D2 * p.exp (p.sei.D2_T * c.arrh)))
  | 3 => seriesRate (aLK * p.exp (-p.nsei * Faraday * (c.etan + p.rsei * c.st.delta * c.st.I) / (Rgas * c.st.T)))
      (p.nsei * Faraday * (p.sei.k3 * p.exp (p.sei.k3_T * c.arrh)) *
        p.exp (-p.nsei * Faraday / (Rgas * c.st.T) * p.alphasei * (OCVnt - p.OCVsei)))
      c.st.delta (p.nsei * Faraday * (p.sei.D3 * p.exp (p.sei.D3_T * c.arrh)))
  | 4 => seriesRate (aLK * p.exp (-p.nsei * Faraday * c.etan / (Rgas * c.st.T)))
      (p.nsei * Faraday * (p.sei.k4 * p.exp (p.sei.k4_T * c.arrh)) *
        p.exp (-p.nsei * Faraday / (Rgas * c.st.T) * p.alphasei * (OCVnt - p.OCVsei)))
      c.st.delta (p.nsei * Faraday * (p.sei.D4 * p.exp (p.sei.D4_T * c.arrh)))
  | _ => .throw 106

/-- Sum of the contributions of the selected models, in order; the first error ends it. -/
def sumModels (f : ℕ → Outcome ℚ) : List ℕ → Outcome ℚ
  | [] => .ok 0
  | i :: is => do
    let a ← f i
    let r ← sumModels f is
    .ok (a + r)

/-- `Cell_SPM::SEI` – `Cell_SPM_degradation.cpp:23-127`: side-reaction current and change of volume fraction. -/
def SEI (c : SPM N) (OCVnt : ℚ) : Outcome (ℚ × ℚ) := do
  let is ← sumModels (c.seiModel OCVnt) c.deg.SEI
  match c.deg.SEIpor with
  | 0 => .ok (is, 0)
  | 1 => .ok (is, -c.par.sei.porosity *
      (c.st.I / c.par.elecSurf / (c.st.an * c.par.n * Faraday * c.st.thickn) * c.par.Vmain + is * c.par.Vsei))
  | _ => .throw 106

/-- `getAnodeSurface` – `Cell_SPM.hpp:206`. -/
def anodeSurf (c : SPM N) : ℚ := c.st.an * c.st.thickn * c.par.elecSurf

/-- Rate constant of crack model 5 – `Cell_SPM_degradation.cpp:235-243`. -/
def kcr (c : SPM N) : ℚ :=
  if c.st.I > 0 then 0
  else if c.cns / c.par.Cmaxneg < 3 / 10 then
    2 * c.par.cs.k5 * c.par.exp (c.par.cs.k5_T / Rgas * (1 / c.par.T_ref - 1 / c.st.T))
  else if c.cns / c.par.Cmaxneg < 7 / 10 then 0
  else c.par.cs.k5 * c.par.exp (c.par.cs.k5_T / Rgas * (1 / c.par.T_ref - 1 / c.st.T))

/-- Growth of the crack surface by one model – `Cell_SPM_degradation.cpp:162-252`. -/
def csModel (c : SPM N) (OCVnt : ℚ) (id : ℕ) : Outcome ℚ :=
  let p := c.par
  match id with
  | 0 => .ok 0
  | 1 => if !c.stress.laresUpd then .throw 108
      else if c.stress.dt = 0 then .ub "division by zero"
      else .ok (p.cs.a1 * p.sqrt (|c.stress.laresN - c.stress.laresNprev| / c.stress.dt))
  | 2 => if !c.stress.daiUpd then .throw 108
      else if c.stress.dt = 0 then .ub "division by zero"
      else .ok (p.cs.a2 * p.sqrt (|c.stress.daiN - c.stress.daiNprev| / c.stress.dt))
  | 3 => .ok (p.cs.a3 * ((c.nodeN 0 - c.centreN) / p.Cmaxneg) ^ 2)
  | 4 => .ok (p.cs.a4 * (max p.cs.Amax c.st.CS - c.st.CS) * |c.st.I|)
  | 5 => .ok (p.nsei * Faraday * c.kcr *
      p.exp (-p.alphasei * p.nsei * Faraday / (Rgas * c.st.T) * c.etaSei OCVnt))
  | _ => .throw 106

/-- Contribution of one crack model to the SEI multiplier – `Cell_SPM_degradation.cpp:182,198,212,226,251`. -/
def csMult (c : SPM N) (id : ℕ) : ℚ := if id = 0 then 0 else c.st.CS / c.anodeSurf

/-- `Cell_SPM::CS` – `Cell_SPM_degradation.cpp:129-286`: SEI multiplier, crack growth, change of `Dn`.
The cap of the diffusion loss is 2e-7; `Amax = 0` divides by zero. -/
def crack (c : SPM N) (OCVnt : ℚ) : Outcome (ℚ × ℚ × ℚ) := do
  let dcs ← sumModels (c.csModel OCVnt) c.deg.CS
  let ism := (c.deg.CS.map c.csMult).sum
  match c.deg.CSdiff with
  | 0 => .ok (ism, dcs, 0)
  | 1 =>
    let A := max c.par.cs.Amax c.st.CS
    if A = 0 then .ub "division by zero"
    else .ok (ism, dcs, -(min (2 / 10000000) (c.par.cs.diffusion *
      c.par.pow (1 - c.st.CS / A) (c.par.cs.diffusion - 1) / A * dcs)) * c.st.Dn)
  | _ => .throw 106

/-- Rates of change of the amount of active material. -/
@[ext] structure LamOut where
  thickp : ℚ := 0
  thickn : ℚ := 0
  ap : ℚ := 0
  an : ℚ := 0
  ep : ℚ := 0
  en : ℚ := 0
  deriving DecidableEq

def LamOut.add (a b : LamOut) : LamOut :=
  { thickp := a.thickp + b.thickp, thickn := a.thickn + b.thickn, ap := a.ap + b.ap, an := a.an + b.an,
    ep := a.ep + b.ep, en := a.en + b.en }

/-- One model of loss of active material – `Cell_SPM_degradation.cpp:351-434`. -/
def lamModel (c : SPM N) (id : ℕ) : Outcome LamOut :=
  let p := c.par
  match id with
  | 0 => .ok {}
  | 1 => if !c.stress.daiUpd then .throw 108
      else if c.stress.dt = 0 then .ub "division by zero"
      else .ok { thickp := -p.lam.p1 * |c.stress.daiP - c.stress.daiPprev| / c.stress.dt,
                 thickn := -p.lam.n1 * |c.stress.daiN - c.stress.daiNprev| / c.stress.dt }
  | 2 =>
      let e := p.exp (p.lam.t2 * c.arrh)
      .ok { ep := p.lam.ap2 * e * |c.jp| + p.lam.bp2 * e * p.sqrt |c.jp|,
            en := p.lam.an2 * e * |c.jn| + p.lam.bn2 * e * p.sqrt |c.jn| }
  | 3 => do
      let o ← look p.ocvP (c.cps / p.Cmaxpos)
      .ok { ep := max (-5 / 1000000) (-(p.lam.k3 * p.exp (p.lam.k3_T * c.arrh)) *
              p.exp (p.n * Faraday / Rgas / c.st.T * (o + c.etap - p.OCVnmc)) / (p.n * Faraday)) }
  | 4 => .ok { ap := -p.lam.p4 * c.st.ap, an := -p.lam.n4 * c.st.an }
  | _ => .throw 106

/-- `Cell_SPM::LAM` – `Cell_SPM_degradation.cpp:288-446`. -/
def lamSum (c : SPM N) : List ℕ → Outcome LamOut
  | [] => .ok {}
  | i :: is => do
    let a ← c.lamModel i
    let r ← lamSum c is
    .ok (a.add r)

/-- `Cell_SPM::LiPlating` – `Cell_SPM_degradation.cpp:448-482`. -/
def plating (c : SPM N) (OCVnt : ℚ) : Outcome ℚ :=
  let p := c.par
  match c.deg.pl with
  | 0 => .ok 0
  | 1 => .ok (p.npl * Faraday * (p.pl.k * p.exp (p.pl.k_T * c.arrh)) *
      p.exp (-p.n * Faraday / (Rgas * c.st.T) * p.alphapl *
        (OCVnt + c.etan - p.OCVpl + p.rsei * c.st.delta * c.st.I)))
  | _ => .throw 106

/-- Time derivatives of the degradation states – output of `dState_degradation`. -/
@[ext] structure DegRate (N : ℕ) where
  zn : Fin N → ℚ
  delta : ℚ
  LLI : ℚ
  thickp : ℚ
  thickn : ℚ
  ep : ℚ
  en : ℚ
  ap : ℚ
  an : ℚ
  CS : ℚ
  Dn : ℚ
  deltaPl : ℚ

/-- `dState_degradation` – `Cell_SPM_dstate.cpp:126-250`.  As in the code the entropic coefficient of the anode is
looked up at the lithium fraction of the cathode (line 189). -/
def degRate (c : SPM N) : Outcome (DegRate N) :=
  let p := c.par
  if !c.finite then .ub "division by zero"
  else if !c.concOk then .throw 101
  else if c.i0p = 0 || c.i0n = 0 || p.nsei = 0 || p.npl = 0 || p.rhosei = 0 || p.rhopl = 0 || p.Rp = 0 || p.Rn = 0
  then .ub "division by zero"
  else do
    let dOCVn ← look p.dNeg (c.cps / p.Cmaxpos)
    let OCVn ← look p.ocvN (c.cns / p.Cmaxneg)
    let OCVnt := OCVn + (c.st.T - p.T_ref) * dOCVn
    let (isei, denSei) ← c.SEI OCVnt
    let (ism, dCS, dDn) ← c.crack OCVnt
    let iseiCS := isei * ism
    let l ← c.lamSum c.deg.LAM
    let ipl ← c.plating OCVnt
    let en := l.en + denSei
    .ok { zn := fun j => p.M.Bn j * isei / (p.nsei * Faraday) + p.M.Bn j * iseiCS / (p.nsei * Faraday) +
                  p.M.Bn j * ipl / (p.npl * Faraday),
          delta := isei / (p.nsei * Faraday * p.rhosei),
          LLI := (isei + iseiCS + ipl) * p.elecSurf * c.st.thickn * c.st.an,
          thickp := l.thickp, thickn := l.thickn, ep := l.ep, en := en,
          ap := l.ap + 3 / p.Rp * l.ep, an := l.an + 3 / p.Rn * en,
          CS := dCS, Dn := dDn, deltaPl := ipl / (p.npl * Faraday * p.rhopl) }

/-- `st[i] += d_st[i] * dt * nstep` – `Cell_SPM_dstate.cpp:359-360`; the cached voltage is not invalidated. -/
def addRate (c : SPM N) (d : DegRate N) (h : ℚ) : SPM N :=
  { c with st := { c.st with
      zn := fun j => c.st.zn j + d.zn j * h, delta := c.st.delta + d.delta * h, LLI := c.st.LLI + d.LLI * h,
      thickp := c.st.thickp + d.thickp * h, thickn := c.st.thickn + d.thickn * h, ep := c.st.ep + d.ep * h,
      en := c.st.en + d.en * h, ap := c.st.ap + d.ap * h, an := c.st.an + d.an * h, CS := c.st.CS + d.CS * h,
      Dn := c.st.Dn + d.Dn * h, deltaPl := c.st.deltaPl + d.deltaPl * h } }

/-- `updateDaiStress` if needed – `Cell_SPM_dstate.cpp:345-346`. -/
def updDai (c : SPM N) : SPM N :=
  if c.stress.dai then
    { c with stress := { c.stress with daiP := (c.par.dai c.st).1, daiN := (c.par.dai c.st).2, daiUpd := true } }
  else c

/-- `updateLaresgoitiStress` if needed – `Cell_SPM_dstate.cpp:347-348`,
`Cell_SPM_degradation.cpp:625-690`: throws 101 if a surface concentration is outside `[0, Cmax]`. -/
def updLares (c : SPM N) : Outcome Unit × SPM N :=
  if c.stress.lares then
    if !c.finite then (.ub "division by zero", c)
    else if c.cps < 0 ∨ c.cns < 0 ∨ c.cps > c.par.Cmaxpos ∨ c.cns > c.par.Cmaxneg then (.throw 101, c)
    else match look c.par.laresCurve (c.cns / c.par.Cmaxneg) with
      | .ok s => (.ok (), { c with stress := { c.stress with laresN := s, laresUpd := true } })
      | .throw e => (.throw e, c)
      | .ub w => (.ub w, c)
  else (.ok (), c)

/-- The degradation part of a time step – `Cell_SPM_dstate.cpp:342-361`; `h = dt * nstep`. -/
def ageStep (c : SPM N) (h : ℚ) : Outcome Unit × SPM N :=
  andThen c.updDai.updLares fun c1 =>
    match c1.degRate with
    | .ok d => (.ok (), c1.addRate d h)
    | .throw e => (.throw e, c1)
    | .ub w => (.ub w, c1)

/-- `if (!parent) setT(thermalModel(…))` – `Cell_SPM_dstate.cpp:332-340`. -/
def thermPass (c : SPM N) : Outcome Unit × SPM N :=
  if c.parent then (.ok (), c)
  else match c.thermAlone with
    | (.ok t, c2) => (.ok (), c2.setT t)
    | (.throw e, c2) => (.throw e, c2)
    | (.ub w, c2) => (.ub w, c2)

/-- The thermal part – `Cell_SPM_dstate.cpp:307-340`. -/
def thermStep (c : SPM N) (h : ℚ) : Outcome Unit × SPM N :=
  match c.heat with
  | .ok q => thermPass { c with Qgen := c.Qgen + q * h, thermTime := c.thermTime + h }
  | .throw e => (.throw e, c)
  | .ub w => (.ub w, c)

/-- `s_*_prev = s_*; s_dt = nstep * dt` – `Cell_SPM_dstate.cpp:270-273`. -/
def rotate (c : SPM N) (h : ℚ) : SPM N :=
  { c with stress := { c.stress with
      daiPprev := c.stress.daiP, daiNprev := c.stress.daiN, laresNprev := c.stress.laresN, dt := h } }

/-- `Cell_SPM::timeStep_CC` – `Cell_SPM_dstate.cpp:252-362`.  `nstep` is an `int`: the sign of `dt` is checked, the
sign of `nstep` is not. -/
def timeStep (c : SPM N) (dt : ℚ) (nstep : ℤ) : Outcome Unit × SPM N :=
  if dt < 0 then (.throw 10, c)
  else
    andThen (diffLoop dt nstep.toNat (c.rotate (nstep * dt))) fun c1 =>
      if c1.block then (.ok (), c1)
      else andThen (c1.thermStep (dt * nstep)) fun c2 => c2.ageStep (dt * nstep)

/-- The constructor with variation factors, applied to the default cell – `Cell_SPM.cpp:631-664`.  The arguments
`degfsei` and `degflam` are not used; the factors applied are the members `var_degSEI`, `var_degLAM`. -/
def build (c : SPM N) (deg : DegSel) (capf resf _degfsei _degflam : ℚ) : SPM N :=
  { c with
    par := { c.par with
      cap := c.par.cap * capf, elecSurf := c.par.elecSurf * capf,
      sei := c.par.sei.scale c.par.varSEI, cs := c.par.cs.scale c.par.varSEI,
      lam := c.par.lam.scale c.par.varLAM, pl := c.par.pl.scale c.par.varSEI },
    st := { c.st with rDCcc := c.st.rDCcc * resf, rDCp := c.st.rDCp * resf, rDCn := c.st.rDCn * resf },
    deg := deg,
    stress := { c.stress with
      dai := c.stress.dai || deg.CS.any (· == 2) || deg.LAM.any (· == 1),
      lares := c.stress.lares || deg.CS.any (· == 1) } }

/-- `Cell_SPM::setGeometricParameters` – `Cell_SPM_fitting.cpp:261-286`: invalidates the cached voltage. -/
def setGeometric (c : SPM N) (cap surf ep en thickp thickn : ℚ) : SPM N :=
  { ({ c with par := { c.par with cap := cap, elecSurf := surf } } : SPM N).overwriteGeo thickp thickn ep en
      (3 * ep / c.par.Rp) (3 * en / c.par.Rn) with valid := false }

/-- `Cell_SPM::setCharacterisationParam` – `Cell_SPM_fitting.cpp:288-309`: does not invalidate it. -/
def setCharacterisation (c : SPM N) (Dp Dn kp kn Rdc : ℚ) : SPM N :=
  ({ c with par := { c.par with kp := kp, kn := kn } } : SPM N).overwriteChar Dp Dn
    (Rdc * ((c.st.thickp * c.st.ap * c.par.elecSurf + c.st.thickn * c.st.an * c.par.elecSurf) / 2))

end SPM

end Slide

import Verif.Model.SPM
import Verif.Model.Interp
import Mathlib.Data.Fin.VecNotation

/-!
The default single-particle cell: constructor `Cell_SPM::Cell_SPM()` (`/repo/src/cells/Cell_SPM/Cell_SPM.cpp:307-353`)
with the default values of the members (`Cell_SPM.hpp:46-103`, `param/*.hpp`), the discretisation and the curves shipped
in `/repo/data`.

The numbers are those of the files and of the source, read as exact decimals (rounding to double is not modelled).
The functions of libm, Dai's stress and Laresgoiti's curve are left open (`Env`).
`checkModelparam` (`Cell_SPM.cpp:666-702`) is at the end.
-/

namespace Slide
namespace Default

/-- What the default cell takes from outside: libm, Dai's stress and Laresgoiti's curve (used only if the selected
degradation models ask for stresses). -/
structure Env where
  exp : ℚ → ℚ
  sqrt : ℚ → ℚ
  asinh : ℚ → ℚ
  pow : ℚ → ℚ → ℚ
  dai : SpmState 5 → ℚ × ℚ
  lares : ℚ → Option ℚ

/-- Cathode potential over the lithium fraction – `/repo/data/Kokam_OCV_NMC.csv`. -/
def posX : List ℚ :=
  [0, 1 / 10, 1 / 5, 3 / 10, 2 / 5, 1 / 2, 25661 / 50000, 52643 / 100000, 10793 / 20000, 55287 / 100000,
   1769 / 3125, 5793 / 10000, 14813 / 25000, 60573 / 100000, 12379 / 20000, 3951 / 6250, 32269 / 50000,
   3293 / 5000, 67181 / 100000, 68503 / 100000, 2793 / 4000, 35573 / 50000, 18117 / 25000, 7379 / 10000,
   75111 / 100000, 76433 / 100000, 38877 / 50000, 19769 / 25000, 40199 / 50000, 81719 / 100000, 83041 / 100000,
   42181 / 50000, 21421 / 25000, 43503 / 50000, 88327 / 100000, 89649 / 100000, 9097 / 10000, 23073 / 25000,
   46807 / 50000, 18987 / 20000, 12013 / 12500, 96793 / 100000, 6077 / 6250, 97527 / 100000, 19547 / 20000,
   48943 / 50000, 49 / 50, 99 / 100, 1]

def posY : List ℚ :=
  [49 / 8, 11 / 2, 5, 37 / 8, 17 / 4, 40443 / 10000, 201 / 50, 4997 / 1250, 39757 / 10000, 39561 / 10000,
   39363 / 10000, 19589 / 5000, 7801 / 2000, 19423 / 5000, 19349 / 5000, 9641 / 2500, 7687 / 2000,
   38317 / 10000, 19109 / 5000, 38123 / 10000, 38029 / 10000, 7591 / 2000, 37883 / 10000, 18907 / 5000,
   18877 / 5000, 18847 / 5000, 37631 / 10000, 1879 / 500, 1501 / 400, 37473 / 10000, 37411 / 10000,
   37353 / 10000, 7459 / 2000, 7447 / 2000, 3717 / 1000, 7421 / 2000, 37031 / 10000, 9237 / 2500,
   36863 / 10000, 3677 / 1000, 18331 / 5000, 18273 / 5000, 18201 / 5000, 1449 / 400, 35991 / 10000,
   35683 / 10000, 35377 / 10000, 5 / 2, 0]

/-- Anode potential over the lithium fraction – `/repo/data/Kokam_OCV_C.csv`. -/
def negX : List ℚ :=
  [0, 3 / 100, 22667 / 500000, 60669 / 1000000, 19001 / 250000, 45669 / 500000, 10667 / 100000, 12201 / 100000,
   6867 / 50000, 15267 / 100000, 16801 / 100000, 9167 / 50000, 4967 / 25000, 21401 / 100000, 11467 / 50000,
   6117 / 25000, 26001 / 100000, 13767 / 50000, 7267 / 25000, 30601 / 100000, 16067 / 50000, 8417 / 25000,
   35201 / 100000, 18367 / 50000, 38267 / 100000, 39801 / 100000, 20667 / 50000, 10717 / 25000, 44401 / 100000,
   22967 / 50000, 47467 / 100000, 49 / 100, 25267 / 50000, 52067 / 100000, 53601 / 100000, 27567 / 50000,
   14167 / 25000, 58201 / 100000, 29867 / 50000, 15317 / 25000, 62801 / 100000, 12867 / 20000, 16467 / 25000,
   67401 / 100000, 34467 / 50000, 17617 / 25000, 72001 / 100000, 14707 / 20000, 18767 / 25000, 76601 / 100000,
   39067 / 50000, 19917 / 25000, 81201 / 100000, 41367 / 50000, 84267 / 100000, 85801 / 100000, 43667 / 50000,
   88867 / 100000, 113 / 125, 91933 / 100000, 93467 / 100000, 19 / 20, 1]

def negY : List ℚ :=
  [10, 30171 / 50000, 20369 / 50000, 30309 / 100000, 2969 / 12500, 22317 / 100000, 2737 / 12500,
   21329 / 100000, 5039 / 25000, 19381 / 100000, 9357 / 50000, 8987 / 50000, 17333 / 100000, 16867 / 100000,
   1649 / 10000, 16027 / 100000, 1539 / 10000, 3659 / 25000, 13729 / 100000, 3329 / 25000, 13203 / 100000,
   411 / 3125, 6557 / 50000, 3271 / 25000, 13057 / 100000, 3257 / 25000, 12993 / 100000, 3239 / 25000,
   1291 / 10000, 6431 / 50000, 12809 / 100000, 12739 / 100000, 2529 / 20000, 313 / 2500, 6169 / 50000,
   5961 / 50000, 5149 / 50000, 46291 / 500000, 91709 / 1000000, 91059 / 1000000, 90461 / 1000000,
   89957 / 1000000, 89621 / 1000000, 11157 / 125000, 89073 / 1000000, 88847 / 1000000, 17743 / 200000,
   44287 / 500000, 44209 / 500000, 88299 / 1000000, 88141 / 1000000, 1374 / 15625, 87753 / 1000000,
   21873 / 250000, 87211 / 1000000, 43341 / 500000, 2687 / 31250, 84719 / 1000000, 82327 / 1000000,
   76819 / 1000000, 15687 / 250000, 29319 / 1000000, 0]

/-- Entropic coefficient of the anode over the lithium fraction – `/repo/data/Kokam_entropic_C.csv`. -/
def entCX : List ℚ :=
  [0, 1 / 10, 1 / 5, 3 / 10, 2 / 5, 1 / 2, 3 / 5, 7 / 10, 4 / 5, 9 / 10, 1]

def entCY : List ℚ :=
  [527 / 100000000, 379 / 100000000, -11969 / 100000000, -3377 / 20000000, -3427 / 20000000, -5511 / 50000000,
   -1 / 10000, -1 / 10000, -1 / 10000, -1 / 10000, -1 / 10000]

/-- Entropic coefficient of the cell over the lithium fraction – `/repo/data/Kokam_entropic_cell.csv`. -/
def entX : List ℚ :=
  [0, 1 / 10, 1 / 5, 3 / 10, 2 / 5, 1 / 2, 3 / 5, 7 / 10, 4 / 5, 9 / 10, 1]

def entY : List ℚ :=
  [-1 / 10000, -3 / 10000, -7 / 100000, 1 / 10000, 1 / 5000, 1 / 10000, 1 / 10000, -3 / 100000, -1 / 20000,
   -1 / 20000, -1 / 20000]

/-- `XYdata::interp` on a table, as a curve of the cell: `none` for the exception (`Verif.Model.Interp`).  That the
tables above are never read out of bounds is a theorem (`Default.curve_defined`). -/
def curve (xs ys : List ℚ) (x : ℚ) : Option ℚ :=
  match Interp.tableInterp xs ys x with
  | .ok y => some y
  | _ => none

/-- `Model_SPM::makeModel()` – `/repo/src/cells/Cell_SPM/Model_SPM.hpp:47-86`, files `/repo/data/Cheb_*.csv`;
`Input[3]` of `Cheb_input.csv` is 3. -/
def model : SpmModel 5 where
  ind := 3
  xch := ![9659258262890683 / 10000000000000000, 4330127018922193 / 5000000000000000,
     282842712474619 / 400000000000000, 4999999999999999 / 10000000000000000,
     2588190451025207 / 10000000000000000]
  Ap := ![-4353801408698823 / 1000, -890513795900033 / 500, -412033948854029 / 500, 0, -1397309873770039 / 5000]
  An := ![-2013197771382337 / 1000, -16470943168967 / 20, -762097991800411 / 2000, 0, -323058042815633 / 2500]
  Bp := ![-961010258767503 / 125000000000000, 278344038202037 / 62500000000000, 334328391925487 / 100000000000000,
     -237170824512629 / 50000000000000, 68392878825439 / 20000000000000]
  Bn := ![-3844041035070013 / 500000000000000, 445350461123259 / 100000000000000,
     3343283919254869 / 1000000000000000, -474341649025257 / 100000000000000,
     1709821970635977 / 500000000000000]
  Cp := ![
      ![144476201533321 / 1250000000, -377601217286041 / 5000000000, -6972243259018983 / 100000000000,
         29762613272173 / 400000000, -3440735175252743 / 50000000000],
      ![3534579536222209 / 50000000000, -1866642461608923 / 25000000000, -837407288456143 / 12500000000,
         29762613272173 / 400000000, -3399571020129639 / 50000000000],
      ![-51452839899421 / 500000000, -988447292238217 / 200000000000, -3154655848626871 / 100000000000,
         7440653318043247 / 100000000000, -1386974496750203 / 25000000000],
      ![2361822953869281 / 50000000000, 1016033662883027 / 10000000000, 1836107617140349 / 25000000000,
         1860163329510811 / 25000000000, -3564515366895221 / 1000000000000],
      ![-525431212461171 / 25000000000, -1075694030265227 / 10000000000, 9204253529811907 / 100000000000,
         3720326659021617 / 50000000000, 1099941204387089 / 10000000000],
      ![76470831555937 / 6250000000, 2299188466007997 / 25000000000, -2471587972764591 / 10000000000,
         7440653318043237 / 100000000000, 2500446240423173 / 10000000000]]
  Cn := ![
      ![7859505363412667 / 100000000000, -5135376555090157 / 100000000000, -296320338508307 / 6250000000,
         5059644256269407 / 100000000000, -4679399838343733 / 100000000000],
      ![37554907572361 / 781250000, -507726749557627 / 10000000000, -227774782460071 / 5000000000,
         5059644256269409 / 100000000000, -577927073422039 / 12500000000],
      ![-1749396556580313 / 25000000000, -3360720793609963 / 1000000000000, -536291494266569 / 25000000000,
         5059644256269409 / 100000000000, -3772570631160557 / 100000000000],
      ![3212079217262223 / 100000000000, 345451445380229 / 5000000000, 1248553179655437 / 25000000000,
         1011928851253881 / 20000000000, -1211935224744389 / 500000000000],
      ![-714586448947193 / 50000000000, -7314719405803547 / 100000000000, 625889240027209 / 10000000000,
         158113883008419 / 3125000000, 3739800094916099 / 50000000000],
      ![8320026473285949 / 1000000000000, 6253792627541751 / 100000000000, -1680679821479923 / 10000000000,
         5059644256269403 / 100000000000, 1700303443487757 / 10000000000]]
  Cc := ![1216666666666667 / 25000000000000, -2985640646055103 / 50000000000000, 16, -8,
     2666666666666667 / 500000000000000, -4287187078897963 / 1000000000000000]
  Dp := ![-1821428571428571 / 10000000000000000000000, 0, 0, 0, 0, 0]
  Dn := ![-2678571428571427 / 10000000000000000000000, 0, 0, 0, 0, 0]
  Vp := ![
      ![1248940780859503 / 2500000000000000, -7892600434082619 / 10000000000000000,
         709433427089257 / 2000000000000000, -147252168757229 / 1250000000000000,
         873569740600823 / 25000000000000000],
      ![-327788646220051 / 1000000000000000, 2466718211941107 / 25000000000000000,
         6840707079657037 / 10000000000000000, -1716666364686511 / 2500000000000000,
         140317541184399 / 400000000000000],
      ![-126058041833163 / 500000000000000, -1312769453476453 / 10000000000000000,
         825260705346797 / 2000000000000000, 5453476882701881 / 10000000000000000,
         -4003433335311963 / 5000000000000000],
      ![916855268622763 / 2500000000000000, 965825346711853 / 2000000000000000,
         6666257491363 / 10000000000000, 2525715274030587 / 5000000000000000, 32737698576729 / 100000000000000],
      ![-2622223318278147 / 10000000000000000, -1355669425822509 / 5000000000000000,
         -594632485631859 / 10000000000000000, 3235300727500471 / 5000000000000000,
         3991455659300149 / 5000000000000000]]
  Vn := ![
      ![999152624687603 / 2000000000000000, -7892600434082617 / 10000000000000000,
         886791783861571 / 2500000000000000, -1178017350057833 / 10000000000000000,
         436784870300411 / 12500000000000000],
      ![-3277886462200509 / 10000000000000000, 616679552985277 / 6250000000000000,
         3420353539828519 / 5000000000000000, -6866665458746043 / 10000000000000000,
         438492316201247 / 1250000000000000],
      ![-2521160836663259 / 10000000000000000, -1312769453476453 / 10000000000000000,
         825260705346797 / 2000000000000000, 8725563012323 / 16000000000000,
         -8006866670623927 / 10000000000000000],
      ![3667421074491043 / 10000000000000000, 2414563366779631 / 5000000000000000,
         3333128745681501 / 5000000000000000, 252571527403059 / 500000000000000,
         32737698576729 / 100000000000000],
      ![-2622223318278151 / 10000000000000000, -2711338851645023 / 10000000000000000,
         -5946324856318583 / 100000000000000000, 6470601455000943 / 10000000000000000,
         7982911318600293 / 10000000000000000]]

/-- `SEIparam_Kokam` – `param/SEIparam_default.hpp:17-38`. -/
def sei : SeiPar where
  porosity := 9 / 4000000
  k1 := 3 / 4000000000000000
  k1_T := 130000
  k2 := 11 / 400000000000
  k2_T := 130000
  D2 := 9 / 800000000000000
  D2_T := 20000
  k3 := 5729 / 5000000000000000000
  k3_T := 65000
  D3 := 1 / 4000000000000000
  D3_T := 200000
  k4 := 3 / 800000000000000
  k4_T := 260000 / 3
  D4 := 1 / 300000000000000000
  D4_T := 80000

/-- Anode surface of the fresh cell, `an * thickn * elec_surf` – `Cell_SPM.hpp:206`. -/
def anodeSurf0 : ℚ := 3 * (1 / 2) / (1 / 80000) * (147 / 2000000) * (31 / 50)

/-- `CSparam` – `param/CSparam.hpp:17-27`, and `CS4Amax` – `Cell_SPM.cpp:350`. -/
def cs : CsPar where
  a1 := 17 / 400000
  a2 := 63 / 100000000
  a3 := 231 / 1000000000000000000
  a4 := 21653 / 500000000000
  Amax := 5 * anodeSurf0
  k5 := 1 / 1000000000000000000
  k5_T := -127040
  diffusion := 2

/-- `LAMparam_Kokam` – `param/LAMparam_default.hpp:15-27`. -/
def lam : LamPar where
  p1 := 6997 / 20000000000000
  n1 := 147 / 12500000000
  ap2 := -67 / 4000000
  bp2 := 0
  an2 := -67 / 4000000
  bn2 := 0
  t2 := 54611
  k3 := 1 / 80000
  k3_T := 27305
  p4 := 83333 / 10000000000000
  n4 := 83333 / 10000000000000

/-- `PLparam` – `param/PLparam.hpp:16-17`. -/
def pl : PlPar where
  k := 9 / 20000000000
  k_T := -1007004 / 5

/-- The parameters of the default cell – `Cell_SPM.hpp:46-103`, `param/Geometry_SPM.hpp:17-24`, `setCapacity(16)`
(`Cell_SPM.cpp:314`), `settings::T_MODEL = 0`. -/
def par (e : Env) : SpmPar 5 where
  exp := e.exp
  sqrt := e.sqrt
  asinh := e.asinh
  pow := e.pow
  tModel := 0
  cap := 16
  Cmaxpos := 51385
  Cmaxneg := 30555
  C_elec := 1000
  n := 1
  kp := 1 / 20000000000
  kp_T := 58000
  kn := 441 / 25000000000000
  kn_T := 20000
  Dp_T := 29000
  Dn_T := 7000
  T_ref := 298
  Qch := 45
  rho := 1626
  Cp := 750
  L := 337 / 2000000
  Acell := 1 / 50
  elecSurf := 31 / 50
  Rp := 17 / 2000000
  Rn := 1 / 80000
  rsei := 101870
  nsei := 1
  alphasei := 1
  OCVsei := 2 / 5
  rhosei := 100000
  c_elec0 := 4541 / 1000000
  Vmain := 13
  Vsei := 6439 / 100
  sei := sei
  cs := cs
  OCVnmc := 41 / 10
  lam := lam
  npl := 1
  alphapl := 1
  OCVpl := 0
  rhopl := 10000000
  pl := pl
  M := model
  ocvP := curve posX posY
  ocvN := curve negX negY
  dTot := curve entX entY
  dNeg := curve entCX entCY
  dai := e.dai
  laresCurve := e.lares
  varCap := 1
  varR := 1
  varSEI := 1
  varLAM := 1

/-- The states set before the concentrations – `Cell_SPM.cpp:316-340`; everything else is 0 (`State_SPM st{}`).
`T_ENV` is 15 °C (`/repo/src/settings/settings.hpp:70`). -/
def st0 : SpmState 5 where
  I := 0
  V := 0
  T := 288
  delta := 1 / 1000000000
  LLI := 0
  thickp := 7 / 100000
  thickn := 147 / 2000000
  ep := 1 / 2
  en := 1 / 2
  ap := 3 * (1 / 2) / (17 / 2000000)
  an := 3 * (1 / 2) / (1 / 80000)
  CS := 1 / 100 * (3 * (1 / 2) / (1 / 80000)) * (31 / 50) * (147 / 2000000)
  Dp := 1 / 12500000000000
  Dn := 7 / 100000000000000
  deltaPl := 0
  zp := fun _ => 0
  zn := fun _ => 0
  rDCp := 7 / 2500
  rDCn := 7 / 2500
  rDCcc := 93 / 400000
  SOC := 0
  time := 0
  Ah := 0
  Wh := 0

/-- `StressParam` as initialised – `param/StressParam.hpp:26-38`. -/
def stress0 : SpmStress := ⟨false, false, false, false, 0, 0, 0, 0, 0, 0, 1⟩

/-- The cell before `setC`. -/
def raw (e : Env) : SPM 5 where
  par := par e
  st := st0
  valid := false
  stress := stress0
  Qgen := 0
  Qtot := 0
  thermTime := 0
  T_env := 288
  deg := ⟨[], 0, [], 0, [], 0⟩
  block := false
  parent := false

/-- `fp`, `fn` – `Cell_SPM.cpp:342-343`. -/
def fp0 : ℚ := 172333 / 250000
def fn0 : ℚ := 479283 / 1000000

/-- `Cell_SPM::Cell_SPM()` – `Cell_SPM.cpp:307-353`: `setC(fp, fn)`, then `SOC = 0.5`. -/
def cell (e : Env) : SPM 5 :=
  let c := ((raw e).setC fp0 fn0).2
  { c with st := { c.st with SOC := 1 / 2 } }

end Default

/-- `Cell_SPM::checkModelparam` – `Cell_SPM.cpp:666-702`: `input` is `M->Input`, `nch` the number of nodes of the
program, `Rp`, `Rn` the radii of the cell, `Ap`, `An` the eigenvalues of the discretisation.  The comparisons of the first three inputs are
signed.  Division by a zero input is IEEE: `(0 - x) / 0` is −∞ for `x > 0` (not greater), NaN for `x = 0` (not greater),
+∞ for `x < 0`.  `static_cast<int>` truncates towards zero; an index outside the arrays is undefined. -/
def relAbove (inp x : ℚ) : Bool :=
  if inp = 0 then x < 0 else (inp - x) / inp > 1 / 10000000000

def checkModelparam (input : List ℚ) (nch : ℕ) (Rp Rn : ℚ) (Ap An : List ℚ) : Outcome Unit := do
  let i0 ← readAt input 0
  let i1 ← readAt input 1
  let i2 ← readAt input 2
  let i3 ← readAt input 3
  if i3 ≤ -1 then .ub "negative index" else
  let a := ⌊i3⌋.toNat
  let an ← readAt An a
  let ap ← readAt Ap a
  if relAbove i0 nch || relAbove i1 Rp || relAbove i2 Rn || |an| > 1 / 10000000000 || |ap| > 1 / 10000000000
  then .throw 110 else .ok ()

end Slide

import Verif.Model.OcvFit
import Verif.Model.SPM

/-!
Model of `estimateOCVparameters` – `/repo/src/procedures/determine_OCV.cpp:627-811` – and of the call that puts the fitted
lithium fractions into a cell.

What is written to the three kinds of files is modelled as rows of fields; that a file can be opened and how numbers are
printed is left out.  The square root in the error is a parameter.  The curves are those read from the three input files
(`Csv`, C41); reading the files a second time inside `hierarchicalOCVfit` gives the same curves.
-/

namespace Slide.OcvFit

/-- A field of a row of the parameter file. -/
inductive Item where
  | txt (s : String)
  | num (x : ℚ)
  deriving DecidableEq, Repr

/-- What the estimation leaves behind: `OCVFit_h_param.csv` of every level `h`, `OCVfit_parameters.csv`,
`OCVfit_sim.csv`. -/
structure FitFiles where
  levels : List (List (List Item))
  param : List (List Item)
  sim : List (List ℚ)

/-- A row with a label and a number. -/
def row1 (s : String) (x : ℚ) : List Item := [.txt s, .num x]

/-- The four rows of a level, also the first four of the parameter file – `determine_OCV.cpp:733-736`, `823-826`. -/
def parRows (q : Par) : List (List Item) :=
  [row1 "AMp" q.AMp, row1 "AMn" q.AMn, row1 "start pos" q.sp, row1 "start neg" q.sn]

/-- The search spaces of the first level – `determine_OCV.cpp:699-716`. -/
def initialSpaces (cap : ℚ) : Spaces :=
  let gp := cap * 3600 / (F * 51385)
  let gn := cap * 3600 / (F * 30555)
  { AMp := linspaceFix (1 * gp) (5 / 2 * gp) 100
    AMn := linspaceFix (1 * gn) (5 / 2 * gn) 100
    sp := linspaceFix (38 / 100) (4 / 10) 51
    sn := linspaceFix (55 / 100) (58 / 100) 51 }

/-- The best combinations of the levels, as `writeOCVParam` gets them – `determine_OCV.cpp:591-622`. -/
def levelPars (d : Data) : ℕ → Spaces → List Par → Outcome (List Par)
  | 0, _, _ => .ok []
  | h + 1, s, old => do
    let r ← level d s old
    let rest ← levelPars d h (refine s r.1.1) r.2
    pure (r.1.1 :: rest)

/-- The rows of `OCVfit_parameters.csv` – `determine_OCV.cpp:731-737`, `760-811`. -/
def paramRows (q : Par) (err cap Vmax Vmin : ℚ) (D : Discharge) : List (List Item) :=
  let ep : ℚ := 1 / 2
  let en : ℚ := 1 / 2
  let surf : ℚ := 982 / 10000
  parRows q ++
  [row1 "cathode volume fraction ep" ep,
   row1 "anode volume fraction en" en,
   row1 "electrode surface ele_surf" surf,
   row1 "cathode thickness thickp" (q.AMp / (surf * ep)),
   row1 "anode thickness thickn" (q.AMn / (surf * en)),
   row1 "cathode lithium fraction at 100% SOC" D.fp.1,
   row1 "anode lithium fraction at 100% SOC" D.fn.1,
   row1 "cathode lithium fraction at 50% SOC" D.fp.2.1,
   row1 "anode lithium fraction at 50% SOC" D.fn.2.1,
   row1 "cathode lithium fraction at 0% SOC" D.fp.2.2,
   row1 "anode lithium fraction at 0% SOC" D.fn.2.2,
   row1 "capacity of the cell in Ah" cap,
   row1 "maximum voltage of the cell" Vmax,
   row1 "minimum voltage of the cell" Vmin,
   row1 "The error on the OCV curve with this fit is" err,
   [],
   [.txt "Below are the settings which produced this result"],
   row1 "maximum li-concentration in the cathode" 51385,
   row1 "maximum li-concentration in the anode" 30555,
   [.txt "name of the file with the cathode OCV curve", .txt "OCVfit_cathode.csv"],
   [.txt "name of the file with the anode OCV curve", .txt "OCVfit_anode.csv"],
   [.txt "name of the file with the cell's OCV curve", .txt "OCVfit_cell.csv"],
   row1 "capacity of the cell" cap,
   [],
   [.txt "Below are the settings of the initial search space"],
   row1 "relative step size in the search for active material" (2 / 100),
   row1 "relative minimum amount of active material" 1,
   row1 "relative maximum amount of active material" (5 / 2),
   row1 "step size in the search for the starting li-fraction" (initialSpaces cap).sp.dx,
   row1 "minimum li-fraction" 0,
   row1 "maximum li-fraction" 1,
   row1 "number of levels in the search hierarchy" 3]

/-- `estimateOCVparameters` – `determine_OCV.cpp:627-811`.  `input`: what reading the three files gives; `none`: the call
returns without having done anything (lines 683-689). -/
def estimate (sqrt : ℚ → ℚ) (input : Outcome (Curve × Curve × Curve)) (fuel : ℕ) : Outcome (Option FitFiles) :=
  match input with
  | .throw _ => .ok none
  | .ub w => .ub w
  | .ok (p, n, cell) =>
    match checkInput p n cell with
    | .throw _ => .ok none
    | .ub w => .ub w
    | .ok () => do
      let cap ← readAt cell.x (cell.x.length - 1)
      let d : Data := ⟨p, n, cell, 51385, 30555⟩
      let r ← hierarchicalFit d 3 (initialSpaces cap)
      let lv ← levelPars d 3 (initialSpaces cap) (List.replicate (initialSpaces cap).AMp.n.toNat ⟨0, 0, 0, 0⟩)
      let Vmin ← readAt cell.y (cell.y.length - 1)
      let D ← discharge ⟨p, n, r.1.AMp, r.1.AMn, 51385, 30555⟩ cap r.1.sp r.1.sn Vmin fuel
      let Vmax ← readAt cell.y 0
      pure (some
        { levels := lv.map parRows
          param := paramRows r.1 (sqrt r.2) cap Vmax Vmin D
          sim := D.pts.map fun s => [s.Ah, s.v, s.sn, s.ocvn, s.sp, s.ocvp] })

end Slide.OcvFit

namespace Slide.SPM
variable {N : ℕ}

/-- `Cell_SPM::setInitialConcentration` – `/repo/src/cells/Cell_SPM/Cell_SPM_fitting.cpp:234-259`: the maximum
concentrations are kept also when the fractions are refused. -/
def setInitial (c : SPM N) (cmaxp cmaxn fp fn : ℚ) : Outcome Unit × SPM N :=
  ({ c with par := { c.par with Cmaxpos := cmaxp, Cmaxneg := cmaxn } } : SPM N).setC fp fn

end Slide.SPM

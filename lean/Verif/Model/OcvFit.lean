import Verif.Model.Interp
import Verif.Model.Containers

/-!
Model of the fit of the OCV parameters – `/repo/src/procedures/determine_OCV.cpp`.

Simplifications: errors are mean squares (the square root, a monotone function, is left out); the tasks of `slide::run`
write to different entries of their arrays and are run one after the other (that this is the same is C20); printing and
files are left out; a division by zero is the outcome `ub`; the `while` loop of `discharge` gets a number of iterations,
running out of it is the outcome `ub "out of fuel"`.
-/

namespace Slide.OcvFit

/-- `XYdata_vv` – `/repo/src/types/XYdata.hpp:44-50`. -/
structure Curve where
  x : List ℚ
  y : List ℚ
  deriving DecidableEq, Repr

/-- `linInt_noexcept(bound, c.x, c.y, c.size(), s)`; `size()` is the length of `y`. -/
def Curve.look (c : Curve) (bound : Bool) (s : ℚ) : Outcome (ℚ × Int) :=
  if c.x.length = c.y.length then Interp.linIntNoexcept bound c.x c.y false s else .ub "columns of different length"

/-! ### validOCV -/

/-- One iteration of the loop – `determine_OCV.cpp:79-96`; the state is `(decreasei, decrease, unrealistic)`. -/
def validStep (c : Curve) (i : ℕ) (s : Bool × Bool × Bool) : Outcome (Bool × Bool × Bool) := do
  let dec ← if i > 0 then do
      let a ← readAt c.x i
      let b ← readAt c.x (i - 1)
      pure (decide (a ≤ b))
    else pure s.1
  let v ← readAt c.y i
  pure (dec, s.2.1 || dec, s.2.2 || decide (v < 0 ∨ v > 10))

/-- The loop from index `i` on, `n` iterations left. -/
def validLoop (c : Curve) : ℕ → ℕ → Bool × Bool × Bool → Outcome (Bool × Bool × Bool)
  | 0, _, s => .ok s
  | n + 1, i, s => do
    let s' ← validStep c i s
    validLoop c n (i + 1) s'

/-- `validOCV` – `determine_OCV.cpp:37-100`. -/
def validOCV (checkRange : Bool) (c : Curve) : Outcome Bool := do
  let first ← readAt c.x 0
  let last ← readAt c.x (c.x.length - 1)
  let range := if checkRange then decide (|first| < 1 / 100000 ∧ |last - 1| < 1 / 100000) else decide (|first| < 1 / 100000)
  let s ← validLoop c c.y.length 0 (false, false, false)
  pure (range && !s.2.1 && !s.2.2)

/-- The checks of `readOCVinput` after the three files have been read – `determine_OCV.cpp:391-409`. -/
def checkInput (p n cell : Curve) : Outcome Unit := do
  let valp ← validOCV true p
  if !valp then .throw 10000 else do
  let valn ← validOCV true n
  if !valn then .throw 10000 else do
  let valcell ← validOCV false cell
  if !valcell then .throw 10000 else pure ()

/-! ### cost_OCV -/

/-- Faraday's constant – `/repo/src/settings/constants.hpp:21`. -/
def F : ℚ := 96487

/-- What stays the same during one evaluation. -/
structure Cell where
  p : Curve
  n : Curve
  AMp : ℚ
  AMn : ℚ
  cmaxp : ℚ
  cmaxn : ℚ

/-- The local variables `Ah`, `sp`, `sn`, `end`, `sqr_err` of `cost_OCV` – lines 453-460. -/
structure CostState where
  Ah : ℚ
  sp : ℚ
  sn : ℚ
  stop : Bool
  err : ℚ

/-- Value and status of both look-ups – lines 479-485: outside of a table the voltage is 0. -/
def voltage (c : Cell) (sp sn : ℚ) : Outcome ℚ := do
  let vp ← c.p.look true sp
  let vn ← c.n.look true sn
  pure (if vp.2 ≠ 0 ∨ vn.2 ≠ 0 then 0 else vp.1 - vn.1)

/-- One iteration of the loop – lines 462-494. -/
def costStep (c : Cell) (Vend : ℚ) (s : CostState) (pt : ℚ × ℚ) : Outcome CostState :=
  if s.stop then
    .ok { s with
      err := s.err + (pt.2 - 0) * (pt.2 - 0)
      stop := decide (0 ≤ Vend ∨ s.sp < 0 ∨ s.sp > 1 ∨ s.sn < 0 ∨ s.sn > 1) }
  else do
    let dAs := (pt.1 - s.Ah) * 3600
    let sp := s.sp + dAs / F / c.AMp / c.cmaxp
    let sn := s.sn - dAs / F / c.AMn / c.cmaxn
    let v ← voltage c sp sn
    pure
      { Ah := pt.1
        sp := sp
        sn := sn
        err := s.err + (pt.2 - v) * (pt.2 - v)
        stop := decide (v ≤ Vend ∨ sp < 0 ∨ sp > 1 ∨ sn < 0 ∨ sn > 1) }

def costLoop (c : Cell) (Vend : ℚ) : List (ℚ × ℚ) → CostState → Outcome CostState
  | [], s => .ok s
  | pt :: l, s => do
    let s' ← costStep c Vend s pt
    costLoop c Vend l s'

/-- `cost_OCV` – `determine_OCV.cpp:446-497`. -/
def cost (c : Cell) (sp sn : ℚ) (cell : Curve) : Outcome ℚ :=
  if c.AMp = 0 ∨ c.AMn = 0 ∨ c.cmaxp = 0 ∨ c.cmaxn = 0 then .ub "division by zero"
  else if cell.x.length ≠ cell.y.length then .ub "columns of different length"
  else do
    let Vend ← readAt cell.y (cell.y.length - 1)
    let s ← costLoop c Vend (cell.x.zip cell.y) ⟨0, sp, sn, false, 0⟩
    pure s.err

/-! ### fitAMnAndStartingPoints -/

/-- The four parameters `[AMp AMn sp sn]`. -/
structure Par where
  AMp : ℚ
  AMn : ℚ
  sp : ℚ
  sn : ℚ
  deriving DecidableEq, Repr

/-- The measured curves – arguments that stay the same in the whole fit. -/
structure Data where
  p : Curve
  n : Curve
  cell : Curve
  cmaxp : ℚ
  cmaxn : ℚ

/-- `cost_OCV` of a combination of parameters. -/
def Data.cost (d : Data) (q : Par) : Outcome ℚ := OcvFit.cost ⟨d.p, d.n, q.AMp, q.AMn, d.cmaxp, d.cmaxn⟩ q.sp q.sn d.cell

/-- The combinations in the order of the three loops – lines 527-529. -/
def combinations (AMp : ℚ) (AMn sp sn : List ℚ) : List Par :=
  AMn.flatMap fun a => sp.flatMap fun b => sn.map fun c => ⟨AMp, a, b, c⟩

/-- Body of the loops: keep the parameters with the lowest error so far – lines 532-538. -/
def scan (cost : Par → Outcome ℚ) : List Par → Par × ℚ → Outcome (Par × ℚ)
  | [], s => .ok s
  | q :: l, s => do
    let e ← cost q
    scan cost l (if e < s.2 then (q, e) else s)

/-- `fitAMnAndStartingPoints` – `determine_OCV.cpp:499-543`; `par` is the entry of the array before the call, the error
is the mean square. -/
def fitOne (d : Data) (AMp : ℚ) (AMn sp sn : FixedData) (par : Par) : Outcome (Par × ℚ) := do
  let la ← AMn.values
  let lb ← sp.values
  let lc ← sn.values
  let r ← scan d.cost (combinations AMp la lb lc) (par, 10000000000)
  if d.cell.y.length = 0 then .ub "division by zero" else pure (r.1, r.2 / d.cell.y.length)

/-! ### hierarchicalOCVfit -/

/-- The four search spaces. -/
structure Spaces where
  AMp : FixedData
  AMn : FixedData
  sp : FixedData
  sn : FixedData
  deriving DecidableEq, Repr

/-- The tasks `0 … AMp_space.size()-1` of one level – lines 600-605; `old` are the entries of `par_arr` before. -/
def fitAll (d : Data) (s : Spaces) : ℕ → List Par → Outcome (List (Par × ℚ))
  | _, [] => .ok []
  | i, q :: old => do
    let r ← fitOne d (s.AMp.at_ i) s.AMn s.sp s.sn q
    let rest ← fitAll d s (i + 1) old
    pure (r :: rest)

/-- `std::min_element` (the first smallest one) – lines 607-609. -/
def minElement : List (Par × ℚ) → Option (Par × ℚ)
  | [] => none
  | r :: l => some (l.foldl (fun m e => if e.2 < m.2 then e else m) r)

/-- The new search spaces around the best parameters – lines 618-621. -/
def refine (s : Spaces) (q : Par) : Spaces where
  AMp := linspaceFix (s.AMp.prev q.AMp) (s.AMp.next q.AMp) s.AMp.n
  AMn := linspaceFix (s.AMn.prev q.AMn) (s.AMn.next q.AMn) s.AMn.n
  sp := linspaceFix (max (s.sp.prev q.sp) 0) (min (s.sp.next q.sp) 1) s.sp.n
  sn := linspaceFix (max (s.sn.prev q.sn) 0) (min (s.sn.next q.sn) 1) s.sn.n

/-- One level: the best parameters with their error, and the entries of `par_arr` after it. -/
def level (d : Data) (s : Spaces) (old : List Par) : Outcome ((Par × ℚ) × List Par) := do
  let rs ← fitAll d s 0 old
  match minElement rs with
  | none => .ub "out-of-bounds read"
  | some r => pure (r, rs.map Prod.fst)

/-- The loop over the levels – lines 591-622; `out` are `par` and `err` so far (`none`: not set). -/
def levels (d : Data) : ℕ → Spaces → List Par → Option (Par × ℚ) → Outcome (Option (Par × ℚ))
  | 0, _, _, out => .ok out
  | h + 1, s, old, _ => do
    let r ← level d s old
    levels d h (refine s r.1.1) r.2 (some r.1)

/-- `hierarchicalOCVfit` – `determine_OCV.cpp:545-625`; the vectors start with zeros; without any level the result is not
initialised. -/
def hierarchicalFit (d : Data) (hmax : ℕ) (s : Spaces) : Outcome (Par × ℚ) := do
  let r ← levels d hmax s (List.replicate s.AMp.n.toNat ⟨0, 0, 0, 0⟩) none
  match r with
  | none => .ub "uninitialised value"
  | some r => pure r

/-! ### calculateError -/

/-- The loop of `calculateError` – lines 432-439. -/
def errorLoop (sim : Curve) (bound : Bool) : List (ℚ × ℚ) → ℚ → Outcome ℚ
  | [], e => .ok e
  | pt :: l, e => do
    let v ← sim.look bound pt.1
    errorLoop sim bound l (e + (pt.2 - v.1) * (pt.2 - v.1))

/-- `calculateError` – `determine_OCV.cpp:412-444` (mean square). -/
def calculateError (bound : Bool) (cell sim : Curve) : Outcome ℚ :=
  if cell.x.length ≠ cell.y.length then .ub "columns of different length"
  else do
    let e ← errorLoop sim bound (cell.x.zip cell.y) 0
    if cell.y.length = 0 then .ub "division by zero" else pure (e / cell.y.length)

/-! ### discharge -/

/-- The local variables of `discharge_noexcept` – lines 143-155. -/
structure DisState where
  Ah : ℚ
  sp : ℚ
  sn : ℚ
  ocvp : ℚ
  ocvn : ℚ
  v : ℚ
  stop : Bool
  deriving DecidableEq, Repr

/-- `interpolate` – lines 157-164: the status is not looked at. -/
def interpolate (c : Cell) (s : DisState) : Outcome DisState := do
  let vp ← c.p.look true s.sp
  let vn ← c.n.look true s.sn
  pure { s with ocvp := vp.1, ocvn := vn.1, v := vp.1 - vn.1 }

/-- One iteration of the loop in `step` – lines 176-186; `q` is the charge `I dt` in coulomb. -/
def micro (c : Cell) (q Vend : ℚ) (s : DisState) : Outcome DisState := do
  let s ← interpolate c s
  let sp := s.sp + q / F / c.AMp / c.cmaxp
  let sn := s.sn - q / F / c.AMn / c.cmaxn
  pure { s with
    Ah := s.Ah + q / 3600
    sp := sp
    sn := sn
    stop := decide (s.v ≤ Vend ∨ sp ≤ 0 ∨ sp ≥ 1 ∨ sn ≤ 0 ∨ sn ≥ 1) }

/-- `step`: at most `n` iterations – lines 175-187. -/
def microLoop (c : Cell) (q Vend : ℚ) : ℕ → DisState → Outcome DisState
  | 0, s => .ok s
  | n + 1, s => if s.stop then .ok s else do
    let s' ← micro c q Vend s
    microLoop c q Vend n s'

/-- `while (!end) { step(); store(); }` – lines 195-200; `out` are the stored points (latest first). -/
def disLoop (c : Cell) (q Vend : ℚ) : ℕ → DisState → List DisState → Outcome (DisState × List DisState)
  | 0, _, _ => .ub "out of fuel"
  | fuel + 1, s, out => if s.stop then .ok (s, out.reverse) else do
    let s' ← microLoop c q Vend 100 s
    disLoop c q Vend fuel s' (s' :: out)

/-- What `discharge` returns: the stored points, the lithium fractions at 100 %, 50 % and 0 %. -/
structure Discharge where
  pts : List DisState
  fp : ℚ × ℚ × ℚ
  fn : ℚ × ℚ × ℚ
  deriving DecidableEq

/-- `discharge_noexcept` (with the potentials of the electrodes), which `discharge` only wraps –
`determine_OCV.cpp:103-214`, `331-347`.  `0.1 * cap` amperes, time step 5 s. -/
def discharge (c : Cell) (cap sp sn Vend : ℚ) (fuel : ℕ) : Outcome Discharge :=
  if c.AMp = 0 ∨ c.AMn = 0 ∨ c.cmaxp = 0 ∨ c.cmaxn = 0 then .ub "division by zero"
  else do
    let s ← interpolate c ⟨0, sp, sn, 0, 0, 0, false⟩
    let r ← disLoop c (1 / 10 * cap * 5) Vend fuel s [s]
    pure
      { pts := r.2
        fp := (sp, (sp + r.1.sp) / 2, r.1.sp)
        fn := (sn, (sn + r.1.sn) / 2, r.1.sn) }

end Slide.OcvFit

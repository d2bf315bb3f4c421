import Verif.Model.Unit

/-!
Model of `Module`, `Module_s`, `Module_p` (`/repo/src/modules/`), without voltage cache (see
`Verif.Model.Cached` for the cache) and without the thermal model (`T` only changes through `setStates`).

`Rcontact` has one entry per child (established by `Module::setSUs`, `Module.cpp:98-107`, and asserted by
`setRcontact`, `Module.hpp`), so child and contact resistance are stored together.
-/

namespace Slide
open StorageUnit

/-- A child of a module with its contact resistance. -/
structure Kid (U : Type) where
  rc : ℚ
  su : U

/-- `settings::MODULE_NSUs_MAX` – `/repo/src/settings/settings.hpp:66`: the size of the fixed arrays
`Iolds, Ia, Va` in the module functions. -/
def NSUs_MAX : ℕ := 100

section generic
variable {U : Type} [StorageUnit U]

/-- `transform_sum` – `/repo/src/utility/slide_algorithms.hpp:17-21`. -/
def tsum (f : U → ℚ) (ks : List (Kid U)) : ℚ := (ks.map fun k => f k.su).sum

/-- `transform_sum` of a getter that may throw (`getOCV`): the exception propagates. -/
def tsumOpt (f : U → Option ℚ) : List (Kid U) → Option ℚ
  | [] => some 0
  | k :: ks =>
    match f k.su, tsumOpt f ks with
    | some a, some b => some (a + b)
    | _, _ => none

/-- `transform_max` – `slide_algorithms.hpp:23-35` (0 for an empty module). -/
def tmax (f : U → ℚ) : List (Kid U) → ℚ
  | [] => 0
  | k :: ks => ks.foldl (fun m j => max m (f j.su)) (f k.su)

/-- `transform_min` – `slide_algorithms.hpp:37-48` (0 for an empty module). -/
def tmin (f : U → ℚ) : List (Kid U) → ℚ
  | [] => 0
  | k :: ks => ks.foldl (fun m j => min m (f j.su)) (f k.su)

/-- `Module::checkVoltage` – `/repo/src/modules/Module.cpp:113-138`: worst status of the children, starting
from `Success`. -/
def modCheckVoltage (ks : List (Kid U)) : Status :=
  ks.foldl (fun r k => Status.worst r (StorageUnit.checkVoltage k.su)) .Success

/-- `Module::getVhigh` – `Module.cpp:140-149`; starts from `Vmin()` *of the module*. -/
def modVhigh (vmin : ℚ) (ks : List (Kid U)) : ℚ := ks.foldl (fun m k => max m (Vhigh k.su)) vmin

/-- `Module::getVlow` – `Module.cpp:151-159`; starts from `Vmax()` *of the module*. -/
def modVlow (vmax : ℚ) (ks : List (Kid U)) : ℚ := ks.foldl (fun m k => min m (Vlow k.su)) vmax

/-- `Module::getStates` – `Module.cpp:161-172`. -/
def modGetStates (T : ℚ) (ks : List (Kid U)) : List ℚ := (ks.map fun k => getStates k.su).flatten ++ [T]

/-- The roll-back loop of `Module::setStates` – `Module.cpp:237-238`:
`for (j = 0; j <= i; j++) SUs[i]->setStates(spn_orig, false, print);` – note the index `i` (not `j`) and that
`spn_orig` advances. `cnt` iterations remain. -/
def rollback (su : U) (spn : List ℚ) : ℕ → Outcome Unit × U
  | 0 => (.ok (), su)
  | cnt + 1 =>
    match setStates su spn false with
    | (.ok (_, spn'), su') => rollback su' spn' cnt
    | (.throw c, su') => (.throw c, su')
    | (.ub w, su') => (.ub w, su')

/-- The loop over the children in `Module::setStates` – `Module.cpp:225-243`.  `i` is the index of the first
remaining child.  The boolean tells whether the loop returned early. -/
def setStatesLoop (orig : List ℚ) (check : Bool) :
    ℕ → List (Kid U) → List ℚ → Outcome (Status × Bool × List ℚ) × List (Kid U)
  | _, [], s => (.ok (.Success, false, s), [])
  | i, k :: ks, s =>
    match setStates k.su s check with
    | (.ok (st, s'), su') =>
      if st.isBad then
        match rollback su' orig (i + 1) with
        | (.ok (), su'') => (.ok (st, true, s'), { k with su := su'' } :: ks)
        | (.throw c, su'') => (.throw c, { k with su := su'' } :: ks)
        | (.ub w, su'') => (.ub w, { k with su := su'' } :: ks)
      else
        let r := setStatesLoop orig check (i + 1) ks s'
        (r.1, { k with su := su' } :: r.2)
    | (.throw c, su') => (.throw c, { k with su := su' } :: ks)
    | (.ub w, su') => (.ub w, { k with su := su' } :: ks)

/-- `Module::setStates` – `Module.cpp:193-268`.  `assert(s[0] >= Kelvin)` is a precondition of the code; its
failure and an exhausted span are made undefined. -/
def modSetStates (T : ℚ) (ks : List (Kid U)) (s : List ℚ) (check : Bool) :
    Outcome (Status × List ℚ) × ℚ × List (Kid U) :=
  let orig := modGetStates T ks
  match setStatesLoop orig check 0 ks s with
  | (.ok (st, true, s'), ks') => (.ok (st, s'), T, ks')
  | (.ok (_, false, []), ks') => (.ub "state span too short", T, ks')
  | (.ok (_, false, t :: s'), ks') =>
    if t < 273 then (.ub "assert(s[0] >= Kelvin)", T, ks') else (.ok (.Success, s'), t, ks')
  | (.throw c, ks') => (.throw c, T, ks')
  | (.ub w, ks') => (.ub w, T, ks')

/-- `run(task_indv, getNSUs(), 1)` with `task_indv(i) = SUs[i]->timeStep_CC(dt, nstep)`:
`/repo/src/utility/parallelisation.hpp:20-58` sequential case; an exception leaves the later children alone. -/
def stepKids (dt : ℚ) (n : ℕ) : List (Kid U) → Outcome Unit × List (Kid U)
  | [] => (.ok (), [])
  | k :: ks =>
    match timeStep k.su dt n with
    | (.ok (), su') => let r := stepKids dt n ks; (r.1, { k with su := su' } :: r.2)
    | (.throw c, su') => (.throw c, { k with su := su' } :: ks)
    | (.ub w, su') => (.ub w, { k with su := su' } :: ks)

end generic

/-! ### Module_s -/

/-- A series-connected module. -/
structure ModuleS (U : Type) where
  T : ℚ
  kids : List (Kid U)

namespace ModuleS
variable {U : Type} [StorageUnit U]

/-- The summation loop of `Module_s::V` – `/repo/src/modules/Module_s.cpp:63-71`. -/
def vLoop : ℚ → List (Kid U) → ℚ
  | acc, [] => acc
  | acc, k :: ks =>
    if StorageUnit.V k.su ≤ 0 then 0 else vLoop (acc + (StorageUnit.V k.su - k.rc * StorageUnit.I k.su)) ks

/-- `Module_s::V` without cache – `Module_s.cpp:53-75`. -/
def V (m : ModuleS U) : ℚ := vLoop 0 m.kids

/-- `Module_s::I` – `Module_s.hpp`: current of the first child. -/
def I (m : ModuleS U) : ℚ :=
  match m.kids with
  | [] => 0
  | k :: _ => StorageUnit.I k.su

/-- `Vmin, VMIN, Vmax, VMAX` are sums – `Module_s.hpp`. -/
def lim (m : ModuleS U) : VLimits where
  Vmin := tsum (fun u => (StorageUnit.lim u).Vmin) m.kids
  Vmax := tsum (fun u => (StorageUnit.lim u).Vmax) m.kids
  VMIN := tsum (fun u => (StorageUnit.lim u).VMIN) m.kids
  VMAX := tsum (fun u => (StorageUnit.lim u).VMAX) m.kids

/-- `Module_s::Cap` – `Module_s.hpp`. -/
def Cap (m : ModuleS U) : ℚ := tmin StorageUnit.Cap m.kids

/-- `Module_s::getRtot` – `Module_s.cpp:38-51`. -/
def Rtot (m : ModuleS U) : ℚ := m.kids.foldl (fun r k => r + (StorageUnit.Rtot k.su + k.rc)) 0

/-- `Module_s::getOCV` – `Module_s.cpp:25-36`. -/
def OCV (m : ModuleS U) : Option ℚ := tsumOpt StorageUnit.OCV m.kids

/-- Roll-back loop `for (int j{ i }; j > 0; j--) SUs[j]->setCurrent(Iolds[j], false, false);` –
`Module_s.cpp:109-110`.  The list holds `(Iolds[j], SUs[j])` for `j = 0..i`; the entry 0 is skipped. -/
def restore : List (ℚ × Kid U) → List (Kid U)
  | [] => []
  | p :: ps => p.2 :: ps.map fun q => { q.2 with su := (StorageUnit.setCurrent q.2.su q.1 false).2 }

/-- The loop of `Module_s::setCurrent` – `Module_s.cpp:97-114`. `done` are the processed children with their
old currents; `Iolds` has 100 entries, the 101st write is out of bounds. -/
def setLoop (Inew : ℚ) (check : Bool) :
    List (ℚ × Kid U) → List (Kid U) → Outcome Status × List (Kid U)
  | done, [] => (.ok .Success, done.map Prod.snd)
  | done, k :: ks =>
    if NSUs_MAX ≤ done.length then (.ub "Iolds out of bounds", done.map Prod.snd ++ k :: ks)
    else
      let Iold := StorageUnit.I k.su
      match StorageUnit.setCurrent k.su Inew check with
      | (.ok st, su') =>
        if st.isBad then (.ok st, restore (done ++ [(Iold, { k with su := su' })]) ++ ks)
        else setLoop Inew check (done ++ [(Iold, { k with su := su' })]) ks
      | (.throw c, su') => (.throw c, done.map Prod.snd ++ { k with su := su' } :: ks)
      | (.ub w, su') => (.ub w, done.map Prod.snd ++ { k with su := su' } :: ks)

/-- `Module_s::setCurrent` – `Module_s.cpp:77-118`. -/
def setCurrent (m : ModuleS U) (Inew : ℚ) (check : Bool) : Outcome Status × ModuleS U :=
  let r := setLoop Inew check [] m.kids
  (r.1, { m with kids := r.2 })

/-- `Module_s::timeStep_CC` – `Module_s.cpp:120-196`, electrical part. -/
def timeStep (m : ModuleS U) (dt : ℚ) (n : ℕ) : Outcome Unit × ModuleS U :=
  if dt < 0 then (.throw 10, m)
  else
    let r := stepKids dt n m.kids
    (r.1, { m with kids := r.2 })

/-- `Module::setStates` for a series module. -/
def setStates (m : ModuleS U) (s : List ℚ) (check : Bool) : Outcome (Status × List ℚ) × ModuleS U :=
  let r := modSetStates m.T m.kids s check
  (r.1, { T := r.2.1, kids := r.2.2 })

instance : StorageUnit (ModuleS U) where
  V := V
  I := I
  T m := m.T
  Cap := Cap
  OCV := OCV
  Rtot := Rtot
  lim := lim
  checkVoltage m := modCheckVoltage m.kids
  Vhigh m := modVhigh m.lim.Vmin m.kids
  Vlow m := modVlow m.lim.Vmax m.kids
  nCells m := (m.kids.map fun k => StorageUnit.nCells k.su).sum
  setCurrent := setCurrent
  getStates m := modGetStates m.T m.kids
  setStates := setStates
  timeStep := timeStep

end ModuleS

/-! ### Module_p -/

/-- A parallel-connected module. -/
structure ModuleP (U : Type) where
  T : ℚ
  kids : List (Kid U)

namespace ModuleP
variable {U : Type} [StorageUnit U]

/-- `Module_p::I` – `Module_p.hpp`. -/
def I (m : ModuleP U) : ℚ := tsum StorageUnit.I m.kids

/-- `Module_p::V` – `Module_p.hpp`. -/
def V (m : ModuleP U) : ℚ :=
  match m.kids with
  | [] => 0
  | k :: _ => StorageUnit.V k.su - m.I * k.rc

/-- The voltage limits are the most constraining of the children – `Module_p.hpp`. -/
def lim (m : ModuleP U) : VLimits where
  Vmin := tmax (fun u => (StorageUnit.lim u).Vmin) m.kids
  Vmax := tmin (fun u => (StorageUnit.lim u).Vmax) m.kids
  VMIN := tmax (fun u => (StorageUnit.lim u).VMIN) m.kids
  VMAX := tmin (fun u => (StorageUnit.lim u).VMAX) m.kids

/-- `Module_p::Cap` – `Module_p.hpp`. -/
def Cap (m : ModuleP U) : ℚ := tsum StorageUnit.Cap m.kids

/-- `Module_p::getRtot` – `/repo/src/modules/Module_p.cpp:33-45`: from the furthest child to the terminal. -/
def rtotLoop : List (Kid U) → ℚ
  | [] => 0
  | [k] => k.rc + StorageUnit.Rtot k.su
  | k :: k' :: ks =>
    k.rc + (StorageUnit.Rtot k.su * rtotLoop (k' :: ks)) / (StorageUnit.Rtot k.su + rtotLoop (k' :: ks))

/-- `Module_p::getRtot`. -/
def Rtot (m : ModuleP U) : ℚ := rtotLoop m.kids

/-- `Module_p::getOCV` – `Module_p.hpp`, `transform_mean` (`slide_algorithms.hpp:50-56`). -/
def OCV (m : ModuleP U) : Option ℚ :=
  if m.kids = [] then some 0 else (tsumOpt StorageUnit.OCV m.kids).map (· / m.kids.length)

/-- The loop of `Module_p::getVall` – `Module_p.cpp:82-91`, from the last child to the first.  Returns the entries
`Vall[j..]` and `I_cumulative`.  (The inner loop over `k ≥ j` is the `map` over all entries so far.) -/
def vallLoop : List (Kid U) → List ℚ × ℚ
  | [] => ([], 0)
  | k :: ks =>
    let r := vallLoop ks
    let ic := r.2 + StorageUnit.I k.su
    ((StorageUnit.V k.su :: r.1).map (fun v => v - ic * k.rc), ic)

/-- `Module_p::getVall(Vall)` – `Module_p.cpp:56-92` for a container with contents `buf`. -/
def getVall (buf : List ℚ) (ks : List (Kid U)) : Outcome (List ℚ) :=
  if ks = [] then .ok buf
  else if buf.length < ks.length then .throw 10
  else .ok ((vallLoop ks).1 ++ buf.drop ks.length)

/-- A branch during the equalisation: the child and the local variable `Ia[i]`. -/
structure Branch (U : Type) where
  kid : Kid U
  ia : ℚ

/-- Children of a list of branches. -/
def kidsOf (bs : List (Branch U)) : List (Kid U) := bs.map Branch.kid

/-- First phase of `setCurrent` – `Module_p.cpp:226-230`: add `dI` to every branch; stop (without restoring) at
the first status that is not OK.  `last` is `StatusNow`.  The boolean marks the early return. -/
def initLoop (dI : ℚ) : Status → List (Branch U) → Outcome (Status × Bool) × List (Branch U)
  | last, [] => (.ok (last, false), [])
  | _, b :: bs =>
    let ia := b.ia + dI
    match StorageUnit.setCurrent b.kid.su ia true with
    | (.ok st, su') =>
      if !st.isOK then (.ok (st, true), { kid := { b.kid with su := su' }, ia := ia } :: bs)
      else
        let r := initLoop dI st bs
        (r.1, { kid := { b.kid with su := su' }, ia := ia } :: r.2)
    | (.throw c, su') => (.throw c, { kid := { b.kid with su := su' }, ia := ia } :: bs)
    | (.ub w, su') => (.ub w, { kid := { b.kid with su := su' }, ia := ia } :: bs)

/-- One correction sweep `Ia[i] -= (Vmean - Va[i]) * Cap(); setCurrent(Ia[i])` – `Module_p.cpp:249-253` and
`139-142`; the returned status is only printed / ignored. -/
def sweep (vmean : ℚ) : List (Branch U) → List ℚ → Outcome Unit × List (Branch U)
  | [], _ => (.ok (), [])
  | b :: bs, [] => (.ub "Va shorter than SUs", b :: bs)
  | b :: bs, va :: vas =>
    let ia := b.ia - (vmean - va) * StorageUnit.Cap b.kid.su
    match StorageUnit.setCurrent b.kid.su ia true with
    | (.ok _, su') =>
      let r := sweep vmean bs vas
      (r.1, { kid := { b.kid with su := su' }, ia := ia } :: r.2)
    | (.throw c, su') => (.throw c, { kid := { b.kid with su := su' }, ia := ia } :: bs)
    | (.ub w, su') => (.ub w, { kid := { b.kid with su := su' }, ia := ia } :: bs)

/-- `Vmean` – mean of the branch voltages. -/
def mean (vs : List ℚ) : ℚ := vs.sum / vs.length

/-- `error` – sum of the absolute deviations from the mean. -/
def spread (vs : List ℚ) : ℚ := (vs.map fun v => |mean vs - v|).sum

/-- The equalisation loop – `Module_p.cpp:234-256` (tolerance `tol = 1e-9`, `fuel = 10550`) and
`127-146` (`1e-10`, `2500`).  Returns whether it converged. -/
def eqLoop (tol : ℚ) : ℕ → List (Branch U) → Outcome Bool × List (Branch U)
  | 0, bs => (.ok false, bs)
  | fuel + 1, bs =>
    let va := (vallLoop (kidsOf bs)).1
    if spread va < tol then (.ok true, bs)
    else
      match sweep (mean va) bs va with
      | (.ok (), bs') => eqLoop tol fuel bs'
      | (.throw c, bs') => (.throw c, bs')
      | (.ub w, bs') => (.ub w, bs')

/-- `Module_p::setCurrent` – `Module_p.cpp:189-277`.  The parameter `checkV` is ignored by the code.  With more than
100 children the local arrays overflow.  For an empty module the loops are empty and the result is `Success`
(the code divides 0.0 by 0, which only affects the unused mean). -/
def setCurrent (m : ModuleP U) (Inew : ℚ) (_check : Bool) : Outcome Status × ModuleP U :=
  if m.kids = [] then (.ok .Success, m)
  else if NSUs_MAX < m.kids.length then (.ub "Ia out of bounds", m)
  else
    let Itot := tsum StorageUnit.I m.kids
    let dI := (Inew - Itot) / m.kids.length
    let bs := m.kids.map fun k => ({ kid := k, ia := StorageUnit.I k.su } : Branch U)
    match initLoop dI .Success bs with
    | (.ok (st, true), bs') => (.ok st, { m with kids := kidsOf bs' })
    | (.ok (st, false), bs') =>
      match eqLoop (1/1000000000) 10550 bs' with
      | (.ok conv, bs'') => (.ok (if conv then .Success else st), { m with kids := kidsOf bs'' })
      | (.throw c, bs'') => (.throw c, { m with kids := kidsOf bs'' })
      | (.ub w, bs'') => (.ub w, { m with kids := kidsOf bs'' })
    | (.throw c, bs') => (.throw c, { m with kids := kidsOf bs' })
    | (.ub w, bs') => (.ub w, { m with kids := kidsOf bs' })

/-- `Module_p::redistributeCurrent` – `Module_p.cpp:102-149`. -/
def redistribute (m : ModuleP U) : Outcome Status × ModuleP U :=
  if m.kids.length ≤ 1 then (.ok .Success, m)
  else if NSUs_MAX < m.kids.length then (.throw 10, m)
  else
    let bs := m.kids.map fun k => ({ kid := k, ia := StorageUnit.I k.su } : Branch U)
    match eqLoop (1/10000000000) 2500 bs with
    | (.ok conv, bs') =>
      (.ok (if conv then .Success else .RedistributeCurrent_failed), { m with kids := kidsOf bs' })
    | (.throw c, bs') => (.throw c, { m with kids := kidsOf bs' })
    | (.ub w, bs') => (.ub w, { m with kids := kidsOf bs' })

/-- `Module_p::timeStep_CC` – `Module_p.cpp:289-372`, electrical part: step every child, then redistribute; a
failed redistribution is repeated once and then 100000 is thrown anyway. -/
def timeStep (m : ModuleP U) (dt : ℚ) (n : ℕ) : Outcome Unit × ModuleP U :=
  if dt < 0 then (.throw 10, m)
  else
    match stepKids dt n m.kids with
    | (.ok (), ks) =>
      match redistribute { m with kids := ks } with
      | (.ok st, m') =>
        if st ≠ .Success then
          match redistribute m' with
          | (.ok _, m'') => (.throw 100000, m'')
          | (.throw c, m'') => (.throw c, m'')
          | (.ub w, m'') => (.ub w, m'')
        else (.ok (), m')
      | (.throw c, m') => (.throw c, m')
      | (.ub w, m') => (.ub w, m')
    | (.throw c, ks) => (.throw c, { m with kids := ks })
    | (.ub w, ks) => (.ub w, { m with kids := ks })

/-- `Module::setStates` for a parallel module. -/
def setStates (m : ModuleP U) (s : List ℚ) (check : Bool) : Outcome (Status × List ℚ) × ModuleP U :=
  let r := modSetStates m.T m.kids s check
  (r.1, { T := r.2.1, kids := r.2.2 })

instance : StorageUnit (ModuleP U) where
  V := V
  I := I
  T m := m.T
  Cap := Cap
  OCV := OCV
  Rtot := Rtot
  lim := lim
  checkVoltage m := modCheckVoltage m.kids
  Vhigh m := modVhigh m.lim.Vmin m.kids
  Vlow m := modVlow m.lim.Vmax m.kids
  nCells m := (m.kids.map fun k => StorageUnit.nCells k.su).sum
  setCurrent := setCurrent
  getStates m := modGetStates m.T m.kids
  setStates := setStates
  timeStep := timeStep

end ModuleP

/-! ### Trees -/

/-- A storage unit is a cell, a series module or a parallel module. -/
inductive Node (C U : Type) where
  | cell (c : C)
  | series (m : ModuleS U)
  | parallel (m : ModuleP U)

/-- Virtual dispatch. -/
instance {C U : Type} [StorageUnit C] [StorageUnit U] : StorageUnit (Node C U) where
  V | .cell c => StorageUnit.V c | .series m => StorageUnit.V m | .parallel m => StorageUnit.V m
  I | .cell c => StorageUnit.I c | .series m => StorageUnit.I m | .parallel m => StorageUnit.I m
  T | .cell c => StorageUnit.T c | .series m => StorageUnit.T m | .parallel m => StorageUnit.T m
  Cap | .cell c => StorageUnit.Cap c | .series m => StorageUnit.Cap m | .parallel m => StorageUnit.Cap m
  OCV | .cell c => StorageUnit.OCV c | .series m => StorageUnit.OCV m | .parallel m => StorageUnit.OCV m
  Rtot | .cell c => StorageUnit.Rtot c | .series m => StorageUnit.Rtot m | .parallel m => StorageUnit.Rtot m
  lim | .cell c => StorageUnit.lim c | .series m => StorageUnit.lim m | .parallel m => StorageUnit.lim m
  checkVoltage
    | .cell c => StorageUnit.checkVoltage c
    | .series m => StorageUnit.checkVoltage m
    | .parallel m => StorageUnit.checkVoltage m
  Vhigh | .cell c => StorageUnit.Vhigh c | .series m => StorageUnit.Vhigh m | .parallel m => StorageUnit.Vhigh m
  Vlow | .cell c => StorageUnit.Vlow c | .series m => StorageUnit.Vlow m | .parallel m => StorageUnit.Vlow m
  nCells
    | .cell c => StorageUnit.nCells c
    | .series m => StorageUnit.nCells m
    | .parallel m => StorageUnit.nCells m
  setCurrent
    | .cell c, i, b => let r := StorageUnit.setCurrent c i b; (r.1, .cell r.2)
    | .series m, i, b => let r := StorageUnit.setCurrent m i b; (r.1, .series r.2)
    | .parallel m, i, b => let r := StorageUnit.setCurrent m i b; (r.1, .parallel r.2)
  getStates
    | .cell c => StorageUnit.getStates c
    | .series m => StorageUnit.getStates m
    | .parallel m => StorageUnit.getStates m
  setStates
    | .cell c, s, b => let r := StorageUnit.setStates c s b; (r.1, .cell r.2)
    | .series m, s, b => let r := StorageUnit.setStates m s b; (r.1, .series r.2)
    | .parallel m, s, b => let r := StorageUnit.setStates m s b; (r.1, .parallel r.2)
  timeStep
    | .cell c, dt, n => let r := StorageUnit.timeStep c dt n; (r.1, .cell r.2)
    | .series m, dt, n => let r := StorageUnit.timeStep m dt n; (r.1, .series r.2)
    | .parallel m, dt, n => let r := StorageUnit.timeStep m dt n; (r.1, .parallel r.2)

/-- Trees of depth at most `d` over cells of type `C`: every finite nesting of series and parallel modules
is a `Tree C d` for some `d`. -/
def Tree (C : Type) : ℕ → Type
  | 0 => C
  | d + 1 => Node C (Tree C d)

instance instTree {C : Type} [StorageUnit C] : (d : ℕ) → StorageUnit (Tree C d)
  | 0 => inferInstanceAs (StorageUnit C)
  | d + 1 => @instStorageUnitNode C (Tree C d) _ (instTree d)

end Slide

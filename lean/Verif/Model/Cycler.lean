import Verif.Model.SetVoltage
import Mathlib.Data.Rat.Floor

/-!
Model of `Cycler`, `/repo/src/procedures/Cycler.{hpp,cpp}`, over an arbitrary storage unit.

The `while` loops get a number of iterations (`fuel`); running out of it is the separate outcome
`.ub "out of fuel"`, so that every theorem about a normal return also says that the loop ended by itself.
Printing is left out; data recording is kept as a log of the `storeData`/`writeData` calls made on the unit.
`int` counters are unbounded integers.
-/

namespace Slide
open StorageUnit

/-- `ThroughputData = State<0,3>` – `/repo/src/types/data_storage/cell_data.hpp:40`. -/
@[ext] structure Thr where
  time : ℚ
  Ah : ℚ
  Wh : ℚ
  deriving Repr, DecidableEq

/-- `ThroughputData th{}`. -/
def Thr.zero : Thr := ⟨0, 0, 0⟩

/-- Calls made by the cycler for recording: `su->storeData()` (with the unit at that moment), `su->writeData(ID)`. -/
inductive Ev (U : Type) where
  | store (u : U)
  | write

/-- A cycler connected to a unit – `Cycler.hpp:20-25`. -/
structure Cyc (U : Type) where
  su : U
  index : ℕ := 0
  diagnostic : Bool := false
  log : List (Ev U) := []

/-- `settings::CELL_NDATA_MAX` for `storeTimeData` – `/repo/src/settings/derived_settings.hpp:14`,
`settings.hpp:51,78`. -/
def CELL_NDATA_MAX : ℕ := 100000

/-- `TIME_INF` – `/repo/src/settings/constants.hpp:16`. -/
def TIME_INF : ℚ := 20 * 365 * 24 * 3600

namespace Cyc
variable {U : Type}

/-- `Cycler::writeData` – `Cycler.cpp:40-46`. -/
def writeData (c : Cyc U) : Cyc U := { c with log := c.log ++ [.write], index := 0 }

/-- `Cycler::storeData` – `Cycler.cpp:48-57`. -/
def storeData (c : Cyc U) : Cyc U :=
  let c := if CELL_NDATA_MAX ≤ c.index then c.writeData else c
  { c with log := c.log ++ [.store c.su], index := c.index + 1 }

/-- `if (boolStoreData) storeData();` -/
def storeIf (b : Bool) (c : Cyc U) : Cyc U := if b then c.storeData else c

/-- The connected unit is replaced by its state after a call. -/
def withSU (c : Cyc U) (u : U) : Cyc U := { c with su := u }

variable [StorageUnit U]

/-! #### rest -/

/-- Local variables of `Cycler::rest` – `Cycler.cpp:82-92`. -/
structure RestVars where
  dti : ℚ
  ttot : ℚ
  idat : ℕ
  nOnce : ℕ
  ninc : Bool

/-- `std::clamp(n, 1, nmax)` for `nmax ≥ 1`. -/
def clamp1 (n : ℤ) (nmax : ℕ) : ℕ := if n < 1 then 1 else if (nmax : ℤ) < n then nmax else n.toNat

/-- One iteration of the loop of `rest` – `Cycler.cpp:98-156`.  `ndt` is `ndt_data`. -/
def restBody (tlim : ℚ) (ndt : ℤ) (nMax : ℕ) (v : RestVars) (c : Cyc U) :
    Outcome (Status ⊕ RestVars) × Cyc U :=
  match StorageUnit.setCurrent c.su 0 false with
  | (.ok st, u1) =>
    if st.isBad then (.ok (.inl st), c.withSU u1)
    else
      let nOnce := if v.nOnce * v.dti > tlim - v.ttot then 1 else v.nOnce
      let dti := if v.dti > tlim - v.ttot then tlim - v.ttot else v.dti
      match StorageUnit.timeStep u1 dti nOnce with
      | (.ok (), u2) =>
        let ttot := v.ttot + dti * nOnce
        let idat := v.idat + nOnce
        let c2 := c.withSU u2
        let save := decide (0 < ndt) && decide (ndt ≤ idat)
        let c3 := storeIf save c2
        let idat := if save then 0 else idat
        let near := decide (tlim - ttot < 2 * (nOnce * dti))
        let n' : ℤ := if near then (nOnce / 2 : ℕ) else if v.ninc then nOnce + 1 else nOnce
        let ninc := if near then v.ninc else !v.ninc
        (.ok (.inr { dti := dti, ttot := ttot, idat := idat, nOnce := clamp1 n' nMax, ninc := ninc }), c3)
      | (.throw e, u2) => (.throw e, c.withSU u2)
      | (.ub w, u2) => (.ub w, c.withSU u2)
  | (.throw e, u1) => (.throw e, c.withSU u1)
  | (.ub w, u1) => (.ub w, c.withSU u1)

/-- `while (ttot < tlim)` – returns an early status or the final variables. -/
def restLoop (tlim : ℚ) (ndt : ℤ) (nMax : ℕ) : ℕ → RestVars → Cyc U → Outcome (Status ⊕ RestVars) × Cyc U
  | 0, v, c => if v.ttot < tlim then (.ub "out of fuel", c) else (.ok (.inr v), c)
  | fuel + 1, v, c =>
    if v.ttot < tlim then
      match restBody tlim ndt nMax v c with
      | (.ok (.inl st), c') => (.ok (.inl st), c')
      | (.ok (.inr v'), c') => restLoop tlim ndt nMax fuel v' c'
      | (.throw e, c') => (.throw e, c')
      | (.ub w, c') => (.ub w, c')
    else (.ok (.inr v), c)

/-- `Cycler::rest` – `Cycler.cpp:76-176`. -/
def rest (fuel : ℕ) (c : Cyc U) (tlim dt : ℚ) (ndt : ℤ) (th : Thr) : Outcome Status × Cyc U × Thr :=
  let store := decide (0 < ndt)
  let c0 := storeIf store c
  let nMax : ℕ := if store then min 10 ndt.toNat else 10
  match restLoop tlim ndt nMax fuel { dti := dt, ttot := 0, idat := 0, nOnce := 1, ninc := true } c0 with
  | (.ok (.inl st), c1) => (.ok st, c1, th)
  | (.ok (.inr v), c1) =>
    if v.ttot ≥ tlim ∧ |v.ttot - tlim| < 1 then
      match StorageUnit.setCurrent c1.su 0 false with
      | (.ok _, u) => (.ok .ReachedTimeLimit, storeIf store (c1.withSU u), { th with time := th.time + v.ttot })
      | (.throw e, u) => (.throw e, c1.withSU u, th)
      | (.ub w, u) => (.ub w, c1.withSU u, th)
    else (.throw 100, c1, th)
  | (.throw e, c1) => (.throw e, c1, th)
  | (.ub w, c1) => (.ub w, c1, th)

/-! #### CC -/

/-- `Cycler::setCurrent` – `Cycler.cpp:185-212`. -/
def setCurrent (c : Cyc U) (I vlim : ℚ) : Outcome Status × Cyc U :=
  let Vini := V c.su
  let Iini := StorageUnit.I c.su
  match StorageUnit.setCurrent c.su I c.diagnostic with
  | (.ok st, u1) =>
    if st.isVoltageLimitsViolated then
      match StorageUnit.setCurrent u1 Iini false with
      | (.ok _, u2) => (.ok st, c.withSU u2)
      | (.throw e, u2) => (.throw e, c.withSU u2)
      | (.ub w, u2) => (.ub w, c.withSU u2)
    else
      let Vnew := V u1
      if I < 0 ∧ Vini ≤ vlim ∧ Vnew > vlim then (.ok .ReachedVoltageLimit, c.withSU u1)
      else if Vini ≥ vlim ∧ Vnew < vlim then (.ok .ReachedVoltageLimit, c.withSU u1)
      else (.ok .Success, c.withSU u1)
  | (.throw e, u1) => (.throw e, c.withSU u1)
  | (.ub w, u1) => (.ub w, c.withSU u1)

/-- Local variables of `Cycler::CC` – `Cycler.cpp:249-260`. -/
structure CCVars where
  dti : ℚ
  ttot : ℚ
  idat : ℕ
  nOnce : ℕ
  vo : ℚ
  vi : ℚ
  allowUp : Bool

/-- Adaptation of `nOnce` – `Cycler.cpp:332-389`. -/
def ccAdapt (I vlim vo vi vlow : ℚ) (nMax nOnce : ℕ) (allowUp : Bool) : ℕ × Bool :=
  if I < 0 then
    let n : ℤ := if vi - vo < (vlim - vi) / 10 then nOnce + 1 else if vi - vo ≥ vlim - vi then 1 else nOnce - 1
    (clamp1 n nMax, allowUp)
  else
    let n : ℤ := if vo - vi < (vi - vlim) / 10 ∧ allowUp then nOnce + 1
      else if vo - vi ≥ (vi - vlim) * 2 then 1 else nOnce - 2
    let n := if vlow < 31/10 then n - 2 else n
    let up := if vlow < 31/10 then false else allowUp
    let n := if vlow < 3 then 1 else n
    let up := if vlow < 3 then false else up
    (clamp1 n nMax, up)

/-- The voltage check after a time step – `Cycler.cpp:287-305`: `inl` is the early return. -/
def ccVoltage (c : Cyc U) : Status ⊕ ℚ :=
  if c.diagnostic then
    let st := StorageUnit.checkVoltage c.su
    if st.isSuccessful then .inr (V c.su) else .inl st
  else if V c.su ≤ 0 then .inl .V_not_calculated else .inr (V c.su)

/-- Result of one iteration: early return, voltage limit reached (`break`), or continue. -/
inductive CCNext where
  | ret (st : Status)
  | brk (v : CCVars)
  | cont (v : CCVars)

/-- One iteration of the loop of `CC` – `Cycler.cpp:267-391`. -/
def ccBody (I vlim tlim : ℚ) (ndt : ℤ) (nMax : ℕ) (v : CCVars) (c : Cyc U) (th : Thr) :
    Outcome CCNext × Cyc U × Thr :=
  match c.setCurrent I vlim with
  | (.ok _, c1) =>
    let nOnce := if v.nOnce * v.dti > tlim - v.ttot then 1 else v.nOnce
    let dti := if v.dti > tlim - v.ttot then tlim - v.ttot else v.dti
    match StorageUnit.timeStep c1.su dti nOnce with
    | (.ok (), u2) =>
      let c2 := c1.withSU u2
      match ccVoltage c2 with
      | .inl st => (.ok (.ret st), c2, th)
      | .inr vi =>
        let dtNow := dti * nOnce
        let th' : Thr := { time := th.time + dtNow, Ah := th.Ah + |I| * dtNow / 3600,
                           Wh := th.Wh + |I| * dtNow / 3600 * vi }
        let idat := v.idat + nOnce
        let save := decide (0 < ndt) && decide (ndt ≤ idat)
        let c3 := storeIf save c2
        let idat := if save then 0 else idat
        let v' : CCVars := { dti := dti, ttot := v.ttot + dtNow, idat := idat, nOnce := nOnce, vo := v.vo,
                             vi := vi, allowUp := v.allowUp }
        if (I < 0 ∧ vi > vlim) ∨ (I > 0 ∧ vi < vlim) then (.ok (.brk v'), c3, th')
        else
          let a := ccAdapt I vlim v.vo vi (Vlow c3.su) nMax nOnce v.allowUp
          (.ok (.cont { v' with nOnce := a.1, allowUp := a.2, vo := vi }), c3, th')
    | (.throw _, u2) => (.ok (.ret .timeStep_CC_failed), c1.withSU u2, th)
    | (.ub w, u2) => (.ub w, c1.withSU u2, th)
  | (.throw e, c1) => (.throw e, c1, th)
  | (.ub w, c1) => (.ub w, c1, th)

/-- `while (ttot < tlim)`: the result is an early status, or the final variables with `vtot`. -/
def ccLoop (I vlim tlim : ℚ) (ndt : ℤ) (nMax : ℕ) :
    ℕ → CCVars → Cyc U → Thr → Outcome (Status ⊕ (CCVars × Bool)) × Cyc U × Thr
  | 0, v, c, th => if v.ttot < tlim then (.ub "out of fuel", c, th) else (.ok (.inr (v, false)), c, th)
  | fuel + 1, v, c, th =>
    if v.ttot < tlim then
      match ccBody I vlim tlim ndt nMax v c th with
      | (.ok (.ret st), c', th') => (.ok (.inl st), c', th')
      | (.ok (.brk v'), c', th') => (.ok (.inr (v', true)), c', th')
      | (.ok (.cont v'), c', th') => ccLoop I vlim tlim ndt nMax fuel v' c' th'
      | (.throw e, c', th') => (.throw e, c', th')
      | (.ub w, c', th') => (.ub w, c', th')
    else (.ok (.inr (v, false)), c, th)

/-- `Cycler::CC` – `Cycler.cpp:226-410`. -/
def CC (fuel : ℕ) (c : Cyc U) (I vlim tlim dt : ℚ) (ndt : ℤ) (th : Thr) : Outcome Status × Cyc U × Thr :=
  let store := decide (0 < ndt)
  let c0 := storeIf store c
  match c0.setCurrent I vlim with
  | (.ok st, c1) =>
    if !st.isSuccessful then (.ok st, c1, th)
    else
      let nMax : ℕ := if store then min 2 ndt.toNat else 2
      let vi := V c1.su
      if (I < 0 ∧ vi > vlim) ∨ (I > 0 ∧ vi < vlim) then (.ok .ReachedVoltageLimit, c1, th)
      else
        match ccLoop I vlim tlim ndt nMax fuel
            { dti := dt, ttot := 0, idat := 0, nOnce := 1, vo := vi, vi := vi, allowUp := true } c1 th with
        | (.ok (.inl st), c2, th2) => (.ok st, c2, th2)
        | (.ok (.inr (v, vtot)), c2, th2) =>
          if v.ttot ≥ tlim then (.ok .ReachedTimeLimit, storeIf store c2, th2)
          else if vtot then (.ok .ReachedVoltageLimit, storeIf store c2, th2)
          else (.throw 100, c2, th2)
        | (.throw e, c2, th2) => (.throw e, c2, th2)
        | (.ub w, c2, th2) => (.ub w, c2, th2)
  | (.throw e, c1) => (.throw e, c1, th)
  | (.ub w, c1) => (.ub w, c1, th)

end Cyc

/-! #### CV and CCCV -/

namespace Cyc
variable {U : Type} [StorageUnit U] [VoltageUnit U]

/-- `dV < MODULE_P_V_ABSTOL || dV / Vset < MODULE_P_V_RELTOL` – `Cycler.cpp:425-426, 478-479`,
`/repo/src/settings/tolerances.hpp:26,28`. (`Vset = 0` would divide by zero; `CCCV` only reaches this with
`Vset` inside the voltage window of the unit.) -/
def vLimit (v Vset : ℚ) : Bool := |v - Vset| < 1/100 || |v - Vset| / Vset < 1/1000

/-- One iteration of `CV` – `Cycler.cpp:443-493`: `inl` is an early return, `inr none` means continue,
`inr (some vtol)` is a `break` with `Itot = true`. -/
def cvBody (Vset Ilim tlim dt : ℚ) (nt : ℕ) (ndt : ℤ) (i : ℕ) (c : Cyc U) (ttot : ℚ) (th : Thr) :
    Outcome (Status ⊕ Option Bool) × Cyc U × ℚ × Thr :=
  match VoltageUnit.setVoltage c.su Vset with
  | (.ok _, u1) =>
    let dti := if i + 1 = nt then tlim - dt * ((nt : ℚ) - 1) else dt
    match StorageUnit.timeStep u1 dti 1 with
    | (.ok (), u2) =>
      let dAh := |StorageUnit.I u2 * dti / 3600|
      let vi := V u2
      let ttot := ttot + dti
      let th : Thr := { th with Ah := th.Ah + dAh, Wh := th.Wh + dAh * vi }
      let c2 := storeIf (decide (0 < ndt) && decide (((i : ℤ) + 1) % ndt = 0)) (c.withSU u2)
      let safety := checkSafety ((lim u2).VMIN * (99/100)) ((lim u2).VMAX * (101/100)) vi
      if safety ≠ .SafeVoltage then (.ok (.inl safety), c2, ttot, th)
      else
        let Ii := StorageUnit.I u2
        if |Ii| < Ilim ∧ vLimit vi Vset then (.ok (.inr (some true)), c2, ttot, th)
        else if |Ii| < Ilim / 10 ∨ |Ii| < 1/1000000 then (.ok (.inr (some false)), c2, ttot, th)
        else (.ok (.inr none), c2, ttot, th)
    | (.throw _, u2) => (.ok (.inl .timeStep_CC_failed), c.withSU u2, ttot, th)
    | (.ub w, u2) => (.ub w, c.withSU u2, ttot, th)
  | (.throw e, u1) => (.throw e, c.withSU u1, ttot, th)
  | (.ub w, u1) => (.ub w, c.withSU u1, ttot, th)

/-- `for (size_t i = 0; i < nt; i++)`; `left` iterations remain. -/
def cvLoop (Vset Ilim tlim dt : ℚ) (nt : ℕ) (ndt : ℤ) :
    ℕ → ℕ → Cyc U → ℚ → Thr → Outcome (Status ⊕ Option Bool) × Cyc U × ℚ × Thr
  | 0, _, c, ttot, th => (.ok (.inr none), c, ttot, th)
  | left + 1, i, c, ttot, th =>
    match cvBody Vset Ilim tlim dt nt ndt i c ttot th with
    | (.ok (.inl st), r) => (.ok (.inl st), r)
    | (.ok (.inr (some b)), r) => (.ok (.inr (some b)), r)
    | (.ok (.inr none), c', ttot', th') => cvLoop Vset Ilim tlim dt nt ndt left (i + 1) c' ttot' th'
    | (.throw e, r) => (.throw e, r)
    | (.ub w, r) => (.ub w, r)

/-- `Cycler::CV` – `Cycler.cpp:412-520`.  Converting a value below 0 to `size_t` is undefined; so is `dt = 0`
(division by zero, then conversion of an infinity or NaN). -/
def CV (c : Cyc U) (Vset Ilim tlim dt : ℚ) (ndt : ℤ) (th : Thr) : Outcome Status × Cyc U × Thr :=
  let store := decide (0 < ndt)
  let c0 := storeIf store c
  if |StorageUnit.I c0.su| < Ilim ∧ vLimit (V c0.su) Vset then (.ok .ReachedCurrentLimit, c0, th)
  else if dt = 0 ∨ ⌈tlim / dt⌉ < 0 then (.ub "conversion to size_t", c0, th)
  else
    let nt := ⌈tlim / dt⌉.toNat
    match cvLoop Vset Ilim tlim dt nt ndt nt 0 c0 0 th with
    | (.ok (.inl st), c1, _, th1) => (.ok st, c1, th1)
    | (.ok (.inr o), c1, ttot, th1) =>
      if ttot ≥ tlim then (.ok .ReachedTimeLimit, storeIf store c1, th1)
      else
        match o with
        | some true => (.ok .ReachedCurrentLimit, storeIf store c1, th1)
        | some false => (.ok .ReachedSmallCurrent, storeIf store c1, th1)
        | none => (.throw 100, c1, th1)
    | (.throw e, c1, _, th1) => (.throw e, c1, th1)
    | (.ub w, c1, _, th1) => (.ub w, c1, th1)

/-- `Cycler::CCCV_with_tlim` – `Cycler.cpp:528-586`. -/
def CCCVt (fuel : ℕ) (c : Cyc U) (I Vset Ilim tlim dt : ℚ) (ndt : ℤ) (th : Thr) : Outcome Status × Cyc U × Thr :=
  if Vset < (lim c.su).Vmin ∨ Vset > (lim c.su).Vmax then (.ok .Invalid_Vset, c, th)
  else
    match StorageUnit.setCurrent c.su 0 false with
    | (.ok st, u) =>
      let c0 := c.withSU u
      if st.isFailed then (.ok st, c0, th)
      else
        let I' := if V u > Vset then |I| else -|I|
        match CC fuel c0 I' Vset tlim dt ndt Thr.zero with
        | (.ok _, c1, th1) =>
          match CV c1 Vset |Ilim| (tlim - th1.time) dt ndt Thr.zero with
          | (.ok st2, c2, th2) =>
            (.ok st2, c2, { time := th1.time + th2.time, Ah := th1.Ah + th2.Ah, Wh := th1.Wh + th2.Wh })
          | (.throw e, c2, _) => (.throw e, c2, th)
          | (.ub w, c2, _) => (.ub w, c2, th)
        | (.throw e, c1, _) => (.throw e, c1, th)
        | (.ub w, c1, _) => (.ub w, c1, th)
    | (.throw e, u) => (.throw e, c.withSU u, th)
    | (.ub w, u) => (.ub w, c.withSU u, th)

/-- `Cycler::CCCV` – `Cycler.cpp:522-526`. -/
def CCCV (fuel : ℕ) (c : Cyc U) (I Vset Ilim dt : ℚ) (ndt : ℤ) (th : Thr) : Outcome Status × Cyc U × Thr :=
  CCCVt fuel c I Vset Ilim TIME_INF dt ndt th

end Cyc

/-! #### testCapacity -/

namespace Cyc
variable {U : Type} [StorageUnit U]

/-- `Cycler::testCapacity` – `Cycler.cpp:588-644`.  Returns the capacity, `Ah` and `ttot` (the in/out arguments start
with the given values). -/
def testCapacity (fuel : ℕ) (c : Cyc U) (Ah ttot : ℚ) : Outcome ℚ × Cyc U × ℚ × ℚ :=
  let sini := getStates c.su
  let cap := Cap c.su
  let restoreStates (c : Cyc U) (ttot : ℚ) : Outcome ℚ × Cyc U × ℚ × ℚ :=
    match setStates c.su sini false with
    | (.ok _, u) => (.ok 0, c.withSU u, Ah, ttot)
    | (.throw e, u) => (.throw e, c.withSU u, Ah, ttot)
    | (.ub w, u) => (.ub w, c.withSU u, Ah, ttot)
  match CC fuel c (-(1/25) * cap) (lim c.su).Vmax TIME_INF 1 0 Thr.zero with
  | (.ok st, c1, th1) =>
    let ttot := ttot + th1.time
    if st ≠ .ReachedVoltageLimit then restoreStates c1 ttot
    else
      match CC fuel c1 (1/25 * cap) (lim c1.su).Vmin TIME_INF 1 0 Thr.zero with
      | (.ok st, c2, th2) =>
        let ttot := ttot + th2.time
        if st ≠ .ReachedVoltageLimit then restoreStates c2 ttot
        else (.ok th2.Ah, c2, th1.Ah + th2.Ah, ttot)
      | (.throw e, c2, _) => (.throw e, c2, Ah, ttot)
      | (.ub w, c2, _) => (.ub w, c2, Ah, ttot)
  | (.throw e, c1, _) => (.throw e, c1, Ah, ttot)
  | (.ub w, c1, _) => (.ub w, c1, Ah, ttot)

end Cyc
end Slide

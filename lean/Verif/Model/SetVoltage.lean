import Verif.Model.Modules

/-!
`setVoltage` of the storage units: `Cell_ECM::setVoltage` (modelled in `Verif.Model.ECM`), the default
implementation `free::setVoltage_iterative` (used by `Module_s`) and `Module_p::setVoltage`.
-/

namespace Slide
open StorageUnit

/-- Units with `setVoltage(Vnew)` (default arguments `checkI = true`, `print = true`) –
`/repo/src/StorageUnit.hpp:67-70`. -/
class VoltageUnit (U : Type) [StorageUnit U] where
  setVoltage : U → ℚ → Outcome Status × U

section iterative
variable {U : Type} [StorageUnit U]

/-- The loop of `free::setVoltage_iterative` – `/repo/src/utility/free_functions.hpp:32-44`.  `Ia` is the local
variable of that name.  The statuses of the two `setCurrent` calls are ignored by the code.  `Va = Vb` divides by
zero: in C++ this gives an infinity or a NaN which is then set as current; the model makes it undefined. -/
def iterLoop (Vset : ℚ) : ℕ → ℚ → U → Outcome Status × U
  | 0, _, u => (.ok .RedistributeCurrent_failed, u)
  | fuel + 1, Ia, u =>
    let Va := V u
    if |Vset - Va| < 1/1000000 then (.ok .Success, u)
    else
      let Ib := if Vset > Va then Ia - 1/100 * Cap u else Ia + 1/100 * Cap u
      match StorageUnit.setCurrent u Ib true with
      | (.ok _, u1) =>
        let Vb := V u1
        if Va - Vb = 0 then (.ub "division by Va - Vb = 0", u1)
        else
          let slope := (Ia - Ib) / (Va - Vb)
          let Ia' := Ib - (Vb - Vset) * slope
          match StorageUnit.setCurrent u1 Ia' true with
          | (.ok _, u2) => iterLoop Vset fuel Ia' u2
          | (.throw c, u2) => (.throw c, u2)
          | (.ub w, u2) => (.ub w, u2)
      | (.throw c, u1) => (.throw c, u1)
      | (.ub w, u1) => (.ub w, u1)

/-- `free::setVoltage_iterative` – `free_functions.hpp:24-47`. -/
def setVoltageIterative (u : U) (Vset : ℚ) : Outcome Status × U := iterLoop Vset 50 (I u) u

end iterative

namespace ModuleP
variable {U : Type} [StorageUnit U]

/-- One sweep of `Module_p::setVoltage` – `/repo/src/modules/Module_p.cpp:177-180`. -/
def vSweep (Vnew : ℚ) : List (Branch U) → List ℚ → Outcome Unit × List (Branch U)
  | [], _ => (.ok (), [])
  | b :: bs, [] => (.ub "Va shorter than SUs", b :: bs)
  | b :: bs, va :: vas =>
    let ia := b.ia + (-(2/10)) * (Vnew - va) / (1/1000)
    match StorageUnit.setCurrent b.kid.su ia true with
    | (.ok _, su') =>
      let r := vSweep Vnew bs vas
      (r.1, { kid := { b.kid with su := su' }, ia := ia } :: r.2)
    | (.throw c, su') => (.throw c, { kid := { b.kid with su := su' }, ia := ia } :: bs)
    | (.ub w, su') => (.ub w, { kid := { b.kid with su := su' }, ia := ia } :: bs)

/-- The loop `Module_p.cpp:165-181`. -/
def vLoopP (Vnew : ℚ) : ℕ → List (Branch U) → Outcome Status × List (Branch U)
  | 0, bs => (.ok .RedistributeCurrent_failed, bs)
  | fuel + 1, bs =>
    let va := (vallLoop (kidsOf bs)).1
    if (va.map fun v => |Vnew - v|).sum < 1/10000000000 then (.ok .Success, bs)
    else
      match vSweep Vnew bs va with
      | (.ok (), bs') => vLoopP Vnew fuel bs'
      | (.throw c, bs') => (.throw c, bs')
      | (.ub w, bs') => (.ub w, bs')

/-- `Module_p::setVoltage` – `Module_p.cpp:151-187`. -/
def setVoltage (m : ModuleP U) (Vnew : ℚ) : Outcome Status × ModuleP U :=
  if NSUs_MAX < m.kids.length then (.ub "Ia out of bounds", m)
  else
    let r := vLoopP Vnew 50 (m.kids.map fun k => ({ kid := k, ia := StorageUnit.I k.su } : Branch U))
    (r.1, { m with kids := kidsOf r.2 })

end ModuleP

instance {n : ℕ} : VoltageUnit (ECM n) where
  setVoltage c v := c.setVoltage v true

instance {U : Type} [StorageUnit U] : VoltageUnit (ModuleS U) where
  setVoltage := setVoltageIterative

instance {U : Type} [StorageUnit U] : VoltageUnit (ModuleP U) where
  setVoltage := ModuleP.setVoltage

instance instVNode {C U : Type} [StorageUnit C] [VoltageUnit C] [StorageUnit U] : VoltageUnit (Node C U) where
  setVoltage
    | .cell c, v => let r := VoltageUnit.setVoltage c v; (r.1, .cell r.2)
    | .series m, v => let r := VoltageUnit.setVoltage m v; (r.1, .series r.2)
    | .parallel m, v => let r := VoltageUnit.setVoltage m v; (r.1, .parallel r.2)

instance instVTree {C : Type} [StorageUnit C] [VoltageUnit C] : (d : ℕ) → VoltageUnit (Tree C d)
  | 0 => inferInstanceAs (VoltageUnit C)
  | d + 1 => @instVNode C (Tree C d) _ _ (instTree d)

end Slide

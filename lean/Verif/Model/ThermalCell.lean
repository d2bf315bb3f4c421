import Verif.Model.Thermal

/-!
Model of the thermal model of each cell on its own (`settings::T_MODEL == 1`): `Cell_SPM::thermalModel_cell`
(`/repo/src/cells/Cell_SPM/Cell_SPM_thermal.cpp:34-80`), `Module::thermalModel_cell`
(`/repo/src/modules/Module.cpp:269-304`) and the wrappers around them.

With a heat capacity of 0 the C++ code computes an infinity or a NaN, which the range check refuses; the model throws the
same error directly.
-/

namespace Slide

/-- A single-particle cell with what its own thermal model uses beyond `ThermCell`: the temperature of the environment and
the convective cooling constant – `Cell_SPM.hpp:67-72`. -/
structure EnvCell where
  c : ThermCell
  Tenv : ℚ
  Qch : ℚ
  deriving DecidableEq, Repr

namespace EnvCell

/-- `Cell_SPM::thermalModel` with `thermalModel_cell` – `Cell_SPM_thermal.cpp:34-80, 191-222`; the wrapper resets the
cumulative variables whatever happens (after `thermalModel_cell` has already done so, it adds a heat of 0). -/
def thermal (e : EnvCell) : Outcome ℚ × EnvCell :=
  if e.c.C = 0 then (.throw 9, { e with c := e.c.done })
  else
    let qc := e.Qch * e.c.A * (e.Tenv - e.c.T) * e.c.time
    let t := e.c.T + (e.c.Qgen + qc) / e.c.C
    if t > e.c.Tmax ∨ t < e.c.Tmin then (.throw 9, { e with c := e.c.done })
    else (.ok t, { e with c := e.c.done.done })

/-- `Cell_SPM::setT` – `Cell_SPM.cpp:546-560` (no check). -/
def setT (e : EnvCell) (t : ℚ) : EnvCell := { e with c := e.c.setT t }

end EnvCell

/-- A storage unit as this thermal model sees it (compare `HTree`). -/
inductive ITree where
  | cell (e : EnvCell)
  | plain (T : ℚ)
  | module (th : ModTherm) (cool : CoolSystem) (kids : List ITree)

namespace ITree

/-- `T()` – `Cell_SPM.hpp`, `Cell_ECM.hpp`, `Module.hpp:104` (the coolant temperature). -/
def T : ITree → ℚ
  | .cell e => e.c.T
  | .plain t => t
  | .module _ cool _ => cool.T

/-- `setT` – `Cell_SPM.cpp:546`, `Cell_ECM.hpp:83`, `Module.hpp:186`. -/
def setT : ITree → ℚ → Outcome Unit × ITree
  | .cell e, t => (.ok (), .cell (e.setT t))
  | .plain _, t => (.ok (), .plain t)
  | .module th cool ks, t =>
    let r := cool.setT t
    (r.1, .module th r.2 ks)

/-- `for (i...) SUs[i]->setT(Tnew[i]);` – `Module.cpp:299-300`. -/
def setKids : List ITree → List ℚ → Outcome Unit × List ITree
  | [], _ => (.ok (), [])
  | u :: us, [] => (.ub "Tnew not set", u :: us)
  | u :: us, t :: ts =>
    match u.setT t with
    | (.ok (), u') =>
      let r := setKids us ts
      (r.1, u' :: r.2)
    | (.throw e, u') => (.throw e, u' :: us)
    | (.ub w, u') => (.ub w, u' :: us)

mutual
/-- `thermalModel(…)` – `Cell_SPM_thermal.cpp:191-222`, `Cell.hpp:100-103`, `Module.cpp:269-304, 448-481`.  None of the
arguments is used. -/
def thermal : ITree → Outcome ℚ × ITree
  | .cell e =>
    let r := e.thermal
    (r.1, .cell r.2)
  | .plain t => (.ok t, .plain t)
  | .module th cool ks =>
    if ks.length > HTree.maxKids then (.ub "Tnew out of bounds", .module (HTree.reset th) cool ks)
    else
      match thermalKids ks with
      | (.throw e, ks') => (.throw e, .module (HTree.reset th) cool ks')
      | (.ub w, ks') => (.ub w, .module (HTree.reset th) cool ks')
      | (.ok ts, ks') =>
        match setKids ks' ts with
        | (.throw e, ks'') => (.throw e, .module (HTree.reset th) cool ks'')
        | (.ub w, ks'') => (.ub w, .module (HTree.reset th) cool ks'')
        | (.ok (), ks'') => (.ok cool.T, .module (HTree.reset th) cool ks'')
termination_by structural u => u
/-- The loop over the children – `Module.cpp:286-296`. -/
def thermalKids : List ITree → Outcome (List ℚ) × List ITree
  | [] => (.ok [], [])
  | u :: us =>
    match thermal u with
    | (.ok t, u') =>
      match thermalKids us with
      | (.ok ts, us') => (.ok (t :: ts), u' :: us')
      | (.throw e, us') => (.throw e, u' :: us')
      | (.ub w, us') => (.ub w, u' :: us')
    | (.throw e, u') => (.throw e, u' :: us)
    | (.ub w, u') => (.ub w, u' :: us)
termination_by structural us => us
end

end ITree
end Slide

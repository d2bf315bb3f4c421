import Verif.Model.ECM
import Verif.Model.Interp
import Verif.Model.Containers
import Verif.Model.Cooling

/-!
Model of the constructors of `Cell_ECM<N_RC>` – `/repo/src/cells/Cell_ECM/Cell_ECM.hpp:32-58, 98-155` – and of `getIr`.

Simplifications: IDs and the data recorder are left out.
-/

namespace Slide.ECM

variable {n : ℕ}

/-- The curve of a new cell: `linspace_fix(0, 1, 3)` against `linspace_fix(VMIN(), VMAX(), 3)`, read by `XYdata::interp` –
`Cell_ECM.hpp:104-105, 118`, `/repo/src/types/XYdata.hpp:64-74`. -/
def newCurve (s : ℚ) : Option ℚ :=
  match (linspaceFix 0 1 3).values, (linspaceFix cellLimits.VMIN cellLimits.VMAX 3).values with
  | .ok xs, .ok ys =>
    match Interp.tableInterp xs ys s with
    | .ok v => some v
    | _ => none
  | _, _ => none

/-- Resistances of the RC pairs of a new cell – `Cell_ECM.hpp:36, 107-116`. -/
def newRp (n : ℕ) (i : Fin n) : ℚ := if i.val = 0 then 158 / 10000 else if n = 2 ∧ i.val = 1 then 25 / 10000 else 0

/-- Inverse time constants of the RC pairs of a new cell – `Cell_ECM.hpp:36, 107-116`. -/
def newInvTau (n : ℕ) (i : Fin n) : ℚ :=
  if i.val = 0 then 1 / (158 / 10000 * 38000) else if n = 2 ∧ i.val = 1 then 1 / 100 else 0

/-- `Cell_ECM()` – `Cell_ECM.hpp:32, 39, 98-120`; the states that are not listed at line 32 are zero. -/
def new0 (n : ℕ) : ECM n where
  par := { cap := 16, Rdc := 2 / 1000, Rp := newRp n, invTau := newInvTau n, ocv := newCurve }
  st := { T := CoolSystem.T_ENV, SOC := 1 / 2, I := 0, Ir := fun _ => 0, time := 0, Ah := 0, Wh := 0 }

/-- `Cell_ECM(capin, SOCin)` – `Cell_ECM.hpp:127-136`, `setCapacity` at `/repo/src/cells/Cell.hpp:48`. -/
def new2 (n : ℕ) (cap soc : ℚ) : Outcome (ECM n) :=
  if !checkSOC soc then .throw 10
  else
    let c := new0 n
    .ok { par := { c.par with cap := cap }, st := { c.st with SOC := soc } }

/-- `Cell_ECM(capin, SOCin, Rdc_, Rp_, inv_tau_)` – `Cell_ECM.hpp:145-155`. -/
def new5 (n : ℕ) (cap soc Rdc : ℚ) (Rp invTau : Fin n → ℚ) : Outcome (ECM n) := do
  let c ← new2 n cap soc
  pure { c with par := { c.par with Rdc := Rdc, Rp := Rp, invTau := invTau } }

/-- `getIr` – `Cell_ECM.hpp:61`, `State_ECM.hpp:51`: the entry after the current in the array of the states. -/
def getIr (c : ECM n) : Outcome ℚ := readAt c.getStates (2 + 0 + 1)

end Slide.ECM

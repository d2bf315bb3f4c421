import Verif.Model.Outcome
import Verif.Model.Voltage
import Mathlib.Algebra.BigOperators.Fin
import Mathlib.Data.List.OfFn

/-!
Model of the equivalent-circuit cell `Cell_ECM<N_RC>`, `/repo/src/cells/Cell_ECM/Cell_ECM.hpp`.

Simplifications: the OCV curve is a function `ocv : ℚ → Option ℚ`, where `none` means that the
interpolation throws 1 (see `Interp.linInt`; the library's own three-point curve is instantiated in
`Verif.Lemmas.ECM`).  Printing, the data recorder and the ID are left out.
-/

namespace Slide

/-- Parameters: `Rp`, `inv_tau`, `OCV`, `Rdc`, `capNom` – `Cell_ECM.hpp:37-40`, `Cell.hpp:48`. -/
structure ECMPar (n : ℕ) where
  cap : ℚ
  Rdc : ℚ
  Rp : Fin n → ℚ
  invTau : Fin n → ℚ
  ocv : ℚ → Option ℚ

/-- States, in the order of `State_ECM<N_RC>` (`State_ECM.hpp:25-31`, `/repo/src/types/State.hpp`):
T, SOC, I, Ir..., time, Ah, Wh. -/
@[ext] structure ECMState (n : ℕ) where
  T : ℚ
  SOC : ℚ
  I : ℚ
  Ir : Fin n → ℚ
  time : ℚ
  Ah : ℚ
  Wh : ℚ

/-- A cell: fixed parameters and states. -/
@[ext] structure ECM (n : ℕ) where
  par : ECMPar n
  st : ECMState n

namespace ECM

variable {n : ℕ}

/-- `Cell_ECM::V` – `Cell_ECM.hpp:270-286`; the exception of the OCV lookup is turned into 0. -/
def V (c : ECM n) : ℚ :=
  match c.par.ocv c.st.SOC with
  | some o => o - c.par.Rdc * c.st.I - ∑ i, c.par.Rp i * c.st.Ir i
  | none => 0

/-- `Cell::checkVoltage` – `/repo/src/cells/Cell.hpp:79`. -/
def checkV (c : ECM n) : Status := checkVoltage cellLimits (some c.V) c.st.I

/-- `Cell::checkCurrent` – `/repo/src/cells/Cell.hpp:65-71`. -/
def checkCurrent (c : ECM n) (check : Bool) : Status := if check then c.checkV else .Success

/-- `st.I() = Inew`. -/
def withI (c : ECM n) (i : ℚ) : ECM n := { c with st := { c.st with I := i } }

/-- `Cell_ECM::setCurrent` – `Cell_ECM.hpp:182-193`. -/
def setCurrent (c : ECM n) (Inew : ℚ) (check : Bool) : Status × ECM n :=
  let c' := c.withI Inew
  let status := c'.checkCurrent check
  if status.isBad then (status, c'.withI c.st.I) else (status, c')

/-- `Cell_ECM::setVoltage` – `Cell_ECM.hpp:203-224`.  `getOCV` is not guarded here, so its exception 1
escapes (before anything is modified); `Rdc = 0` is a division by zero. -/
def setVoltage (c : ECM n) (Vnew : ℚ) (check : Bool) : Outcome Status × ECM n :=
  match c.par.ocv c.st.SOC with
  | none => (.throw 1, c)
  | some o =>
    if c.par.Rdc = 0 then (.ub "division by Rdc = 0", c)
    else
      let vNow := o - Vnew - ∑ i, c.par.Rp i * c.st.Ir i
      let c' := c.withI (vNow / c.par.Rdc)
      let status := c'.checkCurrent check
      if status.isBad then (.ok status, c'.withI c.st.I) else (.ok status, c')

/-- `Cell_ECM::setSOC` – `Cell_ECM.hpp:240-260`. -/
def setSOC (c : ECM n) (s : ℚ) (check : Bool) : Status × ECM n :=
  if !checkSOC s then (.SOC_limits_violation, c)
  else
    let c' : ECM n := { c with st := { c.st with SOC := s } }
    if check then
      let status := c'.checkV
      if status.isBad then (status, { c' with st := { c'.st with SOC := c.st.SOC } }) else (status, c')
    else (.Success, c')

/-- `Cell_ECM::setT` – `Cell_ECM.hpp:83`. -/
def setT (c : ECM n) (t : ℚ) : ECM n := { c with st := { c.st with T := t } }

/-- `Cell_ECM::getStates` – `Cell_ECM.hpp:64`. -/
def getStates (c : ECM n) : List ℚ :=
  [c.st.T, c.st.SOC, c.st.I] ++ (List.ofFn c.st.Ir ++ [c.st.time, c.st.Ah, c.st.Wh])

/-- Tmin / Tmax of a cell – `/repo/src/cells/cell_limits.hpp` (0 and 60 °C with `Kelvin = 273`). -/
def Tmin : ℚ := 273
def Tmax : ℚ := 333

/-- `Cell_ECM::validStates` – `Cell_ECM.hpp:307-331`. -/
def validStates (c : ECM n) : Bool := checkSOC c.st.SOC && !(c.st.T < Tmin || c.st.T > Tmax)

/-- `std::copy(s.begin(), s.begin()+size, st.begin())` – `Cell_ECM.hpp:295`: reads exactly
`6 + n` values; a shorter span is an out-of-bounds read (`none`). -/
def decode (n : ℕ) (s : List ℚ) : Option (ECMState n) :=
  if h : 6 + n ≤ s.length then
    some { T := s[0], SOC := s[1], I := s[2], Ir := fun i => s[3 + i.val],
           time := s[3 + n], Ah := s[4 + n], Wh := s[5 + n] }
  else none

/-- `Cell_ECM::setStates` with `free::check_Cell_states` – `Cell_ECM.hpp:289-304`,
`/repo/src/utility/free_functions.hpp:118-135`.  Returns the status and the rest of the span. -/
def setStates (c : ECM n) (s : List ℚ) (check : Bool) : Outcome (Status × List ℚ) × ECM n :=
  match decode n s with
  | none => (.ub "state span too short", c)
  | some st =>
    let c' : ECM n := { c with st := st }
    let rest := s.drop (6 + n)
    let status := if !c'.validStates then Status.Invalid_states
      else if check then c'.checkV else .Success
    if status.isBad then (.ok (status, rest), { c' with st := c.st }) else (.ok (status, rest), c')

/-- Body of the time loop – `Cell_ECM.hpp:348-362`.  `V()` in the energy counter is evaluated after the
SOC and RC currents have been updated; time and Ah do not influence it. Division by a zero capacity is not
modelled (theorems that depend on it assume `cap ≠ 0`). -/
def step1 (c : ECM n) (dt : ℚ) : ECM n :=
  let dAh := c.st.I * (dt / 3600)
  let c1 : ECM n := { c with st := { c.st with
    SOC := c.st.SOC - dAh / c.par.cap,
    Ir := fun i => c.st.Ir i + dt * c.par.invTau i * (c.st.I - c.st.Ir i) } }
  { c1 with st := { c1.st with
    time := c.st.time + dt,
    Ah := c.st.Ah + |dAh|,
    Wh := c.st.Wh + |dAh * c1.V| } }

/-- The loop `for (t = 0; t < nstep; t++)`. -/
def steps (c : ECM n) (dt : ℚ) : ℕ → ECM n
  | 0 => c
  | k + 1 => steps (c.step1 dt) dt k

/-- `Cell_ECM::timeStep_CC` – `Cell_ECM.hpp:334-363`. -/
def timeStep (c : ECM n) (dt : ℚ) (nstep : ℕ) : Outcome Unit × ECM n :=
  if dt < 0 then (.throw 10, c) else (.ok (), c.steps dt nstep)

/-- Operations of the public interface that change the state of a cell. -/
inductive Op where
  | setCurrent (i : ℚ) (check : Bool)
  | setVoltage (v : ℚ) (check : Bool)
  | setT (t : ℚ)
  | step (dt : ℚ) (k : ℕ)

/-- The effect of one call on the cell (the caller catches exceptions). -/
def apply (c : ECM n) : Op → ECM n
  | .setCurrent i b => (c.setCurrent i b).2
  | .setVoltage v b => (c.setVoltage v b).2
  | .setT t => c.setT t
  | .step dt k => (c.timeStep dt k).2

/-- A history of calls. -/
def run (c : ECM n) : List Op → ECM n
  | [] => c
  | o :: os => run (c.apply o) os

end ECM
end Slide

import Verif.Model.ECM

/-!
The interface `StorageUnit` (`/repo/src/StorageUnit.hpp:26-110`) as a type class: every C++ class
deriving from it becomes an instance, and modules are polymorphic in the type of their children.
-/

namespace Slide

/-- The part of the virtual interface of `StorageUnit` that the model uses.  State-changing calls return
their outcome *and* the unit as it is afterwards (also when they throw). -/
class StorageUnit (U : Type) where
  /-- `V()` -/
  V : U → ℚ
  /-- `I()` -/
  I : U → ℚ
  /-- `T()` -/
  T : U → ℚ
  /-- `Cap()` -/
  Cap : U → ℚ
  /-- `getOCV()`; `none` means that the OCV lookup throws 1 -/
  OCV : U → Option ℚ
  /-- `getRtot()` -/
  Rtot : U → ℚ
  /-- `Vmin() Vmax() VMIN() VMAX()` -/
  lim : U → VLimits
  /-- `checkVoltage(v, print)` (status only) -/
  checkVoltage : U → Status
  /-- `getVhigh()` -/
  Vhigh : U → ℚ
  /-- `getVlow()` -/
  Vlow : U → ℚ
  /-- `getNcells()` -/
  nCells : U → ℕ
  /-- `setCurrent(Inew, checkV)` -/
  setCurrent : U → ℚ → Bool → Outcome Status × U
  /-- `getStates(s)` – the values appended to `s` -/
  getStates : U → List ℚ
  /-- `setStates(s, checkV)` – returns status and remaining span -/
  setStates : U → List ℚ → Bool → Outcome (Status × List ℚ) × U
  /-- `timeStep_CC(dt, nstep)` -/
  timeStep : U → ℚ → ℕ → Outcome Unit × U

/-- `Cell_ECM<N_RC>` as a storage unit; `getVhigh`/`getVlow` are `V()` (`/repo/src/cells/Cell.hpp:57-58`),
`getRtot` is `Rdc` (`Cell_ECM.hpp:71`), `getNcells` is 1 (`Cell.hpp`). -/
instance {n : ℕ} : StorageUnit (ECM n) where
  V := ECM.V
  I c := c.st.I
  T c := c.st.T
  Cap c := c.par.cap
  OCV c := c.par.ocv c.st.SOC
  Rtot c := c.par.Rdc
  lim _ := cellLimits
  checkVoltage := ECM.checkV
  Vhigh := ECM.V
  Vlow := ECM.V
  nCells _ := 1
  setCurrent c i b := let r := c.setCurrent i b; (.ok r.1, r.2)
  getStates := ECM.getStates
  setStates := ECM.setStates
  timeStep := ECM.timeStep

end Slide

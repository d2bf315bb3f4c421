import Verif.Model.ModuleData
import Verif.Spec.DataStorage

/-!
What the recording of a module should contain.
-/

namespace Slide
namespace Spec

/-- Calls on a module. -/
inductive ModOp where
  | current (i : ℚ) (check : Bool)
  | step (dt : ℚ) (n : ℕ)
  | store
  | write (canOpen : Bool)

variable {U : Type} [StorageUnit U]

/-- The state after a call. -/
def ModOp.run (r : ModRec U) : ModOp → ModRec U
  | .current i b => (r.setCurrent i b).2
  | .step dt n => (r.timeStep dt n).2
  | .store => r.store
  | .write b => (r.write b).2

def runMod (r : ModRec U) (ops : List ModOp) : ModRec U := ops.foldl ModOp.run r

/-- The numbers in the file, then those still in memory (as they will be printed). -/
def modNumbers (r : ModRec U) : List ℚ := numbers false r.file ++ r.data.map fmt6

/-- The module, and the time that has passed, at each call that stores data. -/
def snapshots (u : U) (t : ℚ) : List ModOp → List (U × ℚ)
  | [] => []
  | .current i b :: ops => snapshots (StorageUnit.setCurrent u i b).2 t ops
  | .step dt n :: ops =>
    let p := StorageUnit.timeStep u dt n
    snapshots p.2 (match p.1 with | .ok _ => t + n * dt | _ => t) ops
  | .store :: ops => (u, t) :: snapshots u t ops
  | .write _ :: ops => snapshots u t ops

/-- The columns current, voltage and temperature show the module, and the third column the time since the start. -/
def ModuleTimeRecorded : Prop :=
  ∀ (U : Type) [StorageUnit U] (u : U) (ops : List ModOp),
    ∃ rows : List (ℚ × ℚ), rows.length = (snapshots u 0 ops).length ∧
      modNumbers (runMod { unit := u } ops) = ((rows.zip (snapshots u 0 ops)).map fun x =>
        [x.1.1, x.1.2, x.2.2, StorageUnit.I x.2.1, StorageUnit.V x.2.1, StorageUnit.T x.2.1].map fmt6).flatten

/-- No two numbers stand next to each other without a separator. -/
def NotGlued : List Tok → Prop
  | .num _ :: .num _ :: _ => False
  | _ :: ts => NotGlued ts
  | [] => True

/-- The file can be read back, however often it is written. -/
def ModuleFileReadable : Prop :=
  ∀ (U : Type) [StorageUnit U] (u : U) (ops : List ModOp), NotGlued (runMod { unit := u } ops).file

end Spec
end Slide

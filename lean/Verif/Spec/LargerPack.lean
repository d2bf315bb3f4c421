import Verif.Spec.ScaledCell
import Verif.Model.Modules
import Verif.Model.SPM
import Verif.Model.SetVoltage

/-!
# Specification: packs of larger cells (C151)
-/

namespace Slide.Spec

/-- The same single-particle cell `k` times as large (`k` times the electrode area), carrying `k` times the current. -/
def largerSpmCell {N : ℕ} (k : ℚ) (c : SPM N) : SPM N :=
  { c with par := { c.par with cap := k * c.par.cap, elecSurf := k * c.par.elecSurf }
           st := { c.st with I := k * c.st.I, Ah := k * c.st.Ah, Wh := k * c.st.Wh } }

/-- The children of a module, each replaced by a larger one, on connections with the `k`-th part of the resistance. -/
def largerKids {U W : Type} (k : ℚ) (φ : U → W) (ks : List (Kid U)) : List (Kid W) :=
  ks.map fun c => { rc := c.rc / k, su := φ c.su }

/-- A series module of larger children. -/
def largerSeries {U W : Type} (k : ℚ) (φ : U → W) (m : ModuleS U) : ModuleS W := ⟨m.T, largerKids k φ m.kids⟩

/-- A parallel module of larger children. -/
def largerParallel {U W : Type} (k : ℚ) (φ : U → W) (m : ModuleP U) : ModuleP W := ⟨m.T, largerKids k φ m.kids⟩

/-- A pack of modules of modules … of cells, where every cell is replaced by a larger one (`φ`) and every contact
resistance by its `k`-th part. -/
def largerPack {C D : Type} (k : ℚ) (φ : C → D) : (d : ℕ) → Tree C d → Tree D d
  | 0, c => φ c
  | _ + 1, .cell c => .cell (φ c)
  | d + 1, .series m => .series (largerSeries k (largerPack k φ d) m)
  | d + 1, .parallel m => .parallel (largerParallel k (largerPack k φ d) m)

/-- Full statement for setting the voltage: every pack of larger cells does the same. -/
def LargerPackHoldsAlike : Prop :=
  ∀ (d : ℕ) (m : Tree (ECM 0) d) (k v : ℚ), 0 < k →
    (VoltageUnit.setVoltage (largerPack k (largerCell k) d m) v).1 = (VoltageUnit.setVoltage m v).1

end Slide.Spec

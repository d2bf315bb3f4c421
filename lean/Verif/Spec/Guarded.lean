import Verif.Model.Cycler
import Verif.Spec.Cycler
import Verif.Spec.Tree

/-!
Vocabulary for C138: when the voltage of a cell is acceptable for the current that flows, and which data points a
procedure added.
-/

namespace Slide.Spec
open StorageUnit

/-- The cell is not driven beyond its operating window (2.7 V to 4.2 V, with the margin of 10 mV for the voltage
control): it has a positive voltage, it is not being discharged below the window nor charged above it. -/
structure NotOverdriven {C : Type} [StorageUnit C] (c : C) : Prop where
  positive : 0 < V c
  low : 0 < I c → 27/10 - 1/100 ≤ V c
  high : I c < 0 → V c ≤ 42/10 + 1/100

/-- No cell of the unit is driven beyond its operating window. -/
def AllGuarded {C : Type} [StorageUnit C] [VoltageUnit C] (d : ℕ) (t : Tree C d) : Prop :=
  ∀ c ∈ cells d t, NotOverdriven c


end Slide.Spec

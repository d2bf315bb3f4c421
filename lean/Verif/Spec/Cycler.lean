import Verif.Model.Cycler

/-!
Vocabulary for the properties of the cycler, independent of its loops.
-/

namespace Slide.Spec
open StorageUnit

/-- A unit with a list of simulated clocks (one per cell): setting a current does not advance them, an accepted
`timeStep_CC(dt, n)` advances every clock by `n*dt`. -/
class Clocked (U : Type) [StorageUnit U] where
  clocks : U → List ℚ
  set_clocks : ∀ (u : U) i b, clocks (setCurrent u i b).2 = clocks u
  step_clocks : ∀ (u : U) dt n, (timeStep u dt n).1 = .ok () →
    clocks (timeStep u dt n).2 = (clocks u).map fun t => t + n * dt

/-- Units (satisfying `P`) that can always be rested: an unchecked zero current and every time step are accepted. -/
structure Restable {U : Type} [StorageUnit U] (P : U → Prop) : Prop where
  set : ∀ u, P u → ∃ st, (setCurrent u 0 false).1 = .ok st ∧ st.isBad = false
  set_P : ∀ u, P u → P (setCurrent u 0 false).2
  step : ∀ u dt n, P u → 0 ≤ dt → (timeStep u dt n).1 = .ok ()
  step_P : ∀ u dt n, P u → 0 ≤ dt → P (timeStep u dt n).2

/-- The recorded data points of a log. -/
def stored {U : Type} : List (Ev U) → List U
  | [] => []
  | .store u :: l => u :: stored l
  | .write :: l => stored l

/-- The voltage is beyond the limit, on the side towards which the current drives it. -/
def BeyondLimit (I vlim v : ℚ) : Prop := (I < 0 ∧ v > vlim) ∨ (I > 0 ∧ v < vlim)

end Slide.Spec

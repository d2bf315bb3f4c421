import Verif.Spec.EvenHistory
import Mathlib.Topology.MetricSpace.Pseudo.Defs

/-!
# Specification: a pack that is left alone long enough (C165)
-/

namespace Slide.Spec
open Slide

mutual
/-- Every cell and module has at least the area `a` in contact with its surroundings; there are no bodies without a thermal
model. -/
def AreasAtLeast (a : ℚ) : HTree → Prop
  | .cell c => a ≤ c.A
  | .plain _ => False
  | .module th _ ks => a ≤ th.A ∧ AreasAtLeasts a ks
termination_by structural u => u
def AreasAtLeasts (a : ℚ) : List HTree → Prop
  | [] => True
  | u :: us => AreasAtLeast a u ∧ AreasAtLeasts a us
termination_by structural us => us
end

/-- The common temperature of the same heat: thermal energy divided by heat capacity. -/
noncomputable def meanTemperature (u : HTree) : ℝ := heatSum id u / heatSum (fun _ => 1) u

/-- C165, in full: however long the intervals `τ 0, τ 1, …` are, if they do not become arbitrarily short, the temperatures of all
bodies tend to the common temperature. -/
def BecomesIsothermal : Prop :=
  ∀ (H : CoolSystem → ℚ) (h : ℚ), 0 < h → (∀ c, H c = h) → ∀ (τ : ℕ → ℚ) (t a : ℚ), 0 < t → (∀ k, t ≤ τ k) → 0 < a →
    ∀ u : HTree, Synced 0 u → AreasAtLeast a u → Passive u →
      ∀ v : ℕ → HTree, (∀ k, quietSteps H ((List.range k).map τ) u = some (v k)) →
        ∀ ε > 0, ∃ N, ∀ k ≥ N, EachT (Metric.ball (meanTemperature u) ε) (v k)

end Slide.Spec

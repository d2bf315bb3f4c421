import Verif.Spec.EvenOut

/-!
# Specification: a pack that is left alone (C161, histories)
-/

namespace Slide.Spec
open Slide

mutual
/-- Time passes without any current: all clocks advance by `t`. -/
def passing (t : ℚ) : HTree → HTree
  | .cell c => .cell { c with time := c.time + t }
  | .plain T => .plain T
  | .module th cool ks => .module { th with time := th.time + t } cool (passings t ks)
termination_by structural u => u
def passings (t : ℚ) : List HTree → List HTree
  | [] => []
  | u :: us => passing t u :: passings t us
termination_by structural us => us
end

/-- The pack is left alone for `t`, then the thermal model is updated; `none` if the update fails. -/
def quietStep (H : CoolSystem → ℚ) (t : ℚ) (u : HTree) : Option HTree :=
  match (passing t u).thermal H [] t with
  | (.ok T', u') =>
    match u'.setT T' with
    | (.ok (), u'') => some u''
    | _ => none
  | _ => none

/-- One interval after the other. -/
def quietSteps (H : CoolSystem → ℚ) : List ℚ → HTree → Option HTree
  | [], u => some u
  | t :: ts, u => (quietStep H t u).bind (quietSteps H ts)

/-- C161 for histories, in full: a pack that starts with all clocks at 0 and is left alone for any intervals. -/
def EvensOutAlways : Prop :=
  ∀ (H : CoolSystem → ℚ), (∀ c, 0 ≤ H c) → ∀ ts : List ℚ, (∀ t ∈ ts, 0 < t) → ∀ (u u'' : HTree) (lo hi : ℚ), 0 < lo →
    Synced 0 u → Areas u → Passive u → Within lo hi u → quietSteps H ts u = some u'' →
      entropy u ≤ entropy u'' ∧ (∀ T0, spreadAbout T0 u'' ≤ spreadAbout T0 u) ∧ energy u'' = energy u ∧ Within lo hi u''

end Slide.Spec

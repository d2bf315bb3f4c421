import Verif.Model.Thermal
import Mathlib.Algebra.BigOperators.Group.List.Basic

/-!
Specification vocabulary for the thermal model: thermal energy, pending heat, heat exchanged with the outside.
-/

namespace Slide.Spec
open Slide

/-- Heat a body of temperature `T` and area `A` receives from its neighbours during `t`: for each neighbour conductance
times common area times temperature difference. -/
def received (t T A : ℚ) (ns : List Neigh) : ℚ := (ns.map fun n => n.K * min n.A A * (n.T - T) * t).sum

mutual
/-- Thermal energy stored in the cells and the coolants of a tree (heat capacity times temperature). -/
def energy : HTree → ℚ
  | .cell c => c.C * c.T
  | .plain _ => 0
  | .module _ cool ks => cool.rho * cool.cp * cool.vol * cool.T + energies ks
termination_by structural u => u
def energies : List HTree → ℚ
  | [] => 0
  | u :: us => energy u + energies us
termination_by structural us => us
end

mutual
/-- Heat generated in the cells and in the contact resistances that is still waiting for the thermal model. -/
def pending : HTree → ℚ
  | .cell c => c.Qgen
  | .plain _ => 0
  | .module th _ ks => th.Qcontact + pendings ks
termination_by structural u => u
def pendings : List HTree → ℚ
  | [] => 0
  | u :: us => pending u + pendings us
termination_by structural us => us
end

mutual
/-- Heat the air conditioning units of the tree remove during `t`. -/
def removed (t : ℚ) : HTree → ℚ
  | .cell _ => 0
  | .plain _ => 0
  | .module _ cool ks => (if cool.kind = .hvac then cool.Qac * t else 0) + removeds t ks
termination_by structural u => u
def removeds (t : ℚ) : List HTree → ℚ
  | [] => 0
  | u :: us => removed t u + removeds t us
termination_by structural us => us
end

mutual
/-- Every cell's own clock shows `t`. -/
def Synced (t : ℚ) : HTree → Prop
  | .cell c => c.time = t
  | .plain _ => True
  | .module _ _ ks => Synceds t ks
termination_by structural u => u
def Synceds (t : ℚ) : List HTree → Prop
  | [] => True
  | u :: us => Synced t u ∧ Synceds t us
termination_by structural us => us
end

mutual
/-- No area is negative. -/
def Areas : HTree → Prop
  | .cell c => 0 ≤ c.A
  | .plain _ => True
  | .module th _ ks => 0 ≤ th.A ∧ Areass ks
termination_by structural u => u
def Areass : List HTree → Prop
  | [] => True
  | u :: us => Areas u ∧ Areass us
termination_by structural us => us
end

/-- Energy balance of one run of the thermal model of `u` with neighbours `ns` during `t`: what is stored afterwards plus
what the air conditioning removed is what was stored before, plus the heat generated, plus what the neighbours gave; and no
heat is left over. -/
def Balanced (H : CoolSystem → ℚ) (u : HTree) (ns : List Neigh) (t : ℚ) : Prop :=
  ∀ T' u' u'', u.thermal H ns t = (.ok T', u') → u'.setT T' = (.ok (), u'') →
    energy u'' + removed t u = energy u + pending u + received t u.T u.A ns ∧ pending u'' = 0

/-- Energy balance of one run of the thermal model of a battery that stands for `ns * np` copies of its module: the
coolant of the battery exchanges heat with every copy. -/
def BatteryBalanced (H : CoolSystem → ℚ) (b : BatteryTherm) (losses t : ℚ) : Prop :=
  ∀ T' b', b.thermal H losses 0 t = (.ok T', b') →
    let n : ℚ := b.ns * b.np
    let C := b.cool.rho * b.cool.cp * b.cool.vol
    (C * b'.cool.T + n * energy b'.cells) + (b.cool.Qac * t + n * removed t b.cells) =
      (C * b.cool.T + n * energy b.cells) + n * pending b.cells + losses * t

mutual
/-- All temperatures of the tree are between `lo` and `hi`. -/
def Within (lo hi : ℚ) : HTree → Prop
  | .cell c => lo ≤ c.T ∧ c.T ≤ hi
  | .plain T => lo ≤ T ∧ T ≤ hi
  | .module _ cool ks => (lo ≤ cool.T ∧ cool.T ≤ hi) ∧ Withins lo hi ks
termination_by structural u => u
def Withins (lo hi : ℚ) : List HTree → Prop
  | [] => True
  | u :: us => Within lo hi u ∧ Withins lo hi us
termination_by structural us => us
end

mutual
/-- Nothing generates heat and nothing cools actively. -/
def Passive : HTree → Prop
  | .cell c => c.Qgen = 0
  | .plain _ => True
  | .module th cool ks => th.Qcontact = 0 ∧ (cool.kind = .hvac → cool.Qac = 0) ∧ Passives ks
termination_by structural u => u
def Passives : List HTree → Prop
  | [] => True
  | u :: us => Passive u ∧ Passives us
termination_by structural us => us
end

/-- Sum of the areas of units. -/
def totalArea (us : List HTree) : ℚ := (us.map HTree.A).sum

mutual
/-- The time step `t` is short enough for every body of the tree: its total conductance times `t` does not exceed its heat
capacity.  `K` is the total heat-transfer constant towards the outside. -/
def ShortStep (H : CoolSystem → ℚ) (t K : ℚ) : HTree → Prop
  | .cell c => 0 < c.C ∧ K * c.A * t ≤ c.C
  | .plain _ => True
  | .module th cool ks =>
    0 < cool.rho * cool.cp * cool.vol ∧ 0 ≤ th.k ∧
    (K * th.A + (H cool + 2 * th.k) * totalArea ks) * t ≤ cool.rho * cool.cp * cool.vol ∧
    ShortSteps H t (H cool + 2 * th.k) ks
termination_by structural u => u
def ShortSteps (H : CoolSystem → ℚ) (t K : ℚ) : List HTree → Prop
  | [] => True
  | u :: us => ShortStep H t K u ∧ ShortSteps H t K us
termination_by structural us => us
end

end Slide.Spec

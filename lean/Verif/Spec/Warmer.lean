import Verif.Spec.Thermal

/-!
# Specification: one pack is nowhere warmer than another (C160)
-/

namespace Slide.Spec
open Slide

mutual
/-- Two trees of the same build – shape, areas, heat capacities and conductances – the first of which is nowhere warmer. -/
def NoWarmer : HTree → HTree → Prop
  | .cell c, .cell d => c.T ≤ d.T ∧ c.A = d.A ∧ c.C = d.C
  | .plain s, .plain t => s ≤ t
  | .module th cool ks, .module th' cool' ks' =>
    cool.T ≤ cool'.T ∧ th.A = th'.A ∧ th.k = th'.k ∧ cool.rho * cool.cp * cool.vol = cool'.rho * cool'.cp * cool'.vol ∧
      NoWarmers ks ks'
  | _, _ => False
termination_by structural u => u
def NoWarmers : List HTree → List HTree → Prop
  | [], [] => True
  | u :: us, v :: vs => NoWarmer u v ∧ NoWarmers us vs
  | _, _ => False
termination_by structural us => us
end

mutual
/-- Nowhere is more heat waiting in the first tree, or less of it removed by air conditioning; the coolants flow equally fast. -/
def NoMoreHeat (H : CoolSystem → ℚ) : HTree → HTree → Prop
  | .cell c, .cell d => c.Qgen ≤ d.Qgen
  | .plain _, .plain _ => True
  | .module th cool ks, .module th' cool' ks' =>
    th.Qcontact ≤ th'.Qcontact ∧ H cool = H cool' ∧
      (if cool'.kind = .hvac then cool'.Qac else 0) ≤ (if cool.kind = .hvac then cool.Qac else 0) ∧ NoMoreHeats H ks ks'
  | _, _ => False
termination_by structural u => u
def NoMoreHeats (H : CoolSystem → ℚ) : List HTree → List HTree → Prop
  | [], [] => True
  | u :: us, v :: vs => NoMoreHeat H u v ∧ NoMoreHeats H us vs
  | _, _ => False
termination_by structural us => us
end

/-- The same neighbours, in the first case nowhere warmer. -/
def NoWarmerOutside (ns ms : List Neigh) : Prop := List.Forall₂ (fun n m => n.T ≤ m.T ∧ n.K = m.K ∧ n.A = m.A) ns ms

end Slide.Spec

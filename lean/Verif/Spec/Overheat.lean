import Verif.Spec.Thermal

/-!
# Specification: heat that is not taken away (C166)
-/

namespace Slide.Spec
open Slide

mutual
/-- `w` has the bodies of `u` at the same temperatures; clocks and waiting heat may differ. -/
def SameBodies : HTree → HTree → Prop
  | .cell c, .cell d => d.T = c.T ∧ d.A = c.A ∧ d.C = c.C ∧ d.Tmax = c.Tmax
  | .plain T, .plain T' => T' = T
  | .module th cool ks, .module th' cool' ks' => th'.A = th.A ∧ th'.k = th.k ∧ cool' = cool ∧ SameBodiess ks ks'
  | _, _ => False
termination_by structural u => u
def SameBodiess : List HTree → List HTree → Prop
  | [], [] => True
  | u :: us, v :: vs => SameBodies u v ∧ SameBodiess us vs
  | _, _ => False
termination_by structural us => us
end

mutual
/-- The thermal energy with every body at the highest temperature it may have: `Tmax` of a cell, 75 °C for a coolant. -/
def maxEnergy : HTree → ℚ
  | .cell c => c.C * c.Tmax
  | .plain _ => 0
  | .module _ cool ks => cool.rho * cool.cp * cool.vol * (273 + 75) + maxEnergies ks
termination_by structural u => u
def maxEnergies : List HTree → ℚ
  | [] => 0
  | u :: us => maxEnergy u + maxEnergies us
termination_by structural us => us
end

mutual
/-- No heat capacity is negative. -/
def CapsOk : HTree → Prop
  | .cell c => 0 ≤ c.C
  | .plain _ => True
  | .module _ cool ks => 0 ≤ cool.rho * cool.cp * cool.vol ∧ CapsOks ks
termination_by structural u => u
def CapsOks : List HTree → Prop
  | [] => True
  | u :: us => CapsOk u ∧ CapsOks us
termination_by structural us => us
end

/-- One interval of use: pack `u` works for `t`, which leaves at least `q` more heat waiting (`w`) than the air conditioning
removes; then the thermal model is updated, without neighbours, and succeeds. -/
def WorkStep (H : CoolSystem → ℚ) (q : ℚ) (u v : HTree) : Prop :=
  ∃ (t : ℚ) (w w' : HTree) (T' : ℚ), 0 < t ∧ SameBodies u w ∧ Synced t w ∧ q + removed t w ≤ pending w ∧
    w.thermal H [] t = (.ok T', w') ∧ w'.setT T' = (.ok (), v)

/-- C166: the number of intervals of use is bounded by the heat the pack can take up. -/
def OverheatsInTime : Prop :=
  ∀ (H : CoolSystem → ℚ) (q : ℚ) (u : ℕ → HTree), Areas (u 0) → CapsOk (u 0) →
    ∀ k, (∀ i ≤ k, WorkStep H q (u i) (u (i + 1))) → (k + 1) * q ≤ maxEnergy (u 0) - energy (u 0)

end Slide.Spec

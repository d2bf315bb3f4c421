import Verif.Spec.Cooling
import Verif.Props.Thermal

/-!
# C66: the heat meters of a cooling system
-/

namespace Slide
open Spec CoolSystem

/-- The heat balance given to the cooling system by a call, if the call gives one and it is accepted: total heat, heat
from the children, duration. -/
def Spec.acceptedOne (c : CoolSystem) : CoolOp → List (ℚ × ℚ × ℚ)
  | .dstate a b t =>
    match (c.dstate a b t).1 with
    | .ok _ => [(a, b, t)]
    | _ => []
  | _ => []

/-- The accepted heat balances of a history. -/
def Spec.acceptedHeat (c : CoolSystem) : List CoolOp → List (ℚ × ℚ × ℚ)
  | [] => []
  | o :: os => acceptedOne c o ++ acceptedHeat (o.run c) os

/-- The meters: heat from children, heat absorbed, heat removed by the AC, time. -/
def Spec.meters (c : CoolSystem) : ℚ × ℚ × ℚ × ℚ := (c.Qevac, c.Qabs, c.QcoolAC, c.tLife)

theorem control_meters (c : CoolSystem) (l g : ℚ) : meters (c.control l g) = meters c := by
  have h1 : ∀ (d : CoolSystem), meters (d.controlFan l g) = meters d := by
    intro d; unfold controlFan onOff prop; dsimp only; split_ifs <;> rfl
  have h2 : ∀ (d : CoolSystem), meters (d.controlAC g) = meters d := by
    intro d; unfold controlAC acProp; dsimp only; split_ifs <;> rfl
  unfold CoolSystem.control
  split
  · exact h1 c
  · rw [h2, h1]
  · rfl

/-- One accepted balance: the coolant temperature returned is the one that corresponds to the heat absorbed, the heat
offered is either absorbed or removed by the AC, and a refused balance (HVAC with neighbours) changes nothing. -/
theorem dstate_meters (c : CoolSystem) (a b t : ℚ) :
    (∀ T', (c.dstate a b t).1 = .ok T' →
      let c' := (c.dstate a b t).2
      c'.Qevac = c.Qevac + b ∧ c'.Qabs + c'.QcoolAC = c.Qabs + c.QcoolAC + a ∧ c'.tLife = c.tLife + t ∧
      (c.rho * c.cp * c.vol ≠ 0 → c.rho * c.cp * c.vol * (T' - c.T) = c'.Qabs - c.Qabs) ∧
      c'.QcoolAC - c.QcoolAC = (if c.kind = .hvac then c.Qac * t else 0)) ∧
    (∀ e, (c.dstate a b t).1 = .throw e →
      e = 10 ∧ c.kind = .hvac ∧ |a - b| > 1 / 1000000000000 ∧ (c.dstate a b t).2 = c) := by
  constructor
  · intro T' h
    dsimp only
    unfold dstate at h ⊢
    cases hk : c.kind <;> rw [hk] at h <;> dsimp only at h ⊢
    · simp only [Outcome.ok.injEq] at h
      refine ⟨rfl, by ring, rfl, fun hc => ?_, by simp⟩
      rw [← h, add_sub_cancel_left, mul_div_cancel₀ _ hc]; ring
    · by_cases hh : |a - b| > 1 / 1000000000000
      · rw [if_pos hh] at h; cases h
      rw [if_neg hh] at h ⊢
      simp only [Outcome.ok.injEq] at h
      refine ⟨rfl, by ring, rfl, fun hc => ?_, by simp⟩
      rw [← h, add_sub_cancel_left, mul_div_cancel₀ _ hc]; ring
    · simp only [Outcome.ok.injEq] at h
      refine ⟨rfl, by ring, rfl, fun hc => ?_, by simp⟩
      rw [← h, add_sub_cancel_left, mul_div_cancel₀ _ hc]; ring
  · intro e h
    unfold dstate at h ⊢
    cases hk : c.kind <;> rw [hk] at h <;> dsimp only at h ⊢
    · cases h
    · by_cases hh : |a - b| > 1 / 1000000000000
      swap
      · rw [if_neg hh] at h; cases h
      rw [if_pos hh] at h ⊢
      simp only [Outcome.throw.injEq] at h
      exact ⟨h.symm, rfl, hh, rfl⟩
    · cases h

/-- **C66**: for every history of calls, the meters of a cooling system have grown by exactly the heat balances it
accepted. -/
theorem cooling_meters (c : CoolSystem) (os : List CoolOp) :
    let c' := runCool c os
    let acc := acceptedHeat c os
    c'.Qevac = c.Qevac + (acc.map fun x => x.2.1).sum ∧
    c'.Qabs + c'.QcoolAC = c.Qabs + c.QcoolAC + (acc.map fun x => x.1).sum ∧
    c'.tLife = c.tLife + (acc.map fun x => x.2.2).sum := by
  dsimp only
  induction os generalizing c with
  | nil => simp [runCool, acceptedHeat]
  | cons o os ih =>
    have hr : runCool c (o :: os) = runCool (o.run c) os := rfl
    rw [hr]
    obtain ⟨i1, i2, i3⟩ := ih (o.run c)
    rw [i1, i2, i3, acceptedHeat]
    have same : ∀ d : CoolSystem, meters d = meters c →
        d.Qevac = c.Qevac ∧ d.Qabs = c.Qabs ∧ d.QcoolAC = c.QcoolAC ∧ d.tLife = c.tLife := by
      intro d h; simpa [meters] using h
    cases o with
    | control l g =>
      obtain ⟨s1, s2, s3, s4⟩ := same _ (control_meters c l g)
      simp only [CoolOp.run, acceptedOne, List.nil_append, s1, s2, s3, s4, and_self]
    | setT t =>
      obtain ⟨s1, s2, s3, s4⟩ := same (c.setT t).2 (by unfold CoolSystem.setT; split_ifs <;> rfl)
      simp only [CoolOp.run, acceptedOne, List.nil_append, s1, s2, s3, s4, and_self]
    | setControl k =>
      obtain ⟨s1, s2, s3, s4⟩ := same (c.setControl k) rfl
      simp only [CoolOp.run, acceptedOne, List.nil_append, s1, s2, s3, s4, and_self]
    | reset =>
      obtain ⟨s1, s2, s3, s4⟩ := same c.resetE rfl
      simp only [CoolOp.run, acceptedOne, List.nil_append, s1, s2, s3, s4, and_self]
    | dstate a b t =>
      simp only [CoolOp.run]
      obtain ⟨m1, m2⟩ := dstate_meters c a b t
      rcases hd : (c.dstate a b t).1 with T' | e | w
      · obtain ⟨q1, q2, q3, _⟩ := m1 T' hd
        simp only [acceptedOne, hd, List.cons_append, List.nil_append, List.map_cons, List.sum_cons]
        rw [q1, q2, q3]
        refine ⟨by ring, by ring, by ring⟩
      · obtain ⟨_, _, _, q⟩ := m2 e hd
        simp only [acceptedOne, hd, List.nil_append]
        rw [q]
        exact ⟨rfl, rfl, rfl⟩
      · exfalso
        unfold dstate at hd
        cases hk : c.kind <;> rw [hk] at hd <;> dsimp only at hd
        · cases hd
        · split_ifs at hd <;> cases hd
        · cases hd

/-- Non-vacuity: an HVAC system accepting one balance and refusing another. -/
example : acceptedHeat { CoolSystem.make 2 1 with kind := .hvac, Qac := 3 } [.dstate 5 5 2, .control 300 300, .dstate 7 5 1] =
    [(5, 5, 2)] := by decide +kernel

end Slide

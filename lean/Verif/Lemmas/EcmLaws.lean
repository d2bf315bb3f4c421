import Verif.Lemmas.CellLaws
import Verif.Lemmas.ECM

/-! The equivalent-circuit cells obey the laws of `CellLaws`. -/

namespace Slide
open StorageUnit Spec

variable {n : ℕ}

theorem onlyCurrent_iff (a b : ECM n) : OnlyCurrent a b ↔ ∃ i, b = a.withI i :=
  ⟨fun h => ⟨_, h⟩, by rintro ⟨i, rfl⟩; rfl⟩

theorem OnlyCurrent.trans {a b c : ECM n} (h1 : OnlyCurrent a b) (h2 : OnlyCurrent b c) : OnlyCurrent a c := by
  rw [onlyCurrent_iff] at *
  obtain ⟨i, rfl⟩ := h1
  obtain ⟨j, rfl⟩ := h2
  exact ⟨j, rfl⟩

theorem onlyCurrent_set (c : ECM n) (i : ℚ) (b : Bool) : OnlyCurrent c (setCurrent c i b).2 := by
  rw [onlyCurrent_iff]
  show ∃ j, (c.setCurrent i b).2 = c.withI j
  rcases ECM.setCurrent_snd c i b with e | e
  · exact ⟨c.st.I, e⟩
  · exact ⟨i, e⟩

theorem onlyCurrent_setVoltage (c : ECM n) (v : ℚ) : OnlyCurrent c (VoltageUnit.setVoltage c v).2 := by
  rw [onlyCurrent_iff]
  show ∃ j, (c.setVoltage v true).2 = c.withI j
  unfold ECM.setVoltage
  cases c.par.ocv c.st.SOC with
  | none => exact ⟨_, rfl⟩
  | some o =>
    dsimp only
    split_ifs
    · exact ⟨_, rfl⟩
    · exact ⟨c.st.I, rfl⟩
    · exact ⟨_, rfl⟩

theorem cellCheck_code (v : Option ℚ) (I : ℚ) : 0 ≤ (checkVoltage cellLimits v I).code := by
  cases v with
  | none => simp [checkVoltage, Status.code]
  | some v =>
    unfold checkVoltage
    dsimp only
    split_ifs <;> simp [Status.code]

theorem ecm_step {c : ECM n} {dt : ℚ} (k : ℕ) (hdt : 0 ≤ dt) : timeStep c dt k = (.ok (), c.steps dt k) := by
  show ECM.timeStep c dt k = _
  unfold ECM.timeStep
  rw [if_neg (not_lt.mpr hdt)]

theorem ecm_step_nonneg {c : ECM n} {dt : ℚ} {k : ℕ} (h : (timeStep c dt k).1 = .ok ()) : 0 ≤ dt := by
  by_contra hneg
  change (ECM.timeStep c dt k).1 = _ at h
  unfold ECM.timeStep at h
  rw [if_pos (not_le.mp hneg)] at h
  cases h

instance : CellTotal (ECM n) where
  step_ok c dt k h := by rw [ecm_step k h]

instance : CellLaws (ECM n) where
  Only := OnlyCurrent
  time c := c.st.time
  Ah c := c.st.Ah
  SOC c := c.st.SOC
  only_refl _ := rfl
  only_trans := OnlyCurrent.trans
  only_set := onlyCurrent_set
  only_setVoltage := onlyCurrent_setVoltage
  only_meters h := by
    obtain ⟨i, rfl⟩ := (onlyCurrent_iff _ _).mp h
    exact ⟨rfl, rfl, rfl, rfl⟩
  set_unchecked c i := by
    show Outcome.ok (ECM.setCurrent c i false).1 = _ ∧ (ECM.setCurrent c i false).2.st.I = i
    rw [ECM.setCurrent_unchecked]
    exact ⟨rfl, rfl⟩
  step_throws c dt k h := by
    show (ECM.timeStep c dt k).1 = _ ∧ OnlyCurrent c (ECM.timeStep c dt k).2
    unfold ECM.timeStep
    rw [if_pos h]
    exact ⟨rfl, rfl⟩
  step_I c dt k hok := by
    have h := ecm_step_nonneg hok
    rw [ecm_step k h]
    show (c.steps dt k).st.I = c.st.I
    simp
  step_meters c dt k hok := by
    have h := ecm_step_nonneg hok
    rw [ecm_step k h]
    refine ⟨?_, ?_, ?_, ?_⟩
    · show (c.steps dt k).st.time = _
      rw [ECM.steps_time]
    · show (c.steps dt k).st.Ah = c.st.Ah + |c.st.I| * (k * dt) / 3600
      rw [ECM.steps_Ah, abs_mul, abs_of_nonneg (by positivity : (0:ℚ) ≤ dt / 3600)]
      ring
    · show (c.steps dt k).st.SOC = c.st.SOC - c.st.I * (k * dt) / 3600 / c.par.cap
      rw [ECM.steps_SOC]
      ring
    · show (c.steps dt k).par.cap = c.par.cap
      simp
  check_code c := cellCheck_code (some c.V) c.st.I

end Slide

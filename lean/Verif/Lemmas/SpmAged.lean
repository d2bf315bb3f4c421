import Verif.Lemmas.SpmUnit
import Verif.Lemmas.CellCycler
import Verif.Lemmas.EcmLaws
import Verif.Props.SPMAge
import Verif.Spec.SpmAged

/-! Ageing single-particle cells obey the laws of `CellLaws`. -/

namespace Slide
open Spec SPM StorageUnit

variable {N : ℕ}

theorem AgedUnit.ext' {a b : AgedUnit N} (h : a.cell = b.cell) : a = b := by
  cases a; cases b; cases h; rfl

theorem agedOnly_refl (a : AgedUnit N) : AgedOnlyCurrent a a := Spec.OnlyCurrentDiffers.refl _

theorem agedOnly_trans {a b c : AgedUnit N} (h : AgedOnlyCurrent a b) (g : AgedOnlyCurrent b c) : AgedOnlyCurrent a c :=
  Spec.OnlyCurrentDiffers.trans h g

theorem agedOnly_set (u : AgedUnit N) (i : ℚ) (b : Bool) : AgedOnlyCurrent u (StorageUnit.setCurrent u i b).2 :=
  setCurrent_onlyCurrent u.cell i b

theorem agedOnly_setVoltage (u : AgedUnit N) (v : ℚ) : AgedOnlyCurrent u (VoltageUnit.setVoltage u v).2 :=
  iterLoop_rel ⟨agedOnly_refl, agedOnly_trans, agedOnly_set⟩ v 50 _ u

/-- A time step of a unit is one of its cell, or undefined and without effect. -/
theorem aged_timeStep (u : AgedUnit N) (dt : ℚ) (k : ℕ) :
    ((StorageUnit.timeStep u dt k).1 = (u.cell.timeStep dt k).1 ∧
      (StorageUnit.timeStep u dt k).2.cell = (u.cell.timeStep dt k).2) ∨
    ((∃ w, (StorageUnit.timeStep u dt k).1 = .ub w) ∧ (StorageUnit.timeStep u dt k).2 = u) := by
  by_cases h : (u.cell.timeStep dt k).2.finite = true
  · left
    simp only [StorageUnit.timeStep]
    rw [dif_pos h]
    exact ⟨rfl, rfl⟩
  · right
    simp only [StorageUnit.timeStep]
    rw [dif_neg h]
    exact ⟨⟨_, rfl⟩, rfl⟩

theorem aged_timeStep_ok {u : AgedUnit N} {dt : ℚ} {k : ℕ} (h : (StorageUnit.timeStep u dt k).1 = .ok ()) :
    (u.cell.timeStep dt k).1 = .ok () ∧ (StorageUnit.timeStep u dt k).2.cell = (u.cell.timeStep dt k).2 := by
  rcases aged_timeStep u dt k with ⟨h1, h2⟩ | ⟨⟨w, h1⟩, -⟩
  · exact ⟨h1.symm.trans h, h2⟩
  · rw [h1] at h; cases h

theorem simulated_step {u : AgedUnit N} {dt : ℚ} {k : ℕ} (h : (StorageUnit.timeStep u dt k).1 = .ok ()) :
    Simulated u.cell.st.I (k * dt) u.cell (StorageUnit.timeStep u dt k).2.cell := by
  obtain ⟨h1, h2⟩ := aged_timeStep_ok h
  rw [h2]
  obtain ⟨hdt, hl, -, g1, -, g3, g4, -, g5, -⟩ := Slide.timeStep_ok h1
  obtain ⟨-, e1, e2, e3, -⟩ := diffLoop_ok dt k (u.cell.rotate ((k : ℤ) * dt)) hl
  refine ⟨g3.trans e2, g4.trans (e3 hdt), ?_, by rw [g5]⟩
  rw [g1]
  refine e1.trans ?_
  show u.cell.st.SOC + k * dt * (-u.cell.st.I / (u.cell.par.cap * 3600)) = _
  rw [div_div, mul_comm (3600:ℚ)]
  ring

noncomputable instance : CellLaws (AgedUnit N) where
  Only := AgedOnlyCurrent
  time u := u.cell.st.time
  Ah u := u.cell.st.Ah
  SOC u := u.cell.st.SOC
  only_refl := agedOnly_refl
  only_trans := agedOnly_trans
  only_set := agedOnly_set
  only_setVoltage := agedOnly_setVoltage
  only_meters {a b} h := by
    have hs := h.st
    refine ⟨?_, ?_, ?_, ?_⟩
    · have := congrArg SpmState.time hs
      exact this
    · have := congrArg SpmState.Ah hs
      exact this
    · have := congrArg SpmState.SOC hs
      exact this
    · show b.cell.par.cap = a.cell.par.cap
      rw [h.par]
  set_unchecked u i := ⟨rfl, (spm_setCurrent_accepted u.cell i false .Success rfl rfl).1⟩
  step_throws u dt k h := by
    have e := spm_negative_step u.cell (k : ℤ) h
    have hf : (u.cell.timeStep dt k).2.finite = true := by rw [e]; exact u.sound.finite
    have h2 : (StorageUnit.timeStep u dt k).1 = (u.cell.timeStep dt k).1 ∧
        (StorageUnit.timeStep u dt k).2.cell = (u.cell.timeStep dt k).2 := by
      simp only [StorageUnit.timeStep]
      rw [dif_pos hf]
      exact ⟨rfl, rfl⟩
    rw [e] at h2
    refine ⟨h2.1, ?_⟩
    rw [AgedUnit.ext' h2.2]
    exact agedOnly_refl u
  step_I u dt k h := by
    obtain ⟨h1, h2⟩ := aged_timeStep_ok h
    show (StorageUnit.timeStep u dt k).2.cell.st.I = _
    rw [h2]
    exact (Slide.timeStep_ok h1).2.2.2.2.2.2.2.1
  step_meters u dt k h := by
    have c := simulated_step h
    exact ⟨c.time, c.ah, c.soc, c.cap⟩
  check_code u := by
    obtain ⟨v, hv⟩ := sound_V u.sound
    show 0 ≤ (match u.cell.checkV.1 with | .ok s => s | _ => .V_not_calculated : Status).code
    unfold checkV
    rcases hk : u.cell.V with ⟨r | e | w, c2⟩ <;> rw [hk] at hv
    · exact cellCheck_code _ _
    · cases hv
    · cases hv

/-! ### One way -/

theorem Spec.OneWay.refl (a : SPM N) : OneWay a a :=
  ⟨⟨rfl, rfl, rfl⟩, .refl a, fun _ _ => le_refl _, fun _ _ => le_refl _, fun _ _ => le_refl _⟩

theorem Spec.OneWay.trans {a b c : SPM N} (h : OneWay a b) (g : OneWay b c) : OneWay a c := by
  have hp := h.fixed.1
  have key : SpmPhysical a.par → 0 ≤ a.st.delta → SpmPhysical b.par ∧ 0 ≤ b.st.delta := fun p d =>
    ⟨by rw [hp]; exact p, d.trans (h.sei p d)⟩
  exact ⟨⟨g.fixed.1.trans h.fixed.1, g.fixed.2.1.trans h.fixed.2.1, g.fixed.2.2.trans h.fixed.2.2⟩,
    h.meters.trans g.meters, fun p d => (h.sei p d).trans (g.sei (key p d).1 (key p d).2),
    fun p d => (h.cracks p d).trans (g.cracks (key p d).1 (key p d).2),
    fun p d => (h.plated p d).trans (g.plated (key p d).1 (key p d).2)⟩

theorem oneWay_only {a b : SPM N} (h : OnlyCurrentDiffers a b) : OneWay a b := by
  have hs := h.st
  have e1 : b.st.delta = a.st.delta := by have := congrArg SpmState.delta hs; exact this
  have e2 : b.st.CS = a.st.CS := by have := congrArg SpmState.CS hs; exact this
  have e3 : b.st.deltaPl = a.st.deltaPl := by have := congrArg SpmState.deltaPl hs; exact this
  have e4 : b.st.time = a.st.time := by have := congrArg SpmState.time hs; exact this
  have e5 : b.st.Ah = a.st.Ah := by have := congrArg SpmState.Ah hs; exact this
  have e6 : b.st.Wh = a.st.Wh := by have := congrArg SpmState.Wh hs; exact this
  exact ⟨⟨h.par, h.rest.1, h.rest.2.1⟩, ⟨e4.ge, e5.ge, e6.ge⟩, fun _ _ => e1.ge, fun _ _ => e2.ge, fun _ _ => e3.ge⟩

theorem oneWay_step (c : SPM N) (dt : ℚ) (k : ℕ) : OneWay c (c.timeStep dt k).2 := by
  have ho : ∀ o ∈ [SpmOp.step (N := N) dt k], ordinary o := by
    intro o ho
    rw [List.mem_singleton.mp ho]
    exact Int.natCast_nonneg k
  have ages := fun p d => spm_ages c [.step dt k] p d ho
  have hd := SPM.timeStep_fixed c dt k
  unfold SPM.fixed at hd
  simp only [Prod.mk.injEq] at hd
  exact ⟨hd, meters_after c (.step dt k) trivial, fun p d => (ages p d).1,
    fun p d => (ages p d).2.1, fun p d => (ages p d).2.2.1⟩

end Slide

import Verif.Spec.Guarded
import Verif.Lemmas.CellCycler
import Verif.Lemmas.CyclerRecords
import Verif.Lemmas.EcmLaws
import Verif.Lemmas.SpmAged
import Verif.Lemmas.SpmCycler
import Verif.Props.Tree
import Verif.Props.StatusVoltage

/-! Lemmas for C138. -/

namespace Slide
open StorageUnit Spec Cyc CellLaws

/-! ### The loop of the constant-current phase, for every unit -/

section
variable {U : Type} [StorageUnit U]

/-- One iteration: when it does not return early the unit has passed its own check, and so has everything recorded. -/
theorem ccBody_checked {I vlim tlim : ℚ} {ndt : ℤ} {nMax : ℕ} {v : CCVars} {c c' : Cyc U} {th th' : Thr}
    {o : Outcome CCNext} (hdg : c.diagnostic = true) (h : ccBody I vlim tlim ndt nMax v c th = (o, c', th')) :
    c'.diagnostic = true ∧
    ((∃ v', o = .ok (.brk v') ∨ o = .ok (.cont v')) → (StorageUnit.checkVoltage c'.su).isSuccessful = true) ∧
    ∃ l, RecordsBetween c c' l ∧ ∀ u ∈ l, (StorageUnit.checkVoltage u).isSuccessful = true := by
  unfold ccBody at h
  have hdiag := cycSet_diag c I vlim
  have hlog := (cycSet_log c I vlim).1
  rcases hs : c.setCurrent I vlim with ⟨o1, c1⟩
  rw [hs] at h hdiag hlog
  dsimp only at hdiag hlog
  rw [hdg] at hdiag
  cases o1 with
  | throw e =>
    cases h
    exact ⟨hdiag, fun ⟨_, hv⟩ => (by rcases hv with hv | hv <;> cases hv), [], records_of_eq hlog, by simp⟩
  | ub e =>
    cases h
    exact ⟨hdiag, fun ⟨_, hv⟩ => (by rcases hv with hv | hv <;> cases hv), [], records_of_eq hlog, by simp⟩
  | ok st =>
    dsimp only at h
    generalize timeStep c1.su _ _ = r at h
    obtain ⟨o2, u2⟩ := r
    have hlog2 : RecordsBetween c (c1.withSU u2) [] := records_of_eq hlog
    cases o2 with
    | throw e =>
      cases h
      exact ⟨hdiag, fun ⟨_, hv⟩ => (by rcases hv with hv | hv <;> cases hv), [], hlog2, by simp⟩
    | ub e =>
      cases h
      exact ⟨hdiag, fun ⟨_, hv⟩ => (by rcases hv with hv | hv <;> cases hv), [], hlog2, by simp⟩
    | ok _ =>
      dsimp only at h
      rcases hv : ccVoltage (c1.withSU u2) with s | vi
      · rw [hv] at h
        cases h
        exact ⟨hdiag, fun ⟨_, hv⟩ => (by rcases hv with hv | hv <;> cases hv), [], hlog2, by simp⟩
      · rw [hv] at h
        have good : (StorageUnit.checkVoltage u2).isSuccessful = true := by
          unfold ccVoltage at hv
          rw [if_pos (show (c1.withSU u2).diagnostic = true from hdiag)] at hv
          dsimp only at hv
          by_cases hs : (StorageUnit.checkVoltage (c1.withSU u2).su).isSuccessful = true
          · exact hs
          · rw [if_neg hs] at hv; cases hv
        have fin : ∀ b, (storeIf b (c1.withSU u2)).diagnostic = true ∧
            (StorageUnit.checkVoltage (storeIf b (c1.withSU u2)).su).isSuccessful = true ∧
            ∃ l, RecordsBetween c (storeIf b (c1.withSU u2)) l ∧ ∀ u ∈ l, (StorageUnit.checkVoltage u).isSuccessful = true := by
          intro b
          refine ⟨by simpa using hdiag, by simpa using good, ?_⟩
          cases b
          · exact ⟨[], hlog2, by simp⟩
          · refine ⟨[(storeIf true (c1.withSU u2)).su], records_trans hlog2 (storeIf_records _), ?_⟩
            intro u hu
            rw [List.mem_singleton.mp hu]
            simpa using good
        dsimp only at h
        by_cases hb : (I < 0 ∧ vi > vlim) ∨ (I > 0 ∧ vi < vlim)
        · rw [if_pos hb] at h
          cases h
          obtain ⟨f1, f2, f3⟩ := fin (decide (0 < ndt) && decide (ndt ≤ _))
          exact ⟨f1, fun _ => f2, f3⟩
        · rw [if_neg hb] at h
          cases h
          obtain ⟨f1, f2, f3⟩ := fin (decide (0 < ndt) && decide (ndt ≤ _))
          exact ⟨f1, fun _ => f2, f3⟩

/-- The loop, entered with time left. -/
theorem ccLoop_checked {I vlim tlim : ℚ} {ndt : ℤ} {nMax : ℕ} (fuel : ℕ) {v : CCVars} {c c' : Cyc U} {th th' : Thr}
    {o : Outcome (Status ⊕ (CCVars × Bool))} (hdg : c.diagnostic = true)
    (hin : v.ttot < tlim ∨ (StorageUnit.checkVoltage c.su).isSuccessful = true)
    (h : ccLoop I vlim tlim ndt nMax fuel v c th = (o, c', th')) :
    ((∃ p, o = .ok (.inr p)) → (StorageUnit.checkVoltage c'.su).isSuccessful = true) ∧
    ∃ l, RecordsBetween c c' l ∧ ∀ u ∈ l, (StorageUnit.checkVoltage u).isSuccessful = true := by
  induction fuel generalizing v c th with
  | zero =>
    unfold ccLoop at h
    by_cases hlt : v.ttot < tlim
    · rw [if_pos hlt] at h
      cases h
      exact ⟨fun ⟨_, hp⟩ => (by cases hp), [], records_of_eq rfl, by simp⟩
    · rw [if_neg hlt] at h
      cases h
      exact ⟨fun _ => hin.resolve_left hlt, [], records_of_eq rfl, by simp⟩
  | succ fuel ih =>
    unfold ccLoop at h
    by_cases hlt : v.ttot < tlim
    · rw [if_pos hlt] at h
      rcases hb : ccBody I vlim tlim ndt nMax v c th with ⟨o1, c1, th1⟩
      obtain ⟨b1, b2, l, b3, b4⟩ := ccBody_checked hdg hb
      rw [hb] at h
      match o1, b2, h with
      | .throw e, _, h => cases h; exact ⟨fun ⟨_, hp⟩ => (by cases hp), l, b3, b4⟩
      | .ub e, _, h => cases h; exact ⟨fun ⟨_, hp⟩ => (by cases hp), l, b3, b4⟩
      | .ok (.ret st1), _, h => cases h; exact ⟨fun ⟨_, hp⟩ => (by cases hp), l, b3, b4⟩
      | .ok (.brk v1), b2, h => cases h; exact ⟨fun _ => b2 ⟨_, .inl rfl⟩, l, b3, b4⟩
      | .ok (.cont v1), b2, h =>
        obtain ⟨i1, l2, i2, i3⟩ := ih b1 (.inr (b2 ⟨_, .inr rfl⟩)) h
        refine ⟨i1, l ++ l2, records_trans b3 i2, ?_⟩
        intro u hu
        rcases List.mem_append.mp hu with hu | hu
        · exact b4 u hu
        · exact i3 u hu
    · rw [if_neg hlt] at h
      cases h
      exact ⟨fun _ => hin.resolve_left hlt, [], records_of_eq rfl, by simp⟩

end

/-! ### Cells -/

/-- Cells whose check is the classification of their voltage and current. -/
class CellChecks (C : Type) [StorageUnit C] : Prop where
  check : ∀ c : C, StorageUnit.checkVoltage c = Slide.checkVoltage cellLimits (some (StorageUnit.V c)) (StorageUnit.I c)

instance {n : ℕ} : CellChecks (ECM n) where
  check _ := rfl

instance {N : ℕ} : CellChecks (SpmUnit N) where
  check u := by
    obtain ⟨v, hv⟩ := good_V u.good
    show (match u.cell.checkV.1 with | .ok s => s | _ => .V_not_calculated : Status) =
      Slide.checkVoltage cellLimits (some (match u.cell.V.1 with | .ok v => v | _ => 0)) u.cell.st.I
    unfold SPM.checkV
    rcases hk : u.cell.V with ⟨r | e | w, c2⟩ <;> rw [hk] at hv
    · rfl
    · cases hv

instance {N : ℕ} : CellChecks (AgedUnit N) where
  check u := by
    obtain ⟨v, hv⟩ := sound_V u.sound
    show (match u.cell.checkV.1 with | .ok s => s | _ => .V_not_calculated : Status) =
      Slide.checkVoltage cellLimits (some (match u.cell.V.1 with | .ok v => v | _ => 0)) u.cell.st.I
    unfold SPM.checkV
    rcases hk : u.cell.V with ⟨r | e | w, c2⟩ <;> rw [hk] at hv
    · rfl
    · cases hv

variable {C : Type} [StorageUnit C]

theorem notOverdriven_iff [CellChecks C] (c : C) :
    StorageUnit.checkVoltage c = .Success ↔ NotOverdriven c := by
  suffices h : ∀ v : ℚ, Slide.checkVoltage cellLimits (some v) (StorageUnit.I c) = .Success ↔
      (0 < v ∧ (0 < StorageUnit.I c → 27/10 - 1/100 ≤ v) ∧ (StorageUnit.I c < 0 → v ≤ 42/10 + 1/100)) by
    rw [CellChecks.check, h]
    exact ⟨fun ⟨h1, h2, h3⟩ => ⟨h1, h2, h3⟩, fun ⟨h1, h2, h3⟩ => ⟨h1, h2, h3⟩⟩
  intro v
  rw [checkVoltage_iff cellLimits (by constructor <;> norm_num [cellLimits])]
  have e1 : cellLimits.Vmin = 27/10 := rfl
  have e2 : cellLimits.Vmax = 42/10 := rfl
  constructor
  · intro h
    refine ⟨?_, ?_, ?_⟩ <;> cases h <;> intros <;> linarith
  · rintro ⟨h1, h2, h3⟩
    rcases lt_or_ge v (cellLimits.Vmin - 1/100) with hlo | hlo
    · refine .lowButNotDischarging h1 hlo ?_
      by_contra hI
      have := h2 (not_le.mp hI)
      linarith
    · rcases lt_or_ge (cellLimits.Vmax + 1/100) v with hhi | hhi
      · refine .highButNotCharging h1 hhi ?_
        by_contra hI
        have := h3 (not_le.mp hI)
        linarith
      · exact .inside h1 hlo hhi

theorem success_of_isSuccessful {s : Status} (h : s.isSuccessful = true) : s = .Success := by
  cases s <;> first | rfl | cases h

theorem guarded_of_success [VoltageUnit C] [CellLaws C] [CellChecks C] (d : ℕ) (t : Tree C d)
    (h : (StorageUnit.checkVoltage t).isSuccessful = true) : AllGuarded d t := by
  intro c hc
  have h1 := (tree_status_worst d t).1 c hc
  rw [success_of_isSuccessful h] at h1
  have h2 := check_code c
  refine (notOverdriven_iff c).mp (Status.code_injective ?_)
  exact le_antisymm h1 h2

end Slide

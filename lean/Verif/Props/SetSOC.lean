import Verif.Spec.SetSOC
import Verif.Props.StatusVoltage
import Verif.Props.Cycler
import Verif.Props.Reference

/-!
C141: setting the state of charge of a cell.
-/

namespace Slide
open Spec

theorem forbidden_iff (v I : ℚ) : (checkVoltage cellLimits (some v) I).isBad = true ↔ Forbidden v I :=
  checkVoltage_bad_iff cellLimits (by constructor <;> norm_num [cellLimits]) v I

theorem withSoc_eq {n : ℕ} {a c : ECM n} {s : ℚ} (h : WithSoc a c s) : c = { a with st := { a.st with SOC := s } } := by
  obtain ⟨h1, h2, h3, h4, h5, h6, h7, h8⟩ := h
  exact ECM.ext h2 (ECMState.ext h3 h1 h4 h5 h6 h7 h8)

theorem socOk_iff (s : ℚ) : checkSOC s = true ↔ 0 ≤ s ∧ s ≤ 1 := by
  unfold checkSOC
  simp

/-- **Setting the state of charge of an equivalent-circuit cell**: what is requested happens, or nothing. -/
theorem ecm_setSOC {n : ℕ} (a : ECM n) (s : ℚ) (check : Bool) :
    SocRequest a s check (a.setSOC s check).1 (a.setSOC s check).2 := by
  have hin : 0 ≤ s → s ≤ 1 → ¬ ((!checkSOC s) = true) := fun h0 h1 => by
    rw [(socOk_iff s).mpr ⟨h0, h1⟩]; decide
  refine ⟨fun h => ?_, fun h0 h1 hc => ?_, fun h0 h1 hc c hw hf => ?_, fun h0 h1 hc c hw hf => ?_⟩
  · have : (!checkSOC s) = true := by
      have : ¬ checkSOC s = true := fun hs => by
        obtain ⟨g0, g1⟩ := (socOk_iff s).mp hs
        rcases h with h | h <;> linarith
      simpa using this
    unfold ECM.setSOC
    rw [if_pos this]
    exact ⟨rfl, rfl⟩
  · unfold ECM.setSOC
    rw [if_neg (hin h0 h1), hc]
    exact ⟨rfl, ⟨rfl, rfl, rfl, rfl, rfl, rfl, rfl, rfl⟩⟩
  · have hb : c.checkV.isBad = false := by
      rw [Bool.eq_false_iff]
      exact fun h => hf ((forbidden_iff _ _).mp h)
    have e := withSoc_eq hw
    unfold ECM.setSOC
    rw [if_neg (hin h0 h1), hc]
    dsimp only
    rw [if_pos rfl, ← e, hb]
    exact ⟨rfl, hb, rfl⟩
  · have hb : c.checkV.isBad = true := (forbidden_iff _ _).mpr hf
    have e := withSoc_eq hw
    unfold ECM.setSOC
    rw [if_neg (hin h0 h1), hc]
    dsimp only
    rw [if_pos rfl, ← e, hb]
    refine ⟨rfl, hb, ?_⟩
    rw [e]
    rfl

/-- The specification leaves no choice. -/
theorem socRequest_unique {n : ℕ} {a b b' : ECM n} {s : ℚ} {check : Bool} {st st' : Status}
    (h : SocRequest a s check st b) (h' : SocRequest a s check st' b') : st = st' ∧ b = b' := by
  by_cases h0 : 0 ≤ s
  · by_cases h1 : s ≤ 1
    · cases check with
      | false =>
        obtain ⟨r1, r2⟩ := h.unchecked h0 h1 rfl
        obtain ⟨q1, q2⟩ := h'.unchecked h0 h1 rfl
        exact ⟨r1.trans q1.symm, (withSoc_eq r2).trans (withSoc_eq q2).symm⟩
      | true =>
        have hw : WithSoc a { a with st := { a.st with SOC := s } } s := ⟨rfl, rfl, rfl, rfl, rfl, rfl, rfl, rfl⟩
        by_cases hf : Forbidden (ECM.V { a with st := { a.st with SOC := s } }) a.st.I
        · obtain ⟨r1, -, r2⟩ := h.refused h0 h1 rfl _ hw hf
          obtain ⟨q1, -, q2⟩ := h'.refused h0 h1 rfl _ hw hf
          exact ⟨r1.trans q1.symm, r2.trans q2.symm⟩
        · obtain ⟨r1, -, r2⟩ := h.accepted h0 h1 rfl _ hw hf
          obtain ⟨q1, -, q2⟩ := h'.accepted h0 h1 rfl _ hw hf
          exact ⟨r1.trans q1.symm, r2.trans q2.symm⟩
    · obtain ⟨r1, r2⟩ := h.impossible (.inr (not_le.mp h1))
      obtain ⟨q1, q2⟩ := h'.impossible (.inr (not_le.mp h1))
      exact ⟨r1.trans q1.symm, r2.trans q2.symm⟩
  · obtain ⟨r1, r2⟩ := h.impossible (.inl (not_le.mp h0))
    obtain ⟨q1, q2⟩ := h'.impossible (.inl (not_le.mp h0))
    exact ⟨r1.trans q1.symm, r2.trans q2.symm⟩

/-- A cell after a discharge: the current is off, the RC pair still carries 1 A. -/
def relaxingCell : ECM 1 :=
  ⟨⟨1, 0, fun _ => 1, fun _ => 1, ECM.defaultOCV⟩, ⟨293, 1/2, 0, fun _ => 1, 0, 0, 0⟩⟩

/-- The documented protection does not exist when no current flows: the cell is set to 1.0 V. -/
theorem not_unsafeSocNotKept : ¬ UnsafeSocNotKept := fun h => by
  have := h 1 relaxingCell 0 (by norm_num) (by norm_num) { relaxingCell with st := { relaxingCell.st with SOC := 0 } }
    ⟨rfl, rfl, rfl, rfl, rfl, rfl, rfl, rfl⟩
    (.inl (by decide +kernel))
  exact absurd (congrArg (fun c => c.st.SOC) this) (by decide +kernel)

/-- What is left of it: with a current that drives the cell further out, the state of charge is not kept. -/
theorem unsafeSoc_partial {n : ℕ} (a : ECM n) (s : ℚ) (h0 : 0 ≤ s) (h1 : s ≤ 1) (c : ECM n) (hw : WithSoc a c s)
    (h : (c.V < 2 ∧ 0 < a.st.I) ∨ (43/10 < c.V ∧ a.st.I < 0)) : (a.setSOC s true).2 = a :=
  ((ecm_setSOC a s true).refused h0 h1 rfl c hw (.inr (by rw [hw.I]; exact h))).2.2

example : WithSoc (smallCell.withI 1) { smallCell with st := { smallCell.st with I := 1, SOC := 1/10 } } (1/10) :=
  ⟨rfl, rfl, rfl, rfl, rfl, rfl, rfl, rfl⟩

/-- Both answers occur. -/
example : (smallCell.setSOC (1/10) true).1 = .Success ∧ (smallCell.setSOC (1/10) true).2.st.SOC = 1/10 ∧
    ((smallCell.withI 1).setSOC (1/10) true).1 = .Vmin_violation ∧
    ((smallCell.withI 1).setSOC (1/10) true).2.st.SOC = 1/10 ∧
    (({ relaxingCell with st := { relaxingCell.st with I := 1 } } : ECM 1).setSOC 0 true).1 = .VMIN_violation ∧
    (({ relaxingCell with st := { relaxingCell.st with I := 1 } } : ECM 1).setSOC 0 true).2.st.SOC = 1/2 ∧
    (smallCell.setSOC (-1) false).1 = .SOC_limits_violation := by
  decide +kernel

/-! ### Single-particle cells -/

variable {N : ℕ}

theorem spm_soc_V (c : SPM N) (s : ℚ) : ({ c with st := { c.st with SOC := s } } : SPM N).V =
    (c.V.1, { c.V.2 with st := { c.V.2.st with SOC := s } }) := by
  unfold SPM.V
  dsimp only
  by_cases h : c.valid = true
  · rw [if_pos h, if_pos h]
  · rw [if_neg h, if_neg h]
    rw [show ({ c with st := { c.st with SOC := s } } : SPM N).calcV = c.calcV from rfl]
    rcases c.calcV with (_ | v) | e | w <;> rfl

theorem spm_soc_checkV (c : SPM N) (s : ℚ) : ({ c with st := { c.st with SOC := s } } : SPM N).checkV =
    (c.checkV.1, { c.checkV.2 with st := { c.checkV.2.st with SOC := s } }) := by
  unfold SPM.checkV
  rw [spm_soc_V]
  rcases c.V with ⟨v | e | w, c'⟩ <;> rfl

theorem spm_V_forget (c : SPM N) : forgetSoc c.V.2 = forgetSoc c ∧ c.V.2.st.SOC = c.st.SOC := by
  unfold SPM.V
  by_cases h : c.valid = true
  · rw [if_pos h]; exact ⟨rfl, rfl⟩
  · rw [if_neg h]
    rcases c.calcV with (_ | v) | e | w <;> exact ⟨rfl, rfl⟩

theorem spm_checkV_snd (c : SPM N) : c.checkV.2 = c.V.2 := by
  unfold SPM.checkV
  rcases c.V with ⟨v | e | w, c'⟩ <;> rfl

/-- The second reading of the voltage gives what the first gave. -/
theorem spm_V_again (c : SPM N) : c.V.2.V.1 = c.V.1 := by
  unfold SPM.V
  by_cases hv : c.valid = true
  · simp only [if_pos hv]
  · simp only [if_neg hv]
    rcases hc : c.calcV with (_ | v) | e | w
    · dsimp only; rw [if_neg hv, hc]
    · rfl
    · dsimp only; rw [if_neg hv, hc]
    · dsimp only; rw [if_neg hv, hc]

/-- **Setting the state of charge of a single-particle cell** replaces its charge counter. Impossible values are refused
without effect; without check every other value is set; with check the answer is that of a voltage check of the cell as it
is, and the value is not set if that is bad. Nothing else changes but the stored voltage. -/
theorem spm_setSOC (c : SPM N) (s : ℚ) :
    ((s < 0 ∨ 1 < s) → ∀ b, c.setSOC s b = (.ok .SOC_limits_violation, c)) ∧
    (0 ≤ s → s ≤ 1 → (c.setSOC s false).1 = .ok .Success ∧ (c.setSOC s false).2.st.SOC = s ∧
      (c.setSOC s false).2.st.V = c.st.V ∧ (c.setSOC s false).2.valid = c.valid) ∧
    (0 ≤ s → s ≤ 1 → (c.setSOC s true).1 = c.checkV.1 ∧
      ∀ st, c.checkV.1 = .ok st → (c.setSOC s true).2.st.SOC = if st.isBad then c.st.SOC else s) ∧
    (∀ b, forgetSoc (c.setSOC s b).2 = forgetSoc c) := by
  have hin : 0 ≤ s → s ≤ 1 → ¬ ((!checkSOC s) = true) := fun h0 h1 => by
    rw [(socOk_iff s).mpr ⟨h0, h1⟩]; decide
  refine ⟨fun h b => ?_, fun h0 h1 => ?_, fun h0 h1 => ?_, fun b => ?_⟩
  · have : (!checkSOC s) = true := by
      have : ¬ checkSOC s = true := fun hs => by
        obtain ⟨g0, g1⟩ := (socOk_iff s).mp hs
        rcases h with h | h <;> linarith
      simpa using this
    unfold SPM.setSOC
    rw [if_pos this]
  · unfold SPM.setSOC
    rw [if_neg (hin h0 h1)]
    exact ⟨rfl, rfl, rfl, rfl⟩
  · unfold SPM.setSOC
    rw [if_neg (hin h0 h1)]
    dsimp only
    rw [if_pos rfl, spm_soc_checkV]
    rcases c.checkV with ⟨r | e | w, c2⟩
    · dsimp only
      by_cases hb : r.isBad = true
      · rw [if_pos hb]
        exact ⟨rfl, fun st h => by cases h; rw [if_pos hb]⟩
      · rw [if_neg hb]
        exact ⟨rfl, fun st h => by cases h; rw [if_neg hb]⟩
    · exact ⟨rfl, fun st h => by cases h⟩
    · exact ⟨rfl, fun st h => by cases h⟩
  · have hV := spm_V_forget c
    rw [← spm_checkV_snd] at hV
    unfold SPM.setSOC
    by_cases hs : (!checkSOC s) = true
    · rw [if_pos hs]
    · rw [if_neg hs]
      dsimp only
      cases b with
      | false => rfl
      | true =>
        rw [if_pos rfl, spm_soc_checkV]
        have key : ∀ x, forgetSoc ({ c.checkV.2 with st := { c.checkV.2.st with SOC := x } } : SPM N) = forgetSoc c := fun _ => hV.1
        generalize c.checkV = q at key ⊢
        obtain ⟨r | e | w, c2⟩ := q
        · dsimp only
          by_cases hb : r.isBad = true
          · rw [if_pos hb]; exact key _
          · rw [if_neg hb]; exact key _
        · exact key _
        · exact key _

/-- The voltage and the open-circuit voltage of a single-particle cell do not notice it. -/
theorem spm_setSOC_inert (c : SPM N) (s : ℚ) (b : Bool) :
    (c.setSOC s b).2.V.1 = c.V.1 ∧ (c.setSOC s b).2.getOCV = c.getOCV := by
  have hO : ∀ d : SPM N, d.getOCV = (forgetSoc d).getOCV := fun _ => rfl
  refine ⟨?_, by rw [hO, (spm_setSOC c s).2.2.2 b, ← hO]⟩
  unfold SPM.setSOC
  by_cases hs : (!checkSOC s) = true
  · rw [if_pos hs]
  · rw [if_neg hs]
    dsimp only
    cases b with
    | false =>
      show ({ c with st := { c.st with SOC := s } } : SPM N).V.1 = _
      rw [spm_soc_V]
    | true =>
      rw [if_pos rfl, spm_soc_checkV]
      have key : ∀ x, ({ c.checkV.2 with st := { c.checkV.2.st with SOC := x } } : SPM N).V.1 = c.V.1 := fun x => by
        rw [spm_soc_V, spm_checkV_snd]; exact spm_V_again c
      generalize c.checkV = q at key ⊢
      obtain ⟨r | e | w, c2⟩ := q
      · dsimp only
        by_cases hb : r.isBad = true
        · rw [if_pos hb]; exact key _
        · rw [if_neg hb]; exact key _
      · exact key _
      · exact key _

/-- So a single-particle cell cannot be charged by telling it its state of charge. -/
theorem not_socMovesVoltage : ¬ SocMovesVoltage := fun h => by
  have hv : spmPot.getOCV = .ok (match spmPot.getOCV with | .ok v => v | _ => 0) := by decide +kernel
  have e : ∀ s, (spmPot.setSOC s false).2.getOCV = spmPot.getOCV := fun s => (spm_setSOC_inert spmPot s false).2
  exact h 1 spmPot (1/10) (9/10) (by norm_num) (((spm_setSOC spmPot _).2.1 (by norm_num) (by norm_num)).1)
    (((spm_setSOC spmPot _).2.1 (by norm_num) (by norm_num)).1) _ ((e _).trans hv) ((e _).trans hv)

/-- For equivalent-circuit cells with a rising open-circuit voltage it does. -/
theorem ecm_soc_moves {n : ℕ} (c : ECM n) (s t o p : ℚ) (hs : 0 ≤ s) (hst : s < t) (ht : t ≤ 1) (ho : c.par.ocv s = some o)
    (hp : c.par.ocv t = some p) : (c.setSOC t false).2.V - (c.setSOC s false).2.V = p - o := by
  have e1 := ((ecm_setSOC c s false).unchecked hs (by linarith) rfl).2
  have e2 := ((ecm_setSOC c t false).unchecked (by linarith) ht rfl).2
  unfold ECM.V
  rw [e1.par, e1.soc, e1.I, e1.Ir, e2.par, e2.soc, e2.I, e2.Ir, ho, hp]
  dsimp only
  ring

/-- The checked request on a single-particle cell: accepted, refused for its value, refused because of the voltage. -/
example : (spmPot.setSOC (1/10) true).1 = .ok .Success ∧ (spmPot.setSOC (1/10) true).2.st.SOC = 1/10 ∧
    spmPot.st.SOC ≠ 1/10 ∧ (spmPot.setSOC 2 true).1 = .ok .SOC_limits_violation := by
  decide +kernel

example : (smallCell.setSOC 1 false).2.V - (smallCell.setSOC 0 false).2.V = 23/10 := by decide +kernel

end Slide

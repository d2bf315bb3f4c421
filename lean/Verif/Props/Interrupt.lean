import Verif.Lemmas.Interrupt
import Verif.Lemmas.ReportedEnergy

/-!
# C159: a phase can be interrupted
-/

namespace Slide
open StorageUnit Spec Cyc

section
variable {U : Type} [StorageUnit U] [LawfulStep U] {P : U → Prop}

/-- C159, what a constant-current phase does: if it reaches its time limit, the unit has been given the current and has
made as many full steps as fit into the time and one shorter step for the rest – however many steps were made at once, whatever the
voltage limit and the interval of recording – and the reported time and charge are those of the whole phase. -/
theorem cc_course (h : Drivable P) (fuel : ℕ) (c : Cyc U) (hc : P c.su) (hdiag : c.diagnostic = false) (I vlim T dt : ℚ) (ndt : ℤ)
    (th : Thr) (hd : 0 < dt) (hT : 0 ≤ T) (hend : (CC fuel c I vlim T dt ndt th).1 = .ok .ReachedTimeLimit) :
    (CC fuel c I vlim T dt ndt th).2.1.su = courseOf c.su I T dt ∧
    (CC fuel c I vlim T dt ndt th).2.2.time = th.time + T ∧
    (CC fuel c I vlim T dt ndt th).2.2.Ah = th.Ah + |I| * T / 3600 ∧
    (CC fuel c I vlim T dt ndt th).2.1.diagnostic = false := by
  obtain ⟨st, hs⟩ := drive_set h (storeIf (decide (0 < ndt)) c) (by rw [storeIf_su]; exact hc)
    (by rw [storeIf_diag]; exact hdiag) I vlim
  have hm : 1 ≤ (if decide (0 < ndt) = true then min 2 ndt.toNat else 2) := nMax_pos 2 (by norm_num)
  unfold CC at hend ⊢
  dsimp only at hend ⊢
  rw [hs] at hend ⊢
  dsimp only at hend ⊢
  have hst : st ≠ .ReachedTimeLimit := by
    intro e
    subst e
    unfold Cyc.setCurrent at hs
    have a := h.ok (storeIf (decide (0 < ndt)) c).su I (by rw [storeIf_su]; exact hc)
    dsimp only at hs
    rw [storeIf_diag, hdiag] at hs
    generalize StorageUnit.setCurrent (storeIf (decide (0 < ndt)) c).su I false = x at a hs
    obtain ⟨o, u1⟩ := x
    dsimp only at a
    subst a
    dsimp only at hs
    rw [if_neg (show ¬ Status.Success.isVoltageLimitsViolated = true by decide)] at hs
    split at hs
    · simp at hs
    · split at hs <;> simp at hs
  by_cases g : (!st.isSuccessful) = true
  · rw [if_pos g] at hend
    simp only [Outcome.ok.injEq] at hend
    exact absurd hend hst
  rw [if_neg g] at hend ⊢
  split at hend
  · simp at hend
  rename_i hb
  rw [if_neg hb]
  generalize hv0 : (⟨dt, 0, 0, 1, _, _, true⟩ : CCVars) = v0 at hend ⊢
  have e0 : v0.ttot = 0 := by rw [← hv0]
  have e1 : v0.dti = dt := by rw [← hv0]
  have e2 : v0.nOnce = 1 := by rw [← hv0]
  have key := course_ccLoop (vlim := vlim) (tlim := T) (ndt := ndt) h hc hd hm th fuel 0 v0
    ((storeIf (decide (0 < ndt)) c).withSU (StorageUnit.setCurrent (storeIf (decide (0 < ndt)) c).su I false).2) th e1 (by rw [e0]; simp)
    (by simpa using hT) (by rw [e2]) (by show (storeIf _ c).diagnostic = false; rw [storeIf_diag]; exact hdiag)
    (by unfold stepped; rw [if_pos rfl]; show (StorageUnit.setCurrent (storeIf _ c).su I false).2 = _; rw [storeIf_su]) (by rw [e0]; simp) (by rw [e0]; simp)
  rcases hl : ccLoop I vlim T ndt (if decide (0 < ndt) = true then min 2 ndt.toNat else 2) fuel v0
    ((storeIf (decide (0 < ndt)) c).withSU (StorageUnit.setCurrent (storeIf (decide (0 < ndt)) c).su I false).2) th with
    ⟨(s | ⟨v', b⟩) | e | w, c2, th2⟩
  · rw [hl] at hend
    simp only [Outcome.ok.injEq] at hend
    subst hend
    rcases re_ccLoop_inl fuel (by show (storeIf _ c).diagnostic = false; rw [storeIf_diag]; exact hdiag) hl with e | e <;> cases e
  · rw [hl] at hend
    dsimp only at hend ⊢
    by_cases gt : v'.ttot ≥ T
    · rw [if_pos gt]
      obtain ⟨k1, k2, k3, k4⟩ := key v' b c2 th2 hl gt
      exact ⟨by rw [storeIf_su]; exact k1, k2, k3, by rw [storeIf_diag]; exact k4⟩
    · rw [if_neg gt] at hend
      split at hend <;> simp at hend
  · rw [hl] at hend; simp at hend
  · rw [hl] at hend; simp at hend

/-- C159, what a rest does: the same with no current, whenever the loop is allowed enough iterations. -/
theorem rest_course (h : Drivable P) (fuel : ℕ) (c : Cyc U) (hc : P c.su) (T dt : ℚ) (ndt : ℤ) (th : Thr) (hd : 0 < dt) (hT : 0 ≤ T)
    (hfuel : (rest fuel c T dt ndt th).1 ≠ .ub "out of fuel") :
    (rest fuel c T dt ndt th).1 = .ok .ReachedTimeLimit ∧
    (rest fuel c T dt ndt th).2.1.su = courseOf c.su 0 T dt ∧
    (rest fuel c T dt ndt th).2.2 = { th with time := th.time + T } := by
  have hm : 1 ≤ (if decide (0 < ndt) = true then min 10 ndt.toNat else 10) := nMax_pos 10 (by norm_num)
  unfold rest at hfuel ⊢
  dsimp only at hfuel ⊢
  have key := course_restLoop (tlim := T) (ndt := ndt) h (u := c.su) hd hm fuel 0 { dti := dt, ttot := 0, idat := 0, nOnce := 1, ninc := true }
    (storeIf (decide (0 < ndt)) c) rfl (by simp) (by simpa using hT) le_rfl
    (by unfold stepped; rw [if_pos rfl, storeIf_su]) (by rw [storeIf_su]; exact hc)
  rcases key with ⟨v', c', e, e1, e2, -, e4⟩ | ⟨c', e⟩
  · rw [e]
    dsimp only
    rw [if_pos ⟨e1.ge, by rw [e1]; simp⟩]
    have hok := h.ok c'.su 0 e2
    generalize StorageUnit.setCurrent c'.su 0 false = x at hok e4
    obtain ⟨o, u⟩ := x
    dsimp only at hok e4
    subst hok
    dsimp only
    refine ⟨rfl, by rw [storeIf_su]; exact e4, by rw [e1]⟩
  · rw [e] at hfuel; exact absurd rfl hfuel

/-- C159 for constant current, what holds: if the phases are ended by their time limits, interrupting a phase after `a` steps and going on
makes no difference to the unit, the reported time and the reported charge – not even with other intervals of recording. -/
theorem cc_interrupt_partial (h : Drivable P) (f1 f2 f3 : ℕ) (u : U) (hu : P u) (I vlim dt T : ℚ) (a : ℕ) (ndt1 ndt2 ndt3 : ℤ) (hd : 0 < dt)
    (hT : 0 ≤ T) :
    let r1 := CC f1 { su := u } I vlim (a * dt) dt ndt1 Thr.zero
    let r2 := CC f2 r1.2.1 I vlim T dt ndt2 r1.2.2
    let r := CC f3 { su := u } I vlim (a * dt + T) dt ndt3 Thr.zero
    r1.1 = .ok .ReachedTimeLimit → r2.1 = .ok .ReachedTimeLimit → r.1 = .ok .ReachedTimeLimit →
    r2.2.1.su = r.2.1.su ∧ r2.2.2.time = r.2.2.time ∧ r2.2.2.Ah = r.2.2.Ah := by
  intro r1 r2 r h1 h2 h3
  have ha : (0 : ℚ) ≤ a * dt := mul_nonneg (Nat.cast_nonneg _) hd.le
  obtain ⟨a1, a2, a3, a4⟩ := cc_course h f1 { su := u } hu rfl I vlim (a * dt) dt ndt1 Thr.zero hd ha h1
  have hp := (drivable_course h hu I hd ha).1
  have hp1 : P r1.2.1.su := by rw [show r1.2.1.su = _ from a1]; exact hp
  obtain ⟨b1, b2, b3, -⟩ := cc_course h f2 r1.2.1 hp1 a4 I vlim T dt ndt2 r1.2.2 hd hT h2
  obtain ⟨c1, c2, c3, -⟩ := cc_course h f3 { su := u } hu rfl I vlim (a * dt + T) dt ndt3 Thr.zero hd (by linarith) h3
  refine ⟨?_, ?_, ?_⟩
  · rw [show r2.2.1.su = _ from b1, show r.2.1.su = _ from c1, show r1.2.1.su = _ from a1]
    exact courseOf_split h hu I hd hT a
  · rw [show r2.2.2.time = _ from b2, show r.2.2.time = _ from c2, show r1.2.2.time = _ from a2]; ring
  · rw [show r2.2.2.Ah = _ from b3, show r.2.2.Ah = _ from c3, show r1.2.2.Ah = _ from a3]; ring

/-- C159 for resting: always. -/
theorem rest_interrupt (h : Drivable P) (f1 f2 f3 : ℕ) (u : U) (hu : P u) (dt T : ℚ) (a : ℕ) (ndt1 ndt2 ndt3 : ℤ) (hd : 0 < dt)
    (hT : 0 ≤ T) :
    let r1 := rest f1 { su := u } (a * dt) dt ndt1 Thr.zero
    let r2 := rest f2 r1.2.1 T dt ndt2 r1.2.2
    let r := rest f3 { su := u } (a * dt + T) dt ndt3 Thr.zero
    r1.1 ≠ .ub "out of fuel" → r2.1 ≠ .ub "out of fuel" → r.1 ≠ .ub "out of fuel" →
    r2.1 = .ok .ReachedTimeLimit ∧ r.1 = .ok .ReachedTimeLimit ∧ r2.2.1.su = r.2.1.su ∧ r2.2.2 = r.2.2 := by
  intro r1 r2 r h1 h2 h3
  have ha : (0 : ℚ) ≤ a * dt := mul_nonneg (Nat.cast_nonneg _) hd.le
  obtain ⟨a0, a1, a2⟩ := rest_course h f1 { su := u } hu (a * dt) dt ndt1 Thr.zero hd ha h1
  have hp := (drivable_course h hu 0 hd ha).1
  have hp1 : P r1.2.1.su := by rw [show r1.2.1.su = _ from a1]; exact hp
  obtain ⟨b0, b1, b2⟩ := rest_course h f2 r1.2.1 hp1 T dt ndt2 r1.2.2 hd hT h2
  obtain ⟨c0, c1, c2⟩ := rest_course h f3 { su := u } hu (a * dt + T) dt ndt3 Thr.zero hd (by linarith) h3
  refine ⟨b0, c0, ?_, ?_⟩
  · rw [show r2.2.1.su = _ from b1, show r.2.1.su = _ from c1, show r1.2.1.su = _ from a1]
    exact courseOf_split h hu 0 hd hT a
  · rw [show r2.2.2 = _ from b2, show r.2.2 = _ from c2, show r1.2.2 = _ from a2]
    ext
    · dsimp only; ring
    · rfl
    · rfl

end

/-- C159 for strings of equivalent-circuit cells, spelled out. -/
theorem string_interrupt_partial {n : ℕ} (f1 f2 f3 : ℕ) (m : ModuleS (ECM n)) (hm : m.kids.length ≤ 100) (I vlim dt T : ℚ) (a : ℕ)
    (ndt1 ndt2 ndt3 : ℤ) (hd : 0 < dt) (hT : 0 ≤ T) :
    let r1 := CC f1 { su := m } I vlim (a * dt) dt ndt1 Thr.zero
    let r2 := CC f2 r1.2.1 I vlim T dt ndt2 r1.2.2
    let r := CC f3 { su := m } I vlim (a * dt + T) dt ndt3 Thr.zero
    r1.1 = .ok .ReachedTimeLimit → r2.1 = .ok .ReachedTimeLimit → r.1 = .ok .ReachedTimeLimit →
    r2.2.1.su = r.2.1.su ∧ r2.2.2.time = r.2.2.time ∧ r2.2.2.Ah = r.2.2.Ah :=
  cc_interrupt_partial (drivable_series (drivable_ecm n)) f1 f2 f3 m ⟨hm, fun _ _ => trivial⟩ I vlim dt T a ndt1 ndt2 ndt3 hd hT

/-- C159 for a single-particle cell, spelled out for resting. -/
theorem spm_rest_interrupt {N : ℕ} (f1 f2 f3 : ℕ) (u : SpmUnit N) (dt T : ℚ) (a : ℕ) (ndt1 ndt2 ndt3 : ℤ) (hd : 0 < dt) (hT : 0 ≤ T) :
    let r1 := rest f1 { su := u } (a * dt) dt ndt1 Thr.zero
    let r2 := rest f2 r1.2.1 T dt ndt2 r1.2.2
    let r := rest f3 { su := u } (a * dt + T) dt ndt3 Thr.zero
    r1.1 ≠ .ub "out of fuel" → r2.1 ≠ .ub "out of fuel" → r.1 ≠ .ub "out of fuel" →
    r2.1 = .ok .ReachedTimeLimit ∧ r.1 = .ok .ReachedTimeLimit ∧ r2.2.1.su = r.2.1.su ∧ r2.2.2 = r.2.2 :=
  rest_interrupt (drivable_spm N) f1 f2 f3 u trivial dt T a ndt1 ndt2 ndt3 hd hT

/-! ## What fails -/

/-- A full cell whose open-circuit voltage stays at 4 V until it is half empty and then is 2.9 V. -/
def interruptCell : ECM 0 where
  par := { cap := 16, Rdc := 2/1000, Rp := Fin.elim0, invTau := Fin.elim0,
           ocv := fun z => some (if z < 1/2 then 29/10 else 4) }
  st := { T := 288, SOC := 1, I := 0, Ir := Fin.elim0, time := 0, Ah := 0, Wh := 0 }

/-- Discharged at 16 A in steps of 6 minutes down to 3 V, the cell ends at a state of charge of 3/10 in one go, and at 4/10 if the phase is
interrupted after the first step: the number of steps made at once starts from one again, and the limit is noticed earlier. -/
theorem interruptCell_ends :
    let r1 := CC 20 { su := interruptCell } 16 3 ((1 : ℕ) * 360) 360 0 Thr.zero
    let r2 := CC 20 r1.2.1 16 3 3240 360 0 r1.2.2
    let r := CC 20 { su := interruptCell } 16 3 ((1 : ℕ) * 360 + 3240) 360 0 Thr.zero
    r1.1 = .ok .ReachedTimeLimit ∧ r2.1 = .ok .ReachedVoltageLimit ∧ r.1 = .ok .ReachedVoltageLimit ∧
    r2.2.1.su.st.SOC = 4/10 ∧ r.2.1.su.st.SOC = 3/10 := by
  decide +kernel

/-- C159 in full is false of the code. -/
theorem not_interruptionHarmless : ¬ InterruptionHarmless (ECM 0) := by
  intro h
  obtain ⟨h1, h2, h3, h4, h5⟩ := interruptCell_ends
  have := h 20 20 20 interruptCell 16 3 360 3240 1 0 (by norm_num) (by norm_num) ⟨_, h1⟩ ⟨_, h2⟩ ⟨_, h3⟩
  rw [this, h5] at h4
  norm_num at h4

/-! ## Examples -/

/-- The hypotheses are met by a string of two cells: 1 minute at 2 A in steps of 7 s after 3 steps of 7 s. -/
example :
    let m : ModuleS (ECM 0) := { T := 288, kids := [⟨1/1000, bucket (1/2) 0⟩, ⟨0, bucket (3/4) 0⟩] }
    let r1 := CC 20 { su := m } 2 5 ((3 : ℕ) * 7) 7 1 Thr.zero
    let r2 := CC 20 r1.2.1 2 5 60 7 5 r1.2.2
    let r := CC 20 { su := m } 2 5 ((3 : ℕ) * 7 + 60) 7 0 Thr.zero
    r1.1 = .ok .ReachedTimeLimit ∧ r2.1 = .ok .ReachedTimeLimit ∧ r.1 = .ok .ReachedTimeLimit := by
  decide +kernel

example :
    (rest 20 { su := bucket (1/2) 3 } ((3 : ℕ) * 7) 7 1 Thr.zero).1 = .ok .ReachedTimeLimit ∧
    (rest 20 { su := bucket (1/2) 3 } ((3 : ℕ) * 7 + 60) 7 0 Thr.zero).1 = .ok .ReachedTimeLimit := by
  decide +kernel

end Slide

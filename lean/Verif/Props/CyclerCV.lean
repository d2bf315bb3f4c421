import Verif.Props.CyclerLimits

/-!
Constant-voltage phases: C23 (time and charge of CCCV), C56 (limits of the constant-voltage phase).
-/

namespace Slide
open StorageUnit Spec Cyc

section generic
variable {U : Type} [StorageUnit U] [VoltageUnit U]

/-- C23: the constant-voltage phase never adds to the reported time – for any unit and any outcome. -/
theorem cv_reports_no_time (c : Cyc U) (Vset Ilim tlim dt : ℚ) (ndt : ℤ) (th : Thr) :
    (CV c Vset Ilim tlim dt ndt th).2.2.time = th.time := by
  unfold CV
  dsimp only
  by_cases h1 : |I (storeIf (decide (0 < ndt)) c).su| < Ilim ∧ vLimit (V (storeIf (decide (0 < ndt)) c).su) Vset = true
  · rw [if_pos h1]
  · rw [if_neg h1]
    by_cases h2 : dt = 0 ∨ ⌈tlim / dt⌉ < 0
    · rw [if_pos h2]
    · rw [if_neg h2]
      have ht := cvLoop_time Vset Ilim tlim dt ⌈tlim / dt⌉.toNat ndt ⌈tlim / dt⌉.toNat 0 (storeIf (decide (0 < ndt)) c) 0 th
      generalize cvLoop Vset Ilim tlim dt ⌈tlim / dt⌉.toNat ndt ⌈tlim / dt⌉.toNat 0 (storeIf (decide (0 < ndt)) c) 0 th = r at *
      obtain ⟨o, c', ttot', th'⟩ := r
      match o with
      | .throw e => exact ht
      | .ub e => exact ht
      | .ok (.inl st) => exact ht
      | .ok (.inr x) =>
        dsimp only
        by_cases h3 : ttot' ≥ tlim
        · rw [if_pos h3]; exact ht
        · rw [if_neg h3]
          match x with
          | none => exact ht
          | some true => exact ht
          | some false => exact ht

/-- C23: the time reported by a `CCCV` that returns is the time of its constant-current phase alone; it replaces
(not increments) what the caller passed. -/
theorem cccv_reports_cc_time (fuel : ℕ) (c c' : Cyc U) (I Vset Ilim tlim dt : ℚ) (ndt : ℤ) (th th' : Thr) (st : Status)
    (h : CCCVt fuel c I Vset Ilim tlim dt ndt th = (.ok st, c', th'))
    (hv : ¬ (Vset < (lim c.su).Vmin ∨ Vset > (lim c.su).Vmax))
    (hz : (setCurrent c.su 0 false).1 = .ok .Success) :
    th'.time = (CC fuel (c.withSU (setCurrent c.su 0 false).2)
      (if V (setCurrent c.su 0 false).2 > Vset then |I| else -|I|) Vset tlim dt ndt Thr.zero).2.2.time := by
  unfold CCCVt at h
  rw [if_neg hv] at h
  generalize setCurrent c.su 0 false = r at *
  obtain ⟨o, u⟩ := r
  cases hz
  dsimp only at h ⊢
  rw [if_neg (by decide)] at h
  rcases hcc : CC fuel (c.withSU u) (if V u > Vset then |I| else -|I|) Vset tlim dt ndt Thr.zero with ⟨o1, c1, th1⟩
  rw [hcc] at h
  cases o1 with
  | throw e => cases h
  | ub e => cases h
  | ok s1 =>
    dsimp only at h ⊢
    have hcv := cv_reports_no_time c1 Vset |Ilim| (tlim - th1.time) dt ndt Thr.zero
    generalize CV c1 Vset |Ilim| (tlim - th1.time) dt ndt Thr.zero = r2 at *
    obtain ⟨o2, c2, th2⟩ := r2
    cases o2 with
    | throw e => cases h
    | ub e => cases h
    | ok s2 =>
      simp only [Prod.mk.injEq, Outcome.ok.injEq] at h
      rw [← h.2.2]
      have : th2.time = 0 := hcv
      simp [this]

/-- C56: what the statuses of `CV` mean, for any unit: `ReachedCurrentLimit` – the current is below the limit and the
voltage at the set point (within tolerance); `ReachedSmallCurrent` – the current is below a tenth of the limit or
1 µA. -/
theorem cv_status_meaning (c c' : Cyc U) (Vset Ilim tlim dt : ℚ) (ndt : ℤ) (th th' : Thr) (st : Status)
    (h : CV c Vset Ilim tlim dt ndt th = (.ok st, c', th')) :
    (st = .ReachedCurrentLimit → |I c'.su| < Ilim ∧ (|V c'.su - Vset| < 1/100 ∨ |V c'.su - Vset| / Vset < 1/1000)) ∧
    (st = .ReachedSmallCurrent → |I c'.su| < Ilim / 10 ∨ |I c'.su| < 1/1000000) := by
  have hvl : ∀ v, vLimit v Vset = true → (|v - Vset| < 1/100 ∨ |v - Vset| / Vset < 1/1000) := by
    intro v hv
    unfold vLimit at hv
    simpa using hv
  have key : ∀ (left i : ℕ) (c : Cyc U) (ttot : ℚ) (th : Thr),
      match cvLoop Vset Ilim tlim dt ⌈tlim / dt⌉.toNat ndt left i c ttot th with
      | (.ok (.inl s), _) => s ≠ .ReachedCurrentLimit ∧ s ≠ .ReachedSmallCurrent
      | (.ok (.inr (some true)), c', _) => |I c'.su| < Ilim ∧ vLimit (V c'.su) Vset = true
      | (.ok (.inr (some false)), c', _) => |I c'.su| < Ilim / 10 ∨ |I c'.su| < 1/1000000
      | _ => True := by
    intro left
    induction left with
    | zero => intros; trivial
    | succ left ih =>
      intro i c ttot th
      unfold cvLoop
      have hb := cvBody_step Vset Ilim tlim dt ⌈tlim / dt⌉.toNat ndt i c ttot th
      generalize cvBody Vset Ilim tlim dt ⌈tlim / dt⌉.toNat ndt i c ttot th = r at *
      obtain ⟨o, c', ttot', th'⟩ := r
      match o, hb with
      | .throw e, _ => trivial
      | .ub e, _ => trivial
      | .ok (.inr none), _ => exact ih _ _ _ _
      | .ok (.inl st), hb =>
        have : st = .timeStep_CC_failed ∨ st = .VMINsafety_violation ∨ st = .VMAXsafety_violation := by
          dsimp only at hb
          cases hb with
          | failed _ _ h _ =>
            rcases h with ⟨e, h⟩ | ⟨w, h⟩ | h
            · cases h
            · cases h
            · left; simpa using h
          | stepped x _ dti th' _ _ _ _ hx => right; simpa using hx
        rcases this with rfl | rfl | rfl <;> exact ⟨by simp, by simp⟩
      | .ok (.inr (some true)), hb =>
        dsimp only at hb ⊢
        cases hb with
        | failed _ _ h _ =>
          rcases h with ⟨e, h⟩ | ⟨w, h⟩ | h <;> cases h
        | stepped x _ dti th' _ _ _ _ hx => simpa using hx
      | .ok (.inr (some false)), hb =>
        dsimp only at hb ⊢
        cases hb with
        | failed _ _ h _ =>
          rcases h with ⟨e, h⟩ | ⟨w, h⟩ | h <;> cases h
        | stepped x _ dti th' _ _ _ _ hx => simpa using hx
  unfold CV at h
  dsimp only at h
  by_cases h1 : |I (storeIf (decide (0 < ndt)) c).su| < Ilim ∧ vLimit (V (storeIf (decide (0 < ndt)) c).su) Vset = true
  · rw [if_pos h1] at h
    simp only [Prod.mk.injEq, Outcome.ok.injEq] at h
    obtain ⟨rfl, rfl, rfl⟩ := h
    exact ⟨fun _ => ⟨h1.1, hvl _ h1.2⟩, fun h => by cases h⟩
  · rw [if_neg h1] at h
    by_cases h2 : dt = 0 ∨ ⌈tlim / dt⌉ < 0
    · rw [if_pos h2] at h; cases h
    · rw [if_neg h2] at h
      have hk := key ⌈tlim / dt⌉.toNat 0 (storeIf (decide (0 < ndt)) c) 0 th
      generalize cvLoop Vset Ilim tlim dt ⌈tlim / dt⌉.toNat ndt ⌈tlim / dt⌉.toNat 0 (storeIf (decide (0 < ndt)) c) 0 th = r at *
      obtain ⟨o, c1, ttot1, th1⟩ := r
      match o, hk, h with
      | .throw e, _, h => cases h
      | .ub e, _, h => cases h
      | .ok (.inl s), hk, h =>
        simp only [Prod.mk.injEq, Outcome.ok.injEq] at h
        obtain ⟨rfl, rfl, rfl⟩ := h
        exact ⟨fun h => absurd h hk.1, fun h => absurd h hk.2⟩
      | .ok (.inr x), hk, h =>
        dsimp only at h
        by_cases h3 : ttot1 ≥ tlim
        · rw [if_pos h3] at h
          simp only [Prod.mk.injEq, Outcome.ok.injEq] at h
          obtain ⟨rfl, rfl, rfl⟩ := h
          exact ⟨fun h => (by cases h), fun h => by cases h⟩
        · rw [if_neg h3] at h
          match x, hk, h with
          | none, _, h => cases h
          | some true, hk, h =>
            simp only [Prod.mk.injEq, Outcome.ok.injEq] at h
            obtain ⟨rfl, rfl, rfl⟩ := h
            rw [storeIf_su]
            exact ⟨fun _ => ⟨hk.1, hvl _ hk.2⟩, fun h => by cases h⟩
          | some false, hk, h =>
            simp only [Prod.mk.injEq, Outcome.ok.injEq] at h
            obtain ⟨rfl, rfl, rfl⟩ := h
            rw [storeIf_su]
            exact ⟨fun h => (by cases h), fun _ => hk⟩

end generic

/-- C23 as documented: the reported time covers both phases. -/
def CCCVTimeComplete : Prop :=
  ∀ (fuel : ℕ) (c c' : Cyc (ECM 0)) (I Vset Ilim tlim dt : ℚ) (ndt : ℤ) (th' : Thr) (st : Status),
    0 < dt → 0 ≤ tlim → CCCVt fuel c I Vset Ilim tlim dt ndt Thr.zero = (.ok st, c', th') →
    th'.time = c'.su.st.time - c.su.st.time

/-- C23 is false of the code: a cell charged with 1 A to 3.2 V goes straight into the constant-voltage phase, is held
there for 3 s, and the reported time is 0. -/
theorem cccv_time_incomplete : ¬ CCCVTimeComplete := by
  intro hall
  have h1 : (CCCVt 5 { su := resCell 0 } 1 (32/10) (1/10) 3 1 0 Thr.zero).1 = .ok .ReachedTimeLimit := by decide +kernel
  have h2 : (CCCVt 5 { su := resCell 0 } 1 (32/10) (1/10) 3 1 0 Thr.zero).2.2.time = 0 := by decide +kernel
  have h3 : (CCCVt 5 { su := resCell 0 } 1 (32/10) (1/10) 3 1 0 Thr.zero).2.1.su.st.time = 3 := by decide +kernel
  have := hall 5 { su := resCell 0 } _ 1 (32/10) (1/10) 3 1 0 _ _ (by norm_num) (by norm_num) (Prod.ext h1 rfl)
  rw [h2, h3] at this
  simp [resCell] at this

variable {n : ℕ}

/-- C56: when `CV` reports one of its limits – on any tree – every cell was simulated for the same time `τ` within the
time limit, and `ReachedTimeLimit` means the full time. (The reported time does not contain `τ`, see C23.) -/
theorem cv_time_limit (d : ℕ) (c c' : Cyc (Tree (ECM n) d)) (Vset Ilim tlim dt : ℚ) (ndt : ℤ) (th th' : Thr) (st : Status)
    (h : CV c Vset Ilim tlim dt ndt th = (.ok st, c', th')) (hd : 0 < dt) (ht : 0 ≤ tlim)
    (hst : st = .ReachedTimeLimit ∨ st = .ReachedCurrentLimit ∨ st = .ReachedSmallCurrent) :
    ∃ τ, 0 ≤ τ ∧ τ ≤ tlim ∧ (st = .ReachedTimeLimit → τ = tlim) ∧
      (cells d c'.su).map (fun a => a.st.time) = (cells d c.su).map fun a => a.st.time + τ :=
  cells_cv_time d c c' Vset Ilim tlim dt ndt th th' st h hd ht hst

/-- C23, what does hold: on a single cell the charge reported for a constant-voltage phase is the charge the cell
counted, whatever the reason for stopping. -/
theorem cv_charge_partial (c c' : Cyc (ECM n)) (Vset Ilim tlim dt : ℚ) (ndt : ℤ) (th th' : Thr) (st : Status)
    (h : CV c Vset Ilim tlim dt ndt th = (.ok st, c', th')) :
    th'.Ah - th.Ah = c'.su.st.Ah - c.su.st.Ah :=
  cell_cv_charge c c' Vset Ilim tlim dt ndt th th' st h

/-- C23, charge of both phases: on a single cell, when the constant-current phase ended at one of its limits, the charge
reported by `CCCV` is the charge the cell counted over both phases, whatever ended the constant-voltage phase. -/
theorem cccv_charge_partial (fuel : ℕ) (c c' : Cyc (ECM n)) (I Vset Ilim tlim dt : ℚ) (ndt : ℤ) (th th' : Thr) (st : Status)
    (h : CCCVt fuel c I Vset Ilim tlim dt ndt th = (.ok st, c', th')) (hd : 0 < dt) (ht : 0 ≤ tlim)
    (hv : ¬ (Vset < cellLimits.Vmin ∨ Vset > cellLimits.Vmax)) (hdiag : c.diagnostic = false)
    (hcc : let u := c.su.withI 0; let i := if V u > Vset then |I| else -|I|;
      (CC fuel (c.withSU u) i Vset tlim dt ndt Thr.zero).1 = .ok .ReachedTimeLimit ∨
      (CC fuel (c.withSU u) i Vset tlim dt ndt Thr.zero).1 = .ok .ReachedVoltageLimit) :
    th'.Ah = c'.su.st.Ah - c.su.st.Ah :=
  cell_cccv_charge fuel c c' I Vset Ilim tlim dt ndt th th' st h hd ht hv hdiag hcc

/-- C23, for any unit: what `CCCV` reports is the sum of what its two phases report. -/
theorem cccv_sums_phases {U : Type} [StorageUnit U] [VoltageUnit U] (fuel : ℕ) (c c' : Cyc U) (I Vset Ilim tlim dt : ℚ)
    (ndt : ℤ) (th th' : Thr) (st : Status) (h : CCCVt fuel c I Vset Ilim tlim dt ndt th = (.ok st, c', th'))
    (hv : ¬ (Vset < (lim c.su).Vmin ∨ Vset > (lim c.su).Vmax)) (hz : (setCurrent c.su 0 false).1 = .ok .Success) :
    ∃ s1 c1 th1 th2,
      CC fuel (c.withSU (setCurrent c.su 0 false).2) (if V (setCurrent c.su 0 false).2 > Vset then |I| else -|I|) Vset tlim
        dt ndt Thr.zero = (.ok s1, c1, th1) ∧
      CV c1 Vset |Ilim| (tlim - th1.time) dt ndt Thr.zero = (.ok st, c', th2) ∧
      th'.Ah = th1.Ah + th2.Ah ∧ th'.Wh = th1.Wh + th2.Wh ∧ th'.time = th1.time := by
  unfold CCCVt at h
  rw [if_neg hv] at h
  generalize setCurrent c.su 0 false = r at *
  obtain ⟨o, u⟩ := r
  cases hz
  dsimp only at h ⊢
  rw [if_neg (by decide)] at h
  rcases hcc : CC fuel (c.withSU u) (if V u > Vset then |I| else -|I|) Vset tlim dt ndt Thr.zero with ⟨o1, c1, th1⟩
  rw [hcc] at h
  cases o1 with
  | throw e => cases h
  | ub e => cases h
  | ok s1 =>
    dsimp only at h ⊢
    have ht2 := cv_reports_no_time c1 Vset |Ilim| (tlim - th1.time) dt ndt Thr.zero
    rcases hcv : CV c1 Vset |Ilim| (tlim - th1.time) dt ndt Thr.zero with ⟨o2, c2, th2⟩
    rw [hcv] at h ht2
    cases o2 with
    | throw e => cases h
    | ub e => cases h
    | ok s2 =>
      simp only [Prod.mk.injEq, Outcome.ok.injEq] at h
      obtain ⟨rfl, rfl, rfl⟩ := h
      have : th2.time = 0 := ht2
      exact ⟨s1, c1, th1, th2, rfl, hcv, rfl, rfl, by simp [this]⟩

/-- Non-vacuity: a cell discharged with 1 A to 3.1 V: both phases deliver charge. -/
example : (CCCVt 50 { su := resCell 0 } 1 (31/10) (1/10) 3 1 0 Thr.zero).1 = .ok .ReachedTimeLimit ∧
    (CC 50 ({ su := resCell 0 } : Cyc (ECM 0)) 1 (31/10) 3 1 0 Thr.zero).1 = .ok .ReachedVoltageLimit := by
  constructor <;> decide +kernel

/-- Non-vacuity of C56 and of the partial C23: 3 s at 3.2 V. -/
example : (CV { su := resCell 0 } (32/10) (1/10) 3 1 0 Thr.zero).1 = .ok .ReachedTimeLimit ∧
    (CV { su := resCell 0 } (32/10) (1/10) 3 1 0 Thr.zero).2.2.Ah > 0 := by
  constructor <;> decide +kernel

end Slide

import Verif.Lemmas.Cycler
import Verif.Lemmas.CellLaws

namespace Slide
open StorageUnit Spec Cyc

variable {U : Type} [StorageUnit U]

/-! ### rest -/

theorem restLoop_inr_clocks [Clocked U] {tlim : ℚ} {ndt : ℤ} {nMax : ℕ} (fuel : ℕ) {v v' : RestVars} {c c' : Cyc U}
    (h : restLoop tlim ndt nMax fuel v c = (.ok (.inr v'), c')) (ht : v.ttot ≤ tlim) (hd : 0 < v.dti)
    (hn : 1 ≤ v.nOnce) (hm : 1 ≤ nMax) :
    v'.ttot = tlim ∧ Clocked.clocks c'.su = (Clocked.clocks c.su).map fun t => t + (tlim - v.ttot) := by
  have stop : ∀ {v : RestVars} {c : Cyc U}, v.ttot ≤ tlim → ¬ v.ttot < tlim →
      ((.ok (.inr v), c) : Outcome (Status ⊕ RestVars) × Cyc U) = (.ok (.inr v'), c') →
      v'.ttot = tlim ∧ Clocked.clocks c'.su = (Clocked.clocks c.su).map fun t => t + (tlim - v.ttot) := by
    intro v c ht hlt h
    simp only [Prod.mk.injEq, Outcome.ok.injEq, Sum.inr.injEq] at h
    obtain ⟨rfl, rfl⟩ := h
    have : v.ttot = tlim := le_antisymm ht (not_lt.mp hlt)
    exact ⟨this, by simp [this]⟩
  induction fuel generalizing v c with
  | zero =>
    unfold restLoop at h
    by_cases hlt : v.ttot < tlim
    · simp [hlt] at h
    · rw [if_neg hlt] at h
      exact stop ht hlt h
  | succ fuel ih =>
    unfold restLoop at h
    by_cases hlt : v.ttot < tlim
    · rw [if_pos hlt] at h
      rcases hb : restBody tlim ndt nMax v c with ⟨o, c1⟩
      rw [hb] at h
      match o, hb, h with
      | .throw e, _, h => cases h
      | .ub e, _, h => cases h
      | .ok (.inl st), _, h => cases h
      | .ok (.inr v1), hb, h =>
        obtain ⟨dti, k, h1, h2, h3, h4, h5, h6, h7, h8, h9, h10, h11, h12⟩ := restBody_inr hb hlt hd hn hm
        obtain ⟨r1, r2⟩ := ih h h5 (by rw [h3]; exact h1) h8
        refine ⟨r1, ?_⟩
        rw [r2, h11, Clocked.step_clocks _ _ _ h10, Clocked.set_clocks, List.map_map]
        apply List.map_congr_left
        intro t _
        simp only [Function.comp_apply, h4]
        ring
    · rw [if_neg hlt] at h
      exact stop ht hlt h

theorem nMax_pos {ndt : ℤ} (a : ℕ) (ha : 1 ≤ a) : 1 ≤ (if decide (0 < ndt) = true then min a ndt.toNat else a) := by
  split_ifs with h
  · have : 0 < ndt := by simpa using h
    omega
  · exact ha

theorem restBody_restable {P : U → Prop} (hP : Restable P) {tlim : ℚ} {ndt : ℤ} {nMax : ℕ} {v : RestVars} {c : Cyc U}
    (hc : P c.su) (ht : v.ttot < tlim) (hd : 0 < v.dti) (hn : 1 ≤ v.nOnce) :
    ∃ v' c', restBody tlim ndt nMax v c = (.ok (.inr v'), c') ∧ P c'.su := by
  have hch := choose_step (tlim - v.ttot) v.dti v.nOnce (by linarith) hd hn
  dsimp only at hch
  unfold restBody
  obtain ⟨st, hs1, hs2⟩ := hP.set _ hc
  have hp1 := hP.set_P _ hc
  generalize StorageUnit.setCurrent c.su 0 false = r at *
  obtain ⟨o, u1⟩ := r
  cases hs1
  dsimp only
  rw [hs2, if_neg (by simp)]
  have hst := hP.step u1 (if v.dti > tlim - v.ttot then tlim - v.ttot else v.dti)
    (if (v.nOnce : ℚ) * v.dti > tlim - v.ttot then 1 else v.nOnce) hp1 hch.1.le
  have hp2 := hP.step_P u1 (if v.dti > tlim - v.ttot then tlim - v.ttot else v.dti)
    (if (v.nOnce : ℚ) * v.dti > tlim - v.ttot then 1 else v.nOnce) hp1 hch.1.le
  generalize timeStep u1 (if v.dti > tlim - v.ttot then tlim - v.ttot else v.dti)
    (if (v.nOnce : ℚ) * v.dti > tlim - v.ttot then 1 else v.nOnce) = r2 at *
  obtain ⟨o2, u2⟩ := r2
  cases hst
  exact ⟨_, _, rfl, by simpa using hp2⟩

theorem restLoop_total {P : U → Prop} (hP : Restable P) {tlim : ℚ} {ndt : ℤ} {nMax : ℕ} (fuel : ℕ) {v : RestVars}
    {c : Cyc U} (hc : P c.su) (ht : v.ttot ≤ tlim) (hd : 0 < v.dti) (hn : 1 ≤ v.nOnce) (hm : 1 ≤ nMax)
    (hf : tlim ≤ v.ttot + fuel * v.dti) :
    ∃ v' c', restLoop tlim ndt nMax fuel v c = (.ok (.inr v'), c') ∧ v'.ttot = tlim ∧ P c'.su := by
  induction fuel generalizing v c with
  | zero =>
    unfold restLoop
    have hlt : ¬ v.ttot < tlim := by simp at hf; linarith
    exact ⟨v, c, by rw [if_neg hlt], by simp at hf; linarith, hc⟩
  | succ fuel ih =>
    unfold restLoop
    by_cases hlt : v.ttot < tlim
    · rw [if_pos hlt]
      obtain ⟨v1, c1, hb, hp⟩ := restBody_restable (ndt := ndt) (nMax := nMax) hP hc hlt hd hn
      rw [hb]
      obtain ⟨dti, k, h1, h2, h3, h4, h5, h6, h7, h8, h9, h10, h11, h12⟩ := restBody_inr hb hlt hd hn hm
      refine ih hp h5 (by rw [h3]; exact h1) h8 ?_
      rcases eq_or_lt_of_le h5 with e | e
      · rw [e, h3]; have : (0:ℚ) ≤ fuel * dti := by positivity
        linarith
      · rw [h3, h6 e]
        rcases h7 with e7 | e7
        · exact absurd e7 (ne_of_lt e)
        · push_cast at hf
          linarith
    · rw [if_neg hlt]
      exact ⟨v, c, rfl, le_antisymm ht (not_lt.mp hlt), hc⟩

theorem restLoop_inl {tlim : ℚ} {ndt : ℤ} {nMax : ℕ} (fuel : ℕ) {v : RestVars} {c c' : Cyc U} {st : Status}
    (h : restLoop tlim ndt nMax fuel v c = (.ok (.inl st), c')) : st.isBad = true := by
  induction fuel generalizing v c with
  | zero =>
    unfold restLoop at h
    by_cases hlt : v.ttot < tlim
    · rw [if_pos hlt] at h; cases h
    · rw [if_neg hlt] at h; cases h
  | succ fuel ih =>
    unfold restLoop at h
    by_cases hlt : v.ttot < tlim
    · rw [if_pos hlt] at h
      rcases hb : restBody tlim ndt nMax v c with ⟨o, c1⟩
      rw [hb] at h
      match o, hb, h with
      | .throw e, _, h => cases h
      | .ub e, _, h => cases h
      | .ok (.inr v1), _, h => exact ih h
      | .ok (.inl st1), hb, h =>
        simp only [Prod.mk.injEq, Outcome.ok.injEq, Sum.inl.injEq] at h
        obtain ⟨rfl, rfl⟩ := h
        unfold restBody at hb
        generalize StorageUnit.setCurrent c.su 0 false = r at hb
        obtain ⟨o1, u1⟩ := r
        cases o1 with
        | throw e => cases hb
        | ub e => cases hb
        | ok st2 =>
          dsimp only at hb
          by_cases hbad : st2.isBad = true
          · rw [if_pos hbad] at hb
            simp only [Prod.mk.injEq, Outcome.ok.injEq, Sum.inl.injEq] at hb
            rw [← hb.1]; exact hbad
          · rw [if_neg hbad] at hb
            generalize timeStep u1 _ _ = r2 at hb
            obtain ⟨o2, u2⟩ := r2
            cases o2 <;> cases hb
    · rw [if_neg hlt] at h; cases h

/-- Enough fuel is enough: after `tlim/dt` iterations the loop has ended by itself, whatever the unit does. -/
theorem restLoop_more {tlim : ℚ} {ndt : ℤ} {nMax : ℕ} (fuel k : ℕ) {v : RestVars} {c : Cyc U}
    (hd : 0 < v.dti) (hn : 1 ≤ v.nOnce) (hm : 1 ≤ nMax) (hf : tlim ≤ v.ttot + fuel * v.dti) :
    restLoop tlim ndt nMax (fuel + k) v c = restLoop tlim ndt nMax fuel v c := by
  induction fuel generalizing v c with
  | zero =>
    have hlt : ¬ v.ttot < tlim := by simp at hf; linarith
    cases k with
    | zero => rfl
    | succ k =>
      rw [Nat.zero_add]
      unfold restLoop
      rw [if_neg hlt, if_neg hlt]
  | succ fuel ih =>
    rw [Nat.succ_add]
    unfold restLoop
    by_cases hlt : v.ttot < tlim
    · rw [if_pos hlt, if_pos hlt]
      rcases hb : restBody tlim ndt nMax v c with ⟨o, c1⟩
      match o, hb with
      | .throw e, _ => rfl
      | .ub e, _ => rfl
      | .ok (.inl st1), _ => rfl
      | .ok (.inr v1), hb =>
        obtain ⟨dti, j, h1, h2, h3, h4, h5, h6, h7, h8, h9, h10, h11, h12⟩ := restBody_inr hb hlt hd hn hm
        refine ih (by rw [h3]; exact h1) h8 ?_
        rcases eq_or_lt_of_le h5 with e | e
        · rw [e, h3]; have : (0:ℚ) ≤ fuel * dti := by positivity
          linarith
        · rw [h3, h6 e]
          rcases h7 with e7 | e7
          · exact absurd e7 (ne_of_lt e)
          · push_cast at hf
            linarith
    · rw [if_neg hlt, if_neg hlt]

/-! ### CC -/

/-- `Cycler::setCurrent` without diagnostics only performs unchecked `setCurrent` calls. -/
theorem cycSet_su {P : U → Prop} (hset : ∀ u i b, P u → P (StorageUnit.setCurrent u i b).2) (c : Cyc U) (I vlim : ℚ)
    (h : P c.su) : P (c.setCurrent I vlim).2.su := by
  unfold Cyc.setCurrent
  have h1 := hset c.su I c.diagnostic h
  generalize StorageUnit.setCurrent c.su I c.diagnostic = r at *
  obtain ⟨o, u1⟩ := r
  cases o with
  | throw e => exact h1
  | ub e => exact h1
  | ok st =>
    dsimp only
    by_cases hv : st.isVoltageLimitsViolated = true
    · rw [if_pos hv]
      have h2 := hset u1 (StorageUnit.I c.su) false h1
      generalize StorageUnit.setCurrent u1 (StorageUnit.I c.su) false = r2 at *
      obtain ⟨o2, u2⟩ := r2
      cases o2 <;> exact h2
    · rw [if_neg hv]
      split_ifs <;> exact h1

@[simp] theorem cycSet_diag (c : Cyc U) (I vlim : ℚ) : (c.setCurrent I vlim).2.diagnostic = c.diagnostic := by
  unfold Cyc.setCurrent
  generalize StorageUnit.setCurrent c.su I c.diagnostic = r at *
  obtain ⟨o, u1⟩ := r
  cases o with
  | throw e => rfl
  | ub e => rfl
  | ok st =>
    dsimp only
    by_cases hv : st.isVoltageLimitsViolated = true
    · rw [if_pos hv]
      generalize StorageUnit.setCurrent u1 (StorageUnit.I c.su) false = r2 at *
      obtain ⟨o2, u2⟩ := r2
      cases o2 <;> rfl
    · rw [if_neg hv]
      split_ifs <;> rfl

theorem ccAdapt_pos (I vlim vo vi vlow : ℚ) (nMax nOnce : ℕ) (up : Bool) (hm : 1 ≤ nMax) :
    1 ≤ (ccAdapt I vlim vo vi vlow nMax nOnce up).1 := by
  unfold ccAdapt
  by_cases h : I < 0
  · rw [if_pos h]; exact clamp1_pos _ _ hm
  · rw [if_neg h]; exact clamp1_pos _ _ hm

theorem ccVoltage_inr {c : Cyc U} {vi : ℚ} (h : ccVoltage c = .inr vi) : vi = V c.su := by
  unfold ccVoltage at h
  by_cases hdg : c.diagnostic = true
  · rw [if_pos hdg] at h
    dsimp only at h
    by_cases hs : (StorageUnit.checkVoltage c.su).isSuccessful = true
    · rw [if_pos hs] at h; exact (Sum.inr.inj h).symm
    · rw [if_neg hs] at h; cases h
  · rw [if_neg hdg] at h
    by_cases hs : V c.su ≤ 0
    · rw [if_pos hs] at h; cases h
    · rw [if_neg hs] at h; exact (Sum.inr.inj h).symm

/-- What one iteration of `CC` does when it does not return early. -/
theorem ccBody_next {I vlim tlim : ℚ} {ndt : ℤ} {nMax : ℕ} {v v' : CCVars} {c c' : Cyc U} {th th' : Thr} {x : CCNext}
    (h : ccBody I vlim tlim ndt nMax v c th = (.ok x, c', th')) (hx : x = .brk v' ∨ x = .cont v')
    (ht : v.ttot < tlim) (hd : 0 < v.dti) (hn : 1 ≤ v.nOnce) (hm : 1 ≤ nMax) :
    ∃ (dti : ℚ) (n : ℕ), 0 < dti ∧ 1 ≤ n ∧ v'.dti = dti ∧ v'.ttot = v.ttot + dti * n ∧ v'.ttot ≤ tlim ∧
      (v'.ttot < tlim → dti = v.dti) ∧ (v'.ttot = tlim ∨ v.ttot + v.dti ≤ v'.ttot) ∧
      1 ≤ v'.nOnce ∧
      (timeStep (c.setCurrent I vlim).2.su dti n).1 = .ok () ∧
      c'.su = (timeStep (c.setCurrent I vlim).2.su dti n).2 ∧ c'.diagnostic = c.diagnostic ∧
      th'.time = th.time + dti * n ∧ th'.Ah = th.Ah + |I| * (dti * n) / 3600 ∧
      th'.Wh = th.Wh + |I| * (dti * n) / 3600 * V c'.su ∧
      (x = .brk v' ↔ ((I < 0 ∧ V c'.su > vlim) ∨ (I > 0 ∧ V c'.su < vlim))) := by
  unfold ccBody at h
  have hc := choose_step (tlim - v.ttot) v.dti v.nOnce (by linarith) hd hn
  dsimp only at hc
  generalize hn1 : (if (v.nOnce : ℚ) * v.dti > tlim - v.ttot then 1 else v.nOnce) = n1 at *
  generalize hd1 : (if v.dti > tlim - v.ttot then tlim - v.ttot else v.dti) = d1 at *
  have hdiag := cycSet_diag c I vlim
  rcases hs : c.setCurrent I vlim with ⟨o, c1⟩
  rw [hs] at h hdiag
  cases o with
  | throw e => simp at h
  | ub w => simp at h
  | ok st =>
    dsimp only at h
    rcases hstep : timeStep c1.su d1 n1 with ⟨o2, u2⟩
    rw [hstep] at h
    cases o2 with
    | throw e =>
      simp only [Prod.mk.injEq, Outcome.ok.injEq] at h
      rcases hx with hx | hx <;> · rw [hx] at h; cases h.1
    | ub w => simp at h
    | ok _ =>
      dsimp only at h
      rcases hv : ccVoltage (c1.withSU u2) with st | vi
      · rw [hv] at h
        simp only [Prod.mk.injEq, Outcome.ok.injEq] at h
        rcases hx with hx | hx <;> · rw [hx] at h; cases h.1
      · rw [hv] at h
        have hvi : vi = V u2 := by
          exact ccVoltage_inr hv
        dsimp only at h
        obtain ⟨c1', c2, c3, c4, c5, c6, c7⟩ := hc
        have e1 : v.ttot + d1 * n1 ≤ tlim := by linarith
        have e2 : v.ttot + d1 * n1 < tlim → d1 = v.dti := fun h => c6 (by linarith)
        have e3 : v.ttot + d1 * n1 = tlim ∨ v.ttot + v.dti ≤ v.ttot + d1 * n1 := by
          rcases c7 with e | e
          · left; linarith
          · right; linarith
        by_cases hb : (I < 0 ∧ vi > vlim) ∨ (I > 0 ∧ vi < vlim)
        · rw [if_pos hb] at h
          simp only [Prod.mk.injEq, Outcome.ok.injEq] at h
          obtain ⟨h1, h2, h3⟩ := h
          rcases hx with hx | hx
          · rw [hx] at h1
            have h1 := CCNext.brk.inj h1
            subst h1 h2 h3
            refine ⟨d1, n1, c1', c2, rfl, rfl, e1, e2, e3, c2, ?_, ?_, ?_, rfl, rfl, ?_, ?_⟩
            · simp only [hstep]
            · simp [hstep]
            · simpa using hdiag
            · simp [hvi]
            · simp only [storeIf_su, withSU_su]
              rw [← hvi]
              exact ⟨fun _ => hb, fun _ => hx⟩
          · rw [hx] at h1; cases h1
        · rw [if_neg hb] at h
          simp only [Prod.mk.injEq, Outcome.ok.injEq] at h
          obtain ⟨h1, h2, h3⟩ := h
          rcases hx with hx | hx
          · rw [hx] at h1; cases h1
          · rw [hx] at h1
            have h1 := CCNext.cont.inj h1
            subst h1 h2 h3
            refine ⟨d1, n1, c1', c2, rfl, rfl, e1, e2, e3, ?_, ?_, ?_, ?_, rfl, rfl, ?_, ?_⟩
            · show 1 ≤ (ccAdapt _ _ _ _ _ _ _ _).1
              exact ccAdapt_pos _ _ _ _ _ _ _ _ hm
            · simp only [hstep]
            · simp [hstep]
            · simpa using hdiag
            · simp [hvi]
            · simp only [storeIf_su, withSU_su]
              rw [← hvi, hx]
              exact ⟨fun h => (by cases h), fun h => absurd h hb⟩

/-- What a unit records while a constant current `I` is applied: `Good` is kept, and after an unchecked/checked
`Cycler::setCurrent` and an accepted time step the observation `ob` has moved by `upd (n*dt)`. -/
structure Observed {A : Type} (Good : Cyc U → Prop) (ob : U → A) (upd : ℚ → A → A) (I vlim : ℚ) : Prop where
  next : ∀ c dt n, Good c → 0 < dt → 1 ≤ n → (timeStep (c.setCurrent I vlim).2.su dt n).1 = .ok () →
    ob (timeStep (c.setCurrent I vlim).2.su dt n).2 = upd (dt * n) (ob c.su)
  keep : ∀ (c c' : Cyc U) dt n, Good c → 0 < dt → 1 ≤ n → (timeStep (c.setCurrent I vlim).2.su dt n).1 = .ok () →
    c'.su = (timeStep (c.setCurrent I vlim).2.su dt n).2 → c'.diagnostic = c.diagnostic → Good c'
  zero : ∀ a, upd 0 a = a
  add : ∀ s t a, upd t (upd s a) = upd (s + t) a

theorem ccLoop_inr {A : Type} {Good : Cyc U → Prop} {ob : U → A} {upd : ℚ → A → A} {I vlim tlim : ℚ}
    (hO : Observed Good ob upd I vlim) {ndt : ℤ} {nMax : ℕ} (fuel : ℕ) {v v' : CCVars} {c c' : Cyc U} {th th' : Thr}
    {b : Bool} (h : ccLoop I vlim tlim ndt nMax fuel v c th = (.ok (.inr (v', b)), c', th'))
    (hg : Good c) (ht : v.ttot ≤ tlim) (hd : 0 < v.dti) (hn : 1 ≤ v.nOnce) (hm : 1 ≤ nMax) :
    v.ttot ≤ v'.ttot ∧ v'.ttot ≤ tlim ∧ (b = false → v'.ttot = tlim) ∧
      th'.time = th.time + (v'.ttot - v.ttot) ∧ th'.Ah = th.Ah + |I| * (v'.ttot - v.ttot) / 3600 ∧
      ob c'.su = upd (v'.ttot - v.ttot) (ob c.su) ∧
      (b = true → v.ttot < v'.ttot ∧ ((I < 0 ∧ V c'.su > vlim) ∨ (I > 0 ∧ V c'.su < vlim))) := by
  have stop : ∀ {v : CCVars} {c : Cyc U} {th : Thr}, v.ttot ≤ tlim → ¬ v.ttot < tlim →
      ((.ok (.inr (v, false)), c, th) : Outcome (Status ⊕ (CCVars × Bool)) × Cyc U × Thr) =
        (.ok (.inr (v', b)), c', th') →
      v.ttot ≤ v'.ttot ∧ v'.ttot ≤ tlim ∧ (b = false → v'.ttot = tlim) ∧
      th'.time = th.time + (v'.ttot - v.ttot) ∧ th'.Ah = th.Ah + |I| * (v'.ttot - v.ttot) / 3600 ∧
      ob c'.su = upd (v'.ttot - v.ttot) (ob c.su) ∧
      (b = true → v.ttot < v'.ttot ∧ ((I < 0 ∧ V c'.su > vlim) ∨ (I > 0 ∧ V c'.su < vlim))) := by
    intro v c th ht hlt h
    simp only [Prod.mk.injEq, Outcome.ok.injEq, Sum.inr.injEq] at h
    obtain ⟨⟨rfl, rfl⟩, rfl, rfl⟩ := h
    have : v.ttot = tlim := le_antisymm ht (not_lt.mp hlt)
    refine ⟨le_refl _, ht, fun _ => this, by simp, by simp, by simp [hO.zero], fun h => by cases h⟩
  induction fuel generalizing v c th with
  | zero =>
    unfold ccLoop at h
    by_cases hlt : v.ttot < tlim
    · simp [hlt] at h
    · rw [if_neg hlt] at h
      exact stop ht hlt h
  | succ fuel ih =>
    unfold ccLoop at h
    by_cases hlt : v.ttot < tlim
    · rw [if_pos hlt] at h
      rcases hb : ccBody I vlim tlim ndt nMax v c th with ⟨o, c1, th1⟩
      rw [hb] at h
      match o, hb, h with
      | .throw e, _, h => cases h
      | .ub e, _, h => cases h
      | .ok (.ret st), _, h => cases h
      | .ok (.brk v1), hb, h =>
        obtain ⟨dti, k, h1, h2, h3, h4, h5, h6, h7, h8, h9, h10, h11, h12, h13, h14, h15⟩ :=
          ccBody_next hb (Or.inl rfl) hlt hd hn hm
        simp only [Prod.mk.injEq, Outcome.ok.injEq, Sum.inr.injEq] at h
        obtain ⟨⟨rfl, rfl⟩, rfl, rfl⟩ := h
        have hk : (1:ℚ) ≤ k := by exact_mod_cast h2
        have hpos : 0 < dti * k := by positivity
        have e : v1.ttot - v.ttot = dti * k := by rw [h4]; ring
        refine ⟨by linarith, h5, fun h => (by cases h), by rw [e, h12], by rw [e, h13], ?_, fun _ => ⟨by linarith, h15.mp rfl⟩⟩
        rw [e, h10, hO.next c dti k hg h1 h2 h9]
      | .ok (.cont v1), hb, h =>
        obtain ⟨dti, k, h1, h2, h3, h4, h5, h6, h7, h8, h9, h10, h11, h12, h13, h14, h15⟩ :=
          ccBody_next hb (Or.inr rfl) hlt hd hn hm
        have hg1 : Good c1 := hO.keep c c1 dti k hg h1 h2 h9 h10 h11
        obtain ⟨r1, r2, r3, r4, r5, r6, r7⟩ := ih h hg1 h5 (by rw [h3]; exact h1) h8
        have hk : (1:ℚ) ≤ k := by exact_mod_cast h2
        have hpos : 0 < dti * k := by positivity
        have e : v1.ttot - v.ttot = dti * k := by rw [h4]; ring
        refine ⟨by linarith, r2, r3, by rw [r4, h12]; linarith, ?_, ?_, fun hb => ⟨by linarith [(r7 hb).1], (r7 hb).2⟩⟩
        · rw [r5, h13, ← e]; ring
        · rw [r6, h10, hO.next c dti k hg h1 h2 h9, hO.add, ← e]; congr 1; ring
    · rw [if_neg hlt] at h
      exact stop ht hlt h

/-! ### what `CC` and `CV` do to the unit -/

theorem ccBody_keeps {P : U → Prop} (hset : ∀ u i b, P u → P (StorageUnit.setCurrent u i b).2)
    (hstep : ∀ u dt k, P u → P (timeStep u dt k).2) (I vlim tlim : ℚ) (ndt : ℤ) (nMax : ℕ) (v : CCVars) (c : Cyc U)
    (th : Thr) (h : P c.su) :
    P (ccBody I vlim tlim ndt nMax v c th).2.1.su ∧ (ccBody I vlim tlim ndt nMax v c th).2.1.diagnostic = c.diagnostic := by
  unfold ccBody
  have h1 := cycSet_su hset c I vlim h
  have hd := cycSet_diag c I vlim
  generalize c.setCurrent I vlim = r at *
  obtain ⟨o, c1⟩ := r
  cases o with
  | throw e => exact ⟨h1, hd⟩
  | ub e => exact ⟨h1, hd⟩
  | ok st =>
    dsimp only at *
    have h2 := hstep c1.su (if v.dti > tlim - v.ttot then tlim - v.ttot else v.dti)
      (if (v.nOnce : ℚ) * v.dti > tlim - v.ttot then 1 else v.nOnce) h1
    generalize timeStep c1.su (if v.dti > tlim - v.ttot then tlim - v.ttot else v.dti)
      (if (v.nOnce : ℚ) * v.dti > tlim - v.ttot then 1 else v.nOnce) = r2 at *
    obtain ⟨o2, u2⟩ := r2
    cases o2 with
    | throw e => exact ⟨h2, hd⟩
    | ub e => exact ⟨h2, hd⟩
    | ok _ =>
      dsimp only at *
      rcases ccVoltage (c1.withSU u2) with s | vi
      · exact ⟨h2, hd⟩
      · dsimp only
        by_cases hb : (I < 0 ∧ vi > vlim) ∨ (I > 0 ∧ vi < vlim)
        · rw [if_pos hb]; exact ⟨by simpa using h2, by simpa using hd⟩
        · rw [if_neg hb]; exact ⟨by simpa using h2, by simpa using hd⟩

theorem ccLoop_keeps {P : U → Prop} (hset : ∀ u i b, P u → P (StorageUnit.setCurrent u i b).2)
    (hstep : ∀ u dt k, P u → P (timeStep u dt k).2) (I vlim tlim : ℚ) (ndt : ℤ) (nMax fuel : ℕ) (v : CCVars) (c : Cyc U)
    (th : Thr) (h : P c.su) :
    P (ccLoop I vlim tlim ndt nMax fuel v c th).2.1.su ∧
      (ccLoop I vlim tlim ndt nMax fuel v c th).2.1.diagnostic = c.diagnostic := by
  induction fuel generalizing v c th with
  | zero =>
    unfold ccLoop
    split_ifs <;> exact ⟨h, rfl⟩
  | succ fuel ih =>
    unfold ccLoop
    by_cases hlt : v.ttot < tlim
    · rw [if_pos hlt]
      have hb := ccBody_keeps hset hstep I vlim tlim ndt nMax v c th h
      generalize ccBody I vlim tlim ndt nMax v c th = r at *
      obtain ⟨o, c1, th1⟩ := r
      match o, hb with
      | .throw e, hb => exact hb
      | .ub e, hb => exact hb
      | .ok (.ret st), hb => exact hb
      | .ok (.brk v1), hb => exact hb
      | .ok (.cont v1), hb =>
        obtain ⟨r1, r2⟩ := ih v1 c1 th1 hb.1
        exact ⟨r1, r2.trans hb.2⟩
    · rw [if_neg hlt]; exact ⟨h, rfl⟩

/-- `CC` only acts on the unit through `setCurrent` and `timeStep_CC`. -/
theorem CC_keeps {P : U → Prop} (hset : ∀ u i b, P u → P (StorageUnit.setCurrent u i b).2)
    (hstep : ∀ u dt k, P u → P (timeStep u dt k).2) (fuel : ℕ) (c : Cyc U) (I vlim tlim dt : ℚ) (ndt : ℤ)
    (th : Thr) (h : P c.su) :
    P (CC fuel c I vlim tlim dt ndt th).2.1.su ∧ (CC fuel c I vlim tlim dt ndt th).2.1.diagnostic = c.diagnostic := by
  unfold CC
  dsimp only
  have h1 := cycSet_su hset (storeIf (decide (0 < ndt)) c) I vlim (by simpa using h)
  have hd := cycSet_diag (storeIf (decide (0 < ndt)) c) I vlim
  rw [storeIf_diag] at hd
  generalize Cyc.setCurrent (storeIf (decide (0 < ndt)) c) I vlim = r at *
  obtain ⟨o, c1⟩ := r
  cases o with
  | throw e => exact ⟨h1, hd⟩
  | ub e => exact ⟨h1, hd⟩
  | ok st =>
    dsimp only at *
    by_cases hs : (!st.isSuccessful) = true
    · rw [if_pos hs]; exact ⟨h1, hd⟩
    · rw [if_neg hs]
      by_cases hv : (I < 0 ∧ V c1.su > vlim) ∨ (I > 0 ∧ V c1.su < vlim)
      · rw [if_pos hv]; exact ⟨h1, hd⟩
      · rw [if_neg hv]
        have hl := ccLoop_keeps hset hstep I vlim tlim ndt (if decide (0 < ndt) = true then min 2 ndt.toNat else 2) fuel
          { dti := dt, ttot := 0, idat := 0, nOnce := 1, vo := V c1.su, vi := V c1.su, allowUp := true } c1 th h1
        generalize ccLoop I vlim tlim ndt (if decide (0 < ndt) = true then min 2 ndt.toNat else 2) fuel
          { dti := dt, ttot := 0, idat := 0, nOnce := 1, vo := V c1.su, vi := V c1.su, allowUp := true } c1 th = r2 at *
        obtain ⟨o2, c2, th2⟩ := r2
        match o2, hl with
        | .throw e, hl => exact ⟨hl.1, hl.2.trans hd⟩
        | .ub e, hl => exact ⟨hl.1, hl.2.trans hd⟩
        | .ok (.inl s), hl => exact ⟨hl.1, hl.2.trans hd⟩
        | .ok (.inr (v, b)), hl =>
          dsimp only
          by_cases htt : v.ttot ≥ tlim
          · rw [if_pos htt]; exact ⟨by simpa using hl.1, by simpa using hl.2.trans hd⟩
          · rw [if_neg htt]
            by_cases hb : b = true
            · rw [if_pos hb]; exact ⟨by simpa using hl.1, by simpa using hl.2.trans hd⟩
            · rw [if_neg hb]; exact ⟨hl.1, hl.2.trans hd⟩

section
variable [VoltageUnit U]

/-- One iteration of `CV`, all cases. -/
inductive CvStep (Vset Ilim tlim dt : ℚ) (nt : ℕ) (i : ℕ) (c : Cyc U) (ttot : ℚ) (th : Thr) :
    Outcome (Status ⊕ Option Bool) → Cyc U → ℚ → Thr → Prop
  | failed (o : Outcome (Status ⊕ Option Bool)) (c' : Cyc U)
      (h : (∃ e, o = .throw e) ∨ (∃ w, o = .ub w) ∨ o = .ok (.inl .timeStep_CC_failed))
      (hu : o = .ok (.inl .timeStep_CC_failed) → ∃ dti e, c'.su = (timeStep (VoltageUnit.setVoltage c.su Vset).2 dti 1).2 ∧
        (timeStep (VoltageUnit.setVoltage c.su Vset).2 dti 1).1 = .throw e) :
      CvStep Vset Ilim tlim dt nt i c ttot th o c' ttot th
  | stepped (x : Status ⊕ Option Bool) (c' : Cyc U) (dti : ℚ) (th' : Thr)
      (hdti : dti = if i + 1 = nt then tlim - dt * ((nt : ℚ) - 1) else dt)
      (hok : (timeStep (VoltageUnit.setVoltage c.su Vset).2 dti 1).1 = .ok ())
      (hsu : c'.su = (timeStep (VoltageUnit.setVoltage c.su Vset).2 dti 1).2)
      (hth : th' = { time := th.time, Ah := th.Ah + |I c'.su * dti / 3600|,
                     Wh := th.Wh + |I c'.su * dti / 3600| * V c'.su })
      (hx : (x = .inl .VMINsafety_violation ∨ x = .inl .VMAXsafety_violation) ∨
            (x = .inr (some true) ∧ |I c'.su| < Ilim ∧ vLimit (V c'.su) Vset) ∨
            (x = .inr (some false) ∧ (|I c'.su| < Ilim / 10 ∨ |I c'.su| < 1/1000000)) ∨ x = .inr none) :
      CvStep Vset Ilim tlim dt nt i c ttot th (.ok x) c' (ttot + dti) th'

theorem cvBody_step (Vset Ilim tlim dt : ℚ) (nt : ℕ) (ndt : ℤ) (i : ℕ) (c : Cyc U) (ttot : ℚ) (th : Thr) :
    CvStep Vset Ilim tlim dt nt i c ttot th (cvBody Vset Ilim tlim dt nt ndt i c ttot th).1
      (cvBody Vset Ilim tlim dt nt ndt i c ttot th).2.1 (cvBody Vset Ilim tlim dt nt ndt i c ttot th).2.2.1
      (cvBody Vset Ilim tlim dt nt ndt i c ttot th).2.2.2 := by
  unfold cvBody
  rcases hs : VoltageUnit.setVoltage c.su Vset with ⟨o, u1⟩
  cases o with
  | throw e => exact .failed _ _ (Or.inl ⟨_, rfl⟩) (fun h => by cases h)
  | ub e => exact .failed _ _ (Or.inr (Or.inl ⟨_, rfl⟩)) (fun h => by cases h)
  | ok st =>
    dsimp only
    generalize hdti : (if i + 1 = nt then tlim - dt * ((nt : ℚ) - 1) else dt) = dti
    rcases ht : timeStep u1 dti 1 with ⟨o2, u2⟩
    cases o2 with
    | throw e =>
      refine .failed _ _ (Or.inr (Or.inr rfl)) (fun _ => ⟨dti, e, ?_, ?_⟩)
      · rw [hs]; simp [ht]
      · rw [hs]; simp only [ht]
    | ub e => exact .failed _ _ (Or.inr (Or.inl ⟨_, rfl⟩)) (fun h => by cases h)
    | ok _ =>
      dsimp only
      have e1 : (timeStep (VoltageUnit.setVoltage c.su Vset).2 dti 1).1 = .ok () := by rw [hs]; simp only [ht]
      have e2 : ∀ b, (storeIf b (c.withSU u2)).su = (timeStep (VoltageUnit.setVoltage c.su Vset).2 dti 1).2 := by
        intro b; rw [hs]; simp [ht]
      by_cases h1 : checkSafety ((lim u2).VMIN * (99/100)) ((lim u2).VMAX * (101/100)) (V u2) ≠ .SafeVoltage
      · rw [if_pos h1]
        refine .stepped _ _ dti _ hdti.symm e1 (e2 _) (by simp) (Or.inl ?_)
        unfold checkSafety at h1 ⊢
        split_ifs at h1 ⊢
        · exact Or.inl rfl
        · exact Or.inr rfl
        · exact absurd rfl h1
      · rw [if_neg h1]
        by_cases h2 : |I u2| < Ilim ∧ vLimit (V u2) Vset = true
        · rw [if_pos h2]
          exact .stepped _ _ dti _ hdti.symm e1 (e2 _) (by simp) (Or.inr (Or.inl ⟨rfl, by simpa using h2⟩))
        · rw [if_neg h2]
          by_cases h3 : |I u2| < Ilim / 10 ∨ |I u2| < 1/1000000
          · rw [if_pos h3]
            exact .stepped _ _ dti _ hdti.symm e1 (e2 _) (by simp) (Or.inr (Or.inr (Or.inl ⟨rfl, by simpa using h3⟩)))
          · rw [if_neg h3]
            exact .stepped _ _ dti _ hdti.symm e1 (e2 _) (by simp) (Or.inr (Or.inr (Or.inr rfl)))

/-- The loop never reports time. -/
theorem cvLoop_time (Vset Ilim tlim dt : ℚ) (nt : ℕ) (ndt : ℤ) (left i : ℕ) (c : Cyc U) (ttot : ℚ) (th : Thr) :
    (cvLoop Vset Ilim tlim dt nt ndt left i c ttot th).2.2.2.time = th.time := by
  induction left generalizing i c ttot th with
  | zero => rfl
  | succ left ih =>
    unfold cvLoop
    have hb := cvBody_step Vset Ilim tlim dt nt ndt i c ttot th
    generalize cvBody Vset Ilim tlim dt nt ndt i c ttot th = r at *
    obtain ⟨o, c', ttot', th'⟩ := r
    have ht : th'.time = th.time := by
      dsimp only at hb
      cases hb with
      | failed => rfl
      | stepped _ _ _ _ _ _ _ hth => rw [hth]
    match o with
    | .throw e => exact ht
    | .ub e => exact ht
    | .ok (.inl st) => exact ht
    | .ok (.inr (some b)) => exact ht
    | .ok (.inr none) => exact (ih _ _ _ _).trans ht

/-- The early returns of the loop. -/
theorem cvLoop_inl (Vset Ilim tlim dt : ℚ) (nt : ℕ) (ndt : ℤ) (left i : ℕ) (c : Cyc U) (ttot : ℚ) (th : Thr) (s : Status)
    (h : (cvLoop Vset Ilim tlim dt nt ndt left i c ttot th).1 = .ok (.inl s)) :
    s = .timeStep_CC_failed ∨ s = .VMINsafety_violation ∨ s = .VMAXsafety_violation := by
  induction left generalizing i c ttot th with
  | zero => cases h
  | succ left ih =>
    unfold cvLoop at h
    have hb := cvBody_step Vset Ilim tlim dt nt ndt i c ttot th
    generalize cvBody Vset Ilim tlim dt nt ndt i c ttot th = r at *
    obtain ⟨o, c', ttot', th'⟩ := r
    match o, hb, h with
    | .throw e, _, h => cases h
    | .ub e, _, h => cases h
    | .ok (.inr none), _, h => exact ih _ _ _ _ h
    | .ok (.inr (some b)), _, h => cases h
    | .ok (.inl st), hb, h =>
      have h : st = s := by simpa using h
      subst h
      dsimp only at hb
      cases hb with
      | failed _ _ hf _ =>
        rcases hf with ⟨e, hf⟩ | ⟨w, hf⟩ | hf
        · cases hf
        · cases hf
        · left; simpa using hf
      | stepped x _ dti th' _ _ _ _ hx => right; simpa using hx

end

/-! ### What every unit keeps -/

theorem restLoop_keeps {P : U → Prop} (hset : ∀ u i b, P u → P (StorageUnit.setCurrent u i b).2)
    (hstep : ∀ u dt k, P u → P (timeStep u dt k).2) (tlim : ℚ) (ndt : ℤ) (nMax fuel : ℕ) (v : RestVars) (c : Cyc U)
    (h : P c.su) : P (restLoop tlim ndt nMax fuel v c).2.su := by
  induction fuel generalizing v c with
  | zero => unfold restLoop; split_ifs <;> exact h
  | succ fuel ih =>
    unfold restLoop
    split_ifs
    · have hb : P (restBody tlim ndt nMax v c).2.su := by
        unfold restBody
        have h1 := hset c.su 0 false h
        rcases hk : StorageUnit.setCurrent c.su 0 false with ⟨st | e | w, u1⟩ <;> rw [hk] at h1
        · simp only
          by_cases hbad : st.isBad = true
          · rw [if_pos hbad]; exact h1
          · rw [if_neg hbad]
            generalize (if v.nOnce * v.dti > tlim - v.ttot then 1 else v.nOnce) = k0
            generalize (if v.dti > tlim - v.ttot then tlim - v.ttot else v.dti) = dt0
            have h2 := hstep u1 dt0 k0 h1
            rcases hk2 : timeStep u1 dt0 k0 with ⟨st | e | w, u2⟩ <;> rw [hk2] at h2
            · simpa using h2
            · exact h2
            · exact h2
        · exact h1
        · exact h1
      generalize restBody tlim ndt nMax v c = r at *
      obtain ⟨o, c'⟩ := r
      match o with
      | .throw e => exact hb
      | .ub e => exact hb
      | .ok (.inl st) => exact hb
      | .ok (.inr v') => exact ih v' c' hb
    · exact h

/-- What setting currents and time steps preserve, a rest preserves, whatever its outcome. -/
theorem rest_keeps {P : U → Prop} (hset : ∀ u i b, P u → P (StorageUnit.setCurrent u i b).2)
    (hstep : ∀ u dt k, P u → P (timeStep u dt k).2) (fuel : ℕ) (c : Cyc U) (tlim dt : ℚ) (ndt : ℤ) (th : Thr)
    (h : P c.su) : P (rest fuel c tlim dt ndt th).2.1.su := by
  unfold rest
  dsimp only
  have hl := restLoop_keeps hset hstep tlim ndt (if decide (0 < ndt) = true then min 10 ndt.toNat else 10) fuel
    { dti := dt, ttot := 0, idat := 0, nOnce := 1, ninc := true } (storeIf (decide (0 < ndt)) c) (by simpa using h)
  generalize restLoop tlim ndt (if decide (0 < ndt) = true then min 10 ndt.toNat else 10) fuel
    { dti := dt, ttot := 0, idat := 0, nOnce := 1, ninc := true } (storeIf (decide (0 < ndt)) c) = r at *
  obtain ⟨o, c1⟩ := r
  match o with
  | .throw e => exact hl
  | .ub e => exact hl
  | .ok (.inl st) => exact hl
  | .ok (.inr v) =>
    dsimp only
    split_ifs
    · have h1 := hset c1.su 0 false hl
      rcases hk : StorageUnit.setCurrent c1.su 0 false with ⟨st | e | w, u1⟩ <;> rw [hk] at h1
      · simpa using h1
      · exact h1
      · exact h1
    · exact hl

section
variable [VoltageUnit U]

theorem cvBody_keeps {P : U → Prop} (hvol : ∀ u v, P u → P (VoltageUnit.setVoltage u v).2)
    (hstep : ∀ u dt k, P u → P (timeStep u dt k).2) (Vset Ilim tlim dt : ℚ) (nt : ℕ) (ndt : ℤ) (i : ℕ) (c : Cyc U)
    (ttot : ℚ) (th : Thr) (h : P c.su) : P (cvBody Vset Ilim tlim dt nt ndt i c ttot th).2.1.su := by
  unfold cvBody
  have h1 := hvol c.su Vset h
  rcases hk : VoltageUnit.setVoltage c.su Vset with ⟨st | e | w, u1⟩ <;> rw [hk] at h1
  · simp only
    generalize (if i + 1 = nt then tlim - dt * ((nt : ℚ) - 1) else dt) = dti
    have h2 := hstep u1 dti 1 h1
    rcases hk2 : timeStep u1 dti 1 with ⟨st | e | w, u2⟩ <;> rw [hk2] at h2
    · simp only
      split_ifs <;> simpa using h2
    · exact h2
    · exact h2
  · exact h1
  · exact h1

theorem cvLoop_keeps {P : U → Prop} (hvol : ∀ u v, P u → P (VoltageUnit.setVoltage u v).2)
    (hstep : ∀ u dt k, P u → P (timeStep u dt k).2) (Vset Ilim tlim dt : ℚ) (nt : ℕ) (ndt : ℤ) (left i : ℕ) (c : Cyc U)
    (ttot : ℚ) (th : Thr) (h : P c.su) : P (cvLoop Vset Ilim tlim dt nt ndt left i c ttot th).2.1.su := by
  induction left generalizing i c ttot th with
  | zero => exact h
  | succ left ih =>
    unfold cvLoop
    have hb := cvBody_keeps hvol hstep Vset Ilim tlim dt nt ndt i c ttot th h
    generalize cvBody Vset Ilim tlim dt nt ndt i c ttot th = r at *
    obtain ⟨o, c', ttot', th'⟩ := r
    match o with
    | .throw e => exact hb
    | .ub e => exact hb
    | .ok (.inl st) => exact hb
    | .ok (.inr (some b)) => exact hb
    | .ok (.inr none) => exact ih _ _ _ _ hb

/-- What setting voltages and time steps preserve, a constant-voltage phase preserves, whatever its outcome. -/
theorem CV_keeps {P : U → Prop} (hvol : ∀ u v, P u → P (VoltageUnit.setVoltage u v).2)
    (hstep : ∀ u dt k, P u → P (timeStep u dt k).2) (c : Cyc U) (Vset Ilim tlim dt : ℚ) (ndt : ℤ) (th : Thr)
    (h : P c.su) : P (CV c Vset Ilim tlim dt ndt th).2.1.su := by
  unfold CV
  dsimp only
  split_ifs
  · simpa using h
  · simpa using h
  · have hl := cvLoop_keeps hvol hstep Vset Ilim tlim dt ⌈tlim / dt⌉.toNat ndt ⌈tlim / dt⌉.toNat 0
      (storeIf (decide (0 < ndt)) c) 0 th (by simpa using h)
    generalize cvLoop Vset Ilim tlim dt ⌈tlim / dt⌉.toNat ndt ⌈tlim / dt⌉.toNat 0
      (storeIf (decide (0 < ndt)) c) 0 th = r at *
    obtain ⟨o, c1, tt, th1⟩ := r
    match o with
    | .throw e => exact hl
    | .ub e => exact hl
    | .ok (.inl st) => exact hl
    | .ok (.inr x) =>
      dsimp only
      split_ifs
      · simpa using hl
      · match x with
        | some true => simpa using hl
        | some false => simpa using hl
        | none => exact hl

/-- The same for `CCCV`. -/
theorem CCCVt_keeps {P : U → Prop} (hset : ∀ u i b, P u → P (StorageUnit.setCurrent u i b).2)
    (hvol : ∀ u v, P u → P (VoltageUnit.setVoltage u v).2)
    (hstep : ∀ u dt k, P u → P (timeStep u dt k).2) (fuel : ℕ) (c : Cyc U) (I Vset Ilim tlim dt : ℚ) (ndt : ℤ) (th : Thr)
    (h : P c.su) : P (CCCVt fuel c I Vset Ilim tlim dt ndt th).2.1.su := by
  unfold CCCVt
  split_ifs
  · exact h
  · have h1 := hset c.su 0 false h
    rcases hk : StorageUnit.setCurrent c.su 0 false with ⟨st | e | w, u⟩ <;> rw [hk] at h1
    · simp only
      by_cases hf : st.isFailed = true
      · rw [if_pos hf]; exact h1
      · rw [if_neg hf]
        generalize (if V u > Vset then |I| else -|I|) = i0
        have h2 := (CC_keeps hset hstep fuel (c.withSU u) i0 Vset tlim dt ndt Thr.zero h1).1
        generalize CC fuel (c.withSU u) i0 Vset tlim dt ndt Thr.zero = r at *
        obtain ⟨o, c1, th1⟩ := r
        match o with
        | .throw e => exact h2
        | .ub e => exact h2
        | .ok s =>
          dsimp only at *
          have h3 := CV_keeps hvol hstep c1 Vset |Ilim| (tlim - th1.time) dt ndt Thr.zero h2
          rcases hk2 : CV c1 Vset |Ilim| (tlim - th1.time) dt ndt Thr.zero with ⟨st2 | e | w, c2, th2⟩ <;> rw [hk2] at h3 <;> exact h3
    · exact h1
    · exact h1

end

end Slide

import Verif.Spec.ReportedEnergy
import Verif.Lemmas.CyclerLoops
import Verif.Props.Energy

/-! Lemmas for C153: phases of a cycler over a unit that stores energy. -/

namespace Slide
open StorageUnit Spec Cyc

/-- What the proofs use of a unit: time steps up to `top`, a stored energy `E`, a condition `In` on where it is and `Fit` on what it is, and the
current `At` all parts carry. -/
structure StoreUnit (U : Type) [StorageUnit U] where
  top : ℚ
  E : U → ℝ
  Fit : U → Prop
  In : U → Prop
  At : ℚ → U → Prop
  I_at : ∀ {u i}, Fit u → At i u → I u = i
  set_ok : ∀ {u i}, Fit u → (setCurrent u i false).1 = .ok .Success
  set_at : ∀ {u i st}, Fit u → (setCurrent u i false).1 = .ok st →
    Fit (setCurrent u i false).2 ∧ At i (setCurrent u i false).2 ∧ E (setCurrent u i false).2 = E u ∧
      (In u → In (setCurrent u i false).2)
  V_in : ∀ {u}, Fit u → 0 < V u → In u
  step : ∀ {u i dt n}, (timeStep u dt n).1 = .ok () → dt ≤ top → Fit u → At i u →
    0 ≤ dt ∧ Fit (timeStep u dt n).2 ∧ At i (timeStep u dt n).2 ∧
      (0 < V (timeStep u dt n).2 → ((i * V (timeStep u dt n).2 * (dt * n) / 3600 : ℚ) : ℝ) ≤ E u - E (timeStep u dt n).2) ∧
      (i = 0 → E (timeStep u dt n).2 ≤ E u ∧ (In u → In (timeStep u dt n).2))

/-- With constant voltages. -/
structure HoldUnit (U : Type) [StorageUnit U] [VoltageUnit U] extends StoreUnit U where
  hold : ∀ {u v st}, Fit u → (VoltageUnit.setVoltage u v).1 = .ok st →
    In u ∧ Fit (VoltageUnit.setVoltage u v).2 ∧ (∃ i, At i (VoltageUnit.setVoltage u v).2) ∧
      E (VoltageUnit.setVoltage u v).2 = E u
  dark : ∀ {u i dt n}, (timeStep u dt n).1 = .ok () → dt ≤ top → Fit u → At i u → i ≤ 0 → V (timeStep u dt n).2 ≤ 0 →
    In (timeStep u dt n).2 → E (timeStep u dt n).2 ≤ E u
  stuck : ∀ {u dt n e}, (timeStep u dt n).1 = .throw e → Fit u → Fit (timeStep u dt n).2 ∧ E (timeStep u dt n).2 = E u
  low : ∀ u : U, 0 < (lim u).VMIN
  vmin : ∀ u : U, 1 ≤ (lim u).Vmin

variable {U : Type} [StorageUnit U]

/-- `Cycler::setCurrent` without individual checks. -/
theorem re_cycSet (S : StoreUnit U) {c c1 : Cyc U} {I vlim : ℚ} {st : Status} (hd : c.diagnostic = false)
    (hf : S.Fit c.su) (h : c.setCurrent I vlim = (.ok st, c1)) :
    c1.diagnostic = false ∧ S.Fit c1.su ∧ S.At I c1.su ∧ S.E c1.su = S.E c.su ∧ (S.In c.su → S.In c1.su) := by
  unfold Cyc.setCurrent at h
  rw [hd] at h
  have hok := @StoreUnit.set_ok _ _ S c.su I
  have hat := @StoreUnit.set_at _ _ S c.su I
  generalize StorageUnit.setCurrent c.su I false = r at h hok hat
  obtain ⟨o, u1⟩ := r
  cases o with
  | throw e => simp at h
  | ub e => simp at h
  | ok s =>
    cases hok hf
    have h2 := hat hf rfl
    dsimp only at h h2
    rw [if_neg (by decide)] at h
    have e : c1 = c.withSU u1 := by
      split_ifs at h <;> exact (Prod.mk.inj h).2.symm
    subst e
    exact ⟨hd, h2⟩

/-- One counted batch of `CC`. -/
theorem re_ccBody (S : StoreUnit U) {c c' : Cyc U} {I vlim tlim : ℚ} {ndt : ℤ} {nMax : ℕ} {v v' : CCVars} {th th' : Thr}
    {x : CCNext} (ht : v.dti ≤ S.top) (hd : c.diagnostic = false) (hf : S.Fit c.su)
    (h : ccBody I vlim tlim ndt nMax v c th = (.ok x, c', th')) (hx : x = .brk v' ∨ x = .cont v') :
    v'.dti ≤ S.top ∧ c'.diagnostic = false ∧ S.Fit c'.su ∧ 0 < V c'.su ∧ ∃ t : ℚ, 0 ≤ t ∧ th'.Wh = th.Wh + |I| * t / 3600 * V c'.su ∧
      ((I * V c'.su * t / 3600 : ℚ) : ℝ) ≤ S.E c.su - S.E c'.su := by
  unfold ccBody at h
  rcases hs : c.setCurrent I vlim with ⟨o, c1⟩
  rw [hs] at h
  cases o with
  | throw e => simp at h
  | ub e => simp at h
  | ok st =>
    obtain ⟨d1, f1, a1, e1, _⟩ := re_cycSet S hd hf hs
    dsimp only at h
    generalize (if (v.nOnce : ℚ) * v.dti > tlim - v.ttot then 1 else v.nOnce) = k at h
    have hle : (if v.dti > tlim - v.ttot then tlim - v.ttot else v.dti) ≤ v.dti := by
      split_ifs with hh
      · exact hh.le
      · exact le_rfl
    generalize (if v.dti > tlim - v.ttot then tlim - v.ttot else v.dti) = dti at h hle
    have hst := @StoreUnit.step _ _ S c1.su I dti k
    generalize timeStep c1.su dti k = r at h hst
    obtain ⟨o2, u2⟩ := r
    cases o2 with
    | throw e =>
      simp only [Prod.mk.injEq, Outcome.ok.injEq] at h
      rcases hx with hx | hx <;> · rw [hx] at h; cases h.1
    | ub e => simp at h
    | ok _ =>
      obtain ⟨s0, s1, s2, s3, _⟩ := hst rfl (hle.trans ht) f1 a1
      dsimp only at h s0 s1 s2 s3
      rcases hv : ccVoltage (c1.withSU u2) with st | vi
      · rw [hv] at h
        simp only [Prod.mk.injEq, Outcome.ok.injEq] at h
        rcases hx with hx | hx <;> · rw [hx] at h; cases h.1
      · rw [hv] at h
        have hvi : vi = V u2 := ccVoltage_inr hv
        have hpos : 0 < V u2 := by
          unfold ccVoltage at hv
          rw [if_neg (by rw [show (c1.withSU u2).diagnostic = c1.diagnostic from rfl, d1]; decide)] at hv
          by_contra hn
          rw [if_pos (by exact not_lt.mp hn)] at hv
          cases hv
        subst hvi
        dsimp only at h
        have key : v'.dti = dti ∧ c'.diagnostic = false ∧ c'.su = u2 ∧ th'.Wh = th.Wh + |I| * (dti * k) / 3600 * V u2 := by
          generalize (decide (0 < ndt) && decide (ndt ≤ ((v.idat + k : ℕ) : ℤ))) = sv at h
          split_ifs at h <;>
          · simp only [Prod.mk.injEq] at h
            obtain ⟨hv', rfl, rfl⟩ := h
            have hv' := Outcome.ok.inj hv'
            rw [← hv'] at hx
            exact ⟨by rcases hx with hx | hx <;> cases hx; rfl, by rw [storeIf_diag]; exact d1, by rw [storeIf_su]; rfl, rfl⟩
        obtain ⟨k0, k1, k2, k3⟩ := key
        refine ⟨by rw [k0]; exact hle.trans ht, k1, by rw [k2]; exact s1, by rw [k2]; exact hpos, dti * k, by positivity, by rw [k2]; exact k3, ?_⟩
        rw [k2, ← e1]
        exact s3 hpos

/-- Both bounds on what a batch reports. -/
theorem re_bounds {I V t w w' : ℚ} {a b : ℝ} (hV : 0 < V) (ht : 0 ≤ t) (hw : w' = w + |I| * t / 3600 * V)
    (h : ((I * V * t / 3600 : ℚ) : ℝ) ≤ a - b) :
    b - a ≤ ((w' - w : ℚ) : ℝ) ∧ (0 ≤ I → ((w' - w : ℚ) : ℝ) ≤ a - b) := by
  have h1 : -(I * V * t / 3600) ≤ w' - w := by
    rw [hw]
    have : 0 ≤ V * t / 3600 := by positivity
    have : 0 ≤ (|I| + I) * (V * t / 3600) := mul_nonneg (by linarith [neg_abs_le I]) this
    linarith
  have h2 : ((-(I * V * t / 3600) : ℚ) : ℝ) ≤ ((w' - w : ℚ) : ℝ) := Rat.cast_le.mpr h1
  constructor
  · push_cast at h h2 ⊢
    linarith
  · intro hI
    have e : w' - w = I * V * t / 3600 := by rw [hw, abs_of_nonneg hI]; ring
    rw [e]
    exact h

/-- The loop of `CC` when it ends regularly. -/
theorem re_ccLoop (S : StoreUnit U) {I vlim tlim : ℚ} {ndt : ℤ} {nMax : ℕ} (fuel : ℕ) {v v' : CCVars} {b : Bool}
    {c c' : Cyc U} {th th' : Thr} (htop : v.dti ≤ S.top) (hd : c.diagnostic = false) (hf : S.Fit c.su)
    (h : ccLoop I vlim tlim ndt nMax fuel v c th = (.ok (.inr (v', b)), c', th')) :
    c'.diagnostic = false ∧ S.Fit c'.su ∧ (S.In c.su → S.In c'.su) ∧
      S.E c'.su - S.E c.su ≤ ((th'.Wh - th.Wh : ℚ) : ℝ) ∧ (0 ≤ I → ((th'.Wh - th.Wh : ℚ) : ℝ) ≤ S.E c.su - S.E c'.su) := by
  have stop : ∀ {c : Cyc U} {th : Thr}, c.diagnostic = false → S.Fit c.su → c = c' → th = th' →
      c'.diagnostic = false ∧ S.Fit c'.su ∧ (S.In c.su → S.In c'.su) ∧
      S.E c'.su - S.E c.su ≤ ((th'.Wh - th.Wh : ℚ) : ℝ) ∧ (0 ≤ I → ((th'.Wh - th.Wh : ℚ) : ℝ) ≤ S.E c.su - S.E c'.su) := by
    rintro c th h1 h2 rfl rfl
    exact ⟨h1, h2, id, by simp, by simp⟩
  induction fuel generalizing v c th with
  | zero =>
    unfold ccLoop at h
    by_cases hlt : v.ttot < tlim
    · simp [hlt] at h
    · rw [if_neg hlt] at h
      simp only [Prod.mk.injEq] at h
      exact stop hd hf h.2.1 h.2.2
  | succ fuel ih =>
    unfold ccLoop at h
    by_cases hlt : v.ttot < tlim
    · rw [if_pos hlt] at h
      rcases hb : ccBody I vlim tlim ndt nMax v c th with ⟨o, c1, th1⟩
      rw [hb] at h
      match o, hb, h with
      | .throw e, _, h => cases h
      | .ub e, _, h => cases h
      | .ok (.ret st), _, h => cases h
      | .ok (.brk v1), hb, h =>
        obtain ⟨r0, r1, r2, r3, t, r4, r5, r6⟩ := re_ccBody S htop hd hf hb (Or.inl rfl)
        simp only [Prod.mk.injEq] at h
        obtain ⟨_, rfl, rfl⟩ := h
        exact ⟨r1, r2, fun _ => S.V_in r2 r3, re_bounds r3 r4 r5 r6⟩
      | .ok (.cont v1), hb, h =>
        obtain ⟨r0, r1, r2, r3, t, r4, r5, r6⟩ := re_ccBody S htop hd hf hb (Or.inr rfl)
        obtain ⟨q1, q2, q3, q4, q5⟩ := ih r0 r1 r2 h
        obtain ⟨p1, p2⟩ := re_bounds r3 r4 r5 r6
        refine ⟨q1, q2, fun _ => q3 (S.V_in r2 r3), ?_, fun hI => ?_⟩
        · push_cast at p1 q4 ⊢; linarith
        · have := p2 hI
          have := q5 hI
          push_cast at *; linarith
    · rw [if_neg hlt] at h
      simp only [Prod.mk.injEq] at h
      exact stop hd hf h.2.1 h.2.2

/-- What a unit and the report of a phase satisfy. -/
def Covered (S : StoreUnit U) (I : ℚ) (c c' : Cyc U) (th th' : Thr) : Prop :=
  c'.diagnostic = false ∧ S.Fit c'.su ∧ (S.In c.su → S.In c'.su) ∧
      S.E c'.su - S.E c.su ≤ ((th'.Wh - th.Wh : ℚ) : ℝ) ∧ (0 ≤ I → ((th'.Wh - th.Wh : ℚ) : ℝ) ≤ S.E c.su - S.E c'.su)

/-- A batch after which `CC` gives up. -/
theorem re_ccBody_ret {c c' : Cyc U} {I vlim tlim : ℚ} {ndt : ℤ} {nMax : ℕ} {v : CCVars} {th th' : Thr} {st : Status}
    (hd : c.diagnostic = false) (h : ccBody I vlim tlim ndt nMax v c th = (.ok (.ret st), c', th')) :
    th' = th ∧ ∃ s c1 dti k, c.setCurrent I vlim = (.ok s, c1) ∧ c'.diagnostic = false ∧
      c'.su = (timeStep c1.su dti k).2 ∧ dti ≤ v.dti ∧
      ((st = .timeStep_CC_failed ∧ ∃ e, (timeStep c1.su dti k).1 = .throw e) ∨
       (st = .V_not_calculated ∧ (timeStep c1.su dti k).1 = .ok () ∧ V c'.su ≤ 0)) := by
  unfold ccBody at h
  rcases hs : c.setCurrent I vlim with ⟨o, c1⟩
  have hdg := cycSet_diag c I vlim
  rw [hs, hd] at hdg
  rw [hs] at h
  cases o with
  | throw e => simp at h
  | ub e => simp at h
  | ok s =>
    dsimp only at h
    generalize (if (v.nOnce : ℚ) * v.dti > tlim - v.ttot then 1 else v.nOnce) = k at h
    have hle : (if v.dti > tlim - v.ttot then tlim - v.ttot else v.dti) ≤ v.dti := by
      split_ifs with hh
      · exact hh.le
      · exact le_rfl
    generalize (if v.dti > tlim - v.ttot then tlim - v.ttot else v.dti) = dti at h hle
    rcases ht : timeStep c1.su dti k with ⟨o2, u2⟩
    rw [ht] at h
    cases o2 with
    | throw e =>
      simp only [Prod.mk.injEq, Outcome.ok.injEq, CCNext.ret.injEq] at h
      obtain ⟨rfl, rfl, rfl⟩ := h
      exact ⟨rfl, s, c1, dti, k, rfl, hdg, by rw [ht]; rfl, hle, Or.inl ⟨rfl, e, by rw [ht]⟩⟩
    | ub e => simp at h
    | ok _ =>
      dsimp only at h
      rcases hv : ccVoltage (c1.withSU u2) with st' | vi
      · rw [hv] at h
        simp only [Prod.mk.injEq, Outcome.ok.injEq, CCNext.ret.injEq] at h
        obtain ⟨rfl, rfl, rfl⟩ := h
        have hv' := hv
        unfold ccVoltage at hv'
        rw [if_neg (by rw [show (c1.withSU u2).diagnostic = c1.diagnostic from rfl, hdg]; decide)] at hv'
        by_cases hn : V (c1.withSU u2).su ≤ 0
        · rw [if_pos hn] at hv'
          exact ⟨rfl, s, c1, dti, k, rfl, hdg, by rw [ht]; rfl, hle, Or.inr ⟨(Sum.inl.inj hv').symm, by rw [ht], hn⟩⟩
        · rw [if_neg hn] at hv'
          cases hv'
      · rw [hv] at h
        exfalso
        dsimp only at h
        generalize (decide (0 < ndt) && decide (ndt ≤ ((v.idat + k : ℕ) : ℤ))) = sv at h
        by_cases hb : (I < 0 ∧ vi > vlim) ∨ (I > 0 ∧ vi < vlim)
        · rw [if_pos hb] at h
          simp only [Prod.mk.injEq, Outcome.ok.injEq] at h
          cases h.1
        · rw [if_neg hb] at h
          simp only [Prod.mk.injEq, Outcome.ok.injEq] at h
          cases h.1

/-- The loop of `CC` never gives up with a regular result. -/
theorem re_ccLoop_inl {I vlim tlim : ℚ} {ndt : ℤ} {nMax : ℕ} (fuel : ℕ) {v : CCVars} {st : Status}
    {c c' : Cyc U} {th th' : Thr} (hd : c.diagnostic = false)
    (h : ccLoop I vlim tlim ndt nMax fuel v c th = (.ok (.inl st), c', th')) :
    st = .timeStep_CC_failed ∨ st = .V_not_calculated := by
  induction fuel generalizing v c th with
  | zero =>
    unfold ccLoop at h
    split_ifs at h <;> simp at h
  | succ fuel ih =>
    unfold ccLoop at h
    by_cases hlt : v.ttot < tlim
    · rw [if_pos hlt] at h
      have hdg := (ccBody_keeps (P := fun _ : U => True) (fun _ _ _ _ => trivial) (fun _ _ _ _ => trivial) I vlim tlim ndt nMax v c th
        trivial).2
      rcases hb : ccBody I vlim tlim ndt nMax v c th with ⟨o, c1, th1⟩
      rw [hb] at h hdg
      match o, hb, h with
      | .throw e, _, h => cases h
      | .ub e, _, h => cases h
      | .ok (.brk v1), hb, h => simp at h
      | .ok (.ret s), hb, h =>
        obtain ⟨_, s', c2, dti, k, _, _, _, _, hh⟩ := re_ccBody_ret hd hb
        simp only [Prod.mk.injEq, Outcome.ok.injEq, Sum.inl.injEq] at h
        rw [← h.1]
        rcases hh with ⟨hh, _⟩ | ⟨hh, _⟩
        · exact Or.inl hh
        · exact Or.inr hh
      | .ok (.cont v1), hb, h => exact ih (hdg.trans hd) h
    · rw [if_neg hlt] at h
      simp at h

theorem covered_refl (S : StoreUnit U) (I : ℚ) {c c' : Cyc U} {th : Thr} (hd : c'.diagnostic = false) (hf : S.Fit c'.su)
    (hi : S.In c.su → S.In c'.su) (he : S.E c'.su = S.E c.su) : Covered S I c c' th th :=
  ⟨hd, hf, hi, by rw [he]; simp, fun _ => by rw [he]; simp⟩

/-- A constant-current phase that ended regularly. -/
theorem re_CC (S : StoreUnit U) {fuel : ℕ} {c c' : Cyc U} {I vlim tlim dt : ℚ} {ndt : ℤ} {th th' : Thr} {st : Status}
    (htop : dt ≤ S.top) (hd : c.diagnostic = false) (hf : S.Fit c.su) (h : CC fuel c I vlim tlim dt ndt th = (.ok st, c', th')) :
    Covered S I c c' th th' ∨
      (∃ c1 v nMax, v.dti ≤ S.top ∧ c1.diagnostic = false ∧ S.Fit c1.su ∧ (S.In c.su → S.In c1.su) ∧ S.E c1.su = S.E c.su ∧
        ccLoop I vlim tlim ndt nMax fuel v c1 th = (.ok (.inl st), c', th')) := by
  unfold CC at h
  dsimp only at h
  rcases hs : Cyc.setCurrent (storeIf (decide (0 < ndt)) c) I vlim with ⟨o, c1⟩
  rw [hs] at h
  cases o with
  | throw e => simp at h
  | ub e => simp at h
  | ok s =>
    obtain ⟨d1, f1, a1, e1, i1⟩ := re_cycSet S (by rw [storeIf_diag]; exact hd) (by rw [storeIf_su]; exact hf) hs
    rw [storeIf_su] at e1 i1
    dsimp only at h
    by_cases h0 : (!s.isSuccessful) = true
    · rw [if_pos h0] at h
      simp only [Prod.mk.injEq] at h
      obtain ⟨_, rfl, rfl⟩ := h
      exact Or.inl (covered_refl S I d1 f1 i1 e1)
    · rw [if_neg h0] at h
      by_cases hv : (I < 0 ∧ V c1.su > vlim) ∨ (I > 0 ∧ V c1.su < vlim)
      · rw [if_pos hv] at h
        simp only [Prod.mk.injEq] at h
        obtain ⟨_, rfl, rfl⟩ := h
        exact Or.inl (covered_refl S I d1 f1 i1 e1)
      · rw [if_neg hv] at h
        generalize hm : (if decide (0 < ndt) = true then min 2 ndt.toNat else 2) = nMax at h
        rcases hl : ccLoop I vlim tlim ndt nMax fuel
          { dti := dt, ttot := 0, idat := 0, nOnce := 1, vo := V c1.su, vi := V c1.su, allowUp := true } c1 th with ⟨o2, c2, th2⟩
        rw [hl] at h
        match o2, hl, h with
        | .throw e, _, h => cases h
        | .ub e, _, h => cases h
        | .ok (.inl s2), hl, h =>
          simp only [Prod.mk.injEq, Outcome.ok.injEq] at h
          obtain ⟨rfl, rfl, rfl⟩ := h
          exact Or.inr ⟨c1, _, nMax, htop, d1, f1, i1, e1, hl⟩
        | .ok (.inr (v, b)), hl, h =>
          left
          obtain ⟨q1, q2, q3, q4, q5⟩ := re_ccLoop S fuel htop d1 f1 hl
          rw [e1] at q4 q5
          have key : c' = storeIf (decide (0 < ndt)) c2 ∧ th' = th2 := by
            dsimp only at h
            split_ifs at h <;> simp_all
          obtain ⟨rfl, rfl⟩ := key
          exact ⟨by rw [storeIf_diag]; exact q1, by rw [storeIf_su]; exact q2, fun hi => by rw [storeIf_su]; exact q3 (i1 hi),
            by rw [storeIf_su]; exact q4, by rw [storeIf_su]; exact q5⟩

theorem re_CC_finished (S : StoreUnit U) {fuel : ℕ} {c c' : Cyc U} {I vlim tlim dt : ℚ} {ndt : ℤ} {th th' : Thr}
    {st : Status} (htop : dt ≤ S.top) (hd : c.diagnostic = false) (hf : S.Fit c.su) (h : CC fuel c I vlim tlim dt ndt th = (.ok st, c', th'))
    (hst : st = .ReachedTimeLimit ∨ st = .ReachedVoltageLimit) : Covered S I c c' th th' := by
  rcases re_CC S htop hd hf h with h1 | ⟨c1, v, nMax, _, d1, _, _, _, h1⟩
  · exact h1
  · exfalso
    have := re_ccLoop_inl fuel d1 h1
    rcases hst with rfl | rfl <;> rcases this with h | h <;> cases h

/-- The loop of `rest`. -/
theorem re_restLoop (S : StoreUnit U) {tlim : ℚ} {ndt : ℤ} {nMax : ℕ} (fuel : ℕ) {v v' : RestVars} {c c' : Cyc U}
    (htop : v.dti ≤ S.top) (hd : c.diagnostic = false) (hf : S.Fit c.su) (h : restLoop tlim ndt nMax fuel v c = (.ok (.inr v'), c')) :
    c'.diagnostic = false ∧ S.Fit c'.su ∧ (S.In c.su → S.In c'.su) ∧ S.E c'.su ≤ S.E c.su := by
  induction fuel generalizing v c with
  | zero =>
    unfold restLoop at h
    by_cases hlt : v.ttot < tlim
    · simp [hlt] at h
    · rw [if_neg hlt] at h
      simp only [Prod.mk.injEq] at h
      obtain ⟨_, rfl⟩ := h
      exact ⟨hd, hf, id, le_rfl⟩
  | succ fuel ih =>
    unfold restLoop at h
    by_cases hlt : v.ttot < tlim
    · rw [if_pos hlt] at h
      rcases hb : restBody tlim ndt nMax v c with ⟨o, c1⟩
      rw [hb] at h
      match o, hb, h with
      | .throw e, _, h => cases h
      | .ub e, _, h => cases h
      | .ok (.inl st), _, h => cases h
      | .ok (.inr v1), hb, h =>
        have key : v1.dti ≤ S.top ∧ c1.diagnostic = false ∧ S.Fit c1.su ∧ (S.In c.su → S.In c1.su) ∧ S.E c1.su ≤ S.E c.su := by
          unfold restBody at hb
          have hat := @StoreUnit.set_at _ _ S c.su 0
          generalize StorageUnit.setCurrent c.su 0 false = r at hb hat
          obtain ⟨o, u1⟩ := r
          cases o with
          | throw e => simp at hb
          | ub e => simp at hb
          | ok st =>
            obtain ⟨a1, a2, a3, a4⟩ := hat hf rfl
            dsimp only at hb a1 a2 a3 a4
            by_cases hbad : st.isBad = true
            · simp [hbad] at hb
            · rw [if_neg hbad] at hb
              generalize (if (v.nOnce : ℚ) * v.dti > tlim - v.ttot then 1 else v.nOnce) = k at hb
              have hle : (if v.dti > tlim - v.ttot then tlim - v.ttot else v.dti) ≤ v.dti := by
                split_ifs with hh
                · exact hh.le
                · exact le_rfl
              generalize (if v.dti > tlim - v.ttot then tlim - v.ttot else v.dti) = dti at hb hle
              have hst := @StoreUnit.step _ _ S u1 0 dti k
              generalize timeStep u1 dti k = r at hb hst
              obtain ⟨o2, u2⟩ := r
              cases o2 with
              | throw e => simp at hb
              | ub e => simp at hb
              | ok _ =>
                obtain ⟨_, s1, _, _, s4⟩ := hst rfl (hle.trans htop) a1 a2
                obtain ⟨s5, s6⟩ := s4 rfl
                simp only [Prod.mk.injEq] at hb
                obtain ⟨hv1, rfl⟩ := hb
                have hv1 := Sum.inr.inj (Outcome.ok.inj hv1)
                refine ⟨by rw [← hv1]; exact hle.trans htop, ?_⟩
                exact ⟨by rw [storeIf_diag]; exact hd, by rw [storeIf_su]; exact s1,
                  fun hi => by rw [storeIf_su]; exact s6 (a4 hi), by rw [storeIf_su]; rw [← a3]; exact s5⟩
        obtain ⟨k0, k1, k2, k3, k4⟩ := key
        obtain ⟨q1, q2, q3, q4⟩ := ih k0 k1 k2 h
        exact ⟨q1, q2, fun hi => q3 (k3 hi), q4.trans k4⟩
    · rw [if_neg hlt] at h
      simp only [Prod.mk.injEq] at h
      obtain ⟨_, rfl⟩ := h
      exact ⟨hd, hf, id, le_rfl⟩

theorem re_rest (S : StoreUnit U) {fuel : ℕ} {c c' : Cyc U} {tlim dt : ℚ} {ndt : ℤ} {th th' : Thr}
    (htop : dt ≤ S.top) (hd : c.diagnostic = false) (hf : S.Fit c.su) (h : rest fuel c tlim dt ndt th = (.ok .ReachedTimeLimit, c', th')) :
    Covered S 0 c c' th th' ∧ th'.Wh = th.Wh := by
  unfold rest at h
  dsimp only at h
  generalize hm : (if decide (0 < ndt) = true then min 10 ndt.toNat else 10) = nMax at h
  rcases hl : restLoop tlim ndt nMax fuel { dti := dt, ttot := 0, idat := 0, nOnce := 1, ninc := true }
    (storeIf (decide (0 < ndt)) c) with ⟨o, c1⟩
  rw [hl] at h
  match o, hl, h with
  | .throw e, _, h => cases h
  | .ub e, _, h => cases h
  | .ok (.inl s), hl, h =>
    exfalso
    simp only [Prod.mk.injEq, Outcome.ok.injEq] at h
    obtain ⟨rfl, _⟩ := h
    exact absurd (restLoop_inl fuel hl) (by decide)
  | .ok (.inr v), hl, h =>
    obtain ⟨q1, q2, q3, q4⟩ := re_restLoop S fuel htop (by rw [storeIf_diag]; exact hd) (by rw [storeIf_su]; exact hf) hl
    rw [storeIf_su] at q3 q4
    dsimp only at h
    by_cases ht : v.ttot ≥ tlim ∧ |v.ttot - tlim| < 1
    · rw [if_pos ht] at h
      have hat := @StoreUnit.set_at _ _ S c1.su 0
      generalize StorageUnit.setCurrent c1.su 0 false = r at h hat
      obtain ⟨o, u1⟩ := r
      cases o with
      | throw e => simp at h
      | ub e => simp at h
      | ok st =>
        obtain ⟨a1, a2, a3, a4⟩ := hat q2 rfl
        simp only [Prod.mk.injEq] at h
        obtain ⟨_, rfl, rfl⟩ := h
        refine ⟨⟨by rw [storeIf_diag]; exact q1, by rw [storeIf_su]; exact a1,
          fun hi => by rw [storeIf_su]; exact a4 (q3 hi), ?_, fun _ => ?_⟩, rfl⟩ <;>
        · rw [storeIf_su]
          have e : S.E (c1.withSU u1).su ≤ S.E c.su := a3.le.trans q4
          simp only [sub_self, Rat.cast_zero]
          linarith
    · rw [if_neg ht] at h
      simp at h

/-! ### Charges with constant voltage -/

variable [VoltageUnit U]

/-- A constant-current phase that ended in any way, looked at from a moment when the unit is inside. -/
theorem re_CC_any (S : HoldUnit U) {fuel : ℕ} {c c' : Cyc U} {I vlim tlim dt : ℚ} {ndt : ℤ} {th th' : Thr}
    {st : Status} (htop : dt ≤ S.top) (hI : I ≤ 0) (hd : c.diagnostic = false) (hf : S.Fit c.su)
    (h : CC fuel c I vlim tlim dt ndt th = (.ok st, c', th')) :
    c'.diagnostic = false ∧ S.Fit c'.su ∧ (S.In c'.su → S.E c'.su - S.E c.su ≤ ((th'.Wh - th.Wh : ℚ) : ℝ)) := by
  have loop : ∀ (fuel : ℕ) {v : CCVars} {nMax : ℕ} {c : Cyc U} {th : Thr}, v.dti ≤ S.top → c.diagnostic = false → S.Fit c.su →
      ccLoop I vlim tlim ndt nMax fuel v c th = (.ok (.inl st), c', th') →
      c'.diagnostic = false ∧ S.Fit c'.su ∧ (S.In c'.su → S.E c'.su - S.E c.su ≤ ((th'.Wh - th.Wh : ℚ) : ℝ)) := by
    intro fuel
    induction fuel with
    | zero =>
      intro v nMax c th _ _ _ h
      unfold ccLoop at h
      split_ifs at h <;> simp at h
    | succ fuel ih =>
      intro v nMax c th ht hd hf h
      unfold ccLoop at h
      by_cases hlt : v.ttot < tlim
      · rw [if_pos hlt] at h
        rcases hb : ccBody I vlim tlim ndt nMax v c th with ⟨o, c1, th1⟩
        rw [hb] at h
        match o, hb, h with
        | .throw e, _, h => cases h
        | .ub e, _, h => cases h
        | .ok (.brk v1), hb, h => simp at h
        | .ok (.ret s), hb, h =>
          obtain ⟨rfl, s', c2, dti, k, hs, hd', hsu, hle, hh⟩ := re_ccBody_ret hd hb
          simp only [Prod.mk.injEq, Outcome.ok.injEq, Sum.inl.injEq] at h
          obtain ⟨_, rfl, rfl⟩ := h
          obtain ⟨_, f2, a2, e2, i2⟩ := re_cycSet S.toStoreUnit hd hf hs
          rcases hh with ⟨_, e, he⟩ | ⟨_, hok, hV⟩
          · obtain ⟨p1, p2⟩ := S.stuck he f2
            rw [hsu]
            exact ⟨hd', p1, fun _ => by rw [p2, e2]; simp⟩
          · obtain ⟨_, p1, _⟩ := S.step hok (hle.trans ht) f2 a2
            rw [hsu] at hV ⊢
            refine ⟨hd', p1, fun hin => ?_⟩
            have := S.dark hok (hle.trans ht) f2 a2 hI hV hin
            rw [e2] at this
            simp only [sub_self, Rat.cast_zero]
            linarith
        | .ok (.cont v1), hb, h =>
          obtain ⟨r0, r1, r2, r3, t, r4, r5, r6⟩ := re_ccBody S.toStoreUnit ht hd hf hb (Or.inr rfl)
          obtain ⟨q1, q2, q3⟩ := ih r0 r1 r2 h
          obtain ⟨p1, _⟩ := re_bounds r3 r4 r5 r6
          refine ⟨q1, q2, fun hin => ?_⟩
          have := q3 hin
          push_cast at *; linarith
      · rw [if_neg hlt] at h
        simp at h
  rcases re_CC S.toStoreUnit htop hd hf h with h1 | ⟨c1, v, nMax, t1, d1, f1, i1, e1, h1⟩
  · exact ⟨h1.1, h1.2.1, fun _ => h1.2.2.2.1⟩
  · rw [← e1]
    exact loop fuel t1 d1 f1 h1

/-- One step of `CV` that did not give up. -/
theorem re_cvBody (S : HoldUnit U) {Vset Ilim tlim dt : ℚ} {nt : ℕ} {ndt : ℤ} {i : ℕ} {c c' : Cyc U} {ttot ttot' : ℚ}
    {th th' : Thr} {x : Option Bool} (htop : dt ≤ S.top) (hlast : tlim ≤ dt * nt) (hd : c.diagnostic = false) (hf : S.Fit c.su)
    (h : cvBody Vset Ilim tlim dt nt ndt i c ttot th = (.ok (.inr x), c', ttot', th')) :
    S.In c.su ∧ c'.diagnostic = false ∧ S.Fit c'.su ∧ S.In c'.su ∧
      S.E c'.su - S.E c.su ≤ ((th'.Wh - th.Wh : ℚ) : ℝ) := by
  unfold cvBody at h
  have hh := @HoldUnit.hold _ _ _ S c.su Vset
  generalize VoltageUnit.setVoltage c.su Vset = r at h hh
  obtain ⟨o, u1⟩ := r
  cases o with
  | throw e => simp at h
  | ub e => simp at h
  | ok s =>
    obtain ⟨a1, a2, ⟨j, a3⟩, a4⟩ := hh hf rfl
    dsimp only at h a2 a3 a4
    have hle : (if i + 1 = nt then tlim - dt * ((nt : ℚ) - 1) else dt) ≤ dt := by
      split_ifs
      · linarith
      · exact le_rfl
    generalize (if i + 1 = nt then tlim - dt * ((nt : ℚ) - 1) else dt) = dti at h hle
    have hst := @StoreUnit.step _ _ S.toStoreUnit u1 j dti 1
    generalize timeStep u1 dti 1 = r at h hst
    obtain ⟨o2, u2⟩ := r
    cases o2 with
    | throw e => simp at h
    | ub e => simp at h
    | ok _ =>
      obtain ⟨s0, s1, s2, s3, _⟩ := hst rfl (hle.trans htop) a2 a3
      dsimp only at h s1 s2 s3
      rw [S.I_at s1 s2] at h
      by_cases hsafe : checkSafety ((lim u2).VMIN * (99/100)) ((lim u2).VMAX * (101/100)) (V u2) ≠ .SafeVoltage
      · rw [if_pos hsafe] at h
        simp at h
      · rw [if_neg hsafe] at h
        have hpos : 0 < V u2 := by
          have h1 := not_not.mp hsafe
          unfold checkSafety at h1
          by_cases hlo : V u2 < (lim u2).VMIN * (99/100)
          · rw [if_pos hlo] at h1
            cases h1
          · have := S.low u2
            linarith
        have key : c'.diagnostic = false ∧ c'.su = u2 ∧ th'.Wh = th.Wh + |j| * dti / 3600 * V u2 := by
          have e : |j * dti / 3600| = |j| * dti / 3600 := by
            rw [abs_div, abs_mul, abs_of_nonneg s0]; norm_num
          rw [e] at h
          split_ifs at h <;>
          · simp only [Prod.mk.injEq] at h
            obtain ⟨_, rfl, _, rfl⟩ := h
            exact ⟨by rw [storeIf_diag]; exact hd, by rw [storeIf_su]; rfl, rfl⟩
        obtain ⟨k1, k2, k3⟩ := key
        have h3 := s3 hpos
        rw [Nat.cast_one, mul_one] at h3
        rw [k2]
        refine ⟨a1, k1, s1, S.V_in s1 hpos, ?_⟩
        rw [← a4]
        exact (re_bounds hpos s0 k3 h3).1

/-- The loop of `CV` when it ends at a small current. -/
theorem re_cvLoop (S : HoldUnit U) {Vset Ilim tlim dt : ℚ} {nt : ℕ} {ndt : ℤ} (left : ℕ) {i : ℕ} {c c' : Cyc U}
    {ttot ttot' : ℚ} {th th' : Thr} {b : Bool} (htop : dt ≤ S.top) (hlast : tlim ≤ dt * nt) (hd : c.diagnostic = false) (hf : S.Fit c.su)
    (h : cvLoop Vset Ilim tlim dt nt ndt left i c ttot th = (.ok (.inr (some b)), c', ttot', th')) :
    S.In c.su ∧ c'.diagnostic = false ∧ S.Fit c'.su ∧ S.In c'.su ∧
      S.E c'.su - S.E c.su ≤ ((th'.Wh - th.Wh : ℚ) : ℝ) := by
  induction left generalizing i c ttot th with
  | zero =>
    unfold cvLoop at h
    simp at h
  | succ left ih =>
    unfold cvLoop at h
    rcases hb : cvBody Vset Ilim tlim dt nt ndt i c ttot th with ⟨o, c1, t1, th1⟩
    rw [hb] at h
    match o, hb, h with
    | .throw e, _, h => cases h
    | .ub e, _, h => cases h
    | .ok (.inl s), _, h => simp at h
    | .ok (.inr (some b')), hb, h =>
      simp only [Prod.mk.injEq] at h
      obtain ⟨_, rfl, _, rfl⟩ := h
      exact re_cvBody S htop hlast hd hf hb
    | .ok (.inr none), hb, h =>
      obtain ⟨p1, p2, p3, p4, p5⟩ := re_cvBody S htop hlast hd hf hb
      obtain ⟨q1, q2, q3, q4, q5⟩ := ih p2 p3 h
      refine ⟨p1, q2, q3, q4, ?_⟩
      push_cast at *; linarith

/-- A constant-voltage phase that ended at a small current. -/
theorem re_CV (S : HoldUnit U) {c c' : Cyc U} {Vset Ilim tlim dt : ℚ} {ndt : ℤ} {th th' : Thr} {st : Status}
    (h0 : 0 < dt) (htop : dt ≤ S.top) (hd : c.diagnostic = false) (hf : S.Fit c.su) (hV : 1 ≤ Vset) (h : CV c Vset Ilim tlim dt ndt th = (.ok st, c', th'))
    (hst : st = .ReachedCurrentLimit ∨ st = .ReachedSmallCurrent) :
    S.In c.su ∧ c'.diagnostic = false ∧ S.Fit c'.su ∧ S.In c'.su ∧
      S.E c'.su - S.E c.su ≤ ((th'.Wh - th.Wh : ℚ) : ℝ) := by
  unfold CV at h
  dsimp only at h
  by_cases h1 : |StorageUnit.I (storeIf (decide (0 < ndt)) c).su| < Ilim ∧ vLimit (V (storeIf (decide (0 < ndt)) c).su) Vset = true
  · rw [if_pos h1] at h
    simp only [Prod.mk.injEq] at h
    obtain ⟨_, rfl, rfl⟩ := h
    have hv := h1.2
    rw [storeIf_su] at hv
    have hpos : 0 < V c.su := by
      unfold vLimit at hv
      rw [Bool.or_eq_true, decide_eq_true_iff, decide_eq_true_iff] at hv
      rcases hv with hv | hv
      · have := (abs_lt.mp hv).1
        linarith
      · rw [div_lt_iff₀ (by linarith)] at hv
        have := (abs_lt.mp hv).1
        linarith
    have := S.V_in hf hpos
    exact ⟨this, by rw [storeIf_diag]; exact hd, by rw [storeIf_su]; exact hf, by rw [storeIf_su]; exact this,
      by rw [storeIf_su]; simp⟩
  · rw [if_neg h1] at h
    by_cases h2 : dt = 0 ∨ ⌈tlim / dt⌉ < 0
    · rw [if_pos h2] at h
      simp at h
    · rw [if_neg h2] at h
      have hlast : tlim ≤ dt * (⌈tlim / dt⌉.toNat : ℕ) := by
        have h3 : (0 : ℤ) ≤ ⌈tlim / dt⌉ := not_lt.mp (fun hh => h2 (Or.inr hh))
        have h4 : ((⌈tlim / dt⌉.toNat : ℕ) : ℚ) = ((⌈tlim / dt⌉ : ℤ) : ℚ) := by
          exact_mod_cast congrArg (Int.cast (R := ℚ)) (Int.toNat_of_nonneg h3)
        rw [h4]
        have := Int.le_ceil (tlim / dt)
        rw [div_le_iff₀ h0] at this
        linarith
      rcases hl : cvLoop Vset Ilim tlim dt ⌈tlim / dt⌉.toNat ndt ⌈tlim / dt⌉.toNat 0 (storeIf (decide (0 < ndt)) c) 0 th with
        ⟨o, c1, t1, th1⟩
      rw [hl] at h
      match o, hl, h with
      | .throw e, _, h => cases h
      | .ub e, _, h => cases h
      | .ok (.inl s), hl, h =>
        exfalso
        simp only [Prod.mk.injEq, Outcome.ok.injEq] at h
        obtain ⟨rfl, _⟩ := h
        have := cvLoop_inl Vset Ilim tlim dt ⌈tlim / dt⌉.toNat ndt ⌈tlim / dt⌉.toNat 0 (storeIf (decide (0 < ndt)) c) 0 th s
          (by rw [hl])
        rcases hst with rfl | rfl <;> simp at this
      | .ok (.inr none), hl, h =>
        exfalso
        dsimp only at h
        split_ifs at h <;> simp at h
        rcases hst with rfl | rfl <;> simp at h
      | .ok (.inr (some b)), hl, h =>
        have key : c' = storeIf (decide (0 < ndt)) c1 ∧ th' = th1 := by
          cases b <;> dsimp only at h <;> split_ifs at h <;> simp_all
        obtain ⟨rfl, rfl⟩ := key
        have := re_cvLoop S _ htop hlast (by rw [storeIf_diag]; exact hd) (by rw [storeIf_su]; exact hf) hl
        rw [storeIf_su] at this ⊢
        rw [storeIf_diag]
        exact this

/-- A charge with constant current, then constant voltage. -/
theorem re_CCCV (S : HoldUnit U) {fuel : ℕ} {c c' : Cyc U} {I Vset Ilim tlim dt : ℚ} {ndt : ℤ} {th th' : Thr} {st : Status}
    (h0 : 0 < dt) (htop : dt ≤ S.top) (hup : V (StorageUnit.setCurrent c.su 0 false).2 ≤ Vset) (hd : c.diagnostic = false)
    (hf : S.Fit c.su)
    (h : CCCVt fuel c I Vset Ilim tlim dt ndt th = (.ok st, c', th'))
    (hst : st = .ReachedCurrentLimit ∨ st = .ReachedSmallCurrent) :
    c'.diagnostic = false ∧ S.Fit c'.su ∧ S.In c'.su ∧ S.E c'.su - S.E c.su ≤ ((th'.Wh : ℚ) : ℝ) := by
  unfold CCCVt at h
  by_cases h1 : Vset < (lim c.su).Vmin ∨ Vset > (lim c.su).Vmax
  · rw [if_pos h1] at h
    exfalso
    simp only [Prod.mk.injEq, Outcome.ok.injEq] at h
    rcases hst with rfl | rfl <;> cases h.1
  · rw [if_neg h1] at h
    have hV : 1 ≤ Vset := by
      have := S.vmin c.su
      have := not_lt.mp (fun hh => h1 (Or.inl hh))
      linarith
    have hat := @StoreUnit.set_at _ _ S.toStoreUnit c.su 0
    have hok := @StoreUnit.set_ok _ _ S.toStoreUnit c.su 0
    generalize StorageUnit.setCurrent c.su 0 false = r at h hat hok hup
    obtain ⟨o, u⟩ := r
    cases o with
    | throw e => simp at h
    | ub e => simp at h
    | ok s =>
      cases hok hf
      obtain ⟨a1, _, a3, a4⟩ := hat hf rfl
      dsimp only at h a1 a3 a4
      rw [if_neg (by decide)] at h
      rw [if_neg (not_lt.mpr hup)] at h
      have hI : -|I| ≤ 0 := neg_nonpos.mpr (abs_nonneg I)
      generalize -|I| = I' at h hI
      rcases hc : CC fuel (c.withSU u) I' Vset tlim dt ndt Thr.zero with ⟨o, c1, th1⟩
      rw [hc] at h
      cases o with
      | throw e => simp at h
      | ub e => simp at h
      | ok s1 =>
        obtain ⟨b1, b2, b3⟩ := re_CC_any S (c := c.withSU u) htop hI hd a1 hc
        dsimp only at h
        rcases hv : CV c1 Vset |Ilim| (tlim - th1.time) dt ndt Thr.zero with ⟨o, c2, th2⟩
        rw [hv] at h
        cases o with
        | throw e => simp at h
        | ub e => simp at h
        | ok s2 =>
          simp only [Prod.mk.injEq, Outcome.ok.injEq] at h
          obtain ⟨rfl, rfl, rfl⟩ := h
          obtain ⟨d1, d2, d3, d4, d5⟩ := re_CV S h0 htop b1 b2 hV hv hst
          have b3 := b3 d1
          refine ⟨d2, d3, d4, ?_⟩
          have e : S.E (c.withSU u).su = S.E c.su := a3
          rw [e] at b3
          simp only [Thr.zero, sub_zero] at b3 d5
          push_cast
          linarith

end Slide

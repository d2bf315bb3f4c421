import Verif.Lemmas.CyclerRecords
import Verif.Lemmas.ECM
import Verif.Lemmas.CellCycler
import Verif.Props.Cycler
import Verif.Spec.CapacityMeasured

/-!
# C133: the capacity test measures the charge between full and empty
-/

namespace Slide
open StorageUnit Spec Cyc

variable {n : ℕ}

/-! ## Helper lemmas -/

theorem reached_not_successful : Status.isSuccessful .ReachedVoltageLimit = false := by decide

theorem unchecked_setCurrent (u : ECM n) (i : ℚ) : StorageUnit.setCurrent u i false = (.ok .Success, u.withI i) := by
  show (Outcome.ok (u.setCurrent i false).1, (u.setCurrent i false).2) = _
  unfold ECM.setCurrent ECM.checkCurrent
  rfl

theorem cycSet_ecm (c : Cyc (ECM n)) (hd : c.diagnostic = false) (I vlim : ℚ) :
    c.setCurrent I vlim = (.ok (if (I < 0 ∧ c.su.V ≤ vlim ∧ (c.su.withI I).V > vlim) ∨ (c.su.V ≥ vlim ∧ (c.su.withI I).V < vlim)
      then .ReachedVoltageLimit else .Success), c.withSU (c.su.withI I)) := by
  have h1 : Status.isVoltageLimitsViolated .Success = false := by decide
  unfold Cyc.setCurrent
  rw [hd, unchecked_setCurrent]
  dsimp only
  rw [h1]
  simp only [Bool.false_eq_true, if_false]
  have e : ∀ u : ECM n, StorageUnit.V u = u.V := fun _ => rfl
  simp only [e]
  by_cases a : I < 0 ∧ c.su.V ≤ vlim ∧ (c.su.withI I).V > vlim
  · rw [if_pos a, if_pos (Or.inl a)]
  · rw [if_neg a]
    by_cases b : c.su.V ≥ vlim ∧ (c.su.withI I).V < vlim
    · rw [if_pos b, if_pos (Or.inr b)]
    · rw [if_neg b, if_neg (not_or.mpr ⟨a, b⟩)]

/-- One iteration of a constant-current phase of a cell, without recording. -/
theorem ccBody_ecm {I vlim tlim : ℚ} {nMax : ℕ} {v v' : CCVars} {c c' : Cyc (ECM n)} {th th' : Thr} {x : CCNext}
    (hd : c.diagnostic = false) (h : ccBody I vlim tlim 0 nMax v c th = (.ok x, c', th'))
    (hx : x = .brk v' ∨ x = .cont v') (ht : v.ttot < tlim) (hdt : 0 < v.dti) (hn : 1 ≤ v.nOnce) (hm : 1 ≤ nMax)
    (hn2 : v.nOnce ≤ nMax) :
    ∃ dti : ℚ, ∃ k : ℕ, 0 < dti ∧ dti ≤ v.dti ∧ 1 ≤ k ∧ k ≤ nMax ∧ c' = c.withSU ((c.su.withI I).steps dti k) ∧
      0 < c'.su.V ∧ th'.Ah = th.Ah + |I| * (dti * k) / 3600 ∧ v'.dti = dti ∧ 1 ≤ v'.nOnce ∧ v'.nOnce ≤ nMax ∧
      v'.ttot ≤ tlim ∧ (x = .brk v' ↔ BeyondLimit I vlim c'.su.V) ∧ v'.ttot = v.ttot + dti * k ∧
      (v'.ttot < tlim → dti = v.dti) := by
  unfold ccBody at h
  rw [cycSet_ecm c hd] at h
  dsimp only at h
  have hc := choose_step (tlim - v.ttot) v.dti v.nOnce (by linarith) hdt hn
  dsimp only at hc
  generalize (if (v.nOnce : ℚ) * v.dti > tlim - v.ttot then 1 else v.nOnce) = k at h hc
  generalize (if v.dti > tlim - v.ttot then tlim - v.ttot else v.dti) = dti at h hc
  obtain ⟨h1, h2, h3, h4, h5, h6, -⟩ := hc
  have e : StorageUnit.timeStep (c.withSU (c.su.withI I)).su dti k = (.ok (), (c.su.withI I).steps dti k) := by
    show ECM.timeStep (c.su.withI I) dti k = _
    unfold ECM.timeStep
    rw [if_neg h1.not_gt]
  rw [e] at h
  dsimp only at h
  generalize hu : (c.su.withI I).steps dti k = u at h
  have ev : ccVoltage ((c.withSU (c.su.withI I)).withSU u) =
      if u.V ≤ 0 then .inl .V_not_calculated else .inr u.V := by
    unfold ccVoltage
    have : ((c.withSU (c.su.withI I)).withSU u).diagnostic = false := hd
    rw [this]; rfl
  rw [ev] at h
  have ew : (c.withSU (c.su.withI I)).withSU u = c.withSU u := rfl
  rw [ew] at h
  by_cases hv : u.V ≤ 0
  · rw [if_pos hv] at h
    simp only [Prod.mk.injEq, Outcome.ok.injEq] at h
    rcases hx with hx | hx <;> · rw [hx] at h; cases h.1
  · rw [if_neg hv] at h
    dsimp only at h
    have es : (decide ((0 : ℤ) < 0) && decide ((0 : ℤ) ≤ ((v.idat + k : ℕ) : ℤ))) = false := by simp
    rw [es] at h
    have e0 : storeIf false (c.withSU u) = c.withSU u := rfl
    rw [e0] at h
    by_cases hb : (I < 0 ∧ u.V > vlim) ∨ (I > 0 ∧ u.V < vlim)
    · rw [if_pos hb] at h
      simp only [Prod.mk.injEq, Outcome.ok.injEq] at h
      obtain ⟨a1, a2, a3⟩ := h
      rcases hx with hx | hx
      · rw [hx] at a1
        have a1 := CCNext.brk.inj a1
        subst a1 a2 a3
        exact ⟨dti, k, h1, h4, h2, h3.trans hn2, by rw [hu], not_le.mp hv, rfl, rfl, h2, h3.trans hn2, by
          show v.ttot + dti * k ≤ tlim; linarith, ⟨fun _ => hb, fun _ => hx⟩, rfl, fun h => h6 (by
            have : v.ttot + dti * k < tlim := h
            linarith)⟩
      · rw [hx] at a1; cases a1
    · rw [if_neg hb] at h
      simp only [Prod.mk.injEq, Outcome.ok.injEq] at h
      obtain ⟨a1, a2, a3⟩ := h
      rcases hx with hx | hx
      · rw [hx] at a1; cases a1
      · rw [hx] at a1
        have a1 := CCNext.cont.inj a1
        subst a1 a2 a3
        refine ⟨dti, k, h1, h4, h2, h3.trans hn2, by rw [hu], not_le.mp hv, rfl, rfl, ccAdapt_pos _ _ _ _ _ _ _ _ hm,
          ccAdapt_le _ _ _ _ _ _ _ _ hm, ?_, ?_, rfl, fun h => h6 (by
            have : v.ttot + dti * k < tlim := h
            linarith)⟩
        · show v.ttot + dti * k ≤ tlim; linarith
        · rw [hx]; exact ⟨fun h => (by cases h), fun h => absurd h hb⟩


/-- The RC currents stay within `I0` when the current does. -/
theorem step1_within {u : ECM n} {I0 dt : ℚ} (hp : CircuitSound u.par) (hI : |u.st.I| ≤ I0) (h : ∀ i, |u.st.Ir i| ≤ I0)
    (hdt : 0 ≤ dt) (hdt1 : dt ≤ 1) (i : Fin n) : |(u.step1 dt).st.Ir i| ≤ I0 := by
  have e : (u.step1 dt).st.Ir i = (1 - dt * u.par.invTau i) * u.st.Ir i + dt * u.par.invTau i * u.st.I := by
    show u.st.Ir i + dt * u.par.invTau i * (u.st.I - u.st.Ir i) = _; ring
  have h0 : 0 ≤ dt * u.par.invTau i := mul_nonneg hdt (hp.tau0 i)
  have h1 : dt * u.par.invTau i ≤ 1 := by
    calc dt * u.par.invTau i ≤ 1 * 1 := mul_le_mul hdt1 (hp.tau1 i) (hp.tau0 i) zero_le_one
      _ = 1 := one_mul 1
  rw [e]
  calc |(1 - dt * u.par.invTau i) * u.st.Ir i + dt * u.par.invTau i * u.st.I|
      ≤ |(1 - dt * u.par.invTau i) * u.st.Ir i| + |dt * u.par.invTau i * u.st.I| := abs_add_le _ _
    _ = (1 - dt * u.par.invTau i) * |u.st.Ir i| + dt * u.par.invTau i * |u.st.I| := by
        rw [abs_mul, abs_mul, abs_of_nonneg h0, abs_of_nonneg (by linarith : 0 ≤ 1 - dt * u.par.invTau i)]
    _ ≤ (1 - dt * u.par.invTau i) * I0 + dt * u.par.invTau i * I0 :=
        add_le_add (mul_le_mul_of_nonneg_left (h i) (by linarith)) (mul_le_mul_of_nonneg_left hI h0)
    _ = I0 := by ring

theorem steps_within {I0 dt : ℚ} (hdt : 0 ≤ dt) (hdt1 : dt ≤ 1) (k : ℕ) : ∀ {u : ECM n}, CircuitSound u.par → |u.st.I| ≤ I0 →
    (∀ i, |u.st.Ir i| ≤ I0) → ∀ i, |(u.steps dt k).st.Ir i| ≤ I0 := by
  induction k with
  | zero => intro u _ _ h; exact h
  | succ k ih =>
    intro u hp hI h
    exact ih (u := u.step1 dt) hp hI (step1_within hp hI h hdt hdt1)

/-- The open-circuit voltage is within the drop of the voltage. -/
theorem ocv_near {u : ECM n} {I0 : ℚ} (hp : CircuitSound u.par) (hI : |u.st.I| ≤ I0) (h : ∀ i, |u.st.Ir i| ≤ I0) {o : ℚ}
    (ho : u.par.ocv u.st.SOC = some o) : |o - u.V| ≤ dropAt u.par I0 := by
  have e : o - u.V = u.par.Rdc * u.st.I + ∑ i, u.par.Rp i * u.st.Ir i := by unfold ECM.V; rw [ho]; ring
  rw [e]
  refine (abs_add_le _ _).trans ?_
  unfold dropAt
  rw [add_mul, Finset.sum_mul]
  refine add_le_add ?_ ((Finset.abs_sum_le_sum_abs _ _).trans (Finset.sum_le_sum (fun i _ => ?_)))
  · rw [abs_mul, abs_of_nonneg hp.Rdc]; exact mul_le_mul_of_nonneg_left hI hp.Rdc
  · rw [abs_mul, abs_of_nonneg (hp.Rp i)]; exact mul_le_mul_of_nonneg_left (h i) (hp.Rp i)

theorem ocv_of_V {u : ECM n} (h : 0 < u.V) : ∃ o, u.par.ocv u.st.SOC = some o := by
  rcases ho : u.par.ocv u.st.SOC with _ | o
  · unfold ECM.V at h; rw [ho] at h; exact absurd h (lt_irrefl _)
  · exact ⟨o, rfl⟩

/-- Where a phase ends: just beyond the limit, at most two steps of one second after a state that was not beyond it. -/
structure PhaseEnds (s I0 vlim : ℚ) (p : ECMPar n) (z : ℚ) : Prop where
  last : ∃ o, p.ocv z = some o ∧ -dropAt p I0 < s * (vlim - o)
  before : ∃ z0 o, p.ocv z0 = some o ∧ s * (vlim - o) ≤ dropAt p I0 ∧ 0 ≤ s * (z0 - z) ∧
    s * (z0 - z) * p.cap ≤ 2 * I0 / 3600

theorem beyond_iff {s I0 vlim v : ℚ} (hs : s = 1 ∨ s = -1) (h0 : 0 < I0) : BeyondLimit (s * I0) vlim v ↔ 0 < s * (vlim - v) := by
  unfold BeyondLimit
  rcases hs with rfl | rfl
  · constructor
    · rintro (h | h)
      · linarith [h.1]
      · linarith [h.2]
    · intro h; exact .inr ⟨by linarith, by linarith⟩
  · constructor
    · rintro (h | h)
      · linarith [h.2]
      · linarith [h.1]
    · intro h; exact .inl ⟨by linarith, by linarith⟩

theorem abs_sI {s I0 : ℚ} (hs : s = 1 ∨ s = -1) (h0 : 0 < I0) : |s * I0| = I0 := by
  rcases hs with rfl | rfl
  · rw [one_mul, abs_of_pos h0]
  · rw [neg_one_mul, abs_neg, abs_of_pos h0]

theorem s_abs {s x : ℚ} (hs : s = 1 ∨ s = -1) : s * x ≤ |x| := by
  rcases hs with rfl | rfl
  · rw [one_mul]; exact le_abs_self x
  · rw [neg_one_mul]; exact neg_le_abs x

/-- The loop, from a state that carries the current and is not beyond the limit. -/
theorem ccLoop_ends {s I0 vlim tlim : ℚ} (hs : s = 1 ∨ s = -1) (h0 : 0 < I0) (fuel : ℕ) :
    ∀ {v v' : CCVars} {c c' : Cyc (ECM n)} {th th' : Thr} {o : ℚ}, c.diagnostic = false → CircuitSound c.su.par →
    c.su.st.I = s * I0 → (∀ i, |c.su.st.Ir i| ≤ I0) → s * (vlim - c.su.V) ≤ 0 → c.su.par.ocv c.su.st.SOC = some o →
    0 < v.dti → v.dti ≤ 1 → 1 ≤ v.nOnce → v.nOnce ≤ 2 →
    ccLoop (s * I0) vlim tlim 0 2 fuel v c th = (.ok (.inr (v', true)), c', th') →
    c'.diagnostic = false ∧ c'.su.par = c.su.par ∧ c'.su.st.I = s * I0 ∧ (∀ i, |c'.su.st.Ir i| ≤ I0) ∧
      0 < s * (vlim - c'.su.V) ∧ PhaseEnds s I0 vlim c'.su.par c'.su.st.SOC ∧
      c'.su.par.cap * (c.su.st.SOC - c'.su.st.SOC) = s * (th'.Ah - th.Ah) := by
  induction fuel with
  | zero =>
    intro v v' c c' th th' o hd hp hI hIr hV ho hdt hdt1 hn hn2 h
    unfold ccLoop at h
    split at h <;> simp at h
  | succ fuel ih =>
    intro v v' c c' th th' o hd hp hI hIr hV ho hdt hdt1 hn hn2 h
    unfold ccLoop at h
    by_cases ht : v.ttot < tlim
    · rw [if_pos ht] at h
      have hu : c.su.withI (s * I0) = c.su := by rw [← hI]; rfl
      rcases hb : ccBody (s * I0) vlim tlim 0 2 v c th with ⟨(st | w | w) | e | w, c1, th1⟩ <;> rw [hb] at h
      · simp at h
      · -- the limit is reached
        simp only [Prod.mk.injEq, Outcome.ok.injEq, Sum.inr.injEq, and_true] at h
        obtain ⟨rfl, rfl, rfl⟩ := h
        obtain ⟨dti, k, a1, a2, a3, a4, a5, a6, a7, a8, a9, a10, a11, a12, -, -⟩ :=
          ccBody_ecm hd hb (.inl rfl) ht hdt hn (by norm_num) hn2
        rw [hu] at a5
        have hbey := (beyond_iff hs h0).mp (a12.mp rfl)
        have e1 : c1.su = c.su.steps dti k := by rw [a5]; rfl
        have hIr' := steps_within (I0 := I0) a1.le (a2.trans hdt1) k hp (by rw [hI, abs_sI hs h0]) hIr
        have hp1 : c1.su.par = c.su.par := by rw [e1, ECM.steps_par]
        have hI1 : c1.su.st.I = s * I0 := by rw [e1, ECM.steps_I, hI]
        have hz : c1.su.par.cap * (c.su.st.SOC - c1.su.st.SOC) = s * (I0 * (dti * k) / 3600) := by
          rw [hp1, e1, ECM.steps_SOC, hI]
          have := hp.cap.ne'
          field_simp; ring
        refine ⟨by rw [a5]; exact hd, hp1, hI1, by rw [e1]; exact hIr', hbey, ⟨?_, ?_⟩, ?_⟩
        · obtain ⟨o', ho'⟩ := ocv_of_V a6
          refine ⟨o', ho', ?_⟩
          have h1 := ocv_near (I0 := I0) (by rw [hp1]; exact hp) (by rw [hI1, abs_sI hs h0]) (by rw [e1]; exact hIr') ho'
          have h2 := s_abs (x := o' - c1.su.V) hs
          have : s * (vlim - o') = s * (vlim - c1.su.V) - s * (o' - c1.su.V) := by ring
          linarith
        · refine ⟨c.su.st.SOC, o, by rw [hp1]; exact ho, ?_, ?_, ?_⟩
          · rw [hp1]
            have h1 := ocv_near (I0 := I0) hp (by rw [hI, abs_sI hs h0]) hIr ho
            have h2 := s_abs (s := s) (x := -(o - c.su.V)) hs
            rw [abs_neg] at h2
            have : s * (vlim - o) = s * (vlim - c.su.V) + s * (-(o - c.su.V)) := by ring
            linarith
          · have hc : 0 < c1.su.par.cap := by rw [hp1]; exact hp.cap
            have : s * (c.su.st.SOC - c1.su.st.SOC) * c1.su.par.cap = s * s * (I0 * (dti * k) / 3600) := by
              rw [mul_assoc, mul_comm (_ - _), hz]; ring
            have hss : s * s = 1 := by rcases hs with rfl | rfl <;> norm_num
            rw [hss, one_mul] at this
            by_contra hneg
            have := mul_neg_of_neg_of_pos (not_le.mp hneg) hc
            have : 0 ≤ I0 * (dti * k) / 3600 := by positivity
            linarith
          · have : s * (c.su.st.SOC - c1.su.st.SOC) * c1.su.par.cap = s * s * (I0 * (dti * k) / 3600) := by
              rw [mul_assoc, mul_comm (_ - _), hz]; ring
            have hss : s * s = 1 := by rcases hs with rfl | rfl <;> norm_num
            rw [this, hss, one_mul]
            have hk : dti * k ≤ 1 * 2 := mul_le_mul (a2.trans hdt1) (by exact_mod_cast a4) (by positivity) zero_le_one
            have := mul_le_mul_of_nonneg_left hk h0.le
            linarith
        · rw [hz, a7, abs_sI hs h0]; ring
      · -- one more iteration
        obtain ⟨dti, k, a1, a2, a3, a4, a5, a6, a7, a8, a9, a10, a11, a12, -, -⟩ :=
          ccBody_ecm hd hb (.inr rfl) ht hdt hn (by norm_num) hn2
        rw [hu] at a5
        have hnb : ¬ BeyondLimit (s * I0) vlim c1.su.V := fun hh => by have := a12.mpr hh; cases this
        rw [beyond_iff hs h0, not_lt] at hnb
        have e1 : c1.su = c.su.steps dti k := by rw [a5]; rfl
        have hIr' := steps_within (I0 := I0) a1.le (a2.trans hdt1) k hp (by rw [hI, abs_sI hs h0]) hIr
        have hp1 : c1.su.par = c.su.par := by rw [e1, ECM.steps_par]
        have hI1 : c1.su.st.I = s * I0 := by rw [e1, ECM.steps_I, hI]
        have hz : c.su.par.cap * (c.su.st.SOC - c1.su.st.SOC) = s * (I0 * (dti * k) / 3600) := by
          rw [e1, ECM.steps_SOC, hI]
          have := hp.cap.ne'
          field_simp; ring
        obtain ⟨o', ho'⟩ := ocv_of_V a6
        obtain ⟨b1, b2, b3, b4, b5, b6, b7⟩ := ih (by rw [a5]; exact hd) (by rw [hp1]; exact hp) hI1 (by rw [e1]; exact hIr')
          hnb ho' (by rw [a8]; exact a1) (by rw [a8]; exact a2.trans hdt1) a9 a10 h
        refine ⟨b1, b2.trans hp1, b3, b4, b5, b6, ?_⟩
        rw [b2, hp1] at b7 ⊢
        rw [a7, abs_sI hs h0] at b7
        linarith
      · simp at h
      · simp at h
    · rw [if_neg ht] at h; simp at h

/-- A constant-current phase at `I0` that reports the voltage limit, from a cell that is not beyond it. -/
theorem cc_ends {s I0 vlim : ℚ} (hs : s = 1 ∨ s = -1) (h0 : 0 < I0) {fuel : ℕ} {c c' : Cyc (ECM n)} {th th' : Thr} {o : ℚ}
    (hd : c.diagnostic = false) (hp : CircuitSound c.su.par) (hI : |c.su.st.I| ≤ I0) (hIr : ∀ i, |c.su.st.Ir i| ≤ I0)
    (hV : s * (vlim - c.su.V) ≤ 0) (ho : c.su.par.ocv c.su.st.SOC = some o)
    (h : CC fuel c (s * I0) vlim TIME_INF 1 0 th = (.ok .ReachedVoltageLimit, c', th')) :
    c'.diagnostic = false ∧ c'.su.par = c.su.par ∧ c'.su.st.I = s * I0 ∧ (∀ i, |c'.su.st.Ir i| ≤ I0) ∧
      0 < s * (vlim - c'.su.V) ∧ PhaseEnds s I0 vlim c'.su.par c'.su.st.SOC ∧
      c'.su.par.cap * (c.su.st.SOC - c'.su.st.SOC) = s * (th'.Ah - th.Ah) := by
  have hV' : (c.su.withI (s * I0)).V = c.su.V + c.su.par.Rdc * (c.su.st.I - s * I0) := by
    have e : (c.su.withI (s * I0)).par.ocv (c.su.withI (s * I0)).st.SOC = some o := ho
    unfold ECM.V
    rw [ho, e]
    show o - c.su.par.Rdc * (s * I0) - ∑ i, c.su.par.Rp i * c.su.st.Ir i = _
    ring
  -- the limit is reached at once
  have now : 0 < s * (vlim - (c.su.withI (s * I0)).V) → c' = c.withSU (c.su.withI (s * I0)) → th' = th →
      c'.diagnostic = false ∧ c'.su.par = c.su.par ∧ c'.su.st.I = s * I0 ∧ (∀ i, |c'.su.st.Ir i| ≤ I0) ∧
      0 < s * (vlim - c'.su.V) ∧ PhaseEnds s I0 vlim c'.su.par c'.su.st.SOC ∧
      c'.su.par.cap * (c.su.st.SOC - c'.su.st.SOC) = s * (th'.Ah - th.Ah) := by
    rintro hb rfl rfl
    refine ⟨hd, rfl, rfl, hIr, hb, ⟨⟨o, ho, ?_⟩, c.su.st.SOC, o, ho, ?_, ?_, ?_⟩, ?_⟩
    · have h1 := ocv_near (u := c.su.withI (s * I0)) (I0 := I0) (o := o) hp (abs_sI hs h0).le hIr ho
      have h2 := s_abs (x := o - (c.su.withI (s * I0)).V) hs
      have h3 : s * (vlim - o) = s * (vlim - (c.su.withI (s * I0)).V) - s * (o - (c.su.withI (s * I0)).V) := by ring
      show -dropAt c.su.par I0 < _
      have h4 : dropAt (c.su.withI (s * I0)).par I0 = dropAt c.su.par I0 := rfl
      linarith
    · have h1 := ocv_near (I0 := I0) hp hI hIr ho
      have h2 := s_abs (s := s) (x := -(o - c.su.V)) hs
      rw [abs_neg] at h2
      have : s * (vlim - o) = s * (vlim - c.su.V) + s * (-(o - c.su.V)) := by ring
      show _ ≤ dropAt c.su.par I0
      linarith
    · show 0 ≤ s * (c.su.st.SOC - c.su.st.SOC); rw [sub_self, mul_zero]
    · show s * (c.su.st.SOC - c.su.st.SOC) * c.su.par.cap ≤ _
      rw [sub_self, mul_zero, zero_mul]; positivity
    · show c.su.par.cap * (c.su.st.SOC - c.su.st.SOC) = _
      rw [sub_self, sub_self]; ring
  unfold CC at h
  dsimp only at h
  have e0 : storeIf (decide ((0 : ℤ) < 0)) c = c := rfl
  rw [e0, cycSet_ecm c hd] at h
  dsimp only at h
  by_cases hr : (s * I0 < 0 ∧ c.su.V ≤ vlim ∧ (c.su.withI (s * I0)).V > vlim) ∨
      (c.su.V ≥ vlim ∧ (c.su.withI (s * I0)).V < vlim)
  · rw [if_pos hr, reached_not_successful] at h
    simp only [Bool.not_false, if_true, Prod.mk.injEq, true_and] at h
    refine now ?_ h.1.symm h.2.symm
    rcases hs with rfl | rfl
    · rcases hr with hr | hr
      · linarith [hr.1]
      · linarith [hr.2]
    · rcases hr with hr | hr
      · linarith [hr.2.2]
      · exfalso
        rw [hV'] at hr
        have h1 : 0 ≤ c.su.par.Rdc * (c.su.st.I - -1 * I0) :=
          mul_nonneg hp.Rdc (by have := neg_abs_le c.su.st.I; linarith)
        linarith [hr.1, hr.2]
  · rw [if_neg hr] at h
    have e1 : Status.isSuccessful .Success = true := by decide
    rw [e1] at h
    simp only [Bool.not_true, Bool.false_eq_true, if_false] at h
    have e2 : StorageUnit.V (c.withSU (c.su.withI (s * I0))).su = (c.su.withI (s * I0)).V := rfl
    rw [e2] at h
    by_cases hb : BeyondLimit (s * I0) vlim (c.su.withI (s * I0)).V
    · have hb' : (s * I0 < 0 ∧ (c.su.withI (s * I0)).V > vlim) ∨ (s * I0 > 0 ∧ (c.su.withI (s * I0)).V < vlim) := hb
      rw [if_pos hb'] at h
      simp only [Prod.mk.injEq, true_and] at h
      exact now ((beyond_iff hs h0).mp hb) h.1.symm h.2.symm
    · have hb' : ¬ ((s * I0 < 0 ∧ (c.su.withI (s * I0)).V > vlim) ∨ (s * I0 > 0 ∧ (c.su.withI (s * I0)).V < vlim)) := hb
      rw [if_neg hb'] at h
      rw [beyond_iff hs h0, not_lt] at hb
      have e3 : decide ((0 : ℤ) < 0) = false := by decide
      rw [e3] at h
      simp only [Bool.false_eq_true, if_false] at h
      rcases hl : ccLoop (s * I0) vlim TIME_INF 0 2 fuel _ (c.withSU (c.su.withI (s * I0))) th with
        ⟨(st | ⟨w, b⟩) | e | w, c2, th2⟩ <;> rw [hl] at h
      · simp only [Prod.mk.injEq, Outcome.ok.injEq] at h
        obtain ⟨rfl, -, -⟩ := h
        exact absurd (ccLoop_ret_code 0 fuel hl) (by decide)
      · dsimp only at h
        by_cases ht : w.ttot ≥ TIME_INF
        · rw [if_pos ht] at h; simp at h
        · rw [if_neg ht] at h
          cases b
          · simp at h
          · simp only [if_true, Prod.mk.injEq, true_and] at h
            obtain ⟨rfl, rfl⟩ := h
            exact ccLoop_ends hs h0 fuel (c := c.withSU (c.su.withI (s * I0))) hd hp rfl hIr hb ho (by norm_num) (by norm_num)
              (by norm_num) (by norm_num) hl
      · simp at h
      · simp at h

theorem dropAt_nonneg {p : ECMPar n} (hp : CircuitSound p) {I0 : ℚ} (h0 : 0 ≤ I0) : 0 ≤ dropAt p I0 :=
  mul_nonneg (add_nonneg hp.Rdc (Finset.sum_nonneg fun i _ => hp.Rp i)) h0

/-- An end of the test is near the state of charge at which the open-circuit voltage equals the limit. -/
theorem phaseEnds_near {s I0 vlim m z zlim : ℚ} {p : ECMPar n} (hs : s = 1 ∨ s = -1) (hm : 0 < m) (hp : CircuitSound p)
    (hsl : SlopeAtLeast p m) (hlim : p.ocv zlim = some vlim) (h : PhaseEnds s I0 vlim p z) (h0 : 0 < I0) :
    |p.cap * (z - zlim)| ≤ p.cap * dropAt p I0 / m + 2 * I0 / 3600 := by
  obtain ⟨⟨o, ho, h1⟩, z0, o0, ho0, h2, h3, h4⟩ := h
  have hc := hp.cap
  have hD := dropAt_nonneg hp h0.le
  have pos : 0 ≤ p.cap * dropAt p I0 / m := by positivity
  have near : ∀ {a : ℚ}, m * a ≤ dropAt p I0 → p.cap * a ≤ p.cap * dropAt p I0 / m := by
    intro a hab
    rw [le_div_iff₀ hm]
    have := mul_le_mul_of_nonneg_left hab hc.le
    linarith
  -- above and below the limit
  have up : ∀ {y v : ℚ}, p.ocv y = some v → v ≤ vlim + dropAt p I0 → p.cap * (y - zlim) ≤ p.cap * dropAt p I0 / m := by
    intro y v hy hv
    rcases le_total zlim y with hle | hle
    · exact near ((hsl zlim y vlim v hle hlim hy).trans (by linarith))
    · exact (mul_nonpos_of_nonneg_of_nonpos hc.le (by linarith)).trans pos
  have down : ∀ {y v : ℚ}, p.ocv y = some v → vlim - dropAt p I0 ≤ v → p.cap * (zlim - y) ≤ p.cap * dropAt p I0 / m := by
    intro y v hy hv
    rcases le_total y zlim with hle | hle
    · exact near ((hsl y zlim v vlim hle hy hlim).trans (by linarith))
    · exact (mul_nonpos_of_nonneg_of_nonpos hc.le (by linarith)).trans pos
  have step : 0 ≤ 2 * I0 / 3600 := by positivity
  rw [abs_le]
  rcases hs with rfl | rfl
  · have a := up ho (by linarith)
    have b := down ho0 (by linarith)
    have e1 : p.cap * (z - zlim) = -(p.cap * (zlim - z0)) - 1 * (z0 - z) * p.cap := by ring
    constructor <;> linarith
  · have a := down ho (by linarith)
    have b := up ho0 (by linarith)
    have e1 : p.cap * (z - zlim) = p.cap * (z0 - zlim) + -1 * (z0 - z) * p.cap := by ring
    have e2 : p.cap * (z - zlim) = -(p.cap * (zlim - z)) := by ring
    constructor <;> linarith

/-! ## C133 -/

/-- **C133.**  If the capacity test of a cell reports a capacity, it is the charge between the states of charge at which
the open-circuit voltage equals the upper and the lower limit, up to the effect of the voltage drop at 1/25 C and of two
time steps at either end. -/
theorem capacity_measured {fuel : ℕ} {c c' : Cyc (ECM n)} {q a t a' t' m zfull zempty : ℚ} (hd : c.diagnostic = false)
    (hp : CircuitSound c.su.par) (hr : ReadyForTest c.su) (hm : 0 < m) (hsl : SlopeAtLeast c.su.par m)
    (hfull : c.su.par.ocv zfull = some (42 / 10)) (hempty : c.su.par.ocv zempty = some (27 / 10)) (hq : q ≠ 0)
    (h : testCapacity fuel c a t = (.ok q, c', a', t')) :
    |q - c.su.par.cap * (zfull - zempty)| ≤
      2 * (c.su.par.cap * dropAt c.su.par (c.su.par.cap / 25) / m + 2 * (c.su.par.cap / 25) / 3600) := by
  have h0 : 0 < c.su.par.cap / 25 := by have := hp.cap; positivity
  unfold testCapacity at h
  dsimp only at h
  have e1 : -(1/25) * Cap c.su = -1 * (c.su.par.cap / 25) := by
    show -(1/25) * c.su.par.cap = _; ring
  have e2 : ∀ u : ECM n, lim u = cellLimits := fun _ => rfl
  have e3 : 1/25 * Cap c.su = 1 * (c.su.par.cap / 25) := by show 1/25 * c.su.par.cap = _; ring
  rw [e1, e2] at h
  rcases h1 : CC fuel c (-1 * (c.su.par.cap / 25)) cellLimits.Vmax TIME_INF 1 0 Thr.zero with ⟨st1 | e | w, c1, th1⟩ <;>
    rw [h1] at h
  · dsimp only at h
    by_cases hs1 : st1 ≠ .ReachedVoltageLimit
    · rw [if_pos hs1] at h
      generalize setStates c1.su (getStates c.su) false = y at h
      rcases y with ⟨o | e | w, u⟩ <;> simp only [Prod.mk.injEq, Outcome.ok.injEq, reduceCtorEq, false_and] at h
      exact (hq h.1.symm).elim
    · rw [if_neg hs1] at h
      rw [not_not] at hs1
      subst hs1
      rw [e3] at h
      obtain ⟨o, ho⟩ := hr.known
      have hv : -1 * (cellLimits.Vmax - c.su.V) ≤ 0 := by
        have : c.su.V ≤ cellLimits.Vmax := hr.notOver
        linarith
      obtain ⟨b1, b2, b3, b4, b5, b6, b7⟩ := cc_ends (.inr rfl) h0 hd hp hr.I hr.Ir hv ho h1
      rcases h2 : CC fuel c1 (1 * (c.su.par.cap / 25)) (lim c1.su).Vmin TIME_INF 1 0 Thr.zero with ⟨st2 | e | w, c2, th2⟩ <;>
        rw [h2] at h
      · dsimp only at h
        by_cases hs2 : st2 ≠ .ReachedVoltageLimit
        · rw [if_pos hs2] at h
          generalize setStates c2.su (getStates c.su) false = y at h
          rcases y with ⟨o | e | w, u⟩ <;> simp only [Prod.mk.injEq, Outcome.ok.injEq, reduceCtorEq, false_and] at h
          exact (hq h.1.symm).elim
        · rw [if_neg hs2] at h
          rw [not_not] at hs2
          subst hs2
          simp only [Prod.mk.injEq, Outcome.ok.injEq] at h
          rw [e2] at h2
          obtain ⟨o1, ho1, -⟩ := b6.last
          have hv1 : 1 * (cellLimits.Vmin - c1.su.V) ≤ 0 := by
            have : cellLimits.Vmin = 27 / 10 := rfl
            have : cellLimits.Vmax = 42 / 10 := rfl
            linarith
          obtain ⟨d1, d2, d3, d4, d5, d6, d7⟩ := cc_ends (.inl rfl) h0 b1 (by rw [b2]; exact hp)
            (by rw [b3, abs_sI (.inr rfl) h0]) b4 hv1 ho1 h2
          have n1 := phaseEnds_near (.inr rfl) hm (by rw [b2]; exact hp) (by rw [b2]; exact hsl)
            (zlim := zfull) (by rw [b2]; exact hfull) b6 h0
          have n2 := phaseEnds_near (.inl rfl) hm (by rw [d2, b2]; exact hp) (by rw [d2, b2]; exact hsl)
            (zlim := zempty) (by rw [d2, b2]; exact hempty) d6 h0
          rw [d2, b2] at n2 d7
          rw [b2] at n1
          have hq' : q = c.su.par.cap * (c1.su.st.SOC - c2.su.st.SOC) := by
            rw [d7, ← h.1]
            simp [Thr.zero]
          have e4 : q - c.su.par.cap * (zfull - zempty) =
              c.su.par.cap * (c1.su.st.SOC - zfull) - c.su.par.cap * (c2.su.st.SOC - zempty) := by rw [hq']; ring
          rw [e4]
          refine (abs_sub _ _).trans ?_
          linarith
      · simp at h
      · simp at h
  · simp at h
  · simp at h

/-- A cell of 1 Ah with one RC pair and a very steep curve: full at 0.5, empty at 0.4999. -/
def testedCell : ECM 1 where
  par := { cap := 1, Rdc := 1 / 10, Rp := ![1 / 10], invTau := ![1 / 100],
           ocv := fun z => if 49 / 100 ≤ z ∧ z ≤ 51 / 100 then some (42 / 10 + 15000 * (z - 1 / 2)) else none }
  st := { T := 288, SOC := 49996 / 100000, I := 0, Ir := ![0], time := 0, Ah := 0, Wh := 0 }

theorem testedCell_slope : SlopeAtLeast testedCell.par 15000 := by
  intro y z v w _ hv hw
  have e : ∀ x u, testedCell.par.ocv x = some u → u = 42 / 10 + 15000 * (x - 1 / 2) := by
    intro x u hu
    have : (if 49 / 100 ≤ x ∧ x ≤ 51 / 100 then some (42 / 10 + 15000 * (x - 1 / 2)) else none) = some u := hu
    split at this
    · exact (Option.some.inj this).symm
    · cases this
  rw [e y v hv, e z w hw]
  linarith

/-- The hypotheses of `capacity_measured` are met: the test reports 1/9000 Ah for a cell with 1/10000 Ah between full
and empty. -/
example : CircuitSound testedCell.par ∧ ReadyForTest testedCell ∧ SlopeAtLeast testedCell.par 15000 ∧
    testedCell.par.ocv (1 / 2) = some (42 / 10) ∧ testedCell.par.ocv (4999 / 10000) = some (27 / 10) ∧
    (Cyc.testCapacity 100 { su := testedCell } 0 0).1 = .ok (1 / 9000) :=
  ⟨⟨by decide +kernel, by decide +kernel, by decide +kernel, by decide +kernel, by decide +kernel⟩,
   ⟨⟨42 / 10 + 15000 * (49996 / 100000 - 1 / 2), by decide +kernel⟩, by decide +kernel, by decide +kernel, by decide +kernel⟩,
   testedCell_slope, by decide +kernel, by decide +kernel, by decide +kernel⟩

end Slide

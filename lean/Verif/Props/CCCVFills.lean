import Verif.Props.CVSettles

/-!
# C147: charging with a constant current and then a constant voltage fills the cell
-/

namespace Slide
open StorageUnit Spec Cyc

variable {n : ℕ}

/-! ## Helper lemmas -/

/-- One time step with the current `σ J0`. -/
theorem pushed_step {u : ECM n} {p : ECMPar n} {σ Vset t s0 M dt ε J0 o : ℚ} (hp : u.par = p)
    (H : HoldSetting p σ Vset t s0 M dt ε) (hI : u.st.I = σ * J0) (hJ : 0 ≤ J0) (hIr : ∀ i, 0 ≤ σ * u.st.Ir i)
    (ho : p.ocv u.st.SOC = some o) (hs : σ * u.st.SOC ≤ σ * s0) (hside : 0 ≤ σ * (u.st.SOC - t))
    (hW0 : 0 < σ * (o - Vset - ∑ j, p.Rp j * u.st.Ir j))
    (hW : ε * (p.Rdc * J0) ≤ σ * (o - Vset - ∑ j, p.Rp j * u.st.Ir j)) :
    ∃ o', p.ocv (u.step1 dt).st.SOC = some o' ∧ (∀ i, 0 ≤ σ * (u.step1 dt).st.Ir i) ∧
      0 ≤ σ * ((u.step1 dt).st.SOC - t) ∧ σ * (u.step1 dt).st.SOC ≤ σ * u.st.SOC ∧
      σ * (o - Vset - ∑ j, p.Rp j * u.st.Ir j) - ε * (p.Rdc * J0) ≤
        σ * (o' - Vset - ∑ j, p.Rp j * (u.step1 dt).st.Ir j) ∧
      σ * (u.st.SOC - (u.step1 dt).st.SOC) = J0 * dt / (3600 * p.cap) ∧ 0 ≤ σ * (o' - Vset) ∧
      σ * (o' - Vset) ≤ σ * (o - Vset) := by
  subst hp
  have hss := sq_dir H.dir
  have hcap := H.cap
  have hR := H.Rdc
  have hdt := H.dt
  have hM := H.slope
  set u' := u.step1 dt with hu'
  set S := ∑ j, u.par.Rp j * u.st.Ir j with hS
  set A := ∑ j, u.par.Rp j * u.par.invTau j with hA
  set B := ∑ j, u.par.Rp j * u.par.invTau j * (σ * u.st.Ir j) with hB
  have hA0 : 0 ≤ A := Finset.sum_nonneg fun j _ => mul_nonneg (H.Rp j) (H.tau j)
  have hB0 : 0 ≤ B := Finset.sum_nonneg fun j _ => mul_nonneg (mul_nonneg (H.Rp j) (H.tau j)) (hIr j)
  have hS0 : 0 ≤ σ * S := by
    rw [hS, Finset.mul_sum]
    refine Finset.sum_nonneg fun j _ => ?_
    have := mul_nonneg (H.Rp j) (hIr j)
    linarith [this, mul_left_comm σ (u.par.Rp j) (u.st.Ir j)]
  have hstep := H.short.charge
  have e1 : σ * (u.st.SOC - u'.st.SOC) = J0 * dt / (3600 * u.par.cap) := by
    have : u'.st.SOC = u.st.SOC - σ * J0 * (dt / 3600) / u.par.cap := by rw [← hI]; rfl
    rw [this]
    have : σ * (u.st.SOC - (u.st.SOC - σ * J0 * (dt / 3600) / u.par.cap)) = σ * σ * (J0 * (dt / 3600) / u.par.cap) := by ring
    rw [this, hss]
    field_simp
  have hdrop : M * (J0 * dt / (3600 * u.par.cap)) + dt * A * J0 ≤ ε * (u.par.Rdc * J0) := by
    have := mul_le_mul_of_nonneg_right hstep hJ
    calc _ = dt * (M / (3600 * u.par.cap) + A) * J0 := by field_simp
      _ ≤ _ := this
      _ = _ := by ring
  obtain ⟨vo, vt, hvo, hvt, hc1, hc2⟩ := curve_directed H.dir H.curve (y := u.st.SOC) (z := t) le_rfl
    (by linarith [mul_sub σ u.st.SOC t]) hs
  obtain rfl : vo = o := by rw [ho] at hvo; exact (Option.some.inj hvo).symm
  obtain rfl : vt = Vset := by rw [H.target] at hvt; exact (Option.some.inj hvt).symm
  have hWM : σ * (vo - vt - S) ≤ M * (σ * (u.st.SOC - t)) := by linarith [mul_sub σ (vo - vt) S]
  have hMpos : 0 < M := by
    rcases hM.lt_or_eq with h | h
    · exact h
    · rw [← h, zero_mul] at hWM; linarith
  have hAJ : 0 ≤ dt * A * J0 := by positivity
  have hδ : J0 * dt / (3600 * u.par.cap) ≤ σ * (u.st.SOC - t) :=
    le_of_mul_le_mul_left (by linarith) hMpos
  have hδ0 : 0 ≤ J0 * dt / (3600 * u.par.cap) := by positivity
  have hle : σ * u'.st.SOC ≤ σ * u.st.SOC := by linarith [mul_sub σ u.st.SOC u'.st.SOC]
  have hge : σ * t ≤ σ * u'.st.SOC := by linarith [mul_sub σ u.st.SOC u'.st.SOC, mul_sub σ u.st.SOC t]
  obtain ⟨va, vb, hva, hvb, hc3, hc4⟩ := curve_directed H.dir H.curve (y := u.st.SOC) (z := u'.st.SOC) hge hle hs
  obtain rfl : va = vo := by rw [ho] at hva; exact (Option.some.inj hva).symm
  obtain ⟨vd, ve, hvd, hve, hc6, -⟩ := curve_directed H.dir H.curve (y := u'.st.SOC) (z := t) le_rfl hge (hle.trans hs)
  obtain rfl : vd = vb := by rw [hvb] at hvd; exact (Option.some.inj hvd).symm
  obtain rfl : ve = vt := by rw [H.target] at hve; exact (Option.some.inj hve).symm
  rw [e1] at hc4
  have eIr : ∀ j, u'.st.Ir j = u.st.Ir j + dt * u.par.invTau j * (u.st.I - u.st.Ir j) := fun _ => rfl
  have eS : σ * ∑ j, u.par.Rp j * u'.st.Ir j = σ * S + dt * A * J0 - dt * B := by
    have h1 : σ * ∑ j, u.par.Rp j * u'.st.Ir j = σ * S + dt * A * (σ * u.st.I) - dt * B := by
      simp only [eIr, hS, hA, hB, Finset.mul_sum, Finset.sum_mul, ← Finset.sum_add_distrib, ← Finset.sum_sub_distrib]
      exact Finset.sum_congr rfl fun j _ => by ring
    rw [h1, hI, ← mul_assoc σ σ, hss, one_mul]
  have hdB : 0 ≤ dt * B := by positivity
  refine ⟨vd, hvb, ?_, by linarith [mul_sub σ u'.st.SOC t], hle, ?_, e1, hc6, by linarith [mul_sub σ va vd, mul_sub σ vd ve, mul_sub σ va ve]⟩
  · intro j
    rw [eIr, hI]
    have h1 : 0 ≤ dt * u.par.invTau j := mul_nonneg hdt.le (H.tau j)
    have h2 : dt * u.par.invTau j ≤ 1 := (H.short.pairs j).trans H.short.le_one
    have : σ * (u.st.Ir j + dt * u.par.invTau j * (σ * J0 - u.st.Ir j)) =
        (1 - dt * u.par.invTau j) * (σ * u.st.Ir j) + dt * u.par.invTau j * (σ * σ * J0) := by ring
    rw [this, hss, one_mul]
    exact add_nonneg (mul_nonneg (by linarith) (hIr j)) (mul_nonneg h1 hJ)
  · have : σ * (vd - ve - ∑ j, u.par.Rp j * u'.st.Ir j) =
        σ * (va - ve - S) - σ * (va - vd) - dt * A * J0 + dt * B := by
      linear_combination eS * (-1)
    rw [this]
    linarith

/-- A cell on its way from `s0` to the target under the current `σ J0`. -/
structure Pushed (p : ECMPar n) (σ t s0 J0 : ℚ) (u : ECM n) : Prop where
  par : u.par = p
  I : u.st.I = σ * J0
  pairs : ∀ i, 0 ≤ σ * u.st.Ir i
  path : σ * u.st.SOC ≤ σ * s0
  side : 0 ≤ σ * (u.st.SOC - t)

theorem pushed_steps {u : ECM n} {p : ECMPar n} {σ Vset t s0 M dt ε J0 o : ℚ}
    (H : HoldSetting p σ Vset t s0 M dt ε) (hε : ε ≤ 1/2) (hJ : 0 < J0) (h : Pushed p σ t s0 J0 u)
    (ho : p.ocv u.st.SOC = some o) (hW : p.Rdc * J0 ≤ σ * (o - Vset - ∑ j, p.Rp j * u.st.Ir j)) {k : ℕ} (h1 : 1 ≤ k)
    (h2 : k ≤ 2) :
    Pushed p σ t s0 J0 (u.steps dt k) ∧ ∃ o', p.ocv (u.steps dt k).st.SOC = some o' ∧
      0 ≤ σ * (o' - Vset - ∑ j, p.Rp j * (u.steps dt k).st.Ir j) ∧
      p.Rdc * J0 - 2 * (ε * (p.Rdc * J0)) ≤ σ * (o' - Vset - ∑ j, p.Rp j * (u.steps dt k).st.Ir j) ∧
      σ * (u.st.SOC - (u.steps dt k).st.SOC) = J0 * (dt * k) / (3600 * p.cap) ∧
      0 ≤ σ * (o' - Vset) ∧ σ * (o' - Vset) ≤ σ * (o - Vset) := by
  have hRJ : 0 < p.Rdc * J0 := mul_pos H.Rdc hJ
  have hεle : ε * (p.Rdc * J0) ≤ 1/2 * (p.Rdc * J0) := mul_le_mul_of_nonneg_right hε hRJ.le
  have hq : 0 ≤ ε * (p.Rdc * J0) := by
    have hA0 : 0 ≤ ∑ j, p.Rp j * p.invTau j := Finset.sum_nonneg fun j _ => mul_nonneg (H.Rp j) (H.tau j)
    have := H.cap
    have hM := H.slope
    have hdt := H.dt
    have h0 : 0 ≤ dt * (M / (3600 * p.cap) + ∑ i, p.Rp i * p.invTau i) := by positivity
    have := mul_nonneg (h0.trans H.short.charge) hJ.le
    linarith [mul_assoc ε p.Rdc J0]
  obtain ⟨o1, a1, a2, a3, a4, a5, a6, a7, a8⟩ := pushed_step h.par H h.I hJ.le h.pairs ho h.path h.side (by linarith) (by linarith)
  have P1 : Pushed p σ t s0 J0 (u.step1 dt) := ⟨h.par, h.I, a2, a4.trans h.path, a3⟩
  rcases (by omega : k = 1 ∨ k = 2) with rfl | rfl
  · exact ⟨P1, o1, a1, by
      show 0 ≤ σ * (o1 - Vset - ∑ j, p.Rp j * (u.step1 dt).st.Ir j); linarith, by
      show _ ≤ σ * (o1 - Vset - ∑ j, p.Rp j * (u.step1 dt).st.Ir j); linarith, by show σ * (u.st.SOC - (u.step1 dt).st.SOC) = _; rw [a6]; push_cast; ring, a7, a8⟩
  · obtain ⟨o2, b1, b2, b3, b4, b5, b6, b7, b8⟩ := pushed_step P1.par H P1.I hJ.le P1.pairs a1 P1.path P1.side (by linarith)
      (by linarith)
    refine ⟨⟨h.par, h.I, b2, b4.trans P1.path, b3⟩, o2, b1, ?_, ?_, ?_, b7, b8.trans a8⟩
    · show 0 ≤ σ * (o2 - Vset - ∑ j, p.Rp j * ((u.step1 dt).step1 dt).st.Ir j)
      linarith
    · show _ ≤ σ * (o2 - Vset - ∑ j, p.Rp j * ((u.step1 dt).step1 dt).st.Ir j)
      linarith
    · show σ * (u.st.SOC - ((u.step1 dt).step1 dt).st.SOC) = _
      have : σ * (u.st.SOC - ((u.step1 dt).step1 dt).st.SOC) =
        σ * (u.st.SOC - (u.step1 dt).st.SOC) + σ * ((u.step1 dt).st.SOC - ((u.step1 dt).step1 dt).st.SOC) := by ring
      rw [this, a6, b6]; push_cast; ring

/-- The voltage of a cell under the current `σ J0`. -/
theorem pushed_V {u : ECM n} {p : ECMPar n} {σ t s0 J0 o Vset : ℚ} (hσ : σ = 1 ∨ σ = -1) (h : Pushed p σ t s0 J0 u)
    (ho : p.ocv u.st.SOC = some o) :
    σ * (u.V - Vset) = σ * (o - Vset - ∑ j, p.Rp j * u.st.Ir j) - p.Rdc * J0 := by
  have hss := sq_dir hσ
  have e : u.V = o - p.Rdc * (σ * J0) - ∑ j, p.Rp j * u.st.Ir j := by
    unfold ECM.V
    rw [h.par, h.I, ho]
  rw [e]
  linear_combination (-(p.Rdc * J0)) * hss

theorem pushed_V_pos {u : ECM n} {p : ECMPar n} {σ Vset t s0 M dt ε J0 o o0 : ℚ} (H : HoldSetting p σ Vset t s0 M dt ε)
    (hJ : 0 < J0) (h : Pushed p σ t s0 J0 u) (h0 : p.ocv s0 = some o0) (hpos : 0 < o0) (ho : p.ocv u.st.SOC = some o)
    (hRJ : ε * (p.Rdc * J0) < 1/100)
    (hW : p.Rdc * J0 - 2 * (ε * (p.Rdc * J0)) ≤ σ * (o - Vset - ∑ j, p.Rp j * u.st.Ir j)) : 0 < u.V := by
  have hv := pushed_V (Vset := Vset) H.dir h ho
  have hlow := H.low
  have hr := mul_pos H.Rdc hJ
  rcases H.dir with hσ | hσ
  · rw [hσ, one_mul, one_mul] at hv
    rw [hσ, one_mul] at hW
    linarith
  · obtain ⟨v, w, h1, h2, h3, -⟩ := curve_directed H.dir H.curve (y := s0) (z := u.st.SOC)
      (by linarith [h.side, mul_sub σ u.st.SOC t]) h.path le_rfl
    rw [h0] at h1
    rw [ho] at h2
    obtain rfl := Option.some.inj h1
    obtain rfl := Option.some.inj h2
    have hS : ∑ j, p.Rp j * u.st.Ir j ≤ 0 := by
      refine Finset.sum_nonpos fun j _ => mul_nonpos_of_nonneg_of_nonpos (H.Rp j) ?_
      have := h.pairs j
      rw [hσ] at this
      linarith
    rw [hσ] at hv h3
    linarith

/-- What the constant-current phase leaves behind. -/
structure Handed (p : ECMPar n) (σ Vset t s0 J0 τ : ℚ) (u u' : ECM n) : Prop where
  par : u'.par = p
  I : u'.st.I = σ * J0
  path : σ * u'.st.SOC ≤ σ * s0
  towards : Towards σ Vset t u'
  time : u'.st.time = u.st.time + τ
  charge : J0 * τ / (3600 * p.cap) = σ * (u.st.SOC - u'.st.SOC)

theorem ccLoop_pushed {σ Vset t s0 M dt ε J0 tlim o0 : ℚ} {p : ECMPar n} (H : HoldSetting p σ Vset t s0 M dt ε) (hε : ε ≤ 1/2)
    (hJ : 0 < J0) (h0 : p.ocv s0 = some o0) (hpos : 0 < o0) (htol : ε * |o0 - Vset| < 1/100)
    (hlim : 3600 * p.cap * (σ * (s0 - t)) / J0 < tlim) (fuel : ℕ) :
    ∀ (v : CCVars) (c : Cyc (ECM n)) (th : Thr) (o : ℚ), c.diagnostic = false → Pushed p σ t s0 J0 c.su →
      p.ocv c.su.st.SOC = some o → p.Rdc * J0 ≤ σ * (o - Vset - ∑ j, p.Rp j * c.su.st.Ir j) →
      v.dti = dt → 1 ≤ v.nOnce → v.nOnce ≤ 2 → J0 * v.ttot / (3600 * p.cap) = σ * (s0 - c.su.st.SOC) →
      3600 * p.cap * (σ * (s0 - t)) / J0 < v.ttot + fuel * dt →
      ∃ (v' : CCVars) (c' : Cyc (ECM n)) (th' : Thr),
        ccLoop (σ * J0) Vset tlim 0 2 fuel v c th = (.ok (.inr (v', true)), c', th') ∧ v'.ttot < tlim ∧
        c'.diagnostic = false ∧ th'.time = th.time + (v'.ttot - v.ttot) ∧
        Handed p σ Vset t s0 J0 (v'.ttot - v.ttot) c.su c'.su ∧ 0 ≤ v'.ttot - v.ttot := by
  have hcap := H.cap
  have hdt := H.dt
  have hC : 0 < 3600 * p.cap := by positivity
  have bound : ∀ (x s : ℚ), J0 * x / (3600 * p.cap) = σ * (s0 - s) → 0 ≤ σ * (s - t) →
      x ≤ 3600 * p.cap * (σ * (s0 - t)) / J0 := by
    intro x s hx hs
    rw [le_div_iff₀ hJ]
    have h1 : J0 * x / (3600 * p.cap) ≤ σ * (s0 - t) := by
      rw [hx]; linarith [mul_sub σ s0 s, mul_sub σ s t, mul_sub σ s0 t]
    rw [div_le_iff₀ hC] at h1
    linarith
  induction fuel with
  | zero =>
    intro v c th o hd hP ho hW hdti hn1 hn2 ht hf
    have := bound _ _ ht hP.side
    simp at hf
    linarith
  | succ fuel ih =>
    intro v c th o hd hP ho hW hdti hn1 hn2 ht hf
    have hb0 := bound _ _ ht hP.side
    obtain ⟨hP', o', ho', hW0, hW1, hδ, ho1, ho2⟩ := pushed_steps H hε hJ hP ho hW hn1 hn2
    have ht' : J0 * (v.ttot + dt * v.nOnce) / (3600 * p.cap) = σ * (s0 - (c.su.steps dt v.nOnce).st.SOC) := by
      have : σ * (s0 - (c.su.steps dt v.nOnce).st.SOC) =
        σ * (s0 - c.su.st.SOC) + σ * (c.su.st.SOC - (c.su.steps dt v.nOnce).st.SOC) := by ring
      rw [this, ← ht, hδ]; ring
    have hb1 := bound _ _ ht' hP'.side
    have hRJ : ε * (p.Rdc * J0) < 1/100 := by
      obtain ⟨vv, ww, h1, h2, h3, -⟩ := curve_directed H.dir H.curve (y := s0) (z := c.su.st.SOC)
        (by linarith [hP.side, mul_sub σ c.su.st.SOC t]) hP.path le_rfl
      rw [h0] at h1
      rw [ho] at h2
      obtain rfl := Option.some.inj h1
      obtain rfl := Option.some.inj h2
      have hS0 : 0 ≤ σ * ∑ j, p.Rp j * c.su.st.Ir j := by
        rw [Finset.mul_sum]
        refine Finset.sum_nonneg fun j _ => ?_
        have := mul_nonneg (H.Rp j) (hP.pairs j)
        linarith [this, mul_left_comm σ (p.Rp j) (c.su.st.Ir j)]
      have h4 : p.Rdc * J0 ≤ |o0 - Vset| := by
        rw [← abs_dir H.dir]
        refine le_trans ?_ (le_abs_self _)
        linarith [mul_sub σ (o - Vset) (∑ j, p.Rp j * c.su.st.Ir j), mul_sub σ o0 o, mul_sub σ o0 Vset, mul_sub σ o Vset]
      rcases le_or_gt 0 ε with h | h
      · exact (mul_le_mul_of_nonneg_left h4 h).trans_lt htol
      · have := mul_neg_of_neg_of_pos h (mul_pos H.Rdc hJ)
        linarith
    have hVpos := pushed_V_pos H hJ hP' h0 hpos ho' hRJ hW1
    have hVrel := pushed_V (Vset := Vset) H.dir hP' ho'
    have hT : c.su.withI (σ * J0) = c.su := by rw [← hP.I]; rfl
    have htime : (c.su.steps dt v.nOnce).st.time = c.su.st.time + dt * v.nOnce := by rw [ECM.steps_time]; ring
    have e : StorageUnit.timeStep c.su dt v.nOnce = (.ok (), c.su.steps dt v.nOnce) := by
      show ECM.timeStep c.su dt v.nOnce = _
      unfold ECM.timeStep
      rw [if_neg hdt.le.not_gt]
    generalize hu : c.su.steps dt v.nOnce = u at *
    have hk1 : (1 : ℚ) ≤ v.nOnce := by exact_mod_cast hn1
    have hkd : dt ≤ dt * v.nOnce := by nlinarith
    have hlt : v.ttot < tlim := by linarith
    have ev : ∀ c1 : Cyc (ECM n), c1.diagnostic = false → ccVoltage (c1.withSU u) = .inr u.V := by
      intro c1 hc1
      unfold ccVoltage
      have : (c1.withSU u).diagnostic = false := hc1
      rw [this]
      show (if u.V ≤ 0 then Sum.inl Status.V_not_calculated else Sum.inr u.V) = _
      rw [if_neg (not_le.mpr hVpos)]
    have es : ∀ x : ℕ, (decide ((0 : ℤ) < 0) && decide ((0 : ℤ) ≤ (x : ℤ))) = false := fun _ => rfl
    have body : ∃ x, ccBody (σ * J0) Vset tlim 0 2 v c th =
        (.ok x, c.withSU u, ⟨th.time + dt * v.nOnce, th.Ah + |σ * J0| * (dt * v.nOnce) / 3600,
          th.Wh + |σ * J0| * (dt * v.nOnce) / 3600 * u.V⟩) ∧
        (0 < σ * (Vset - u.V) → ∃ v', x = .brk v' ∧ v'.ttot = v.ttot + dt * v.nOnce) ∧
        (¬ 0 < σ * (Vset - u.V) → ∃ v', x = .cont v' ∧ v'.ttot = v.ttot + dt * v.nOnce ∧ v'.dti = dt ∧
          1 ≤ v'.nOnce ∧ v'.nOnce ≤ 2) := by
      unfold ccBody
      rw [cycSet_ecm c hd, hT]
      dsimp only
      rw [hdti, if_neg (by rw [not_lt]; linarith [mul_comm dt (v.nOnce : ℚ)]), if_neg (by rw [not_lt]; linarith)]
      rw [withSU_su, e]
      dsimp only
      rw [ev (c.withSU c.su) hd]
      dsimp only
      have hbi : (σ * J0 < 0 ∧ u.V > Vset ∨ σ * J0 > 0 ∧ u.V < Vset) ↔ 0 < σ * (Vset - u.V) := beyond_iff H.dir hJ
      by_cases hb : 0 < σ * (Vset - u.V)
      · rw [if_pos (hbi.mpr hb)]
        exact ⟨_, rfl, fun _ => ⟨_, rfl, rfl⟩, fun h => absurd hb h⟩
      · rw [if_neg (fun hh => hb (hbi.mp hh))]
        exact ⟨_, rfl, fun h => absurd h hb, fun _ => ⟨_, rfl, rfl, rfl, ccAdapt_pos _ _ _ _ _ _ _ _ (by norm_num),
          ccAdapt_le _ _ _ _ _ _ _ _ (by norm_num)⟩⟩
    obtain ⟨x, ex, hx1, hx2⟩ := body
    unfold ccLoop
    rw [if_pos hlt, ex]
    by_cases hb : 0 < σ * (Vset - u.V)
    · obtain ⟨v', rfl, hv'⟩ := hx1 hb
      have hτ : v'.ttot - v.ttot = dt * v.nOnce := by rw [hv']; ring
      refine ⟨v', _, _, rfl, by rw [hv']; linarith, hd, by rw [hτ], ?_, by rw [hτ]; linarith⟩
      rw [hτ]
      exact ⟨hP'.par, hP'.I, hP'.path, ⟨⟨o', by rw [← ho', ← hP'.par]; rfl, by
        show 0 ≤ σ * (o' - Vset - ∑ i, u.par.Rp i * u.st.Ir i); rw [hP'.par]; exact hW0⟩, hP'.pairs, hP'.side⟩, htime, hδ.symm⟩
    · obtain ⟨v', rfl, hv', hd', hm1, hm2⟩ := hx2 hb
      obtain ⟨w, c2, th2, e2, k1, k2, k3, k4, k5⟩ := ih v' (c.withSU u) _ o' hd hP' ho' (by
          have : σ * (Vset - u.V) = -(σ * (u.V - Vset)) := by ring
          rw [this] at hb
          show p.Rdc * J0 ≤ σ * (o' - Vset - ∑ j, p.Rp j * u.st.Ir j)
          linarith [not_lt.mp hb]) hd' hm1 hm2 (by rw [hv']; exact ht') (by
          rw [hv']; push_cast at hf; linarith)
      refine ⟨w, c2, th2, e2, k1, k2, ?_, ?_, by rw [hv'] at k5; linarith⟩
      · rw [k3, hv']; show th.time + dt * v.nOnce + _ = _; ring
      · rw [hv'] at k4
        refine ⟨k4.par, k4.I, k4.path, k4.towards, ?_, ?_⟩
        · rw [k4.time]
          show u.st.time + _ = _
          rw [htime]; ring
        · have h1 := k4.charge
          have h2 : σ * (c.su.st.SOC - c2.su.st.SOC) = σ * (c.su.st.SOC - u.st.SOC) + σ * (u.st.SOC - c2.su.st.SOC) := by ring
          rw [h2, hδ]
          have h3 : σ * (u.st.SOC - c2.su.st.SOC) = J0 * (w.ttot - (v.ttot + dt * v.nOnce)) / (3600 * p.cap) := h1.symm
          rw [h3]; ring

/-- The constant-current phase towards the target always ends at the set voltage. -/
theorem cc_pushes {σ Vset t M dt ε J0 tlim o0 : ℚ} (c : Cyc (ECM n)) (hd : c.diagnostic = false)
    (H : HoldSetting c.su.par σ Vset t c.su.st.SOC M dt ε) (hε : ε ≤ 1/2)
    (hJ : 0 < J0) (h0 : c.su.par.ocv c.su.st.SOC = some o0) (hpos : 0 < o0) (htol : ε * |o0 - Vset| < 1/100)
    (hT : Towards σ Vset t c.su) (hlim : 3600 * c.su.par.cap * |c.su.st.SOC - t| / J0 < tlim) (fuel : ℕ)
    (hf : 3600 * c.su.par.cap * |c.su.st.SOC - t| / J0 < fuel * dt) (th : Thr) :
    ∃ (c' : Cyc (ECM n)) (th' : Thr) (τ : ℚ),
      CC fuel c (σ * J0) Vset tlim dt 0 th = (.ok .ReachedVoltageLimit, c', th') ∧ c'.diagnostic = false ∧
        th'.time = th.time + τ ∧ 0 ≤ τ ∧ Handed c.su.par σ Vset t c.su.st.SOC J0 τ c.su c'.su := by
  have hside : |c.su.st.SOC - t| = σ * (c.su.st.SOC - t) := by rw [← abs_dir H.dir, abs_of_nonneg hT.side]
  rw [hside] at hlim hf
  have hTo : 0 ≤ σ * (o0 - Vset - ∑ i, c.su.par.Rp i * c.su.st.Ir i) := by
    obtain ⟨o, h1, h2⟩ := hT.known
    rw [h0] at h1
    obtain rfl := Option.some.inj h1
    exact h2
  have now : ∃ (c' : Cyc (ECM n)) (th' : Thr) (τ : ℚ),
      ((.ok .ReachedVoltageLimit, c.withSU (c.su.withI (σ * J0)), th) : Outcome Status × Cyc (ECM n) × Thr) =
        (.ok .ReachedVoltageLimit, c', th') ∧ c'.diagnostic = false ∧ th'.time = th.time + τ ∧ 0 ≤ τ ∧
        Handed c.su.par σ Vset t c.su.st.SOC J0 τ c.su c'.su := by
    refine ⟨_, _, 0, rfl, hd, by ring, le_rfl, rfl, rfl, le_rfl, ⟨hT.known, hT.pairs, hT.side⟩, ?_, ?_⟩
    · show c.su.st.time = c.su.st.time + 0; ring
    · show J0 * 0 / (3600 * c.su.par.cap) = σ * (c.su.st.SOC - c.su.st.SOC)
      simp
  unfold CC
  dsimp only
  have e0 : storeIf (decide ((0 : ℤ) < 0)) c = c := rfl
  rw [e0, cycSet_ecm c hd]
  dsimp only
  by_cases hr : (σ * J0 < 0 ∧ c.su.V ≤ Vset ∧ (c.su.withI (σ * J0)).V > Vset) ∨
      (c.su.V ≥ Vset ∧ (c.su.withI (σ * J0)).V < Vset)
  · rw [if_pos hr, reached_not_successful]
    exact now
  · rw [if_neg hr]
    have e1 : Status.isSuccessful .Success = true := by decide
    rw [e1]
    simp only [Bool.not_true, Bool.false_eq_true, if_false]
    have hbi : (σ * J0 < 0 ∧ StorageUnit.V (c.withSU (c.su.withI (σ * J0))).su > Vset ∨
        σ * J0 > 0 ∧ StorageUnit.V (c.withSU (c.su.withI (σ * J0))).su < Vset) ↔
        0 < σ * (Vset - (c.su.withI (σ * J0)).V) := beyond_iff H.dir hJ
    by_cases hb : 0 < σ * (Vset - (c.su.withI (σ * J0)).V)
    · rw [if_pos (hbi.mpr hb)]
      exact now
    · rw [if_neg (fun hh => hb (hbi.mp hh))]
      have e3 : decide ((0 : ℤ) < 0) = false := by decide
      rw [e3]
      simp only [Bool.false_eq_true, if_false]
      have hP : Pushed c.su.par σ t c.su.st.SOC J0 (c.su.withI (σ * J0)) := ⟨rfl, rfl, hT.pairs, le_rfl, hT.side⟩
      have hv := pushed_V (Vset := Vset) H.dir hP h0
      have hVs : σ * (Vset - (c.su.withI (σ * J0)).V) = -(σ * ((c.su.withI (σ * J0)).V - Vset)) := by ring
      obtain ⟨v', c', th', e, k1, k2, k3, k4, k5⟩ := ccLoop_pushed H hε hJ h0 hpos htol hlim fuel
        ⟨dt, 0, 0, 1, StorageUnit.V (c.withSU (c.su.withI (σ * J0))).su, StorageUnit.V (c.withSU (c.su.withI (σ * J0))).su, true⟩
        (c.withSU (c.su.withI (σ * J0))) th o0 hd hP h0
        (by
          rw [hVs, hv] at hb
          show c.su.par.Rdc * J0 ≤ σ * (o0 - Vset - ∑ j, c.su.par.Rp j * (c.su.withI (σ * J0)).st.Ir j)
          linarith [not_lt.mp hb]) rfl le_rfl (by norm_num)
        (by show J0 * 0 / (3600 * c.su.par.cap) = σ * (c.su.st.SOC - c.su.st.SOC); simp)
        (by show _ < 0 + _; rw [zero_add]; exact hf)
      rw [e]
      dsimp only
      rw [if_neg (not_le.mpr k1)]
      simp only [if_true]
      exact ⟨c', th', _, rfl, k2, k3, k5, k4.par, k4.I, k4.path, k4.towards, k4.time, k4.charge⟩

/-- A cell that has moved on towards the target meets the conditions as well. -/
theorem holdSetting_later {p : ECMPar n} {σ Vset t s0 s1 M dt ε : ℚ} (H : HoldSetting p σ Vset t s0 M dt ε)
    (h1 : σ * s1 ≤ σ * s0) (h2 : 0 ≤ σ * (s1 - t)) : HoldSetting p σ Vset t s1 M dt ε := by
  refine ⟨H.dir, H.cap, H.Rdc, H.Rp, H.tau, H.slope, ?_, H.short, H.dt, H.target, H.low, H.high, ?_⟩
  · intro y z hy hyz hz
    refine H.curve y z (le_trans ?_ hy) hyz (hz.trans ?_)
    · rcases H.dir with rfl | rfl
      · exact le_min ((min_le_right _ _).trans (by linarith)) (min_le_right _ _)
      · exact le_min ((min_le_left _ _).trans (by linarith)) (min_le_right _ _)
    · rcases H.dir with rfl | rfl
      · exact max_le (le_trans (by linarith) (le_max_left _ _)) (le_max_right _ _)
      · exact max_le (le_trans (by linarith) (le_max_right _ _)) (le_max_right _ _)
  · obtain ⟨o0, h0, htol⟩ := H.tol
    obtain ⟨v, w, hv, hw, h3, -⟩ := curve_directed H.dir H.curve (y := s0) (z := s1) (by linarith [mul_sub σ s1 t]) h1 le_rfl
    obtain ⟨v', w', hv', hw', h4, -⟩ := curve_directed H.dir H.curve (y := s1) (z := t) le_rfl (by linarith [mul_sub σ s1 t]) h1
    rw [h0] at hv
    obtain rfl := Option.some.inj hv
    rw [hw] at hv'
    obtain rfl := Option.some.inj hv'
    rw [H.target] at hw'
    obtain rfl := Option.some.inj hw'
    refine ⟨w, hw, ?_⟩
    rcases le_or_gt 0 ε with h | h
    · refine lt_of_le_of_lt (mul_le_mul_of_nonneg_left ?_ h) htol
      rw [← abs_dir H.dir, ← abs_dir H.dir (o0 - Vset), abs_of_nonneg h4,
        abs_of_nonneg (by linarith [mul_sub σ o0 w, mul_sub σ w Vset, mul_sub σ o0 Vset])]
      linarith [mul_sub σ o0 w, mul_sub σ w Vset, mul_sub σ o0 Vset]
    · have := mul_nonpos_of_nonpos_of_nonneg h.le (abs_nonneg (w - Vset))
      linarith

/-! ## Properties -/

/-- C147: a cell that is charged (`σ = -1`) or discharged (`σ = 1`) to a voltage of its operating range with a constant
current and then a constant voltage, with a time step that is short for the cell, always arrives: with enough time for the
missing charge to flow with each of the two currents the status is `ReachedCurrentLimit`, less than the limit current flows
and the voltage is the one asked for.  The state of charge has moved only towards the one with this open-circuit voltage and
has not passed it; the open-circuit voltage differs by at most the drop over the resistances. -/
theorem cccv_fills (c : Cyc (ECM n)) (σ Vset t M dt ε I Ilim tlim o0 : ℚ) (th : Thr) (fuel : ℕ) (hd : c.diagnostic = false)
    (H : HoldSetting c.su.par σ Vset t c.su.st.SOC M dt ε) (hε : ε ≤ 1/2) (hI : I ≠ 0) (hIlim : 1/1000000 ≤ |Ilim|)
    (h0 : c.su.par.ocv c.su.st.SOC = some o0) (hpos : 0 < o0)
    (hT : Towards σ Vset t c.su) (hdir : σ = 1 ↔ Vset < (c.su.withI 0).V)
    (hlim : 3600 * c.su.par.cap * |c.su.st.SOC - t| * (1 / |I| + 1 / |Ilim|) + dt < tlim)
    (hf : 3600 * c.su.par.cap * |c.su.st.SOC - t| / |I| < fuel * dt) :
    ∃ (c' : Cyc (ECM n)) (th' : Thr) (τ : ℚ),
      CCCVt fuel c I Vset Ilim tlim dt 0 th = (.ok .ReachedCurrentLimit, c', th') ∧ c'.su.par = c.su.par ∧
      c'.su.st.time = c.su.st.time + τ ∧ 0 ≤ τ ∧
      τ ≤ 3600 * c.su.par.cap * |c.su.st.SOC - t| * (1 / |I| + 1 / |Ilim|) + dt ∧
      0 ≤ σ * (c.su.st.SOC - c'.su.st.SOC) ∧ 0 ≤ σ * (c'.su.st.SOC - t) ∧
      |c'.su.st.I| < |Ilim| ∧ |c'.su.V - Vset| < 1/100 ∧
      ∃ o, c'.su.par.ocv c'.su.st.SOC = some o ∧
        |o - Vset| < 1/100 + c.su.par.Rdc * |Ilim| + ∑ i, c.su.par.Rp i * |c'.su.st.Ir i| ∧
        (n = 0 → |Ilim| ≤ |I| → |o - Vset| < c.su.par.Rdc * |Ilim|) := by
  have hJ : 0 < |I| := abs_pos.mpr hI
  have hL : 0 < |Ilim| := lt_of_lt_of_le (by norm_num) hIlim
  have hcap := H.cap
  have hdt := H.dt
  obtain ⟨o0', h0', htol⟩ := H.tol
  obtain rfl : o0' = o0 := by rw [h0] at h0'; exact (Option.some.inj h0').symm
  set D := 3600 * c.su.par.cap * |c.su.st.SOC - t| with hD
  have hD0 : 0 ≤ D := by positivity
  have hsplit : D * (1 / |I| + 1 / |Ilim|) = D / |I| + D / |Ilim| := by ring
  rw [hsplit] at hlim ⊢
  have hDI : 0 ≤ D / |I| := by positivity
  have hDL : 0 ≤ D / |Ilim| := by positivity
  unfold CCCVt
  have hv : ¬ (Vset < (lim c.su).Vmin ∨ Vset > (lim c.su).Vmax) := by
    have e1 : (lim c.su).Vmin = 27/10 := rfl
    have e2 : (lim c.su).Vmax = 42/10 := rfl
    rw [e1, e2, not_or, not_lt]
    exact ⟨H.low, not_lt.mpr H.high⟩
  rw [if_neg hv, unchecked_setCurrent]
  dsimp only
  rw [if_neg (by decide)]
  have hcur : (if V (c.su.withI 0) > Vset then |I| else -|I|) = σ * |I| := by
    by_cases h : Vset < (c.su.withI 0).V
    · have hV : V (c.su.withI 0) > Vset := h
      rw [if_pos hV, hdir.mpr h, one_mul]
    · have hV : ¬ V (c.su.withI 0) > Vset := h
      rw [if_neg hV]
      rcases H.dir with h1 | h1
      · exact absurd (hdir.mp h1) h
      · rw [h1, neg_one_mul]
  rw [hcur]
  have hT' : Towards σ Vset t (c.withSU (c.su.withI 0)).su := ⟨hT.known, hT.pairs, hT.side⟩
  obtain ⟨c1, th1, τ1, e1, hd1, ht1, hτ1, hh⟩ := cc_pushes (c.withSU (c.su.withI 0)) hd H hε hJ h0 hpos htol hT'
    (by show D / |I| < tlim; linarith) fuel hf Thr.zero
  rw [e1]
  dsimp only
  have hp1 : c1.su.par = c.su.par := hh.par
  have hside1 := hh.towards.side
  have hpath1 : σ * c1.su.st.SOC ≤ σ * c.su.st.SOC := hh.path
  have htime1 : c1.su.st.time = c.su.st.time + τ1 := hh.time
  have hch : |I| * τ1 / (3600 * c.su.par.cap) = σ * (c.su.st.SOC - c1.su.st.SOC) := hh.charge
  have habs : |c.su.st.SOC - t| = σ * (c.su.st.SOC - t) := by rw [← abs_dir H.dir, abs_of_nonneg hT.side]
  have habs1 : |c1.su.st.SOC - t| = σ * (c1.su.st.SOC - t) := by rw [← abs_dir H.dir, abs_of_nonneg hside1]
  have hC : 0 < 3600 * c.su.par.cap := by positivity
  have hle1 : |c1.su.st.SOC - t| ≤ |c.su.st.SOC - t| := by
    rw [habs, habs1]; linarith [mul_sub σ c.su.st.SOC t, mul_sub σ c1.su.st.SOC t]
  have hτ1' : τ1 ≤ D / |I| := by
    rw [le_div_iff₀ hJ, hD, habs]
    rw [div_eq_iff hC.ne'] at hch
    have : σ * (c.su.st.SOC - c1.su.st.SOC) ≤ σ * (c.su.st.SOC - t) := by
      linarith [mul_sub σ c.su.st.SOC t, mul_sub σ c1.su.st.SOC t, mul_sub σ c.su.st.SOC c1.su.st.SOC]
    have := mul_le_mul_of_nonneg_right this hC.le
    linarith
  have hD1 : 3600 * c.su.par.cap * |c1.su.st.SOC - t| / |Ilim| ≤ D / |Ilim| := by
    rw [hD]; gcongr
  have ht1' : th1.time = τ1 := by rw [ht1]; show (0 : ℚ) + τ1 = τ1; ring
  have H1 : HoldSetting c1.su.par σ Vset t c1.su.st.SOC M dt ε := by
    rw [hp1]; exact holdSetting_later H hpath1 hside1
  obtain ⟨st, c2, th2, τ2, e2, k1, k2, k3, k4, k5, k6, k7, k8, k9⟩ :=
    cv_towards c1 σ Vset t M dt ε |Ilim| (tlim - th1.time) 0 Thr.zero H1 hh.towards hIlim (by rw [ht1']; linarith)
  rw [hp1] at k5 k8
  obtain rfl : st = .ReachedCurrentLimit := by
    rcases k8 with k8 | k8
    · rw [ht1'] at k8; linarith [k8.2]
    · exact k8
  obtain ⟨l1, l2, l3⟩ := k9 rfl
  rw [e2]
  obtain ⟨o, ho, -⟩ := k7.known
  have hp2 : c2.su.par = c.su.par := k1.trans hp1
  refine ⟨c2, _, τ1 + τ2, rfl, hp2, by rw [k2, htime1]; ring, by linarith, by linarith, ?_, k7.side, l1, l2, o, ho, ?_, ?_⟩
  · linarith [mul_sub σ c1.su.st.SOC c2.su.st.SOC, mul_sub σ c.su.st.SOC c2.su.st.SOC]
  · have e1 : o - Vset = (c2.su.V - Vset) + (c2.su.par.Rdc * c2.su.st.I + ∑ i, c2.su.par.Rp i * c2.su.st.Ir i) := by
      unfold ECM.V; rw [ho]; ring
    rw [e1, hp2]
    refine (abs_add_le _ _).trans_lt ?_
    have e2 := abs_add_le (c.su.par.Rdc * c2.su.st.I) (∑ i, c.su.par.Rp i * c2.su.st.Ir i)
    have e3 : |c.su.par.Rdc * c2.su.st.I| ≤ c.su.par.Rdc * |Ilim| := by
      rw [abs_mul, abs_of_pos H.Rdc]; exact mul_le_mul_of_nonneg_left l1.le H.Rdc.le
    have e4 : |∑ i, c.su.par.Rp i * c2.su.st.Ir i| ≤ ∑ i, c.su.par.Rp i * |c2.su.st.Ir i| := by
      refine (Finset.abs_sum_le_sum_abs _ _).trans (Finset.sum_le_sum fun i _ => ?_)
      rw [abs_mul, abs_of_nonneg (H.Rp i)]
    linarith
  · intro hn hIle
    rcases l3 with l3 | l3
    · exfalso
      rw [l3, hh.I, abs_dir H.dir, abs_abs] at l1
      linarith
    · rw [hp1] at l3
      exact l3 hn o (by rw [← hp2]; exact ho)

/-- C147, reproducible: two cells of the same type without RC pairs that are both charged, or both discharged, to the same
voltage end at states of charge that differ by less than `R Ilim / m`, wherever they started (`m` is the least slope of the
open-circuit curve). -/
theorem cccv_reproducible (a b a' b' : Cyc (ECM 0)) (σ Vset t M dt ε εb I Ilim tlim oa ob m : ℚ) (th tha thb : Thr) (fuel : ℕ)
    (hpar : b.su.par = a.su.par) (hda : a.diagnostic = false) (hdb : b.diagnostic = false)
    (Ha : HoldSetting a.su.par σ Vset t a.su.st.SOC M dt ε) (Hb : HoldSetting b.su.par σ Vset t b.su.st.SOC M dt εb)
    (hε : ε ≤ 1/2) (hεb : εb ≤ 1/2) (hI : I ≠ 0) (hIlim : 1/1000000 ≤ |Ilim|) (hle : |Ilim| ≤ |I|)
    (ha0 : a.su.par.ocv a.su.st.SOC = some oa) (hapos : 0 < oa) (hb0 : b.su.par.ocv b.su.st.SOC = some ob) (hbpos : 0 < ob)
    (hTa : Towards σ Vset t a.su) (hTb : Towards σ Vset t b.su)
    (hdira : σ = 1 ↔ Vset < (a.su.withI 0).V) (hdirb : σ = 1 ↔ Vset < (b.su.withI 0).V)
    (hlima : 3600 * a.su.par.cap * |a.su.st.SOC - t| * (1 / |I| + 1 / |Ilim|) + dt < tlim)
    (hlimb : 3600 * b.su.par.cap * |b.su.st.SOC - t| * (1 / |I| + 1 / |Ilim|) + dt < tlim)
    (hfa : 3600 * a.su.par.cap * |a.su.st.SOC - t| / |I| < fuel * dt)
    (hfb : 3600 * b.su.par.cap * |b.su.st.SOC - t| / |I| < fuel * dt)
    (hm : 0 < m) (hslope : SlopeAtLeast a.su.par m)
    (ra : CCCVt fuel a I Vset Ilim tlim dt 0 th = (.ok .ReachedCurrentLimit, a', tha))
    (rb : CCCVt fuel b I Vset Ilim tlim dt 0 th = (.ok .ReachedCurrentLimit, b', thb)) :
    |a'.su.st.SOC - b'.su.st.SOC| < a.su.par.Rdc * |Ilim| / m := by
  obtain ⟨a1, ta, τa, ea, pa, -, -, -, -, sa, -, -, o1, ho1, -, na⟩ :=
    cccv_fills a σ Vset t M dt ε I Ilim tlim oa th fuel hda Ha hε hI hIlim ha0 hapos hTa hdira hlima hfa
  obtain ⟨b1, tb, τb, eb, pb, -, -, -, -, sb, -, -, o2, ho2, -, nb⟩ :=
    cccv_fills b σ Vset t M dt εb I Ilim tlim ob th fuel hdb Hb hεb hI hIlim hb0 hbpos hTb hdirb hlimb hfb
  rw [ra] at ea
  rw [rb] at eb
  simp only [Prod.mk.injEq, Outcome.ok.injEq, true_and] at ea eb
  obtain ⟨rfl, -⟩ := ea
  obtain ⟨rfl, -⟩ := eb
  have na := na rfl hle
  have nb := nb rfl hle
  rw [pb, hpar] at ho2
  rw [hpar] at nb
  rw [pa] at ho1
  have htgt := Ha.target
  -- the distance of either from the target, in the direction of the current
  have near : ∀ {s o : ℚ}, a.su.par.ocv s = some o → |o - Vset| < a.su.par.Rdc * |Ilim| → 0 ≤ σ * (s - t) →
      σ * (s - t) < a.su.par.Rdc * |Ilim| / m := by
    intro s o ho hn hs
    rw [lt_div_iff₀ hm]
    refine lt_of_le_of_lt ?_ hn
    rcases Ha.dir with rfl | rfl
    · have := hslope t s Vset o (by linarith) htgt ho
      refine le_trans ?_ (le_abs_self _)
      linarith
    · have := hslope s t o Vset (by linarith) ho htgt
      refine le_trans ?_ (neg_le_abs _)
      linarith
  have h1 := near ho1 na sa
  have h2 := near ho2 nb sb
  rw [← abs_dir Ha.dir, abs_lt]
  constructor <;> linarith [mul_sub σ a'.su.st.SOC t, mul_sub σ b'.su.st.SOC t, mul_sub σ a'.su.st.SOC b'.su.st.SOC]

/-- The half-full 1 Ah cell charged to 3.2 V with 0.2 A and a limit of 0.1 A: the open-circuit voltage is within 10 mV. -/
example : ∃ c' th', CCCVt 400 { su := resCell 0 } (1/5) (32/10) (1/10) 3600 1 0 Thr.zero = (.ok .ReachedCurrentLimit, c', th') ∧
    ∃ o, c'.su.par.ocv c'.su.st.SOC = some o ∧ |o - 32/10| < 1/100 := by
  obtain ⟨c', th', τ, e, -, -, -, -, -, -, -, -, o, ho, -, h1⟩ := cccv_fills { su := resCell 0 } (-1) (32/10) (12/23) (23/10) 1
    (1/100) (1/5) (1/10) 3600 (63/20) Thr.zero 400 rfl resCell_holds.1 (by norm_num) (by norm_num) (by norm_num)
    (by decide +kernel) (by norm_num) resCell_holds.2 (by
      have : ¬ (32/10 : ℚ) < ((resCell 0).withI 0).V := by decide +kernel
      exact ⟨fun h => absurd h (by norm_num), fun h => absurd h this⟩) (by norm_num [resCell, abs_of_neg])
    (by norm_num [resCell, abs_of_neg])
  exact ⟨c', th', e, o, ho, (h1 rfl (by norm_num)).trans_le (by norm_num [resCell])⟩

end Slide

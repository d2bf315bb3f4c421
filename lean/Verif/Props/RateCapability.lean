import Verif.Props.CapacityMeasured
import Verif.Spec.RateCapability

/-!
# C134: a cell discharged faster delivers no more charge
-/

namespace Slide
open StorageUnit Spec Cyc

variable {n : ℕ}

/-! ## Helper lemmas -/

/-- The mean of the first terms of a falling geometric sequence falls. -/
theorem geom_mean {r : ℚ} (h0 : 0 ≤ r) (h1 : r ≤ 1) {a b : ℕ} (hab : a ≤ b) : a * (1 - r ^ b) ≤ b * (1 - r ^ a) := by
  induction b, hab using Nat.le_induction with
  | base => exact le_rfl
  | succ b hab ih =>
    have hp : r ^ b ≤ r ^ a := pow_le_pow_of_le_one h0 h1 hab
    -- a (1 - r) r^b ≤ 1 - r^a
    have key : ∀ a : ℕ, (a : ℚ) * ((1 - r) * r ^ a) ≤ 1 - r ^ a := by
      intro a
      induction a with
      | zero => simp
      | succ a ih =>
        have h2 : 0 ≤ r ^ a := pow_nonneg h0 a
        have h3 : 0 ≤ 1 - r := by linarith
        have h4 : (a : ℚ) * ((1 - r) * r ^ a) * r ≤ (1 - r ^ a) * r := mul_le_mul_of_nonneg_right ih h0
        push_cast
        rw [pow_succ]
        nlinarith [mul_nonneg h3 h2, mul_nonneg (mul_nonneg h3 h3) h2]
    have h3 : 0 ≤ (a : ℚ) * (1 - r) := mul_nonneg (Nat.cast_nonneg a) (by linarith)
    have h4 := mul_le_mul_of_nonneg_left hp h3
    have h5 := key a
    push_cast
    rw [pow_succ]
    nlinarith

/-- An RC pair that starts from zero has taken up more at the higher current when no less charge has passed. -/
theorem rc_faster {r i1 i2 : ℚ} (h0 : 0 ≤ r) (h1 : r ≤ 1) (hi : 0 ≤ i1) (h12 : i1 ≤ i2) {a b : ℕ} (hq : i1 * a ≤ i2 * b) :
    i1 * (1 - r ^ a) ≤ i2 * (1 - r ^ b) := by
  have ra : 0 ≤ 1 - r ^ a := by linarith [pow_le_one₀ (n := a) h0 h1]
  have rb : 0 ≤ 1 - r ^ b := by linarith [pow_le_one₀ (n := b) h0 h1]
  rcases le_total a b with hab | hab
  · have : r ^ b ≤ r ^ a := pow_le_pow_of_le_one h0 h1 hab
    exact mul_le_mul h12 (by linarith) ra (hi.trans h12)
  · rcases Nat.eq_zero_or_pos a with ha | ha
    · subst ha; simp only [pow_zero, sub_self, mul_zero]; exact mul_nonneg (hi.trans h12) rb
    · have ha' : (0 : ℚ) < a := by exact_mod_cast ha
      have hm := geom_mean h0 h1 hab
      -- a i1 (1-r^a) ≤ i2 b (1-r^a) ≤ i2 a (1-r^b)
      have e1 := mul_le_mul_of_nonneg_right hq ra
      have e2 := mul_le_mul_of_nonneg_left hm (hi.trans h12)
      have : a * (i1 * (1 - r ^ a)) ≤ a * (i2 * (1 - r ^ b)) := by linarith
      exact le_of_mul_le_mul_left this ha'

/-- Voltage after `k` steps at the current `i` from rest. -/
theorem V_from_rest {u : ECM n} (hr : CircuitAtRest u) {i dt : ℚ} {k : ℕ} {o : ℚ}
    (ho : u.par.ocv ((u.withI i).steps dt k).st.SOC = some o) :
    ((u.withI i).steps dt k).V = o - u.par.Rdc * i - ∑ j, u.par.Rp j * (i * (1 - (1 - dt * u.par.invTau j) ^ k)) := by
  have e : ((u.withI i).steps dt k).par = u.par := by rw [ECM.steps_par]; rfl
  have eI : ((u.withI i).steps dt k).st.I = i := by rw [ECM.steps_I]; rfl
  unfold ECM.V
  rw [e, ho, eI]
  dsimp only
  congr 1
  refine Finset.sum_congr rfl fun j _ => ?_
  have h := ECM.steps_Ir (u.withI i) dt k j
  have h0 : (u.withI i).st.Ir j = 0 := hr.Ir j
  have h1 : (u.withI i).st.I = i := rfl
  have h2 : (u.withI i).par = u.par := rfl
  rw [h0, h1, h2] at h
  have : ((u.withI i).steps dt k).st.Ir j = i * (1 - (1 - dt * u.par.invTau j) ^ k) := by linarith
  rw [this]

/-- With the direction `s`: faster and no less charge means a voltage no better. -/
theorem faster_worse {u : ECM n} (hr : CircuitAtRest u) {s i1 i2 dt : ℚ} (hs : s = 1 ∨ s = -1) (hdt : 0 ≤ dt)
    (hp : RatedCell u.par dt) (h1 : 0 ≤ i1) (h12 : i1 ≤ i2) {a b : ℕ} (hq : i1 * a ≤ i2 * b) {o1 o2 : ℚ}
    (ho1 : u.par.ocv ((u.withI (s * i1)).steps dt a).st.SOC = some o1)
    (ho2 : u.par.ocv ((u.withI (s * i2)).steps dt b).st.SOC = some o2) :
    s * ((u.withI (s * i2)).steps dt b).V ≤ s * ((u.withI (s * i1)).steps dt a).V := by
  have hss : s * s = 1 := by rcases hs with rfl | rfl <;> norm_num
  have hz : ∀ (i : ℚ) (k : ℕ), ((u.withI (s * i)).steps dt k).st.SOC = u.st.SOC - s * (i * k * (dt / 3600 / u.par.cap)) := by
    intro i k
    rw [ECM.steps_SOC]
    show u.st.SOC - k * (s * i * (dt / 3600) / u.par.cap) = _
    ring
  have hd : 0 ≤ dt / 3600 / u.par.cap := by have := hp.cap; positivity
  have hm : i1 * a * (dt / 3600 / u.par.cap) ≤ i2 * b * (dt / 3600 / u.par.cap) := mul_le_mul_of_nonneg_right hq hd
  have ho : s * o2 ≤ s * o1 := by
    rw [hz] at ho1 ho2
    rcases hs with rfl | rfl
    · have := hp.rising _ _ _ _ (by linarith) ho2 ho1; linarith
    · have := hp.rising _ _ _ _ (by linarith) ho1 ho2; linarith
  rw [V_from_rest hr ho1, V_from_rest hr ho2]
  have hR := mul_le_mul_of_nonneg_left h12 hp.Rdc
  have hS : ∑ j, u.par.Rp j * (i1 * (1 - (1 - dt * u.par.invTau j) ^ a)) ≤
      ∑ j, u.par.Rp j * (i2 * (1 - (1 - dt * u.par.invTau j) ^ b)) := by
    refine Finset.sum_le_sum fun j _ => mul_le_mul_of_nonneg_left ?_ (hp.Rp j)
    have t0 := mul_nonneg hdt (hp.tau0 j)
    have t1 := hp.tau1 j
    exact rc_faster (by linarith) (by linarith) h1 h12 hq
  have hsum : ∀ (i : ℚ) (k : ℕ), ∑ j, u.par.Rp j * (s * i * (1 - (1 - dt * u.par.invTau j) ^ k)) =
      s * ∑ j, u.par.Rp j * (i * (1 - (1 - dt * u.par.invTau j) ^ k)) := by
    intro i k
    rw [Finset.mul_sum]
    exact Finset.sum_congr rfl fun j _ => by ring
  rw [hsum, hsum]
  have e : ∀ o i S : ℚ, s * (o - u.par.Rdc * (s * i) - s * S) = s * o - s * s * (u.par.Rdc * i) - s * s * S := by
    intro o i S; ring
  rw [e, e, hss]
  linarith

/-- What a constant-current phase from `u` did: `K` steps, not yet beyond the limit, and then at most two more. -/
structure ExactPhase (u : ECM n) (I vlim dt : ℚ) (u' : ECM n) (q : ℚ) (K k : ℕ) : Prop where
  two : k ≤ 2
  steps : u' = (u.withI I).steps dt (K + k)
  before : K = 0 ∨ (¬ BeyondLimit I vlim ((u.withI I).steps dt K).V ∧ 0 < ((u.withI I).steps dt K).V)
  beyond : BeyondLimit I vlim u'.V
  known : ∃ o, u'.par.ocv u'.st.SOC = some o
  charge : q = |I| * (dt * (K + k : ℕ)) / 3600

theorem ccLoop_exact {u : ECM n} {I vlim tlim dt : ℚ} (hdt : 0 < dt) (fuel : ℕ) :
    ∀ {v v' : CCVars} {c c' : Cyc (ECM n)} {th th' : Thr} {K : ℕ}, c.diagnostic = false →
    c.su = (u.withI I).steps dt K → (K = 0 ∨ (¬ BeyondLimit I vlim c.su.V ∧ 0 < c.su.V)) →
    v.dti = dt → 1 ≤ v.nOnce → v.nOnce ≤ 2 → v'.ttot < tlim →
    ccLoop I vlim tlim 0 2 fuel v c th = (.ok (.inr (v', true)), c', th') →
    ∃ K' k, ExactPhase u I vlim dt c'.su (th'.Ah - th.Ah + |I| * (dt * K) / 3600) K' k := by
  induction fuel with
  | zero =>
    intro v v' c c' th th' K hd hu hb hv hn hn2 ht' h
    unfold ccLoop at h
    split at h <;> simp at h
  | succ fuel ih =>
    intro v v' c c' th th' K hd hu hb0 hv hn hn2 ht' h
    unfold ccLoop at h
    by_cases ht : v.ttot < tlim
    · rw [if_pos ht] at h
      have hI : c.su.withI I = c.su := by
        have : c.su.st.I = I := by rw [hu, ECM.steps_I]; rfl
        rw [← this]; rfl
      rcases hb : ccBody I vlim tlim 0 2 v c th with ⟨(st | w | w) | e | w, c1, th1⟩ <;> rw [hb] at h
      · simp at h
      · simp only [Prod.mk.injEq, Outcome.ok.injEq, Sum.inr.injEq, and_true] at h
        obtain ⟨rfl, rfl, rfl⟩ := h
        obtain ⟨dti, k, a1, a2, a3, a4, a5, a6, a7, a8, a9, a10, a11, a12, a13, a14⟩ :=
          ccBody_ecm hd hb (.inl rfl) ht (by rw [hv]; exact hdt) hn (by norm_num) hn2
        rw [hI, a14 ht', hv, hu] at a5
        refine ⟨K, k, a4, ?_, ?_, a12.mp rfl, ocv_of_V a6, ?_⟩
        · rw [ECM.steps_add, a5]; rfl
        · rw [← hu]; exact hb0
        · rw [a7, a14 ht', hv]; push_cast; ring
      · obtain ⟨dti, k, a1, a2, a3, a4, a5, a6, a7, a8, a9, a10, a11, a12, a13, a14⟩ :=
          ccBody_ecm hd hb (.inr rfl) ht (by rw [hv]; exact hdt) hn (by norm_num) hn2
        have hlt : w.ttot < tlim := by
          by_contra hge
          cases fuel <;> · dsimp only at h; unfold ccLoop at h; rw [if_neg hge] at h; simp at h
        have hdti := a14 hlt
        rw [hI, hdti, hv, hu] at a5
        have e1 : c1.su = (u.withI I).steps dt (K + k) := by rw [ECM.steps_add, a5]; rfl
        obtain ⟨K', k', hE⟩ := ih (by rw [a5]; exact hd) e1
          (.inr ⟨fun hh => (by have := a12.mpr hh; cases this), a6⟩) (by rw [a8, hdti, hv]) a9 a10 ht' h
        refine ⟨K', k', hE.two, hE.steps, hE.before, hE.beyond, hE.known, ?_⟩
        rw [← hE.charge, a7, hdti, hv]; push_cast; ring
      · simp at h
      · simp at h
    · rw [if_neg ht] at h; simp at h

theorem cc_exact {I vlim tlim dt : ℚ} (hdt : 0 < dt) {fuel : ℕ} {c c' : Cyc (ECM n)} {th th' : Thr}
    (hd : c.diagnostic = false) (hr : CircuitAtRest c.su) (hR : 0 ≤ c.su.par.Rdc)
    (h : CC fuel c I vlim tlim dt 0 th = (.ok .ReachedVoltageLimit, c', th')) :
    ∃ K k, ExactPhase c.su I vlim dt c'.su (th'.Ah - th.Ah) K k := by
  obtain ⟨o, ho⟩ := hr.known
  have now : BeyondLimit I vlim (c.su.withI I).V → c' = c.withSU (c.su.withI I) → th' = th →
      ∃ K k, ExactPhase c.su I vlim dt c'.su (th'.Ah - th.Ah) K k := by
    rintro hb rfl rfl
    exact ⟨0, 0, by norm_num, rfl, .inl rfl, hb, ⟨o, ho⟩, by simp⟩
  have hV' : (c.su.withI I).V = c.su.V - c.su.par.Rdc * I := by
    have e : (c.su.withI I).par.ocv (c.su.withI I).st.SOC = some o := ho
    unfold ECM.V
    rw [ho, e]
    show o - c.su.par.Rdc * I - ∑ i, c.su.par.Rp i * c.su.st.Ir i = _
    rw [hr.I]; ring
  unfold CC at h
  dsimp only at h
  have e0 : storeIf (decide ((0 : ℤ) < 0)) c = c := rfl
  rw [e0, cycSet_ecm c hd] at h
  dsimp only at h
  by_cases hc : (I < 0 ∧ c.su.V ≤ vlim ∧ (c.su.withI I).V > vlim) ∨ (c.su.V ≥ vlim ∧ (c.su.withI I).V < vlim)
  · rw [if_pos hc, reached_not_successful] at h
    simp only [Bool.not_false, if_true, Prod.mk.injEq, true_and] at h
    refine now ?_ h.1.symm h.2.symm
    rcases hc with hc | hc
    · exact .inl ⟨hc.1, hc.2.2⟩
    · refine .inr ⟨?_, hc.2⟩
      by_contra hneg
      rw [hV'] at hc
      have := mul_nonpos_of_nonneg_of_nonpos hR (not_lt.mp hneg)
      linarith [hc.1, hc.2]
  · rw [if_neg hc] at h
    have e1 : Status.isSuccessful .Success = true := by decide
    rw [e1] at h
    simp only [Bool.not_true, Bool.false_eq_true, if_false] at h
    have e2 : StorageUnit.V (c.withSU (c.su.withI I)).su = (c.su.withI I).V := rfl
    rw [e2] at h
    by_cases hb : BeyondLimit I vlim (c.su.withI I).V
    · have hb' : (I < 0 ∧ (c.su.withI I).V > vlim) ∨ (I > 0 ∧ (c.su.withI I).V < vlim) := hb
      rw [if_pos hb'] at h
      simp only [Prod.mk.injEq, true_and] at h
      exact now hb h.1.symm h.2.symm
    · have hb' : ¬ ((I < 0 ∧ (c.su.withI I).V > vlim) ∨ (I > 0 ∧ (c.su.withI I).V < vlim)) := hb
      rw [if_neg hb'] at h
      have e3 : decide ((0 : ℤ) < 0) = false := by decide
      rw [e3] at h
      simp only [Bool.false_eq_true, if_false] at h
      rcases hl : ccLoop I vlim tlim 0 2 fuel _ (c.withSU (c.su.withI I)) th with
        ⟨(st | ⟨w, b⟩) | e | w, c2, th2⟩ <;> rw [hl] at h
      · simp only [Prod.mk.injEq, Outcome.ok.injEq] at h
        obtain ⟨rfl, -, -⟩ := h
        exact absurd (ccLoop_ret_code 0 fuel hl) (by decide)
      · dsimp only at h
        by_cases ht : w.ttot ≥ tlim
        · rw [if_pos ht] at h; simp at h
        · rw [if_neg ht] at h
          cases b
          · simp at h
          · simp only [if_true, Prod.mk.injEq, true_and] at h
            obtain ⟨rfl, rfl⟩ := h
            obtain ⟨K, k, hE⟩ := ccLoop_exact (u := c.su) (K := 0) hdt fuel (c := c.withSU (c.su.withI I)) hd rfl (.inl rfl) rfl (by norm_num)
              (by norm_num) (not_le.mp ht) hl
            exact ⟨K, k, by simpa [storeIf] using hE⟩
      · simp at h
      · simp at h

theorem direction {i1 i2 : ℚ} (h : 0 < i1 ∧ i1 ≤ i2 ∨ i1 < 0 ∧ i2 ≤ i1) :
    ∃ s j1 j2 : ℚ, (s = 1 ∨ s = -1) ∧ i1 = s * j1 ∧ i2 = s * j2 ∧ 0 < j1 ∧ j1 ≤ j2 := by
  rcases h with h | h
  · exact ⟨1, i1, i2, .inl rfl, by ring, by ring, h.1, h.2⟩
  · exact ⟨-1, -i1, -i2, .inr rfl, by ring, by ring, by linarith [h.1], by linarith [h.2]⟩

theorem further {s j v w : ℚ} (hs : s = 1 ∨ s = -1) (hj : 0 < j) (h : s * v ≤ s * w) : FurtherAlong (s * j) v w := by
  rcases hs with rfl | rfl
  · exact ⟨fun _ => by linarith, fun h' => by linarith⟩
  · exact ⟨fun h' => by linarith, fun _ => by linarith⟩

/-! ## C134 -/

/-- **C134, the cell.**  From rest, at the higher current and after at least as much charge, the voltage is no higher on
discharge and no lower on charge. -/
theorem rate_capability_voltage {u : ECM n} {i1 i2 dt : ℚ} {a b : ℕ} {o1 o2 : ℚ} (hr : CircuitAtRest u) (hdt : 0 < dt)
    (hp : RatedCell u.par dt) (hdir : 0 < i1 ∧ i1 ≤ i2 ∨ i1 < 0 ∧ i2 ≤ i1) (hq : |i1| * (dt * a) ≤ |i2| * (dt * b))
    (ho1 : u.par.ocv ((u.withI i1).timeStep dt a).2.st.SOC = some o1)
    (ho2 : u.par.ocv ((u.withI i2).timeStep dt b).2.st.SOC = some o2) :
    FurtherAlong i1 ((u.withI i2).timeStep dt b).2.V ((u.withI i1).timeStep dt a).2.V := by
  obtain ⟨s, j1, j2, hs, rfl, rfl, hj1, hj12⟩ := direction hdir
  have e : ∀ (i : ℚ) (k : ℕ), ((u.withI i).timeStep dt k).2 = (u.withI i).steps dt k := by
    intro i k; unfold ECM.timeStep; rw [if_neg hdt.le.not_gt]
  rw [e] at ho1 ho2
  rw [e, e]
  rw [abs_sI hs hj1, abs_sI hs (hj1.trans_le hj12)] at hq
  have hq' : j1 * a ≤ j2 * b := by
    refine le_of_mul_le_mul_left (?_ : dt * _ ≤ dt * _) hdt
    linarith
  exact further hs hj1 (faster_worse hr hs hdt.le hp hj1.le hj12 hq' ho1 ho2)

/-- **C134, the cycler.**  Two constant-current phases from the same rested cell to the same voltage limit: the one at
the higher current moves no more charge, up to its last two time steps. -/
theorem rate_capability {fuel1 fuel2 : ℕ} {c c1 c2 : Cyc (ECM n)} {th1 th2 : Thr} {i1 i2 vlim t1 t2 dt : ℚ}
    (hd : c.diagnostic = false) (hr : CircuitAtRest c.su) (hdt : 0 < dt) (hp : RatedCell c.su.par dt)
    (hdir : 0 < i1 ∧ i1 ≤ i2 ∨ i1 < 0 ∧ i2 ≤ i1)
    (h1 : CC fuel1 c i1 vlim t1 dt 0 Thr.zero = (.ok .ReachedVoltageLimit, c1, th1))
    (h2 : CC fuel2 c i2 vlim t2 dt 0 Thr.zero = (.ok .ReachedVoltageLimit, c2, th2)) :
    th2.Ah ≤ th1.Ah + |i2| * (2 * dt) / 3600 := by
  obtain ⟨s, j1, j2, hs, rfl, rfl, hj1, hj12⟩ := direction hdir
  have hj2 := hj1.trans_le hj12
  obtain ⟨K1, k1, E1⟩ := cc_exact hdt hd hr hp.Rdc h1
  obtain ⟨K2, k2, E2⟩ := cc_exact hdt hd hr hp.Rdc h2
  have q1 := E1.charge
  have q2 := E2.charge
  have z : Thr.zero.Ah = 0 := rfl
  rw [z, sub_zero, abs_sI hs hj1] at q1
  rw [z, sub_zero, abs_sI hs hj2] at q2
  rw [abs_sI hs hj2]
  -- before its last steps the faster phase has moved no more
  have key : j2 * (K2 : ℚ) ≤ j1 * ((K1 + k1 : ℕ) : ℚ) := by
    rcases E2.before with h0 | ⟨hn, hv⟩
    · rw [h0, Nat.cast_zero, mul_zero]; positivity
    · by_contra hc
      obtain ⟨o1, ho1⟩ := E1.known
      obtain ⟨o2, ho2⟩ := ocv_of_V hv
      have e1 : c1.su.par = c.su.par := by rw [E1.steps, ECM.steps_par]; rfl
      have e2 : ((c.su.withI (s * j2)).steps dt K2).par = c.su.par := by rw [ECM.steps_par]; rfl
      rw [e1, E1.steps] at ho1
      rw [e2] at ho2
      have hw := faster_worse hr hs hdt.le hp hj1.le hj12 (not_le.mp hc).le ho1 ho2
      rw [beyond_iff hs hj2] at hn
      have hb := (beyond_iff hs hj1).mp E1.beyond
      rw [E1.steps] at hb
      rw [mul_sub] at hn hb
      linarith
  have hk : (k2 : ℚ) ≤ 2 := by exact_mod_cast E2.two
  have a1 : j2 * (k2 : ℚ) ≤ j2 * 2 := mul_le_mul_of_nonneg_left hk hj2.le
  rw [q1, q2]
  push_cast at key ⊢
  have : j2 * (dt * (K2 + k2)) ≤ j1 * (dt * (K1 + k1)) + j2 * (2 * dt) := by
    have := mul_le_mul_of_nonneg_left (add_le_add key a1) hdt.le
    linarith
  linarith

/-- A cell of 1 Ah with one RC pair. -/
def ratedCell : ECM 1 where
  par := { cap := 1, Rdc := 1 / 10, Rp := ![1 / 10], invTau := ![1 / 100],
           ocv := fun z => if 0 ≤ z ∧ z ≤ 1 then some (3 + z) else none }
  st := { T := 288, SOC := 1 / 2, I := 0, Ir := ![0], time := 0, Ah := 0, Wh := 0 }

theorem ratedCell_rated : RatedCell ratedCell.par 30 where
  cap := by decide +kernel
  rising := by
    have e : ∀ x u, ratedCell.par.ocv x = some u → u = 3 + x := by
      intro x u hu
      have : (if 0 ≤ x ∧ x ≤ 1 then some (3 + x) else none) = some u := hu
      split at this
      · exact (Option.some.inj this).symm
      · cases this
    intro y z v w hyz hv hw
    rw [e y v hv, e z w hw]; linarith
  Rdc := by decide +kernel
  Rp := by decide +kernel
  tau0 := by decide +kernel
  tau1 := by decide +kernel

/-- The hypotheses of `rate_capability` are met: discharging to 3.2 V. -/
example : CircuitAtRest ratedCell ∧ RatedCell ratedCell.par 30 ∧
    (CC 100 { su := ratedCell } 1 (32 / 10) 10000 30 0 Thr.zero).1 = .ok .ReachedVoltageLimit ∧
    (CC 100 { su := ratedCell } 2 (32 / 10) 10000 30 0 Thr.zero).1 = .ok .ReachedVoltageLimit ∧
    (CC 100 { su := ratedCell } 2 (32 / 10) 10000 30 0 Thr.zero).2.2.Ah <
      (CC 100 { su := ratedCell } 1 (32 / 10) 10000 30 0 Thr.zero).2.2.Ah :=
  ⟨⟨⟨35 / 10, by decide +kernel⟩, by decide +kernel, by decide +kernel⟩, ratedCell_rated, by decide +kernel, by decide +kernel,
    by decide +kernel⟩

/-- And those of `rate_capability_voltage`: 10 steps at 1 A and 6 steps at 2 A. -/
example : CircuitAtRest ratedCell ∧ RatedCell ratedCell.par 30 ∧ |(1 : ℚ)| * (30 * (10 : ℕ)) ≤ |(2 : ℚ)| * (30 * (6 : ℕ)) ∧
    (ratedCell.par.ocv ((ratedCell.withI 1).timeStep 30 10).2.st.SOC).isSome ∧
    (ratedCell.par.ocv ((ratedCell.withI 2).timeStep 30 6).2.st.SOC).isSome :=
  ⟨⟨⟨35 / 10, by decide +kernel⟩, by decide +kernel, by decide +kernel⟩, ratedCell_rated, by decide +kernel, by decide +kernel,
    by decide +kernel⟩

end Slide

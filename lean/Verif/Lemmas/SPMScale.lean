import Verif.Lemmas.SPMDiff
import Verif.Tac

/-! Lemmas about single-particle cells that differ in size only. -/

namespace Slide
open Spec SPM

variable {N : ℕ}

theorem scaled_iApp {f : ℚ} (hf : 0 < f) {a b : SPM N} (h : ScaledBy f a b) : b.iApp = a.iApp := by
  unfold iApp; rw [h.par, h.st]; exact mul_div_mul_left _ _ hf.ne'

theorem scaled_arrh {f : ℚ} {a b : SPM N} (h : ScaledBy f a b) : b.arrh = a.arrh := by
  unfold arrh; rw [h.par, h.st]

theorem scaled_Dpt {f : ℚ} {a b : SPM N} (h : ScaledBy f a b) : b.Dpt = a.Dpt := by
  unfold Dpt; rw [scaled_arrh h, h.par, h.st]

theorem scaled_Dnt {f : ℚ} {a b : SPM N} (h : ScaledBy f a b) : b.Dnt = a.Dnt := by
  unfold Dnt; rw [scaled_arrh h, h.par, h.st]

theorem scaled_jp {f : ℚ} (hf : 0 < f) {a b : SPM N} (h : ScaledBy f a b) : b.jp = a.jp := by
  unfold jp; rw [scaled_iApp hf h, h.par, h.st]

theorem scaled_jn {f : ℚ} (hf : 0 < f) {a b : SPM N} (h : ScaledBy f a b) : b.jn = a.jn := by
  unfold jn; rw [scaled_iApp hf h, h.par, h.st]

theorem scaled_cps {f : ℚ} (hf : 0 < f) {a b : SPM N} (h : ScaledBy f a b) : b.cps = a.cps := by
  unfold cps; rw [scaled_jp hf h, scaled_Dpt h, h.par, h.st]

theorem scaled_cns {f : ℚ} (hf : 0 < f) {a b : SPM N} (h : ScaledBy f a b) : b.cns = a.cns := by
  unfold cns; rw [scaled_jn hf h, scaled_Dnt h, h.par, h.st]

theorem scaled_finite {f : ℚ} (hf : 0 < f) {a b : SPM N} (h : ScaledBy f a b) : b.finite = a.finite := by
  unfold finite
  rw [scaled_Dpt h, scaled_Dnt h, h.par, h.st]
  have : decide (f * a.par.elecSurf = 0) = decide (a.par.elecSurf = 0) := by
    rw [decide_eq_decide]; simp [hf.ne']
  simp only [this]

theorem scaled_concOk {f : ℚ} (hf : 0 < f) {a b : SPM N} (h : ScaledBy f a b) : b.concOk = a.concOk := by
  unfold concOk; rw [scaled_cps hf h, scaled_cns hf h, h.par]

theorem scaled_i0p {f : ℚ} (hf : 0 < f) {a b : SPM N} (h : ScaledBy f a b) : b.i0p = a.i0p := by
  unfold i0p; rw [scaled_cps hf h, scaled_arrh h, h.par]

theorem scaled_i0n {f : ℚ} (hf : 0 < f) {a b : SPM N} (h : ScaledBy f a b) : b.i0n = a.i0n := by
  unfold i0n; rw [scaled_cns hf h, scaled_arrh h, h.par]

theorem scaled_etap {f : ℚ} (hf : 0 < f) {a b : SPM N} (h : ScaledBy f a b) : b.etap = a.etap := by
  unfold etap; rw [scaled_i0p hf h, scaled_iApp hf h, h.par, h.st]

theorem scaled_etan {f : ℚ} (hf : 0 < f) {a b : SPM N} (h : ScaledBy f a b) : b.etan = a.etan := by
  unfold etan; rw [scaled_i0n hf h, scaled_iApp hf h, h.par, h.st]

theorem scaled_Rdc {f : ℚ} (hf : 0 < f) {a b : SPM N} (h : ScaledBy f a b) :
    b.Rdc * b.st.I = a.Rdc * a.st.I := by
  have e : ∀ x y : ℚ, x / (f * y) * f = x / y := by
    intro x y
    by_cases hy : y = 0
    · simp [hy]
    · field_simp
  have e3 : ∀ x y z : ℚ, x / (y * (f * a.par.elecSurf) * z) * f = x / (y * a.par.elecSurf * z) := by
    intro x y z
    rw [show y * (f * a.par.elecSurf) * z = f * (y * a.par.elecSurf * z) by ring, e]
  unfold Rdc
  rw [h.par, h.st]
  simp only
  rw [← mul_assoc]
  congr 1
  rw [add_mul, add_mul, add_mul, e3, e3, e3, e]

theorem scaled_calcV {f : ℚ} (hf : 0 < f) {a b : SPM N} (h : ScaledBy f a b) : b.calcV = a.calcV := by
  unfold calcV
  rw [scaled_finite hf h, scaled_concOk hf h, scaled_cps hf h, scaled_cns hf h, scaled_i0p hf h, scaled_i0n hf h,
    scaled_etap hf h, scaled_etan hf h, scaled_Rdc hf h, h.par, h.st]

/-- Two cells in relation report the same voltage and stay in relation. -/
theorem scaled_V {f : ℚ} (hf : 0 < f) {a b : SPM N} (h : ScaledBy f a b) :
    b.V.1 = a.V.1 ∧ ScaledBy f a.V.2 b.V.2 := by
  unfold SPM.V
  rw [h.valid, scaled_calcV hf h]
  by_cases hv : a.valid = true
  · rw [if_pos hv, if_pos hv]
    exact ⟨by rw [h.st], h⟩
  · rw [if_neg hv, if_neg hv]
    rcases a.calcV with (_ | v) | e | w
    · exact ⟨rfl, h⟩
    · refine ⟨rfl, ⟨h.par, ?_, rfl, h.block⟩⟩
      show ({ b.st with V := v } : SpmState N) = _
      rw [h.st]; rfl
    · exact ⟨rfl, h⟩
    · exact ⟨rfl, h⟩

theorem checkVoltage_scale (v : Option ℚ) {f : ℚ} (hf : 0 < f) (i : ℚ) :
    checkVoltage cellLimits v (f * i) = checkVoltage cellLimits v i := by
  have h1 : f * i > 0 ↔ i > 0 := by simp [hf]
  have h2 : f * i < 0 ↔ i < 0 := by
    constructor
    · intro h; by_contra hc; exact absurd (mul_nonneg hf.le (not_lt.mp hc)) (not_le.mpr h)
    · intro h; exact mul_neg_of_pos_of_neg hf h
  unfold checkVoltage
  simp only [h1, h2]

theorem scaled_checkV {f : ℚ} (hf : 0 < f) {a b : SPM N} (h : ScaledBy f a b) :
    b.checkV.1 = a.checkV.1 ∧ ScaledBy f a.checkV.2 b.checkV.2 := by
  obtain ⟨h1, h2⟩ := scaled_V hf h
  refine ⟨?_, by rw [checkV_snd, checkV_snd]; exact h2⟩
  unfold checkV
  have hI : b.st.I = f * a.st.I := by rw [h.st]
  rcases hk : a.V with ⟨v | e | w, a'⟩ <;> rcases hk' : b.V with ⟨v' | e' | w', b'⟩ <;> rw [hk, hk'] at h1 <;>
    simp only [Outcome.ok.injEq, Outcome.throw.injEq, Outcome.ub.injEq, reduceCtorEq] at h1
  · simp only; rw [h1, hI, checkVoltage_scale _ hf]
  · simp only; rw [hI, checkVoltage_scale _ hf]
  · simp only; rw [h1]

/-- Scaled cells answer a scaled current the same way and stay scaled. -/
theorem scaled_setCurrent {f : ℚ} (hf : 0 < f) {a b : SPM N} (h : ScaledBy f a b) (i : ℚ) (chk : Bool) :
    (b.setCurrent (f * i) chk).1 = (a.setCurrent i chk).1 ∧
    ScaledBy f (a.setCurrent i chk).2 (b.setCurrent (f * i) chk).2 := by
  unfold setCurrent
  obtain ⟨a1, ha1⟩ : ∃ a1 : SPM N, a1 = { a with st := { a.st with I := i }, valid := false } := ⟨_, rfl⟩
  obtain ⟨b1, hb1⟩ : ∃ b1 : SPM N, b1 = { b with st := { b.st with I := f * i }, valid := false } := ⟨_, rfl⟩
  have h1 : ScaledBy f a1 b1 := by
    refine ⟨by rw [ha1, hb1]; exact h.par, ?_, by rw [ha1, hb1], by rw [ha1, hb1]; exact h.block⟩
    rw [ha1, hb1]; simp only; rw [h.st]
  have h2 : (b1.checkCurrent chk).1 = (a1.checkCurrent chk).1 ∧
      ScaledBy f (a1.checkCurrent chk).2 (b1.checkCurrent chk).2 := by
    unfold checkCurrent
    cases chk
    · exact ⟨rfl, h1⟩
    · exact scaled_checkV hf h1
  simp only
  rw [← ha1, ← hb1]
  obtain ⟨h3, h4⟩ := h2
  rcases hk : a1.checkCurrent chk with ⟨s | e | w, a2⟩ <;> rcases hk' : b1.checkCurrent chk with ⟨s' | e' | w', b2⟩ <;>
    rw [hk, hk'] at h3 h4 <;>
    simp only [Outcome.ok.injEq, Outcome.throw.injEq, Outcome.ub.injEq, reduceCtorEq] at h3 h4
  · subst h3
    simp only
    by_cases hb : s'.isBad = true
    · rw [if_pos hb, if_pos hb]
      refine ⟨rfl, ⟨h4.par, ?_, h.valid, h4.block⟩⟩
      show ({ b2.st with I := b.st.I, V := b.st.V } : SpmState N) = _
      rw [h4.st, h.st]
    · rw [if_neg hb, if_neg hb]; exact ⟨rfl, h4⟩
  · exact ⟨by rw [h3], h4⟩
  · exact ⟨by rw [h3], h4⟩

theorem scaled_setSOC {f : ℚ} (hf : 0 < f) {a b : SPM N} (h : ScaledBy f a b) (x : ℚ) (chk : Bool) :
    (b.setSOC x chk).1 = (a.setSOC x chk).1 ∧ ScaledBy f (a.setSOC x chk).2 (b.setSOC x chk).2 := by
  unfold setSOC
  by_cases hs : (!checkSOC x) = true
  · rw [if_pos hs, if_pos hs]; exact ⟨rfl, h⟩
  · rw [if_neg hs, if_neg hs]
    obtain ⟨a1, ha1⟩ : ∃ a1 : SPM N, a1 = { a with st := { a.st with SOC := x } } := ⟨_, rfl⟩
    obtain ⟨b1, hb1⟩ : ∃ b1 : SPM N, b1 = { b with st := { b.st with SOC := x } } := ⟨_, rfl⟩
    have h1 : ScaledBy f a1 b1 := by
      refine ⟨by rw [ha1, hb1]; exact h.par, ?_, by rw [ha1, hb1]; exact h.valid, by rw [ha1, hb1]; exact h.block⟩
      rw [ha1, hb1]; simp only; rw [h.st]
    simp only
    rw [← ha1, ← hb1]
    cases chk
    · exact ⟨rfl, h1⟩
    · simp only [if_true]
      obtain ⟨h3, h4⟩ := scaled_checkV hf h1
      rcases hk : a1.checkV with ⟨s | e | w, a2⟩ <;> rcases hk' : b1.checkV with ⟨s' | e' | w', b2⟩ <;>
        rw [hk, hk'] at h3 h4 <;>
        simp only [Outcome.ok.injEq, Outcome.throw.injEq, Outcome.ub.injEq, reduceCtorEq] at h3 h4
      · subst h3
        simp only
        by_cases hb : s'.isBad = true
        · rw [if_pos hb, if_pos hb]
          refine ⟨rfl, ⟨h4.par, ?_, h4.valid, h4.block⟩⟩
          show ({ b2.st with SOC := b.st.SOC } : SpmState N) = _
          rw [h4.st, h.st]
        · rw [if_neg hb, if_neg hb]; exact ⟨rfl, h4⟩
      · exact ⟨by rw [h3], h4⟩
      · exact ⟨by rw [h3], h4⟩

theorem scaled_diffStep {f : ℚ} (hf : 0 < f) {a b : SPM N} (h : ScaledBy f a b) (dt : ℚ) :
    (b.diffStep dt).1 = (a.diffStep dt).1 ∧ ScaledBy f (a.diffStep dt).2 (b.diffStep dt).2 := by
  unfold diffStep
  have hcap : (b.par.cap = 0) ↔ (a.par.cap = 0) := by rw [h.par]; simp [hf.ne']
  have hfin := scaled_finite hf h
  have hdiff : ScaledBy f (a.diffState dt) (b.diffState dt) := by
    refine ⟨h.par, ?_, rfl, h.block⟩
    have e1 : b.dzp = a.dzp := by
      funext j; unfold dzp; rw [scaled_Dpt h, scaled_jp hf h, h.par, h.st]
    have e2 : b.dzn = a.dzn := by
      funext j; unfold dzn; rw [scaled_Dnt h, scaled_jn hf h, h.par, h.st]
    have e3 : b.dSOC = a.dSOC := by
      unfold dSOC; rw [h.par, h.st]
      simp only
      rw [show -(f * a.st.I) = f * (-a.st.I) by ring, mul_assoc]
      exact mul_div_mul_left _ _ hf.ne'
    unfold diffState
    simp only
    rw [e1, e2, e3, h.st]
    simp only
    congr 1
    rw [mul_assoc, abs_mul, abs_of_pos hf, mul_add]
  by_cases hz : (!a.finite) = true ∨ a.par.cap = 0
  · rw [if_pos hz, if_pos (by rw [hfin, hcap]; exact hz)]; exact ⟨rfl, h⟩
  · rw [if_neg hz, if_neg (by rw [hfin, hcap]; exact hz)]
    obtain ⟨h3, h4⟩ := scaled_V hf hdiff
    rcases hk : (a.diffState dt).V with ⟨s | e | w, a2⟩ <;> rcases hk' : (b.diffState dt).V with ⟨s' | e' | w', b2⟩ <;>
      rw [hk, hk'] at h3 h4 <;>
      simp only [Outcome.ok.injEq, Outcome.throw.injEq, Outcome.ub.injEq, reduceCtorEq] at h3 h4
    · subst h3
      refine ⟨rfl, ⟨h4.par, ?_, h4.valid, h4.block⟩⟩
      simp only
      rw [h4.st, h.st]
      simp only
      congr 1
      rw [mul_assoc, mul_assoc, abs_mul f, abs_of_pos hf, mul_add]
      ring_nf
    · exact ⟨by rw [h3], h4⟩
    · exact ⟨by rw [h3], h4⟩

theorem scaled_diffLoop {f : ℚ} (hf : 0 < f) (dt : ℚ) (k : ℕ) : ∀ {a b : SPM N}, ScaledBy f a b →
    (SPM.diffLoop dt k b).1 = (SPM.diffLoop dt k a).1 ∧ ScaledBy f (SPM.diffLoop dt k a).2 (SPM.diffLoop dt k b).2 := by
  induction k with
  | zero => intro a b h; exact ⟨rfl, h⟩
  | succ k ih =>
    intro a b h
    rw [SPM.diffLoop, SPM.diffLoop]
    obtain ⟨h1, h2⟩ := scaled_diffStep hf h dt
    unfold SPM.andThen
    rw [h1]
    rcases (a.diffStep dt).1 with _ | e | w
    · exact ih h2
    · exact ⟨rfl, h2⟩
    · exact ⟨rfl, h2⟩

/-- Scaled cells take time steps alike. -/
theorem scaled_timeStep {f : ℚ} (hf : 0 < f) {a b : SPM N} (h : ScaledBy f a b) (dt : ℚ) (n : ℤ) :
    (b.timeStep dt n).1 = (a.timeStep dt n).1 ∧ ScaledBy f (a.timeStep dt n).2 (b.timeStep dt n).2 := by
  unfold timeStep
  by_cases hdt : dt < 0
  · rw [if_pos hdt, if_pos hdt]; exact ⟨rfl, h⟩
  · rw [if_neg hdt, if_neg hdt]
    have h0 : ScaledBy f (a.rotate (n * dt)) (b.rotate (n * dt)) := ⟨h.par, h.st, h.valid, h.block⟩
    obtain ⟨h1, h2⟩ := scaled_diffLoop hf dt n.toNat h0
    unfold SPM.andThen
    rw [h1]
    rcases (SPM.diffLoop dt n.toNat (a.rotate (n * dt))).1 with _ | e | w
    · simp only
      rw [if_pos h2.block.1, if_pos h2.block.2]; exact ⟨rfl, h2⟩
    · exact ⟨rfl, h2⟩
    · exact ⟨rfl, h2⟩

end Slide

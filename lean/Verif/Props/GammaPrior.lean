import Verif.Spec.GammaPrior
import Verif.Props.MCMC

/-!
Property C107: the gamma density.
-/

namespace Slide
open Spec MeasureTheory Set

/-- The functor of shape `a` and scale `b`. -/
noncomputable def gammaF (a b : ℝ) : GammaDensity := ⟨a, 1 / b, 1 / Real.Gamma a / b ^ a⟩

/-- Its values for positive arguments. -/
noncomputable def gammaV (a b x : ℝ) : ℝ := 1 / Real.Gamma a / b ^ a * Real.exp (-(1 / b) * x) * x ^ (a - 1)

theorem gamma_mk {a b : ℝ} (ha : 0 < a) (hb : 0 < b) : GammaDensity.mk' a b = .ok (gammaF a b) := by
  have h1 : libGamma a = .ok (Real.Gamma a) := by
    unfold libGamma
    rw [if_neg]
    rintro ⟨n, hn⟩
    have : (0 : ℝ) ≤ n := n.cast_nonneg
    linarith
  have h2 : libPow b a = .ok (b ^ a) := by unfold libPow; rw [if_pos hb]
  have h3 : Real.Gamma a ≠ 0 := (Real.Gamma_pos_of_pos ha).ne'
  have h4 : b ^ a ≠ 0 := (Real.rpow_pos_of_pos hb a).ne'
  unfold GammaDensity.mk'
  rw [h1, h2]
  simp only [bind, Outcome.bind]
  rw [if_neg (by simp [hb.ne', h3, h4])]
  rfl

theorem gamma_eval {a b x : ℝ} (hx : 0 < x) : (gammaF a b).eval x = .ok (gammaV a b x) := by
  unfold GammaDensity.eval libPow
  rw [if_pos hx]
  rfl

theorem gammaV_pos {a b x : ℝ} (ha : 0 < a) (hb : 0 < b) (hx : 0 < x) : 0 < gammaV a b x := by
  unfold gammaV
  have := Real.Gamma_pos_of_pos ha
  positivity

/-- `∫ xᵏ f(x) dx` for the density `f`. -/
theorem gamma_moment {a b : ℝ} (ha : 0 < a) (hb : 0 < b) (k : ℕ) :
    ∫ x in Ioi 0, x ^ k * gammaV a b x = b ^ k * (Real.Gamma (a + k) / Real.Gamma a) := by
  have h := Real.integral_rpow_mul_exp_neg_mul_Ioi (a := a + k) (r := 1 / b) (by positivity) (by positivity)
  have e : ∀ x ∈ Ioi (0 : ℝ), x ^ k * gammaV a b x =
      (1 / Real.Gamma a / b ^ a) * (x ^ (a + k - 1) * Real.exp (-(1 / b * x))) := by
    intro x hx
    have hx : 0 < x := hx
    unfold gammaV
    rw [show a + k - 1 = (a - 1) + (k : ℝ) by ring, Real.rpow_add hx, Real.rpow_natCast]
    ring_nf
  rw [setIntegral_congr_fun measurableSet_Ioi e, integral_const_mul, h]
  rw [one_div_one_div, Real.rpow_add hb, Real.rpow_natCast]
  have h4 : b ^ a ≠ 0 := (Real.rpow_pos_of_pos hb a).ne'
  have h3 : Real.Gamma a ≠ 0 := (Real.Gamma_pos_of_pos ha).ne'
  field_simp

theorem gamma_density {a b : ℝ} (ha : 0 < a) (hb : 0 < b) :
    PositiveDensity (gammaV a b) (a * b) (a * b ^ 2 + (a * b) ^ 2) := by
  have h3 : Real.Gamma a ≠ 0 := (Real.Gamma_pos_of_pos ha).ne'
  have g1 : Real.Gamma (a + 1) = a * Real.Gamma a := Real.Gamma_add_one ha.ne'
  have g2 : Real.Gamma (a + 2) = (a + 1) * (a * Real.Gamma a) := by
    rw [← g1, show a + 2 = a + 1 + 1 by ring, Real.Gamma_add_one (by positivity)]
  refine ⟨fun x hx => gammaV_pos ha hb hx, ?_, ?_, ?_⟩
  · have := gamma_moment ha hb 0
    simpa [h3] using this
  · have := gamma_moment ha hb 1
    simp only [pow_one, Nat.cast_one, g1] at this
    rw [this]; field_simp
  · have := gamma_moment ha hb 2
    simp only [Nat.cast_ofNat, g2] at this
    rw [this]; field_simp; ring

/-- **C107** (partial) For positive shape and scale the functor can be built and is the gamma density: the density of a
positive quantity with mean `a b` and variance `a b²`.  Missing: for negative arguments it is not zero
(`not_gammaFunctorIsDensity`). -/
theorem gammaFunctor_density_partial (a b : ℝ) (ha : 0 < a) (hb : 0 < b) :
    ∃ f g, GammaDensity.mk' a b = .ok f ∧ (∀ x, 0 < x → f.eval x = .ok (g x)) ∧
      PositiveDensity g (a * b) (a * b ^ 2 + (a * b) ^ 2) :=
  ⟨_, _, gamma_mk ha hb, fun _ hx => gamma_eval hx, gamma_density ha hb⟩

/-- **C107** A shape above one: the density is largest at `(a - 1) b`. -/
theorem gammaFunctor_mode (a b x : ℝ) (ha : 1 < a) (hb : 0 < b) (hx : 0 < x) : ∃ f y z,
    GammaDensity.mk' a b = .ok f ∧ f.eval x = .ok y ∧ f.eval ((a - 1) * b) = .ok z ∧ y ≤ z := by
  have hm : 0 < (a - 1) * b := mul_pos (by linarith) hb
  refine ⟨_, _, _, gamma_mk (by linarith) hb, gamma_eval hx, gamma_eval hm, ?_⟩
  have hG := Real.Gamma_pos_of_pos (show 0 < a by linarith)
  unfold gammaV
  rw [mul_assoc, mul_assoc]
  refine mul_le_mul_of_nonneg_left ?_ (by positivity)
  rw [Real.rpow_def_of_pos hx, Real.rpow_def_of_pos hm, ← Real.exp_add, ← Real.exp_add, Real.exp_le_exp]
  have h := Real.log_le_sub_one_of_pos (div_pos hx hm)
  rw [Real.log_div hx.ne' hm.ne'] at h
  have h2 := mul_le_mul_of_nonneg_right h (show 0 ≤ a - 1 by linarith)
  have e : (x / ((a - 1) * b) - 1) * (a - 1) = 1 / b * x - (a - 1) := by
    have : a - 1 ≠ 0 := by linarith
    field_simp
  have e2 : -(1 / b) * ((a - 1) * b) = -(a - 1) := by field_simp
  rw [e] at h2
  rw [e2]
  linarith

/-- **C107** fails for negative arguments: the exponential distribution (shape 1, scale 1) at -1. -/
theorem not_gammaFunctorIsDensity : ¬ GammaFunctorIsDensity := by
  intro h
  obtain ⟨f, g, h1, -, -, h4⟩ := h 1 1 one_pos one_pos
  rw [gamma_mk one_pos one_pos] at h1
  cases h1
  have h5 := h4 (-1) (by norm_num)
  unfold GammaDensity.eval libPow at h5
  have hz : ∃ n : ℤ, (gammaF 1 1).a - 1 = n := ⟨0, by simp [gammaF]⟩
  have hc : hz.choose = 0 := by
    have hs := hz.choose_spec
    generalize hz.choose = z at hs ⊢
    have h0 : (gammaF 1 1).a - 1 = 0 := by simp [gammaF]
    rw [h0] at hs
    exact_mod_cast hs.symm
  rw [if_neg (by norm_num), if_neg (by norm_num), dif_pos hz, hc] at h5
  simp only [bind, Outcome.bind, gammaF, Outcome.ok.injEq, zpow_zero, mul_one] at h5
  simp at h5

/-- **C107** A functor of shape above one is zero at zero; of shape below one it has a pole there. -/
theorem gammaFunctor_zero (a b : ℝ) (ha : 0 < a) (hb : 0 < b) : ∃ f, GammaDensity.mk' a b = .ok f ∧
    (1 < a → f.eval 0 = .ok 0) ∧ (a = 1 → f.eval 0 = .ok (1 / b)) ∧ (a < 1 → ∃ w, f.eval 0 = .ub w) := by
  refine ⟨_, gamma_mk ha hb, ?_, ?_, ?_⟩ <;> intro h <;> unfold GammaDensity.eval libPow <;>
    rw [if_neg (lt_irrefl _), if_pos rfl]
  · rw [if_pos (by simp only [gammaF]; linarith)]
    simp [bind, Outcome.bind]
  · subst h
    rw [if_neg (by simp [gammaF]), if_pos (by simp [gammaF])]
    simp [bind, Outcome.bind, gammaF]
  · rw [if_neg (by simp only [gammaF]; linarith), if_neg (by simp only [gammaF]; linarith)]
    exact ⟨_, rfl⟩

/-- **C107** Gamma priors in the estimation of parameters (C101): the likelihood of a candidate with positive parameters
is minus the logarithm of the density that Bayes' rule gives to it with independent gamma distributed parameters. -/
theorem LL_gamma_priors {np no n : ℕ} (x : MCMC.Input np no) (hno : 0 < no) (a b : Fin np → ℝ) (ha : ∀ i, 0 < a i)
    (hb : ∀ i, 0 < b i) (F : Fin np → GammaDensity) (hF : ∀ i, GammaDensity.mk' (a i) (b i) = .ok (F i))
    (dist : Fin np → ℝ → ℝ) (hdist : ∀ i y, 0 < y → (F i).eval y = .ok (dist i y)) (h0 : ∀ i y, 0 ≤ dist i y)
    (cost : (Fin np → ℝ) → Outcome ℝ) (scalar : Fin np → ℝ) (e : Fin n → ℝ) (hx : ∀ i, 0 < x.param i)
    (hc : cost (fun i => x.param i * scalar i) = .ok (sse e)) :
    ∃ res, MCMC.LL x (List.ofFn dist) cost n scalar = .ok (res, true) ∧
      EReal.exp (-(res 0)) = ENNReal.ofReal (posterior (fun i => gammaV (a i) (b i)) x.param
        (Real.exp (x.logR ⟨0, hno⟩)) e) := by
  obtain ⟨res, h1, h2⟩ := LL_posterior x hno dist cost scalar e h0 hx hc
  refine ⟨res, h1, ?_⟩
  rw [h2]
  congr 1
  unfold posterior
  congr 1
  refine Finset.prod_congr rfl fun i _ => ?_
  have hi := hF i
  rw [gamma_mk (ha i) (hb i)] at hi
  have h3 := hdist i (x.param i) (hx i)
  rw [← Outcome.ok.inj hi, gamma_eval (hx i)] at h3
  exact (Outcome.ok.inj h3).symm

/-- Hypotheses of the theorems above. -/
example : ∃ f, GammaDensity.mk' 2 3 = .ok f ∧ f.eval 3 = .ok (1 / 3 * Real.exp (-1)) := by
  refine ⟨_, gamma_mk (by norm_num) (by norm_num), ?_⟩
  rw [gamma_eval (by norm_num)]
  have h : Real.Gamma 2 = 1 := by norm_num
  unfold gammaV
  rw [h, show (2 : ℝ) - 1 = 1 by norm_num, Real.rpow_one, show (3 : ℝ) ^ (2 : ℝ) = 9 by
    rw [show (2 : ℝ) = ((2 : ℕ) : ℝ) by norm_num, Real.rpow_natCast]; norm_num]
  congr 1
  rw [show -(1 / (3 : ℝ)) * 3 = -1 by norm_num]
  ring

end Slide

import Verif.Spec.MCMC
import Mathlib.Algebra.BigOperators.Field

/-!
# C101 The likelihood of the parameter estimation
-/

namespace Slide
open Spec MCMC
open scoped BigOperators

theorem log_pos {x : ℝ} (h : 0 < x) : MCMC.log x = .ok ((Real.log x : ℝ) : EReal) := by
  unfold MCMC.log
  rw [if_neg (not_lt.mpr h.le), if_neg h.ne']

theorem exp_log {x : ℝ} (h : 0 ≤ x) : ∃ l, MCMC.log x = .ok l ∧ EReal.exp l = ENNReal.ofReal x ∧ l ≠ ⊤ := by
  rcases h.eq_or_lt with rfl | h
  · refine ⟨⊥, ?_, by simp, by simp⟩
    unfold MCMC.log
    rw [if_neg (lt_irrefl _), if_pos rfl]
  · refine ⟨_, log_pos h, ?_, by simp⟩
    rw [EReal.exp_coe, Real.exp_log h]

/-- The loop over the densities. -/
theorem sumLog_spec {np : ℕ} (dens : Fin np → ℝ → ℝ) (b : Fin np → ℝ) (hd : ∀ i x, 0 ≤ dens i x) (k : ℕ) :
    k ≤ np → ∀ s : EReal, s ≠ ⊤ → ∃ r, sumLog (List.ofFn dens) b k s = .ok r ∧ r ≠ ⊤ ∧
      EReal.exp r = EReal.exp s * ENNReal.ofReal (∏ i : Fin np, if np - k ≤ i.val then dens i (b i) else 1) := by
  induction k with
  | zero =>
    intro _ s hs
    refine ⟨s, rfl, hs, ?_⟩
    rw [Finset.prod_congr rfl (g := fun _ => (1 : ℝ)) fun i _ => if_neg (by omega)]
    simp
  | succ k ih =>
    intro hk s hs
    have hi : np - (k + 1) < np := by omega
    obtain ⟨l, hl, hl', hlt⟩ := exp_log (hd ⟨np - (k + 1), hi⟩ (b ⟨np - (k + 1), hi⟩))
    obtain ⟨r, hr, hrt, hr'⟩ := ih (by omega) (s + l) (by
      induction s <;> induction l <;> simp_all [← EReal.coe_add])
    refine ⟨r, ?_, hrt, ?_⟩
    · rw [← hr]
      unfold sumLog
      rw [dif_pos hi]
      have e : (List.ofFn dens)[np - (k + 1)]? = some (dens ⟨np - (k + 1), hi⟩) := by
        rw [List.getElem?_ofFn, dif_pos hi]
      rw [e]
      show (MCMC.log _).bind _ = _
      rw [hl]
      cases k <;> rfl
    · rw [hr', EReal.exp_add, hl', mul_assoc]
      congr 1
      rw [← ENNReal.ofReal_mul (hd _ _)]
      congr 1
      rw [← Finset.mul_prod_erase Finset.univ _ (Finset.mem_univ (⟨np - (k + 1), hi⟩ : Fin np)),
        ← Finset.mul_prod_erase Finset.univ (fun i : Fin np => if np - (k + 1) ≤ i.val then dens i (b i) else 1)
          (Finset.mem_univ (⟨np - (k + 1), hi⟩ : Fin np))]
      rw [if_neg (by simp; omega), if_pos (by simp), one_mul]
      congr 1
      refine Finset.prod_congr rfl fun i hi' => ?_
      have : i.val ≠ np - (k + 1) := fun h => (Finset.mem_erase.mp hi').1 (Fin.ext h)
      by_cases h : np - k ≤ i.val
      · rw [if_pos h, if_pos (by omega)]
      · rw [if_neg h, if_neg (by omega)]

/-- The prior of positive parameters. -/
theorem prior_spec {np : ℕ} (dens : Fin np → ℝ → ℝ) (b : Fin np → ℝ) (hd : ∀ i x, 0 ≤ dens i x) (hb : ∀ i, 0 < b i) :
    ∃ r, MCMC.prior (List.ofFn dens) b = .ok (r, true) ∧ r ≠ ⊤ ∧
      EReal.exp r = ENNReal.ofReal (∏ i, dens i (b i)) := by
  obtain ⟨r, h1, h2, h3⟩ := sumLog_spec dens b hd np le_rfl 0 (by simp)
  refine ⟨r, ?_, h2, ?_⟩
  · unfold MCMC.prior
    rw [if_neg (by push Not; exact hb), h1]
    rfl
  · rw [h3]
    simp

theorem gauss_pos (R e : ℝ) (hR : 0 < R) : 0 < gauss R e := by
  unfold gauss
  have := Real.pi_pos
  positivity

theorem prod_gauss {n : ℕ} (R : ℝ) (hR : 0 < R) (e : Fin n → ℝ) :
    Real.exp (-(1 / 2 * Real.log (2 * Real.pi * R) * n + 1 / 2 * sse e / R)) = ∏ k, gauss R (e k) := by
  have h2 : 0 < 2 * Real.pi * R := by have := Real.pi_pos; positivity
  have hg : ∀ x, gauss R x = Real.exp (-(1 / 2 * Real.log (2 * Real.pi * R) + 1 / 2 * x ^ 2 / R)) := by
    intro x
    unfold gauss
    rw [neg_add, Real.exp_add]
    congr 1
    · rw [Real.exp_neg, one_div]
      congr 1
      rw [one_div_mul_eq_div, Real.exp_half, Real.exp_log h2]
    · congr 1
      field_simp
  rw [Finset.prod_congr rfl fun k _ => hg (e k), ← Real.exp_sum]
  congr 1
  simp only [Finset.sum_neg_distrib, Finset.sum_add_distrib, Finset.sum_const, Finset.card_univ, Fintype.card_fin, sse]
  rw [← Finset.sum_div, ← Finset.mul_sum]
  simp only [nsmul_eq_mul]
  ring

/-- The likelihood of a candidate whose parameters are positive and whose simulation succeeds. -/
theorem LL_ok {np no : ℕ} (x : MCMC.Input np no) (hno : 0 < no) (dens : Fin np → ℝ → ℝ)
    (cost : (Fin np → ℝ) → Outcome ℝ) (nobs : ℕ) (scalar : Fin np → ℝ) (err : ℝ) (hd : ∀ i x, 0 ≤ dens i x)
    (hb : ∀ i, 0 < x.param i) (hc : cost (fun i => x.param i * scalar i) = .ok err) :
    ∃ p, MCMC.prior (List.ofFn dens) x.param = .ok (p, true) ∧ p ≠ ⊤ ∧
      EReal.exp p = ENNReal.ofReal (∏ i, dens i (x.param i)) ∧
    ∃ l1 l2 : ℝ, l1 = 1 / 2 * Real.log (2 * Real.pi * Real.exp (x.logR ⟨0, hno⟩)) * nobs ∧
      l2 = 1 / 2 * err / Real.exp (x.logR ⟨0, hno⟩) ∧
      MCMC.LL x (List.ofFn dens) cost nobs scalar = .ok (![-p + l1 + l2, l1, l2, p, (err : EReal)], true) := by
  obtain ⟨p, h1, h2, h3⟩ := prior_spec dens x.param hd hb
  refine ⟨p, h1, h2, h3, _, _, rfl, rfl, ?_⟩
  unfold MCMC.LL
  rw [h1]
  have hc' : cost (x.scale scalar) = .ok err := hc
  have hR : x.getR = .ok (Real.exp (x.logR ⟨0, hno⟩)) := by unfold MCMC.Input.getR; rw [dif_pos hno]
  have hl := log_pos (x := 2 * Real.pi * Real.exp (x.logR ⟨0, hno⟩)) (by
    have := Real.pi_pos
    have := Real.exp_pos (x.logR ⟨0, hno⟩)
    positivity)
  simp only [Outcome.bind, Bool.true_eq_false, if_false, hc', hR, hl, ← EReal.coe_mul]

/-- **C101** The likelihood of a candidate is minus the logarithm of the density that Bayes' rule gives to it. -/
theorem LL_posterior {np no n : ℕ} (x : MCMC.Input np no) (hno : 0 < no) (dens : Fin np → ℝ → ℝ)
    (cost : (Fin np → ℝ) → Outcome ℝ) (scalar : Fin np → ℝ) (e : Fin n → ℝ) (hd : ∀ i x, 0 ≤ dens i x)
    (hb : ∀ i, 0 < x.param i) (hc : cost (fun i => x.param i * scalar i) = .ok (sse e)) :
    ∃ res, MCMC.LL x (List.ofFn dens) cost n scalar = .ok (res, true) ∧
      EReal.exp (-(res 0)) = ENNReal.ofReal (posterior dens x.param (Real.exp (x.logR ⟨0, hno⟩)) e) := by
  obtain ⟨p, -, hp, hpe, l1, l2, e1, e2, h⟩ := LL_ok x hno dens cost n scalar _ hd hb hc
  refine ⟨_, h, ?_⟩
  have hR := Real.exp_pos (x.logR ⟨0, hno⟩)
  set R := Real.exp (x.logR ⟨0, hno⟩)
  have hg := prod_gauss R hR e
  rw [← e1, ← e2] at hg
  have hout : -(-p + (l1 : EReal) + (l2 : EReal)) = p + ((-(l1 + l2) : ℝ) : EReal) := by
    induction p with
    | bot => simp
    | coe p => norm_cast; ring_nf
    | top => exact absurd rfl hp
  show EReal.exp (-(-p + (l1 : EReal) + (l2 : EReal))) = _
  rw [hout, EReal.exp_add, hpe, EReal.exp_coe, hg]
  unfold posterior
  rw [← ENNReal.ofReal_mul (Finset.prod_nonneg fun i _ => hd i _)]

/-- **C101** Of two candidates the one with the smaller value is the more probable one. -/
theorem LL_compares {np no n : ℕ} (x y : MCMC.Input np no) (hno : 0 < no) (dens : Fin np → ℝ → ℝ)
    (cost : (Fin np → ℝ) → Outcome ℝ) (scalar : Fin np → ℝ) (e e' : Fin n → ℝ) (hd : ∀ i x, 0 ≤ dens i x)
    (hx : ∀ i, 0 < x.param i) (hy : ∀ i, 0 < y.param i) (hcx : cost (fun i => x.param i * scalar i) = .ok (sse e))
    (hcy : cost (fun i => y.param i * scalar i) = .ok (sse e')) :
    ∃ rx ry, MCMC.LL x (List.ofFn dens) cost n scalar = .ok (rx, true) ∧
      MCMC.LL y (List.ofFn dens) cost n scalar = .ok (ry, true) ∧
      (rx 0 ≤ ry 0 ↔ posterior dens y.param (Real.exp (y.logR ⟨0, hno⟩)) e' ≤
        posterior dens x.param (Real.exp (x.logR ⟨0, hno⟩)) e) := by
  obtain ⟨rx, h1, h2⟩ := LL_posterior x hno dens cost scalar e hd hx hcx
  obtain ⟨ry, h3, h4⟩ := LL_posterior y hno dens cost scalar e' hd hy hcy
  refine ⟨rx, ry, h1, h3, ?_⟩
  have hp : 0 ≤ posterior dens x.param (Real.exp (x.logR ⟨0, hno⟩)) e :=
    mul_nonneg (Finset.prod_nonneg fun i _ => hd i _)
      (Finset.prod_nonneg fun k _ => (gauss_pos _ _ (Real.exp_pos _)).le)
  rw [← ENNReal.ofReal_le_ofReal_iff hp, ← h2, ← h4, EReal.exp_le_exp_iff, EReal.neg_le_neg_iff]

/-- **C101** Parameters that are not positive are refused without running the simulation. -/
theorem LL_rejects {np no : ℕ} (x : MCMC.Input np no) (dist : List (ℝ → ℝ)) (cost : (Fin np → ℝ) → Outcome ℝ) (nobs : ℕ)
    (scalar : Fin np → ℝ) : (∃ i, x.param i ≤ 0) → MCMC.LL x dist cost nobs scalar = .ok (fun _ => 0, false) := by
  intro h
  unfold MCMC.LL MCMC.prior
  rw [if_pos h]
  rfl

/-- **C101** An exception of the simulation is passed on. -/
theorem LL_throws {np no : ℕ} (x : MCMC.Input np no) (dens : Fin np → ℝ → ℝ)
    (cost : (Fin np → ℝ) → Outcome ℝ) (nobs : ℕ) (scalar : Fin np → ℝ) (c : ℤ) (hd : ∀ i x, 0 ≤ dens i x)
    (hb : ∀ i, 0 < x.param i) (hc : cost (fun i => x.param i * scalar i) = .throw c) :
    MCMC.LL x (List.ofFn dens) cost nobs scalar = .throw c := by
  obtain ⟨p, h1, -, -⟩ := prior_spec dens x.param hd hb
  unfold MCMC.LL
  rw [h1]
  have hc' : cost (x.scale scalar) = .throw c := hc
  simp only [Outcome.bind, Bool.true_eq_false, if_false, hc']

/-- **C101** With fewer prior distributions than parameters the likelihood is undefined. -/
theorem LL_short {np no : ℕ} (x : MCMC.Input np no) (dist : List (ℝ → ℝ)) (cost : (Fin np → ℝ) → Outcome ℝ) (nobs : ℕ)
    (scalar : Fin np → ℝ) (hd : ∀ d ∈ dist, ∀ x, 0 ≤ d x) (hb : ∀ i, 0 < x.param i) (h : dist.length < np) :
    ∃ w, MCMC.LL x dist cost nobs scalar = .ub w := by
  have key : ∀ k s, k ≤ np → 0 < k → ∃ w, sumLog dist x.param k s = .ub w := by
    intro k
    induction k with
    | zero => intro _ _ h0; exact absurd h0 (lt_irrefl _)
    | succ k ih =>
      intro s hk _
      have hi : np - (k + 1) < np := by omega
      unfold sumLog
      rw [dif_pos hi]
      rcases hg : dist[np - (k + 1)]? with _ | d
      · exact ⟨_, rfl⟩
      · obtain ⟨l, hl, -⟩ := exp_log (hd d (List.mem_of_getElem? hg) (x.param ⟨np - (k + 1), hi⟩))
        show ∃ w, (MCMC.log _).bind _ = _
        rw [hl]
        refine ih _ (by omega) ?_
        have := (List.getElem?_eq_some_iff.mp hg).1
        omega
  obtain ⟨w, hw⟩ := key np 0 le_rfl (by omega)
  refine ⟨w, ?_⟩
  unfold MCMC.LL MCMC.prior
  rw [if_neg (by push Not; exact hb), hw]
  rfl

/-- **C101** For given parameters the most probable noise variance is the mean squared error. -/
theorem LL_best_noise {np no n : ℕ} (x y : MCMC.Input np no) (hno : 0 < no) (dens : Fin np → ℝ → ℝ)
    (cost : (Fin np → ℝ) → Outcome ℝ) (scalar : Fin np → ℝ) (e : Fin n → ℝ) (hd : ∀ i x, 0 ≤ dens i x)
    (hx : ∀ i, 0 < x.param i) (hxy : y.param = x.param) (hcx : cost (fun i => x.param i * scalar i) = .ok (sse e))
    (hn : 0 < n) (hR : Real.exp (x.logR ⟨0, hno⟩) = sse e / n) :
    ∃ rx ry, MCMC.LL x (List.ofFn dens) cost n scalar = .ok (rx, true) ∧
      MCMC.LL y (List.ofFn dens) cost n scalar = .ok (ry, true) ∧ rx 0 ≤ ry 0 := by
  obtain ⟨p, a1, hp, -, l1, l2, e1, e2, h⟩ := LL_ok x hno dens cost n scalar _ hd hx hcx
  obtain ⟨q, b1, -, -, m1, m2, f1, f2, h'⟩ := LL_ok y hno dens cost n scalar _ hd (by rw [hxy]; exact hx)
    (by rw [hxy]; exact hcx)
  rw [hxy] at b1
  obtain rfl : p = q := by simpa using a1.symm.trans b1
  refine ⟨_, _, h, h', ?_⟩
  show -p + (l1 : EReal) + (l2 : EReal) ≤ -p + (m1 : EReal) + (m2 : EReal)
  have key : l1 + l2 ≤ m1 + m2 := by
    have hS := Real.exp_pos (y.logR ⟨0, hno⟩)
    have hR0 := Real.exp_pos (x.logR ⟨0, hno⟩)
    set S := Real.exp (y.logR ⟨0, hno⟩)
    set R := Real.exp (x.logR ⟨0, hno⟩)
    have hn' : (0 : ℝ) < n := by exact_mod_cast hn
    have hs : sse e = n * R := by rw [hR]; field_simp
    have hpi : 0 < 2 * Real.pi := by have := Real.pi_pos; positivity
    rw [e1, e2, f1, f2, hs, Real.log_mul hpi.ne' hR0.ne', Real.log_mul hpi.ne' hS.ne']
    have hl := Real.log_le_sub_one_of_pos (div_pos hR0 hS)
    rw [Real.log_div hR0.ne' hS.ne'] at hl
    have h1 : 1 / 2 * (n * R) / R = 1 / 2 * n := by field_simp
    have h2 : 1 / 2 * (n * R) / S = 1 / 2 * n * (R / S) := by field_simp
    rw [h1, h2]
    nlinarith
  induction p with
  | bot => simp
  | coe p =>
    norm_cast
    linarith
  | top => exact absurd rfl hp

/-- Two parameters with uniform prior on (0, 2), three observations. -/
example : ∃ (x : MCMC.Input 2 1) (dens : Fin 2 → ℝ → ℝ) (cost : (Fin 2 → ℝ) → Outcome ℝ) (e : Fin 3 → ℝ),
    (∀ i x, 0 ≤ dens i x) ∧ (∀ i, 0 < x.param i) ∧ cost (fun i => x.param i * 10) = .ok (sse e) ∧ 0 < sse e ∧
      0 < ∏ i, dens i (x.param i) := by
  classical
  refine ⟨⟨fun _ => 1, fun _ => 0⟩, fun _ y => if 0 < y ∧ y < 2 then 1 / 2 else 0, fun b => .ok (b 0 + b 1 - 17),
    fun _ => 1, fun _ y => by dsimp only; split_ifs <;> norm_num, fun _ => by norm_num, ?_, by norm_num [sse], ?_⟩
  · norm_num [sse]
  · norm_num

/-- **C101 (part that holds).** A record with one noise variance can be read with indices: parameters, logarithm of the
variance, the five numbers of the likelihood; a larger index is undefined. -/
theorem record_partial {np : ℕ} (r : MCMC.Record np 1) :
    r.size = np + 6 ∧ (∀ i : Fin np, r.get i = .ok (r.input.param i : EReal)) ∧ r.get np = .ok (r.input.logR 0 : EReal) ∧
      (∀ k : Fin 5, r.get (np + 1 + k) = .ok (r.ll k)) ∧ (∀ i, r.size ≤ i → ∃ w, r.get i = .ub w) ∧ r.back = r.ll 4 := by
  refine ⟨rfl, fun i => ?_, ?_, fun k => ?_, fun i hi => ?_, rfl⟩
  · unfold MCMC.Record.get MCMC.Input.size MCMC.Input.get
    rw [if_pos (by omega), dif_pos i.isLt]
    rfl
  · unfold MCMC.Record.get MCMC.Input.size MCMC.Input.get
    rw [if_pos (by omega), dif_neg (lt_irrefl _), if_pos rfl, dif_pos (by omega)]
    show Outcome.ok _ = _
    congr 2
    congr 1
    exact Fin.ext (Nat.sub_self _)
  · unfold MCMC.Record.get MCMC.Input.size
    rw [if_neg (by omega), dif_pos (by omega)]
    congr 2
    exact Fin.ext (by simp)
  · have hi' : np + 6 ≤ i := hi
    unfold MCMC.Record.get MCMC.Input.size
    rw [if_neg (by omega), dif_neg (by omega)]
    exact ⟨_, rfl⟩

/-- **C101 is false of the code** for more than one noise variance: the second cannot be read. -/
theorem not_recordReadable : ¬ RecordReadable := by
  intro h
  obtain ⟨x, hx⟩ := h 1 2 ⟨⟨fun _ => 1, fun _ => 0⟩, fun _ => 0⟩ (by norm_num) 2 (by decide)
  unfold MCMC.Record.get MCMC.Input.size MCMC.Input.get at hx
  rw [if_pos (by norm_num), dif_neg (by norm_num), if_neg (by norm_num)] at hx
  simp [Outcome.bind] at hx

end Slide

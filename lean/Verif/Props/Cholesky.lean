import Verif.Lemmas.Cholesky
import Mathlib.Data.Matrix.Mul
import Mathlib.LinearAlgebra.Matrix.Notation
import Mathlib.Tactic.NormNum

/-!
C42: the rank-one Cholesky update.  C70: the adaptation of the proposal covariance.
-/

namespace Slide
open Finset Matrix

variable {N : ℕ}

/-- Lower triangular with positive diagonal. -/
structure Factor (L : Matrix (Fin N) (Fin N) ℝ) : Prop where
  lower : ∀ i j, i < j → L i j = 0
  diag : ∀ i, 0 < L i i

/-- `A` has a Cholesky factor, i.e. is symmetric and positive definite. -/
def HasFactor (A : Matrix (Fin N) (Fin N) ℝ) : Prop := ∃ L, Factor L ∧ L * Lᵀ = A

/-- The matrix that is added or subtracted. -/
def rankOne (x : Fin N → ℝ) : Matrix (Fin N) (Fin N) ℝ := Matrix.of fun i j => x i * x j

/-- Full statement of C42: for every factor and vector for which the result is positive definite, `cholUpdate` returns
its Cholesky factor. -/
def CholUpdateCorrect (N : ℕ) : Prop :=
  ∀ (L : Matrix (Fin N) (Fin N) ℝ) (x : Fin N → ℝ) (down : Bool), Factor L →
    HasFactor (L * Lᵀ + (if down then (-1 : ℝ) else 1) • rankOne x) →
    ∃ L', cholUpdate L x down = .ok L' ∧ Factor L' ∧
      Matrix.of L' * (Matrix.of L')ᵀ = L * Lᵀ + (if down then (-1 : ℝ) else 1) • rankOne x

/-- C42 (partial): `cholUpdate` is correct for every diagonal factor `d` – the only way the library uses it – and every
vector; for a downdate the result is positive definite exactly if `∑ (xᵢ/dᵢ)² < 1`.  Missing: factors with entries below
the diagonal, for which it is wrong (`not_cholUpdateCorrect`). -/
theorem cholUpdate_diagonal_partial (d x : Fin N → ℝ) (down : Bool) (hd : ∀ i, 0 < d i)
    (hpd : down = true → ∑ i, (x i / d i) ^ 2 < 1) :
    ∃ L', cholUpdate (Matrix.diagonal d) x down = .ok L' ∧ Factor (Matrix.of L') ∧
      Matrix.of L' * (Matrix.of L')ᵀ = Matrix.diagonal d * (Matrix.diagonal d)ᵀ +
        (if down then (-1 : ℝ) else 1) • rankOne x := by
  have h0 : CholInv down d x 0 ((Matrix.diagonal d : Mat N), x) := by
    have := cholInv_zero down d x hpd
    have e : (Matrix.diagonal d : Mat N) = fun i j => if i = j then d j else 0 := by
      funext i j
      by_cases h : i = j
      · subst h; simp
      · simp [h]
    rw [e]; exact this
  obtain ⟨q, hq, h⟩ := cholLoop_diag down d x hd N 0 _ (by omega) h0
  rw [List.drop_zero] at hq
  refine ⟨q.1, ?_, ⟨fun i j hij => h.upper i j j.isLt hij, fun i => h.diag i i.isLt⟩, ?_⟩
  · unfold cholUpdate
    rw [hq]; rfl
  · ext i j
    have hg := h.gram i j
    have hs : (∑ c : Fin N, if c.val < N then q.1 i c * q.1 j c else 0) = ∑ c, q.1 i c * q.1 j c :=
      sum_congr rfl fun c _ => if_pos c.isLt
    rw [hs, if_neg (by omega)] at hg
    have hl : (Matrix.of q.1 * (Matrix.of q.1)ᵀ) i j = ∑ c, q.1 i c * q.1 j c := by
      simp [Matrix.mul_apply]
    rw [hl]
    have hr : (Matrix.diagonal d * (Matrix.diagonal d)ᵀ) i j = if i = j ∧ i.val < N then d i ^ 2 else 0 := by
      rw [Matrix.diagonal_transpose, Matrix.diagonal_mul_diagonal]
      by_cases hij : i = j
      · subst hij; simp [pow_two]
      · simp [hij]
    rw [Matrix.add_apply, hr, Matrix.smul_apply]
    simp only [rankOne, Matrix.of_apply, smul_eq_mul]
    have hσ : sgn down = if down then (-1 : ℝ) else 1 := rfl
    rw [← hσ]
    linarith

/-- The hypotheses are met by a downdate of the 2×2 identity. -/
example : (∀ i : Fin 2, 0 < (![1, 1] : Fin 2 → ℝ) i) ∧
    (true = true → ∑ i : Fin 2, ((![3/5, 1/5] : Fin 2 → ℝ) i / (![1, 1] : Fin 2 → ℝ) i) ^ 2 < 1) := by
  constructor
  · intro i; fin_cases i <;> norm_num
  · intro _; norm_num [Fin.sum_univ_two]

theorem cholCol_other (down : Bool) (p q : Mat N × (Fin N → ℝ)) (k : Fin N) (h : cholCol down p k = .ok q) (i a : Fin N)
    (ha : a ≠ k) : q.1 i a = p.1 i a := by
  unfold cholCol at h
  dsimp only at h
  split_ifs at h <;> cases h
  all_goals
    rw [(foldl_inner down k _ _ (below k) (below_nodup k) _ _).1, if_neg (fun hh => ha hh.1), Mat.set_apply,
      if_neg (fun hh => ha hh.2)]

theorem gram2 (A : Matrix (Fin 2) (Fin 2) ℝ) (i j : Fin 2) : (A * Aᵀ) i j = A i 0 * A j 0 + A i 1 * A j 1 := by
  rw [Matrix.mul_apply, Fin.sum_univ_two]; rfl

/-- C42 is false of the code: for the factor `[[3,0],[1,1]]` and the vector `(4,0)` the off-diagonal entry is not
divided by `c`. -/
theorem not_cholUpdateCorrect : ¬ CholUpdateCorrect 2 := by
  intro h
  have hF : Factor (!![3, 0; 1, 1] : Matrix (Fin 2) (Fin 2) ℝ) := by
    constructor
    · intro i j hij; fin_cases i <;> fin_cases j <;> simp_all
    · intro i; fin_cases i <;> norm_num
  have hpos : HasFactor ((!![3, 0; 1, 1] : Matrix (Fin 2) (Fin 2) ℝ) * (!![3, 0; 1, 1] : Matrix (Fin 2) (Fin 2) ℝ)ᵀ +
      (if false then (-1 : ℝ) else 1) • rankOne ![4, 0]) := by
    obtain ⟨t, ht, hts⟩ : ∃ t : ℝ, 0 < t ∧ t * t = 41/25 :=
      ⟨√(41/25), Real.sqrt_pos.mpr (by norm_num), Real.mul_self_sqrt (by norm_num)⟩
    refine ⟨!![5, 0; 3/5, t], ⟨?_, ?_⟩, ?_⟩
    · intro i j hij; fin_cases i <;> fin_cases j <;> simp_all
    · intro i; fin_cases i
      · norm_num
      · simpa using ht
    · ext i j
      rw [gram2, Matrix.add_apply, gram2, Matrix.smul_apply]
      fin_cases i <;> fin_cases j <;> norm_num [rankOne]
      rw [hts]; norm_num
  obtain ⟨L', h1, hL, h2⟩ := h _ _ false hF hpos
  have h10 := congrFun (congrFun h2 1) 0
  rw [gram2, Matrix.add_apply, gram2, Matrix.smul_apply] at h10
  norm_num [rankOne] at h10
  unfold cholUpdate at h1
  have hl : List.finRange 2 = [0, 1] := rfl
  rw [hl, cholLoop] at h1
  have hr : (√(3 * 3 + 4 * 4) : ℝ) = 5 := by
    rw [show (3 * 3 + 4 * 4 : ℝ) = 5 * 5 by norm_num]; exact Real.sqrt_mul_self (by norm_num)
  have hb : below (0 : Fin 2) = [1] := rfl
  have hc : ∃ q, cholCol false ((!![3, 0; 1, 1] : Matrix (Fin 2) (Fin 2) ℝ), (![4, 0] : Fin 2 → ℝ)) 0 = .ok q ∧
      q.1 0 0 = 5 ∧ q.1 1 0 = 1 := by
    have hr' : (√25 : ℝ) = 5 := by rw [← hr]; norm_num
    unfold cholCol
    norm_num [hr, hb, cholInner, Mat.set_apply]
    exact ⟨(Mat.set_apply (N := 2) _ 0 0 0 0 _).trans (by simpa using hr'),
      (Mat.set_apply (N := 2) _ 0 0 1 0 _).trans (by simp)⟩
  obtain ⟨q, hq, q00, q10⟩ := hc
  rw [hq] at h1
  rcases hq1 : cholCol false q 1 with q' | e | w
  · have h3 : Outcome.ok q'.1 = Outcome.ok L' := by
      rw [← h1]
      show _ = ((cholCol false q 1).bind (cholLoop false [])).bind _
      rw [hq1]; rfl
    cases h3
    have e1 := cholCol_other false q q' 1 hq1 1 0 (by decide)
    have e2 := cholCol_other false q q' 1 hq1 0 0 (by decide)
    have e3 : q'.1 0 1 = 0 := hL.lower 0 1 (by decide)
    rw [e1, e2, e3, q00, q10] at h10
    norm_num at h10
  · have : (Outcome.throw e : Outcome (Mat 2)) = .ok L' := by
      rw [← h1]
      show _ = ((cholCol false q 1).bind (cholLoop false [])).bind _
      rw [hq1]; rfl
    cases this
  · have : (Outcome.ub w : Outcome (Mat 2)) = .ok L' := by
      rw [← h1]
      show _ = ((cholCol false q 1).bind (cholLoop false [])).bind _
      rw [hq1]; rfl
    cases this

/-! ### C70 -/

theorem sqrt_ge_one (n : ℝ) (h : 1 ≤ n) : 1 ≤ √n := by
  rw [show (1:ℝ) = √1 by simp]; exact Real.sqrt_le_sqrt h

/-- C70: for a lower triangular proposal factor `S` with positive diagonal, a non-zero direction `w`, an acceptance
probability `alpha` and an iteration number `n ≥ 1`, `S_update` returns a lower triangular factor with positive diagonal
of `S (I + n^(-1/2) (alpha - 0.234) w wᵀ / |w|²) Sᵀ` – the rule of robust adaptive Metropolis. -/
theorem sUpdate_covariance (S : Matrix (Fin N) (Fin N) ℝ) (w : Fin N → ℝ) (alpha n : ℝ) (hS : Factor S)
    (hw : w ≠ 0) (ha0 : 0 ≤ alpha) (hn : 1 ≤ n) :
    ∃ S', sUpdate S w alpha n = .ok S' ∧ Factor (Matrix.of S') ∧
      Matrix.of S' * (Matrix.of S')ᵀ =
        S * (1 + ((√n)⁻¹ * (alpha - 234/1000) / ∑ i, w i ^ 2) • rankOne w) * Sᵀ := by
  have hnorm : 0 < normSq w := by
    have h0 : 0 ≤ normSq w := sum_nonneg fun i _ => sq_nonneg _
    rcases h0.lt_or_eq with h | h
    · exact h
    · exfalso
      apply hw
      funext i
      have := (sum_eq_zero_iff_of_nonneg (fun i _ => sq_nonneg (w i))).mp h.symm i (mem_univ i)
      simpa using this
  have hsq := sqrt_ge_one n hn
  obtain ⟨m, hm⟩ : ∃ m, m = 1 / √n * (alpha - 234/1000) / normSq w := ⟨_, rfl⟩
  have hroot : √|m| * √|m| = |m| := Real.mul_self_sqrt (abs_nonneg m)
  have hmn : m * normSq w = 1 / √n * (alpha - 234/1000) := by rw [hm]; field_simp
  have hlow : -1 < m * normSq w := by
    rw [hmn]
    have h1 : 0 < 1 / √n := by positivity
    have h2 : 1 / √n ≤ 1 := by rw [div_le_one (by linarith)]; exact hsq
    nlinarith
  have hsum : ∑ i, (w i * √|m|) ^ 2 = |m| * normSq w := by
    unfold normSq
    rw [mul_sum]
    refine sum_congr rfl fun i _ => ?_
    linear_combination (w i ^ 2) * hroot
  obtain ⟨A, hA, hAF, hAeq⟩ := cholUpdate_diagonal_partial (fun _ : Fin N => (1:ℝ)) (fun i => w i * √|m|)
    (decide (m < 0)) (fun _ => one_pos) (by
      intro hd
      have hneg : m < 0 := by simpa using hd
      have : ∑ i, (w i * √|m| / 1) ^ 2 = |m| * normSq w := by simpa using hsum
      rw [this, abs_of_neg hneg]
      linarith)
  have heye : (Matrix.diagonal (fun _ : Fin N => (1:ℝ)) : Mat N) = eye N := by
    funext i j
    by_cases h : i = j
    · subst h; simp [eye]
    · simp [eye, h]
  have hrank : (if decide (m < 0) = true then (-1 : ℝ) else 1) • rankOne (fun i => w i * √|m|) = m • rankOne w := by
    ext i j
    simp only [Matrix.smul_apply, rankOne, Matrix.of_apply, smul_eq_mul, decide_eq_true_eq]
    by_cases hneg : m < 0
    · rw [if_pos hneg]
      have : |m| = -m := abs_of_neg hneg
      rw [this] at hroot
      rw [this]
      linear_combination (- w i * w j) * hroot
    · rw [if_neg hneg]
      have : |m| = m := abs_of_nonneg (not_lt.mp hneg)
      rw [this] at hroot
      rw [this]
      linear_combination (w i * w j) * hroot
  have hone : Matrix.diagonal (fun _ : Fin N => (1:ℝ)) * (Matrix.diagonal (fun _ : Fin N => (1:ℝ)))ᵀ = 1 := by
    rw [Matrix.diagonal_transpose, Matrix.diagonal_mul_diagonal]
    simp
  rw [hrank, hone] at hAeq
  rw [heye] at hA
  have hprod : (fun i j => if j ≤ i then ∑ o ∈ univ.filter (· ≤ i), S i o * A o j else 0) = (S * Matrix.of A : Matrix _ _ _) := by
    funext i j
    rw [Matrix.mul_apply]
    have hcut : ∑ o ∈ univ.filter (· ≤ i), S i o * A o j = ∑ o, S i o * A o j := by
      rw [sum_filter]
      refine sum_congr rfl fun o _ => ?_
      by_cases ho : o ≤ i
      · rw [if_pos ho]
      · rw [if_neg ho, hS.lower i o (not_le.mp ho), zero_mul]
    by_cases hij : j ≤ i
    · rw [if_pos hij, hcut]; rfl
    · rw [if_neg hij]
      symm
      refine sum_eq_zero fun o _ => ?_
      by_cases ho : i < o
      · rw [hS.lower i o ho, zero_mul]
      · have : o < j := lt_of_le_of_lt (not_lt.mp ho) (not_le.mp hij)
        rw [show Matrix.of A o j = 0 from hAF.lower o j this, mul_zero]
  refine ⟨(S * Matrix.of A : Matrix (Fin N) (Fin N) ℝ), ?_, ?_, ?_⟩
  · unfold sUpdate
    rw [if_neg (by linarith), if_neg hnorm.ne']
    dsimp only
    rw [← hm, hA, ← hprod]
    rfl
  · constructor
    · intro i j hij
      show (S * Matrix.of A) i j = 0
      rw [Matrix.mul_apply]
      refine sum_eq_zero fun o _ => ?_
      by_cases ho : i < o
      · rw [hS.lower i o ho, zero_mul]
      · rw [hAF.lower o j (lt_of_le_of_lt (not_lt.mp ho) hij), mul_zero]
    · intro i
      show 0 < (S * Matrix.of A) i i
      rw [Matrix.mul_apply, sum_eq_single i]
      · exact mul_pos (hS.diag i) (hAF.diag i)
      · intro o _ ho
        rcases lt_or_gt_of_ne ho with h | h
        · rw [hAF.lower o i h, mul_zero]
        · rw [hS.lower i o h, zero_mul]
      · simp
  · have hm' : (√n)⁻¹ * (alpha - 234/1000) / ∑ i, w i ^ 2 = m := by rw [hm, one_div]; rfl
    rw [hm', ← hAeq]
    show (S * Matrix.of A) * (S * Matrix.of A)ᵀ = _
    rw [Matrix.transpose_mul]
    simp only [Matrix.mul_assoc]

/-- The hypotheses are met by a two-dimensional proposal. -/
example : Factor (!![2, 0; 1, 3] : Matrix (Fin 2) (Fin 2) ℝ) ∧ (![1, 2] : Fin 2 → ℝ) ≠ 0 := by
  refine ⟨⟨?_, ?_⟩, ?_⟩
  · intro i j hij; fin_cases i <;> fin_cases j <;> simp_all
  · intro i; fin_cases i <;> norm_num
  · intro h
    have := congrFun h 0
    norm_num at this

end Slide

import Verif.Model.Cholesky
import Verif.Tac
import Mathlib.Tactic.LinearCombination
import Mathlib.Tactic.FieldSimp
import Mathlib.Algebra.BigOperators.Field

/-!
Helper lemmas for the rank-one Cholesky update.
-/

namespace Slide
open Finset

variable {N : ℕ}

/-- +1 for an update, -1 for a downdate. -/
def sgn (down : Bool) : ℝ := if down then -1 else 1

theorem sgn_sq (down : Bool) : sgn down * sgn down = 1 := by cases down <;> norm_num [sgn]

/-- New entry below the diagonal. -/
noncomputable def newL (down : Bool) (s c l x : ℝ) : ℝ := l + sgn down * (s * x / c)

theorem Mat.set_apply (A : Mat N) (i j a b : Fin N) (v : ℝ) :
    (A.set i j v) a b = if a = i ∧ b = j then v else A a b := by
  unfold Mat.set
  by_cases h : a = i
  · subst h
    by_cases h2 : b = j
    · subst h2; simp
    · simp [h2]
  · simp [h]

theorem foldl_inner (down : Bool) (k : Fin N) (s c : ℝ) (l : List (Fin N)) (hl : l.Nodup) (L : Mat N) (x : Fin N → ℝ) :
    (∀ i a, (l.foldl (cholInner down k s c) (L, x)).1 i a =
      if a = k ∧ i ∈ l then newL down s c (L i k) (x i) else L i a) ∧
    (∀ i, (l.foldl (cholInner down k s c) (L, x)).2 i =
      if i ∈ l then c * x i - s * newL down s c (L i k) (x i) else x i) := by
  induction l generalizing L x with
  | nil => simp
  | cons j l ih =>
    have hj : j ∉ l := (List.nodup_cons.mp hl).1
    have hnew : (if down then L j k - s * x j / c else L j k + s * x j / c) = newL down s c (L j k) (x j) := by
      cases down <;> (simp [newL, sgn]; try ring)
    have hin : cholInner down k s c (L, x) j = (L.set j k (newL down s c (L j k) (x j)),
        Function.update x j (c * x j - s * newL down s c (L j k) (x j))) := by
      unfold cholInner
      dsimp only
      rw [hnew, Mat.set_apply, if_pos ⟨rfl, rfl⟩]
    obtain ⟨h1, h2⟩ := ih (List.nodup_cons.mp hl).2 (L.set j k (newL down s c (L j k) (x j)))
      (Function.update x j (c * x j - s * newL down s c (L j k) (x j)))
    rw [List.foldl_cons, hin]
    constructor
    · intro i a
      rw [h1]
      by_cases hi : i = j
      · subst hi
        rw [if_neg (by tauto), Mat.set_apply]
        by_cases ha : a = k
        · subst ha; simp
        · simp [ha]
      · simp only [Mat.set_apply, hi, false_and, if_false, List.mem_cons, false_or, Function.update_of_ne (Ne.intro hi)]
    · intro i
      rw [h2]
      by_cases hi : i = j
      · subst hi
        rw [if_neg hj]
        simp
      · simp [Mat.set_apply, hi]

theorem mem_below (k j : Fin N) : j ∈ below k ↔ k < j := by
  unfold below
  simp

theorem below_nodup (k : Fin N) : (below k).Nodup := (List.nodup_finRange N).filter _

/-- What holds after `k` columns, for a matrix that was the diagonal `d`. -/
structure CholInv (down : Bool) (d x0 : Fin N → ℝ) (k : ℕ) (p : Mat N × (Fin N → ℝ)) : Prop where
  later : ∀ i c : Fin N, k ≤ c.val → p.1 i c = if i = c then d c else 0
  upper : ∀ i c : Fin N, c.val < k → i < c → p.1 i c = 0
  diag : ∀ c : Fin N, c.val < k → 0 < p.1 c c
  gram : ∀ i j : Fin N, (∑ c, if c.val < k then p.1 i c * p.1 j c else 0) +
      sgn down * (if k ≤ i.val ∧ k ≤ j.val then p.2 i * p.2 j else 0) =
      (if i = j ∧ i.val < k then d i ^ 2 else 0) + sgn down * (x0 i * x0 j)
  pd : down = true → (∑ j, if k ≤ j.val then (p.2 j / d j) ^ 2 else 0) < 1

theorem cholInv_zero (down : Bool) (d x0 : Fin N → ℝ) (h : down = true → (∑ j, (x0 j / d j) ^ 2) < 1) :
    CholInv down d x0 0 (fun i j => if i = j then d j else 0, x0) where
  later i c _ := rfl
  upper i c h := by omega
  diag c h := by omega
  gram i j := by simp
  pd hd := by simpa using h hd

theorem sum_split (k : Fin N) (f : Fin N → ℝ) :
    (∑ c, if c.val < k.val + 1 then f c else 0) = (∑ c, if c.val < k.val then f c else 0) + f k := by
  have : f k = ∑ c, if c = k then f c else 0 := by simp
  rw [this, ← sum_add_distrib]
  refine sum_congr rfl fun c _ => ?_
  by_cases h : c = k
  · subst h; simp
  · have : c.val ≠ k.val := fun he => h (Fin.ext he)
    by_cases h2 : c.val < k.val
    · rw [if_pos (by omega), if_pos h2, if_neg h]; ring
    · rw [if_neg (by omega), if_neg h2, if_neg h]; ring

theorem sum_split_ge (k : Fin N) (f : Fin N → ℝ) :
    (∑ c, if k.val ≤ c.val then f c else 0) = f k + ∑ c, if k.val + 1 ≤ c.val then f c else 0 := by
  have : f k = ∑ c, if c = k then f c else 0 := by simp
  rw [this, ← sum_add_distrib]
  refine sum_congr rfl fun c _ => ?_
  by_cases h : c = k
  · subst h; simp
  · have : c.val ≠ k.val := fun he => h (Fin.ext he)
    by_cases h2 : k.val ≤ c.val
    · rw [if_pos h2, if_neg h, if_pos (by omega)]; ring
    · rw [if_neg h2, if_neg h, if_neg (by omega)]; ring

theorem cholCol_diag (down : Bool) (d x0 : Fin N → ℝ) (hd : ∀ i, 0 < d i) (k : Fin N) (p : Mat N × (Fin N → ℝ))
    (h : CholInv down d x0 k.val p) : ∃ q, cholCol down p k = .ok q ∧ CholInv down d x0 (k.val + 1) q := by
  obtain ⟨L, x⟩ := p
  have hLk : L k k = d k := by have := h.later k k le_rfl; simpa using this
  have hdk := hd k
  have hss : down = true → (x k / d k) ^ 2 < 1 := by
    intro hdn
    have h1 := h.pd hdn
    rw [sum_split_ge] at h1
    have h2 : 0 ≤ ∑ c : Fin N, if k.val + 1 ≤ c.val then (x c / d c) ^ 2 else 0 :=
      sum_nonneg fun c _ => by split_ifs <;> positivity
    dsimp only at h1
    linarith
  -- the pivot
  have hpos : 0 < d k * d k + sgn down * (x k * x k) := by
    cases hdn : down with
    | false => simp only [sgn]; norm_num; nlinarith [mul_self_nonneg (x k)]
    | true =>
      have h1 := hss hdn
      rw [div_pow, div_lt_one (by positivity)] at h1
      simp only [sgn, if_true]
      nlinarith
  have hr : (if down then √(d k * d k - x k * x k) else √(d k * d k + x k * x k)) =
      √(d k * d k + sgn down * (x k * x k)) := by
    cases down <;> simp [sgn, sub_eq_add_neg]
  obtain ⟨r, hrdef⟩ : ∃ r, r = √(d k * d k + sgn down * (x k * x k)) := ⟨_, rfl⟩
  have hrpos : 0 < r := by rw [hrdef]; exact Real.sqrt_pos.mpr hpos
  have hrsq : r * r = d k * d k + sgn down * (x k * x k) := by rw [hrdef]; exact Real.mul_self_sqrt hpos.le
  obtain ⟨s, hsdef⟩ : ∃ s, s = x k / d k := ⟨_, rfl⟩
  obtain ⟨c, hcdef⟩ : ∃ c, c = r / d k := ⟨_, rfl⟩
  have hcpos : 0 < c := by rw [hcdef]; positivity
  have hsd : s * d k = x k := by rw [hsdef]; field_simp
  have hcd : c * d k = r := by rw [hcdef]; field_simp
  have hcsq : c * c = 1 + sgn down * (s * s) := by
    have : (c * c - (1 + sgn down * (s * s))) * (d k * d k) = 0 := by
      have e1 : c * c * (d k * d k) = r * r := by rw [← hcd]; ring
      have e2 : s * s * (d k * d k) = x k * x k := by rw [← hsd]; ring
      linear_combination e1 + hrsq - sgn down * e2
    have hne : d k * d k ≠ 0 := by positivity
    have := (mul_eq_zero.mp this).resolve_right hne
    linarith
  obtain ⟨f1, f2⟩ := foldl_inner down k s c (below k) (below_nodup k) (Mat.set L k k r) x
  refine ⟨(below k).foldl (cholInner down k s c) (Mat.set L k k r, x), ?_, ?_⟩
  · unfold cholCol
    dsimp only
    rw [hLk, if_neg hdk.ne', if_neg, hr, ← hrdef, ← hsdef, ← hcdef, if_neg]
    · rintro ⟨h0, _⟩; exact hcpos.ne' h0
    · rintro ⟨hdn, hneg⟩
      simp only [sgn, hdn, if_true] at hpos
      linarith
  · -- entries
    have hcol : ∀ i, k < i → ((below k).foldl (cholInner down k s c) (Mat.set L k k r, x)).1 i k = sgn down * (s * x i / c) := by
      intro i hi
      rw [f1, if_pos ⟨rfl, (mem_below k i).mpr hi⟩, Mat.set_apply, if_neg (fun hh => absurd hh.1 hi.ne')]
      have := h.later i k le_rfl
      dsimp only at this
      rw [this, if_neg hi.ne']
      simp [newL]
    have hkk : ((below k).foldl (cholInner down k s c) (Mat.set L k k r, x)).1 k k = r := by
      rw [f1, if_neg (fun hh => absurd ((mem_below k k).mp hh.2) (lt_irrefl _)), Mat.set_apply, if_pos ⟨rfl, rfl⟩]
    have hup : ∀ i, i < k → ((below k).foldl (cholInner down k s c) (Mat.set L k k r, x)).1 i k = 0 := by
      intro i hi
      rw [f1, if_neg (fun hh => absurd ((mem_below k i).mp hh.2) (lt_asymm hi)), Mat.set_apply,
        if_neg (fun hh => absurd hh.1 hi.ne)]
      have := h.later i k le_rfl
      dsimp only at this
      rw [this, if_neg hi.ne]
    have hother : ∀ i a, a ≠ k → ((below k).foldl (cholInner down k s c) (Mat.set L k k r, x)).1 i a = L i a := by
      intro i a ha
      rw [f1, if_neg (fun hh => ha hh.1), Mat.set_apply, if_neg (fun hh => ha hh.2)]
    have hx : ∀ i, k < i → ((below k).foldl (cholInner down k s c) (Mat.set L k k r, x)).2 i = x i / c := by
      intro i hi
      rw [f2, if_pos ((mem_below k i).mpr hi), Mat.set_apply, if_neg (fun hh => absurd hh.1 hi.ne')]
      have := h.later i k le_rfl
      dsimp only at this
      rw [this, if_neg hi.ne']
      unfold newL
      field_simp
      linear_combination (x i) * hcsq
    generalize hq : (below k).foldl (cholInner down k s c) (Mat.set L k k r, x) = q at *
    obtain ⟨L', x'⟩ := q
    dsimp only at hcol hkk hup hother hx
    refine ⟨?_, ?_, ?_, ?_, ?_⟩
    · intro i a ha
      have hak : a ≠ k := fun e => by subst e; omega
      dsimp only
      rw [hother i a hak]
      exact h.later i a (by omega)
    · intro i a ha hia
      by_cases hak : a = k
      · subst hak; exact hup i hia
      · dsimp only
        rw [hother i a hak]
        exact h.upper i a (by have : a.val ≠ k.val := fun e => hak (Fin.ext e); omega) hia
    · intro a ha
      by_cases hak : a = k
      · subst hak; dsimp only; rw [hkk]; exact hrpos
      · dsimp only
        rw [hother a a hak]
        exact h.diag a (by have : a.val ≠ k.val := fun e => hak (Fin.ext e); omega)
    · intro i j
      have hg := h.gram i j
      dsimp only at hg ⊢
      rw [sum_split k (fun c => L' i c * L' j c)]
      have hsum : (∑ c : Fin N, if c.val < k.val then L' i c * L' j c else 0) =
          ∑ c : Fin N, if c.val < k.val then L i c * L j c else 0 := by
        refine sum_congr rfl fun a _ => ?_
        by_cases ha : a.val < k.val
        · have hak : a ≠ k := fun e => by subst e; omega
          rw [if_pos ha, if_pos ha, hother i a hak, hother j a hak]
        · rw [if_neg ha, if_neg ha]
      rw [hsum]
      rcases lt_trichotomy i k with hi | hi | hi
      · have hi' : i.val < k.val := hi
        rw [hup i hi, if_neg (by omega)]
        rw [if_neg (by omega)] at hg
        have : (i = j ∧ i.val < k.val + 1) ↔ (i = j ∧ i.val < k.val) := by omega
        rw [if_congr this rfl rfl]
        linear_combination hg
      · subst hi
        rcases lt_trichotomy j i with hj | hj | hj
        · have hj' : j.val < i.val := hj
          rw [hup j hj, if_neg (by omega), if_neg (fun e => by rw [e.1] at hj; exact lt_irrefl _ hj)]
          rw [if_neg (by omega), if_neg (by omega)] at hg
          linear_combination hg
        · subst hj
          rw [hkk, if_neg (by omega), if_pos ⟨rfl, by omega⟩]
          rw [if_pos ⟨le_rfl, le_rfl⟩, if_neg (by omega)] at hg
          linear_combination hg + hrsq
        · have hj' : i.val < j.val := hj
          rw [hkk, hcol j hj, if_neg (by omega), if_neg (fun e => by rw [← e.1] at hj; exact lt_irrefl _ hj)]
          rw [if_pos ⟨le_rfl, hj'.le⟩, if_neg (by omega)] at hg
          have e : r * (sgn down * (s * x j / c)) = sgn down * (x i * x j) := by
            rw [← hcd, ← hsd]; field_simp
          linear_combination hg + e
      · have hi' : k.val < i.val := hi
        rcases lt_trichotomy j k with hj | hj | hj
        · have hj' : j.val < k.val := hj
          rw [hup j hj, if_neg (by omega), if_neg (fun e => by rw [e.1] at hi; exact lt_asymm hi hj)]
          rw [if_neg (by omega), if_neg (by omega)] at hg
          linear_combination hg
        · subst hj
          rw [hkk, hcol i hi, if_neg (by omega), if_neg (fun e => by rw [e.1] at hi; exact lt_irrefl _ hi)]
          rw [if_pos ⟨hi'.le, le_rfl⟩, if_neg (by omega)] at hg
          have e : (sgn down * (s * x i / c)) * r = sgn down * (x i * x j) := by
            rw [← hcd, ← hsd]; field_simp
          linear_combination hg + e
        · have hj' : k.val < j.val := hj
          rw [hcol i hi, hcol j hj, hx i hi, hx j hj, if_pos ⟨by omega, by omega⟩, if_neg (by omega)]
          rw [if_pos ⟨hi'.le, hj'.le⟩, if_neg (by omega)] at hg
          have e : sgn down * (s * x i / c) * (sgn down * (s * x j / c)) + sgn down * (x i / c * (x j / c)) =
              sgn down * (x i * x j) := by
            field_simp
            linear_combination - (sgn down * x i * x j) * hcsq
          linear_combination hg + e
    · intro hdn
      have h1 := h.pd hdn
      rw [sum_split_ge] at h1
      dsimp only at h1 ⊢
      have e : (∑ j : Fin N, if k.val + 1 ≤ j.val then (x' j / d j) ^ 2 else 0) =
          (∑ j : Fin N, if k.val + 1 ≤ j.val then (x j / d j) ^ 2 else 0) / (c * c) := by
        rw [sum_div]
        refine sum_congr rfl fun j _ => ?_
        by_cases hj : k.val + 1 ≤ j.val
        · rw [if_pos hj, if_pos hj, hx j (by show k.val < j.val; omega)]
          have := (hd j).ne'
          field_simp
        · rw [if_neg hj, if_neg hj]; simp
      rw [e, div_lt_one (by positivity), hcsq]
      simp only [sgn, hdn, if_true]
      have : (x k / d k) ^ 2 = s * s := by rw [hsdef]; ring
      linarith

theorem cholLoop_diag (down : Bool) (d x0 : Fin N → ℝ) (hd : ∀ i, 0 < d i) (m : ℕ) :
    ∀ (k : ℕ) (p : Mat N × (Fin N → ℝ)), N = k + m → CholInv down d x0 k p →
      ∃ q, cholLoop down ((List.finRange N).drop k) p = .ok q ∧ CholInv down d x0 N q := by
  induction m with
  | zero =>
    intro k p hk h
    have : (List.finRange N).drop k = [] := List.drop_eq_nil_of_le (by simp; omega)
    rw [this]
    have hN : N = k := by omega
    subst hN
    exact ⟨p, rfl, h⟩
  | succ m ih =>
    intro k p hk h
    have hlt : k < (List.finRange N).length := by simp; omega
    rw [List.drop_eq_getElem_cons hlt, cholLoop]
    have hget : (List.finRange N)[k] = (⟨k, by omega⟩ : Fin N) := by simp
    rw [hget]
    obtain ⟨q, hq1, hq2⟩ := cholCol_diag down d x0 hd ⟨k, by omega⟩ p h
    rw [hq1]
    exact ih (k + 1) q (by omega) hq2

end Slide

import Verif.Lemmas.Interp
import Mathlib.Tactic.NormNum
import Mathlib.Tactic.IntervalCases

/-!
Properties C17 (linear interpolation) and C18 (equidistant shortcut).
-/

namespace Slide
open Interp

/-! ### C17 -/

/-- C17: for every strictly increasing table and every in-range point the search-based interpolation has
defined behaviour (no out-of-bounds access, no exception), whatever the `bound` flag, and returns the value
of the polygon through the table points. -/
theorem linInt_search_onPolygon (bound : Bool) (xs ys : List ℚ) (x : ℚ) (hlen : xs.length = ys.length)
    (hn : 0 < xs.length) (hs : xs.Pairwise (· < ·)) (hlo : xs[0] ≤ x) (hhi : x ≤ xs[xs.length - 1]) :
    ∃ y, linInt bound xs ys false x = .ok y ∧ Spec.OnPolygon xs ys x y := by
  by_cases h0 : x = xs[0]
  · refine ⟨ys[0], ?_, Or.inl ⟨0, hn, by omega, h0, rfl⟩⟩
    unfold linInt linIntNoexcept
    rw [if_neg (by omega), readAt_of_lt hn, readAt_of_lt (show xs.length - 1 < xs.length by omega)]
    simp only [Outcome.ok_bind]
    rw [if_neg (by rintro ⟨_, h⟩; linarith), if_neg (by rintro ⟨_, h⟩; linarith), if_pos (by linarith),
      readAt_of_lt (show 0 < ys.length by omega)]
    simp
  · have hlo' : xs[0] < x := lt_of_le_of_ne hlo (Ne.symm h0)
    by_cases h1 : x = xs[xs.length - 1]
    · refine ⟨ys[xs.length - 1], ?_, Or.inl ⟨xs.length - 1, by omega, by omega, h1, rfl⟩⟩
      unfold linInt linIntNoexcept
      rw [if_neg (by omega), readAt_of_lt hn, readAt_of_lt (show xs.length - 1 < xs.length by omega)]
      simp only [Outcome.ok_bind]
      rw [if_neg (by rintro ⟨_, h⟩; linarith), if_neg (by rintro ⟨_, h⟩; linarith), if_neg (by linarith),
        if_pos (by linarith), readAt_of_lt (show xs.length - 1 < ys.length by omega)]
      simp
    · have hhi' : x < xs[xs.length - 1] := lt_of_le_of_ne hhi h1
      obtain ⟨r, hr, hr0, hlt, ha, hb⟩ := rightIndex_search xs x hs hn hlo' hhi'
      have hne : xs[r-1] < xs[r] := lt_of_lt_of_le ha hb
      refine ⟨_, linInt_inside bound false xs ys x r hlen hn hlo' hhi' hr hr0 hlt hne, ?_⟩
      have hd : xs[r] - xs[r-1] ≠ 0 := by intro h; linarith
      rcases eq_or_lt_of_le hb with hb | hb
      · refine Or.inl ⟨r, hlt, by omega, hb, ?_⟩
        subst hb
        field_simp
        ring
      · have hr1 : r - 1 + 1 = r := by omega
        refine Or.inr ⟨r - 1, by omega, by omega, ha, by simpa [hr1] using hb, ?_⟩
        simp only [hr1]
        field_simp
        ring

/-- C17: the polygon value is unique, so the result is completely determined by the table. -/
theorem onPolygon_unique (xs ys : List ℚ) (hs : xs.Pairwise (· < ·)) {x y z : ℚ}
    (hy : Spec.OnPolygon xs ys x y) (hz : Spec.OnPolygon xs ys x z) : y = z := by
  have inj : ∀ i j (hi : i < xs.length) (hj : j < xs.length), xs[i] = xs[j] → i = j := by
    intro i j hi hj h
    rcases lt_trichotomy i j with h' | h' | h'
    · have := lt_of_pairwise hs h' hj; linarith
    · exact h'
    · have := lt_of_pairwise hs h' hi; linarith
  have gap : ∀ i j (hi : i + 1 < xs.length) (hj : j < xs.length), ¬ (xs[i] < xs[j] ∧ xs[j] < xs[i+1]) := by
    rintro i j hi hj ⟨h1, h2⟩
    rcases Nat.lt_or_ge i j with h | h
    · rcases Nat.lt_or_ge (i+1) j with h' | h'
      · have := lt_of_pairwise hs h' hj; linarith
      · have : j = i + 1 := by omega
        subst this; linarith
    · rcases Nat.lt_or_ge j i with h' | h'
      · have := lt_of_pairwise hs h' (by omega : i < xs.length); linarith
      · have : j = i := by omega
        subst this; linarith
  rcases hy with ⟨i, hi, hi', hx, rfl⟩ | ⟨i, hi, hi', ha, hb, he⟩ <;>
    rcases hz with ⟨j, hj, hj', hx2, rfl⟩ | ⟨j, hj, hj', hc, hd, hf⟩
  · have := inj i j hi hj (hx ▸ hx2)
    subst this; rfl
  · subst hx; exact absurd ⟨hc, hd⟩ (gap j i hj hi)
  · subst hx2; exact absurd ⟨ha, hb⟩ (gap i j hi hj)
  · have hij : i = j := by
      rcases lt_trichotomy i j with h | h | h
      · have : xs[i+1] ≤ xs[j] := by
          rcases Nat.lt_or_ge (i+1) j with h' | h'
          · exact (lt_of_pairwise hs h' (by omega)).le
          · have : j = i + 1 := by omega
            subst this; exact le_refl _
        linarith
      · exact h
      · have : xs[j+1] ≤ xs[i] := by
          rcases Nat.lt_or_ge (j+1) i with h' | h'
          · exact (lt_of_pairwise hs h' (by omega)).le
          · have : i = j + 1 := by omega
            subst this; exact le_refl _
        linarith
    subst hij
    have hpos : xs[i+1] - xs[i] ≠ 0 := by intro h; linarith
    have : (y - ys[i]) * (xs[i+1] - xs[i]) = (z - ys[i]) * (xs[i+1] - xs[i]) := by rw [he, hf]
    have := mul_right_cancel₀ hpos this
    linarith

/-- C17: the value lies between the smallest and the largest neighbouring table value. -/
theorem onPolygon_between (xs ys : List ℚ) {x y : ℚ} (h : Spec.OnPolygon xs ys x y) :
    ∃ a ∈ ys, ∃ b ∈ ys, min a b ≤ y ∧ y ≤ max a b := by
  rcases h with ⟨i, hi, hi', rfl, rfl⟩ | ⟨i, hi, hi', ha, hb, he⟩
  · exact ⟨ys[i], List.getElem_mem _, ys[i], List.getElem_mem _, by simp, by simp⟩
  · refine ⟨ys[i], List.getElem_mem _, ys[i+1], List.getElem_mem _, ?_, ?_⟩
    · have hw : 0 < xs[i+1] - xs[i] := by linarith
      rcases le_total ys[i] ys[i+1] with h | h
      · rw [min_eq_left h]
        by_contra hc
        push Not at hc
        nlinarith [mul_nonneg (sub_nonneg.mpr h) (sub_nonneg.mpr ha.le)]
      · rw [min_eq_right h]
        by_contra hc
        push Not at hc
        nlinarith [mul_nonneg (sub_nonneg.mpr h) (sub_nonneg.mpr hb.le)]
    · have hw : 0 < xs[i+1] - xs[i] := by linarith
      rcases le_total ys[i] ys[i+1] with h | h
      · rw [max_eq_right h]
        by_contra hc
        push Not at hc
        nlinarith [mul_nonneg (sub_nonneg.mpr h) (sub_nonneg.mpr hb.le)]
      · rw [max_eq_left h]
        by_contra hc
        push Not at hc
        nlinarith [mul_nonneg (sub_nonneg.mpr h) (sub_nonneg.mpr ha.le)]

/-- C17: with the bound flag, a point outside the table is always reported (exception 1; value 0 and
side in the non-throwing variant), for fixed and searched tables alike. -/
theorem linInt_outside (xs ys : List ℚ) (fixed : Bool) (x : ℚ) (hn : 0 < xs.length)
    (hs : xs[0] ≤ xs[xs.length - 1]) :
    (x < xs[0] → linInt true xs ys fixed x = .throw 1 ∧ linIntNoexcept true xs ys fixed x = .ok (0, -1)) ∧
    (xs[xs.length - 1] < x →
      linInt true xs ys fixed x = .throw 1 ∧ linIntNoexcept true xs ys fixed x = .ok (0, 1)) := by
  have key : ∀ b, b = linIntNoexcept true xs ys fixed x → (x < xs[0] → b = .ok (0, -1)) ∧
      (xs[xs.length - 1] < x → b = .ok (0, 1)) := by
    rintro b rfl
    unfold linIntNoexcept
    rw [if_neg (by omega), readAt_of_lt hn, readAt_of_lt (show xs.length - 1 < xs.length by omega)]
    simp only [Outcome.ok_bind]
    constructor
    · intro h; rw [if_pos ⟨trivial, h⟩]; rfl
    · intro h; rw [if_neg (by rintro ⟨_, h'⟩; linarith), if_pos ⟨trivial, h⟩]; rfl
  obtain ⟨k1, k2⟩ := key _ rfl
  constructor
  · intro h; refine ⟨?_, k1 h⟩; unfold linInt; rw [k1 h]; simp
  · intro h; refine ⟨?_, k2 h⟩; unfold linInt; rw [k2 h]; simp

/-- C17: without the bound flag the end values are returned outside the range. -/
theorem linInt_unbounded_clamps (xs ys : List ℚ) (fixed : Bool) (x : ℚ) (hn : 0 < xs.length)
    (hlen : xs.length = ys.length) :
    (x ≤ xs[0] → linInt false xs ys fixed x = .ok ys[0]) ∧
    (xs[0] < x → xs[xs.length - 1] ≤ x → linInt false xs ys fixed x = .ok ys[xs.length - 1]) := by
  unfold linInt linIntNoexcept
  rw [if_neg (by omega), readAt_of_lt hn, readAt_of_lt (show xs.length - 1 < xs.length by omega)]
  simp only [Outcome.ok_bind]
  rw [if_neg (by simp), if_neg (by simp)]
  constructor
  · intro h; rw [if_pos h, readAt_of_lt (show 0 < ys.length by omega)]; simp
  · intro h0 h; rw [if_neg (by linarith), if_pos h, readAt_of_lt (show xs.length - 1 < ys.length by omega)]
    simp

/-- The hypotheses of C17 are met by a non-uniform three point table. -/
example : ([0, 1, 5] : List ℚ).Pairwise (· < ·) ∧ ([0, 1, 5] : List ℚ).length = ([2, 7, 3] : List ℚ).length := by
  norm_num

example : linInt true [0, 1, 5] [2, 7, 3] false 3 = .ok 5 := by
  have := linInt_inside true false [0, 1, 5] [2, 7, 3] 3 2 rfl (by norm_num) (by norm_num) (by norm_num)
    (by rw [rightIndex, if_neg (by simp)]; simp [lowerBound, readAt]; norm_num)
    (by norm_num) (by norm_num) (by norm_num)
  rw [this]; norm_num

/-! ### C18 -/

/-- Full statement of C18: on every table that the library's own test calls equidistant, the
shortcut gives the same outcome as the binary search. -/
def FixedShortcutCorrect : Prop :=
  ∀ (xs ys : List ℚ) (x : ℚ), xs.length = ys.length → xs.Pairwise (· < ·) →
    checkIsFixed xs = .ok true → linInt true xs ys true x = linInt true xs ys false x

/-- C18 is false, and badly so: the table `0, 1, 2.01` is accepted as equidistant, but looking up 2.005 –
inside the table – reads beyond its end. -/
theorem fixed_shortcut_out_of_bounds :
    checkIsFixed [0, 1, 201/100] = .ok true ∧
    linInt true [0, 1, 201/100] [0, 1, 2] true (2005/1000) = .ub "out-of-bounds read" := by
  constructor
  · simp [checkIsFixed, fixedLoop, readAt]; norm_num [abs_le]
  · have hfl : ⌊(2005/1000 : ℚ)⌋ = 2 := by rw [Int.floor_eq_iff]; norm_num
    simp [linInt, linIntNoexcept, rightIndex, readAt, hfl]
    norm_num [hfl]

theorem fixed_shortcut_incorrect : ¬ FixedShortcutCorrect := by
  intro h
  have hs : ([0, 1, 201/100] : List ℚ).Pairwise (· < ·) := by norm_num
  have h1 := h [0, 1, 201/100] [0, 1, 2] (2005/1000) rfl hs
    fixed_shortcut_out_of_bounds.1
  rw [fixed_shortcut_out_of_bounds.2] at h1
  obtain ⟨y, hy, _⟩ := linInt_search_onPolygon true [0, 1, 201/100] [0, 1, 2] (2005/1000) rfl
    (by norm_num) hs (by norm_num) (by norm_num)
  rw [hy] at h1
  cases h1

/-- Even where the access stays inside the table the value can be wrong: on `0, 1, 1.99, 3` (accepted)
with values `0,0,0,1` the lookup of 1.995 gives 0 instead of a positive value. -/
theorem fixed_shortcut_wrong_value :
    checkIsFixed [0, 1, 199/100, 3] = .ok true ∧
    linInt true [0, 1, 199/100, 3] [0, 0, 0, 1] true (1995/1000) = .ok 0 ∧
    ¬ Spec.OnPolygon [0, 1, 199/100, 3] [0, 0, 0, 1] (1995/1000) 0 := by
  refine ⟨?_, ?_, ?_⟩
  · simp [checkIsFixed, fixedLoop, readAt]; norm_num [abs_le]
  · have hfl : ⌊(1995/1000 : ℚ)⌋ = 1 := by rw [Int.floor_eq_iff]; norm_num
    simp [linInt, linIntNoexcept, rightIndex, readAt, hfl]
    norm_num [hfl]
  · rintro (⟨i, hi, hi', h1, h2⟩ | ⟨i, hi, hi', h1, h2, h3⟩)
    · simp at hi
      interval_cases i <;> norm_num at h1
    · simp at hi
      have : i < 3 := by omega
      interval_cases i <;>
        first
        | (exfalso; norm_num at h1; done)
        | (exfalso; norm_num at h2; done)
        | (exfalso; norm_num at h3)

/-- C18, part that holds: for *exactly* equidistant tables of any length ≥ 2 the shortcut is correct – same
result as the search for every query point. -/
theorem fixed_shortcut_correct_partial (bound : Bool) (xs ys : List ℚ) (x x0 dt : ℚ)
    (hlen : xs.length = ys.length) (hn : 2 ≤ xs.length) (hdt : 0 < dt) (he : Spec.Equidistant xs x0 dt) :
    checkIsFixed xs = .ok true ∧
    linInt bound xs ys true x = linInt bound xs ys false x := by
  have e0 : xs[0] = x0 := by simpa using he 0 (by omega)
  have e1 : xs[1] = x0 + dt := by simpa using he 1 (by omega)
  have hs : xs.Pairwise (· < ·) := by
    rw [List.pairwise_iff_getElem]
    intro i j hi hj hij
    rw [he i hi, he j hj]
    have : (i : ℚ) < j := by exact_mod_cast hij
    nlinarith
  constructor
  · unfold checkIsFixed
    rw [readAt_of_lt (show 1 < xs.length by omega), readAt_of_lt (show 0 < xs.length by omega)]
    simp only [Outcome.ok_bind, e0, e1, add_sub_cancel_left]
    have : ∀ fuel i, i + fuel + 1 ≤ xs.length → fixedLoop xs dt (dt/100) i fuel = .ok true := by
      intro fuel
      induction fuel with
      | zero => intro i _; rfl
      | succ f ih =>
        intro i hi
        unfold fixedLoop
        rw [readAt_of_lt (show i + 1 < xs.length by omega), readAt_of_lt (show i < xs.length by omega)]
        simp only [Outcome.ok_bind]
        rw [he (i+1) (by omega), he i (by omega)]
        have : x0 + ((i + 1 : ℕ) : ℚ) * dt - (x0 + i * dt) - dt = 0 := by push_cast; ring
        rw [this, abs_zero, if_neg (by linarith)]
        exact ih (i+1) (by omega)
    exact this _ _ (by omega)
  · by_cases hin : xs[0] < x ∧ x < xs[xs.length - 1]
    · obtain ⟨hlo, hhi⟩ := hin
      obtain ⟨r, hr, hr0, hlt, ha, hb⟩ := rightIndex_search xs x hs (by omega) hlo hhi
      obtain ⟨k, hk, hk0, hklt, hc, hd⟩ := rightIndex_fixed xs x x0 dt he hdt hn hlo hhi
      rw [linInt_inside bound false xs ys x r hlen (by omega) hlo hhi hr hr0 hlt (lt_of_lt_of_le ha hb),
        linInt_inside bound true xs ys x k hlen (by omega) hlo hhi hk hk0 hklt (lt_of_le_of_lt hc hd)]
      rcases eq_or_lt_of_le hb with hb' | hb'
      · -- knot: k = r + 1
        have hkr : k = r + 1 := by
          by_contra hne
          rcases Nat.lt_or_ge k (r+1) with h | h
          · have : xs[k] ≤ xs[r] := by
              rcases Nat.lt_or_ge k r with h' | h'
              · exact (lt_of_pairwise hs h' hlt).le
              · have : k = r := by omega
                subst this; exact le_refl _
            linarith
          · have : xs[r] < xs[k-1] := lt_of_pairwise hs (by omega) (by omega)
            linarith
        subst hkr
        have h1 : xs[r] - xs[r-1] ≠ 0 := by intro h; linarith
        simp only [Nat.add_sub_cancel]
        subst hb'
        congr 1
        field_simp
        ring
      · have hkr : k = r := by
          rcases lt_trichotomy k r with h | h | h
          · have : xs[k] ≤ xs[r-1] := by
              rcases Nat.lt_or_ge k (r-1) with h' | h'
              · exact (lt_of_pairwise hs h' (by omega)).le
              · have : k = r - 1 := by omega
                subst this; exact le_refl _
            linarith
          · exact h
          · have : xs[r] ≤ xs[k-1] := by
              rcases Nat.lt_or_ge r (k-1) with h' | h'
              · exact (lt_of_pairwise hs h' (by omega)).le
              · have : k - 1 = r := by omega
                simp [this]
            linarith
        subst hkr
        rfl
    · unfold linInt linIntNoexcept
      have hne : ¬ xs.length = 0 := by omega
      simp only [if_neg hne, readAt_of_lt (show 0 < xs.length by omega),
        readAt_of_lt (show xs.length - 1 < xs.length by omega), Outcome.ok_bind]
      by_cases c1 : x ≤ xs[0]
      · simp [c1]
      · have c2 : x ≥ xs[xs.length - 1] := by
          by_contra h; exact hin ⟨by linarith, by linarith⟩
        simp [c1, c2]

/-- C18: which tables the library treats as equidistant: exactly those whose every step differs from the first one by at
most one per cent of it. -/
theorem checkIsFixed_iff (xs : List ℚ) (hn : 2 ≤ xs.length) :
    (checkIsFixed xs = .ok true ∨ checkIsFixed xs = .ok false) ∧
    (checkIsFixed xs = .ok true ↔ ∀ i (h : i + 1 < xs.length), 1 ≤ i →
      |xs[i+1] - xs[i] - (xs[1] - xs[0])| ≤ (xs[1] - xs[0]) / 100) := by
  have key : ∀ (dt tol : ℚ) (fuel i : ℕ), i + fuel + 1 = xs.length →
      (fixedLoop xs dt tol i fuel = .ok true ∨ fixedLoop xs dt tol i fuel = .ok false) ∧
      (fixedLoop xs dt tol i fuel = .ok true ↔
        ∀ j (h : j + 1 < xs.length), i ≤ j → |xs[j+1] - xs[j] - dt| ≤ tol) := by
    intro dt tol fuel
    induction fuel with
    | zero =>
      intro i hi
      exact ⟨Or.inl rfl, fun _ j h hj => by omega, fun _ => rfl⟩
    | succ f ih =>
      intro i hi
      have hstep : fixedLoop xs dt tol i (f + 1) =
          if |xs[i+1] - xs[i] - dt| > tol then .ok false else fixedLoop xs dt tol (i + 1) f := by
        rw [fixedLoop, readAt_of_lt (show i + 1 < xs.length by omega), readAt_of_lt (show i < xs.length by omega)]
        rfl
      rw [hstep]
      by_cases hc : |xs[i+1] - xs[i] - dt| > tol
      · rw [if_pos hc]
        refine ⟨Or.inr rfl, fun h => by simp at h, fun h => ?_⟩
        exact absurd (h i (by omega) le_rfl) (not_le.2 hc)
      · rw [if_neg hc]
        obtain ⟨h1, h2⟩ := ih (i + 1) (by omega)
        refine ⟨h1, h2.trans ⟨fun h j hj hij => ?_, fun h j hj hij => h j hj (by omega)⟩⟩
        rcases Nat.eq_or_lt_of_le hij with rfl | hlt
        · exact not_lt.1 hc
        · exact h j hj hlt
  have e : checkIsFixed xs = fixedLoop xs (xs[1] - xs[0]) ((xs[1] - xs[0]) / 100) 1 (xs.length - 2) := by
    unfold checkIsFixed
    rw [readAt_of_lt (show 1 < xs.length by omega), readAt_of_lt (show 0 < xs.length by omega)]
    rfl
  rw [e]
  exact key _ _ _ _ (by omega)

example : 2 ≤ ([0, 1/2, 1] : List ℚ).length := by simp

/-- Every real ECM OCV table (`linspace_fix(0,1,3)`) meets the hypotheses. -/
example : Spec.Equidistant [0, 1/2, 1] 0 (1/2) := by
  intro i h
  simp at h
  interval_cases i <;> norm_num

end Slide

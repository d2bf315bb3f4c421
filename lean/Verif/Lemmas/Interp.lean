import Verif.Model.Interp
import Verif.Spec.Interp
import Mathlib.Tactic.Linarith
import Mathlib.Tactic.FieldSimp
import Mathlib.Tactic.Ring

namespace Slide.Interp

theorem lt_of_pairwise {xs : List ℚ} (hs : xs.Pairwise (· < ·)) {i j : ℕ} (hij : i < j)
    (hj : j < xs.length) : xs[i] < xs[j] :=
  List.pairwise_iff_getElem.mp hs i j (by omega) hj hij

/-- The halving loop returns the partition point of the searched range. -/
theorem lowerBound_spec (xs : List ℚ) (x : ℚ) (hs : xs.Pairwise (· < ·)) :
    ∀ (len first : ℕ), first + len ≤ xs.length →
      (∀ i (h : i < xs.length), i < first → xs[i] < x) →
      (∀ i (h : i < xs.length), first + len ≤ i → x ≤ xs[i]) →
      ∃ r, lowerBound xs x first len = .ok r ∧ r ≤ xs.length ∧
        (∀ i (h : i < xs.length), i < r → xs[i] < x) ∧
        (∀ i (h : i < xs.length), r ≤ i → x ≤ xs[i]) := by
  intro len
  induction len using Nat.strong_induction_on with
  | _ len ih =>
    intro first hle hlo hhi
    unfold lowerBound
    by_cases h0 : len = 0
    · subst h0
      simp only [dite_true]
      exact ⟨first, rfl, by omega, hlo, by simpa using hhi⟩
    · have hmid : first + len / 2 < xs.length := by omega
      simp only [h0, dite_false, readAt_of_lt hmid]
      split_ifs with hv
      · apply ih (len - len / 2 - 1) (by omega)
        · omega
        · intro i hi hlt
          by_cases he : i = first + len / 2
          · subst he; exact hv
          · exact lt_trans (lt_of_pairwise hs (by omega) hmid) hv
        · intro i hi hge
          exact hhi i hi (by omega)
      · apply ih (len / 2) (by omega)
        · omega
        · exact hlo
        · intro i hi hge
          by_cases he : i = first + len / 2
          · subst he; exact not_lt.mp hv
          · exact le_trans (not_lt.mp hv) (lt_of_pairwise hs (by omega) hi).le

/-- For a point strictly inside the range the search gives the right neighbour. -/
theorem rightIndex_search (xs : List ℚ) (x : ℚ) (hs : xs.Pairwise (· < ·)) (hn : 0 < xs.length)
    (hlo : xs[0] < x) (hhi : x < xs[xs.length - 1]) :
    ∃ r, rightIndex xs false x = .ok r ∧ 0 < r ∧ ∃ h : r < xs.length, xs[r - 1] < x ∧ x ≤ xs[r] := by
  obtain ⟨r, hr, hle, h1, h2⟩ := lowerBound_spec xs x hs xs.length 0 (by omega)
    (by intro i h hi; omega) (by intro i h hi; omega)
  refine ⟨r, by simpa [rightIndex] using hr, ?_, ?_⟩
  · by_contra h0
    have := h2 0 hn (by omega)
    linarith
  · have hr0 : 0 < r := by
      by_contra h0
      have := h2 0 hn (by omega)
      linarith
    have hlt : r < xs.length := by
      by_contra hge
      have := h1 (xs.length - 1) (by omega) (by omega)
      linarith
    exact ⟨hlt, h1 (r-1) (by omega) (by omega), h2 r hlt (le_refl _)⟩

/-- For an exactly equidistant table the shortcut gives the index with `xs[r-1] ≤ x < xs[r]`. -/
theorem rightIndex_fixed (xs : List ℚ) (x x0 dt : ℚ) (he : Spec.Equidistant xs x0 dt) (hdt : 0 < dt)
    (hn : 2 ≤ xs.length) (hlo : xs[0] < x) (hhi : x < xs[xs.length - 1]) :
    ∃ r, rightIndex xs true x = .ok r ∧ 0 < r ∧ ∃ h : r < xs.length, xs[r - 1] ≤ x ∧ x < xs[r] := by
  have e0 : xs[0] = x0 := by simpa using he 0 (by omega)
  have e1 : xs[1] = x0 + dt := by simpa using he 1 (by omega)
  have en := he (xs.length - 1) (by omega)
  have hcast : ((xs.length - 1 : ℕ) : ℚ) = (xs.length : ℚ) - 1 := by
    rw [Nat.cast_sub (by omega)]; simp
  rw [e0] at hlo
  rw [en, hcast] at hhi
  have hq0 : 0 ≤ (x - x0) / dt := div_nonneg (by linarith) hdt.le
  have hqn : (x - x0) / dt < (xs.length : ℚ) - 1 := by
    rw [div_lt_iff₀ hdt]; linarith
  have hf0 : 0 ≤ ⌊(x - x0) / dt⌋ := Int.floor_nonneg.mpr hq0
  obtain ⟨k, hk⟩ := Int.eq_ofNat_of_zero_le hf0
  have hk1 : (k : ℚ) ≤ (x - x0) / dt := by
    have := Int.floor_le ((x - x0) / dt); rw [hk] at this; exact_mod_cast this
  have hk2 : (x - x0) / dt < k + 1 := by
    have := Int.lt_floor_add_one ((x - x0) / dt); rw [hk] at this; exact_mod_cast this
  have hklt : k + 1 < xs.length := by
    have : (k : ℚ) < (xs.length : ℚ) - 1 := lt_of_le_of_lt hk1 hqn
    have h2 : (k : ℚ) + 1 < (xs.length : ℚ) := by linarith
    exact_mod_cast h2
  refine ⟨k + 1, ?_, by omega, hklt, ?_, ?_⟩
  · simp only [rightIndex, if_true]
    rw [readAt_of_lt (show 1 < xs.length by omega), readAt_of_lt (show 0 < xs.length by omega)]
    simp only [Outcome.ok_bind, e0, e1, add_sub_cancel_left]
    rw [if_neg (by linarith), hk]
    simp
  · have := he k (by omega)
    simp only [Nat.add_sub_cancel]
    rw [this]
    rw [le_div_iff₀ hdt] at hk1
    linarith
  · rw [he (k+1) hklt]
    rw [div_lt_iff₀ hdt] at hk2
    push_cast
    linarith

/-- Evaluation of the last branch. -/
theorem linInt_inside (bound fixed : Bool) (xs ys : List ℚ) (x : ℚ) (r : ℕ) (hlen : xs.length = ys.length)
    (hn : 0 < xs.length) (hlo : xs[0] < x) (hhi : x < xs[xs.length - 1])
    (hr : rightIndex xs fixed x = .ok r) (h0 : 0 < r) (hlt : r < xs.length) (hne : xs[r-1] < xs[r]) :
    linInt bound xs ys fixed x =
      .ok (ys[r-1] + (ys[r] - ys[r-1]) * (x - xs[r-1]) / (xs[r] - xs[r-1])) := by
  unfold linInt linIntNoexcept
  rw [if_neg (by omega), readAt_of_lt hn, readAt_of_lt (show xs.length - 1 < xs.length by omega)]
  simp only [Outcome.ok_bind]
  rw [if_neg (by rintro ⟨_, h⟩; linarith), if_neg (by rintro ⟨_, h⟩; linarith),
    if_neg (by linarith), if_neg (by linarith), hr]
  simp only [Outcome.ok_bind]
  rw [if_neg (by omega), readAt_of_lt hlt, readAt_of_lt (show r < ys.length by omega),
    readAt_of_lt (show r - 1 < xs.length by omega), readAt_of_lt (show r - 1 < ys.length by omega)]
  simp only [Outcome.ok_bind]
  rw [if_neg (by intro h; linarith)]
  simp

end Slide.Interp

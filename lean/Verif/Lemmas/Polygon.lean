import Verif.Props.Interp
import Mathlib.Tactic.Linarith
import Mathlib.Tactic.LinearCombination

/-! Slopes of polygons through table points. -/

namespace Slide
open Spec

/-- A point of the polygon lies on a closed segment. -/
theorem onPolygon_segment {xs ys : List ℚ} (hl : xs.length = ys.length) (h2 : 2 ≤ xs.length)
    (hs : xs.Pairwise (· < ·)) {x y : ℚ} (h : OnPolygon xs ys x y) :
    ∃ i, ∃ (hx : i + 1 < xs.length) (hy : i + 1 < ys.length), xs[i] ≤ x ∧ x ≤ xs[i+1] ∧
      (y - ys[i]) * (xs[i+1] - xs[i]) = (ys[i+1] - ys[i]) * (x - xs[i]) := by
  have lt : ∀ i (h : i + 1 < xs.length), xs[i] < xs[i+1] := fun i h =>
    (List.pairwise_iff_getElem.mp hs) i (i + 1) (by omega) h (by omega)
  rcases h with ⟨i, hx, hy, rfl, rfl⟩ | ⟨i, hx, hy, h1, h2, h3⟩
  · by_cases hi : i + 1 < xs.length
    · exact ⟨i, hi, by omega, le_refl _, (lt i hi).le, by ring⟩
    · obtain ⟨j, rfl⟩ : ∃ j, i = j + 1 := ⟨i - 1, by omega⟩
      exact ⟨j, hx, hy, (lt j hx).le, le_refl _, by ring⟩
  · exact ⟨i, hx, hy, h1.le, h2.le, h3⟩

/-- If no segment of the polygon is steeper than `k`, neither is any chord. -/
theorem polygon_chord {xs ys : List ℚ} (k : ℚ) (hl : xs.length = ys.length) (h2 : 2 ≤ xs.length)
    (hs : xs.Pairwise (· < ·))
    (hk : ∀ i (hx : i + 1 < xs.length) (hy : i + 1 < ys.length), ys[i+1] - ys[i] ≤ k * (xs[i+1] - xs[i]))
    {x y x' y' : ℚ} (h : OnPolygon xs ys x y) (h' : OnPolygon xs ys x' y') (hxx : x ≤ x') :
    y' - y ≤ k * (x' - x) := by
  obtain ⟨i, hx, hy, a1, a2, a3⟩ := onPolygon_segment hl h2 hs h
  obtain ⟨j, hx', hy', b1, b2, b3⟩ := onPolygon_segment hl h2 hs h'
  have lt : ∀ i (h : i + 1 < xs.length), xs[i] < xs[i+1] := fun i h =>
    (List.pairwise_iff_getElem.mp hs) i (i + 1) (by omega) h (by omega)
  have mono : ∀ i d (h : i + d < xs.length) (h' : i + d < ys.length),
      ys[i + d] - k * xs[i + d] ≤ ys[i] - k * xs[i] := by
    intro i d
    induction d with
    | zero => intro _ _; exact le_refl _
    | succ d ih =>
      intro h h'
      have e1 := ih (by omega) (by omega)
      have e2 := hk (i + d) (by omega) (by omega)
      simp only [← Nat.add_assoc]
      linarith
  -- on a segment, the chord to the right end and the chord from the left end
  have right : ∀ i (hx : i + 1 < xs.length) (hy : i + 1 < ys.length) (x y : ℚ), xs[i] ≤ x → x ≤ xs[i+1] →
      (y - ys[i]) * (xs[i+1] - xs[i]) = (ys[i+1] - ys[i]) * (x - xs[i]) →
      ys[i+1] - k * xs[i+1] ≤ y - k * x ∧ y - k * x ≤ ys[i] - k * xs[i] := by
    intro i hx hy x y a1 a2 a3
    have hd : 0 < xs[i+1] - xs[i] := sub_pos.mpr (lt i hx)
    have hk' := hk i hx hy
    constructor
    · have : 0 ≤ (y - k * x - (ys[i+1] - k * xs[i+1])) * (xs[i+1] - xs[i]) := by
        have : (y - k * x - (ys[i+1] - k * xs[i+1])) * (xs[i+1] - xs[i]) =
          (k * (xs[i+1] - xs[i]) - (ys[i+1] - ys[i])) * (xs[i+1] - x) := by linear_combination a3
        rw [this]; exact mul_nonneg (by linarith) (by linarith)
      have := nonneg_of_mul_nonneg_left this hd
      linarith
    · have : 0 ≤ (ys[i] - k * xs[i] - (y - k * x)) * (xs[i+1] - xs[i]) := by
        have : (ys[i] - k * xs[i] - (y - k * x)) * (xs[i+1] - xs[i]) =
          (k * (xs[i+1] - xs[i]) - (ys[i+1] - ys[i])) * (x - xs[i]) := by linear_combination -a3
        rw [this]; exact mul_nonneg (by linarith) (by linarith)
      have := nonneg_of_mul_nonneg_left this hd
      linarith
  obtain ⟨p1, p2⟩ := right i hx hy x y a1 a2 a3
  obtain ⟨q1, q2⟩ := right j hx' hy' x' y' b1 b2 b3
  rcases Nat.lt_trichotomy i j with hij | hij | hij
  · have := mono (i + 1) (j - (i + 1)) (by omega) (by omega)
    have e : i + 1 + (j - (i + 1)) = j := by omega
    simp only [e] at this
    linarith
  · subst hij
    have hd : 0 < xs[i+1] - xs[i] := sub_pos.mpr (lt i hx)
    have hk' := hk i hx hy
    have : 0 ≤ (k * (x' - x) - (y' - y)) * (xs[i+1] - xs[i]) := by
      have : (k * (x' - x) - (y' - y)) * (xs[i+1] - xs[i]) =
        (k * (xs[i+1] - xs[i]) - (ys[i+1] - ys[i])) * (x' - x) := by linear_combination a3 - b3
      rw [this]; exact mul_nonneg (by linarith) (by linarith)
    have := nonneg_of_mul_nonneg_left this hd
    linarith
  · -- then `x = x'` is a common knot
    have hle : xs[j+1] ≤ xs[i] := by
      rcases Nat.lt_or_ge (j + 1) i with h | h
      · exact ((List.pairwise_iff_getElem.mp hs) (j + 1) i (by omega) (by omega) h).le
      · have e : i = j + 1 := by omega
        subst e; exact le_refl _
    have hxe : x' = x := le_antisymm (by linarith) hxx
    subst hxe
    rw [onPolygon_unique xs ys hs h h']
    simp

/-- If no segment falls faster than `k`, neither does any chord. -/
theorem polygon_chord_ge {xs ys : List ℚ} (k : ℚ) (hl : xs.length = ys.length) (h2 : 2 ≤ xs.length)
    (hs : xs.Pairwise (· < ·))
    (hk : ∀ i (hx : i + 1 < xs.length) (hy : i + 1 < ys.length), k * (xs[i+1] - xs[i]) ≤ ys[i+1] - ys[i])
    {x y x' y' : ℚ} (h : OnPolygon xs ys x y) (h' : OnPolygon xs ys x' y') (hxx : x ≤ x') :
    k * (x' - x) ≤ y' - y := by
  have neg : ∀ {x y}, OnPolygon xs ys x y → OnPolygon xs (ys.map (- ·)) x (-y) := by
    intro x y h
    rcases h with ⟨i, hx, hy, h1, h2⟩ | ⟨i, hx, hy, h1, h2, h3⟩
    · exact .inl ⟨i, hx, by simpa using hy, h1, by simp [h2]⟩
    · refine .inr ⟨i, hx, by simpa using hy, h1, h2, ?_⟩
      simp only [List.getElem_map]
      linear_combination -h3
  have := polygon_chord (ys := ys.map (- ·)) (-k) (by simpa using hl) h2 hs (by
    intro i hx hy
    simp only [List.getElem_map]
    have := hk i hx (by simpa using hy)
    linarith) (neg h) (neg h') hxx
  linarith

end Slide

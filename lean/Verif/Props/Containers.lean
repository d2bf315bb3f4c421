import Verif.Model.Containers
import Verif.Spec.Containers
import Verif.Tac

/-!
Containers and utilities: C19 (histogram), C26 (bounded vector), C27 (matrix), C40 (linspace).
-/

namespace Slide
open Spec

theorem writeAt_of_lt {α : Type _} {xs : List α} {i : ℕ} {a : α} (h : i < xs.length) :
    writeAt xs i a = .ok (xs.set i a) := by simp [writeAt, h]

theorem writeAt_of_ge {α : Type _} {xs : List α} {i : ℕ} {a : α} (h : xs.length ≤ i) :
    writeAt xs i a = .ub "out-of-bounds write" := by simp [writeAt, Nat.not_lt.mpr h]

/-! ### C19 -/

theorem inBin_unique {lo hi : ℚ} {N : ℕ} (hlt : lo < hi) (hN : 0 < N) {x : ℚ} {i j : ℕ} (hi' : InBin lo hi N x i)
    (hj : InBin lo hi N x j) : i = j := by
  have hNq : (0:ℚ) < N := by exact_mod_cast hN
  have hd : 0 < (hi - lo) / N := div_pos (by linarith) hNq
  have hNd : (N:ℚ) * ((hi - lo) / N) = hi - lo := by field_simp
  have mono : ∀ a b : ℕ, histEdge lo hi N a < histEdge lo hi N b → a < b := by
    intro a b h
    unfold histEdge at h
    have h' : (a:ℚ) * ((hi - lo) / N) < b * ((hi - lo) / N) := by linarith
    have := (mul_lt_mul_iff_left₀ hd).mp h'
    exact_mod_cast this
  have e0 : histEdge lo hi N 0 = lo := by simp [histEdge]
  have eN : histEdge lo hi N N = hi := by simp [histEdge, hNd]
  rcases hi' with ⟨rfl, h⟩ | ⟨h1, h2, h3, h4⟩ | ⟨rfl, h⟩ <;> rcases hj with ⟨rfl, k⟩ | ⟨k1, k2, k3, k4⟩ | ⟨rfl, k⟩
  · rfl
  · exfalso
    have := mono (j - 1) 0 (by rw [e0]; linarith)
    omega
  · linarith
  · have := mono (i - 1) 0 (by rw [e0]; linarith)
    omega
  · have a := mono (i - 1) j (by linarith)
    have b := mono (j - 1) i (by linarith)
    omega
  · have := mono N i (by rw [eN]; linarith)
    omega
  · linarith
  · have := mono N j (by rw [eN]; linarith)
    omega
  · rfl

/-- Adding one sample: exactly the bin it belongs to grows by one. -/
theorem histogram_add (h : Histogram) (N : ℕ) (hN : 0 < N) (hlt : h.xMin < h.xMax) (hdx : h.dx = (h.xMax - h.xMin) / N)
    (hlen : h.bins.length = N + 2) (x : ℚ) (hx : NotHuge h.xMin h.xMax N x) :
    ∃ i, ∃ hi : i < h.bins.length, InBin h.xMin h.xMax N x i ∧
      h.add x = .ok { h with bins := h.bins.set i (h.bins[i] + 1) } := by
  have hNq : (0:ℚ) < N := by exact_mod_cast hN
  have hd : 0 < h.dx := by rw [hdx]; exact div_pos (by linarith) hNq
  have hNd : (N:ℚ) * h.dx = h.xMax - h.xMin := by rw [hdx]; field_simp
  obtain ⟨hx1, hx2⟩ := hx
  rw [← hdx] at hx1 hx2
  have hq : (x - h.xMin) / h.dx * h.dx = x - h.xMin := by field_simp
  set q := (x - h.xMin) / h.dx with hqd
  have q1 : -2147483648 ≤ q := by
    by_contra hc
    push Not at hc
    nlinarith
  have q2 : q < 2147483647 := by
    by_contra hc
    push Not at hc
    nlinarith
  -- the truncated value and the bin
  obtain ⟨t, ht, hbin⟩ : ∃ t : ℤ, toInt (1 + q) = .ok t ∧
      InBin h.xMin h.xMax N x (max 0 (min t ((h.bins.length : ℤ) - 1))).toNat := by
    unfold toInt
    dsimp only
    by_cases h0 : 0 ≤ 1 + q
    · rw [if_pos h0]
      have f1 : 0 ≤ ⌊1 + q⌋ := Int.floor_nonneg.mpr h0
      have f2 : ⌊1 + q⌋ ≤ 2147483647 := by
        have : ⌊1 + q⌋ < 2147483648 := Int.floor_lt.mpr (by push_cast; linarith)
        omega
      refine ⟨⌊1 + q⌋, if_pos ⟨by omega, f2⟩, ?_⟩
      have g1 : ((⌊1 + q⌋ : ℤ) : ℚ) ≤ 1 + q := Int.floor_le _
      have g2 : 1 + q < ((⌊1 + q⌋ : ℤ) : ℚ) + 1 := Int.lt_floor_add_one _
      obtain ⟨k, hk⟩ := Int.eq_ofNat_of_zero_le f1
      rw [hk] at g1 g2
      rw [hk, hlen]
      push_cast at g1 g2
      rcases Nat.lt_or_ge k 1 with hk0 | hk1
      · have : k = 0 := by omega
        subst this
        have e : (max 0 (min ((0:ℕ):ℤ) (((N + 2 : ℕ) : ℤ) - 1))).toNat = 0 := by omega
        rw [e]
        refine Or.inl ⟨rfl, ?_⟩
        push_cast at g2
        nlinarith
      · rcases Nat.lt_or_ge N k with hkN | hkN
        · have e : (max 0 (min (k:ℤ) (((N + 2 : ℕ) : ℤ) - 1))).toNat = N + 1 := by omega
          rw [e]
          refine Or.inr (Or.inr ⟨rfl, ?_⟩)
          have hk' : (N:ℚ) + 1 ≤ k := by exact_mod_cast hkN
          nlinarith
        · have e : (max 0 (min (k:ℤ) (((N + 2 : ℕ) : ℤ) - 1))).toNat = k := by omega
          rw [e]
          refine Or.inr (Or.inl ⟨hk1, hkN, ?_, ?_⟩)
          · unfold histEdge
            rw [← hdx, Nat.cast_sub hk1]
            push_cast
            nlinarith
          · unfold histEdge
            rw [← hdx]
            nlinarith
    · rw [if_neg h0]
      push Not at h0
      have f1 : ⌈1 + q⌉ ≤ 0 := Int.ceil_le.mpr (by push_cast; linarith)
      have f2 : -2147483648 ≤ ⌈1 + q⌉ := by
        have : (-2147483649 : ℤ) < ⌈1 + q⌉ := Int.lt_ceil.mpr (by push_cast; linarith)
        omega
      refine ⟨⌈1 + q⌉, if_pos ⟨f2, by omega⟩, ?_⟩
      have e : (max 0 (min ⌈1 + q⌉ ((h.bins.length : ℤ) - 1))).toNat = 0 := by omega
      rw [e]
      exact Or.inl ⟨rfl, by nlinarith⟩
  have hib : (max 0 (min t ((h.bins.length : ℤ) - 1))).toNat < h.bins.length := by omega
  refine ⟨_, hib, hbin, ?_⟩
  unfold Histogram.add
  rw [if_neg hd.ne', ← hqd, ht]
  simp only [Outcome.ok_bind, Outcome.pure_eq]
  rw [readAt_of_lt hib]
  simp only [Outcome.ok_bind]
  rw [writeAt_of_lt hib]
  rfl

theorem histogram_addAll (N : ℕ) (hN : 0 < N) (lo hi : ℚ) (hlt : lo < hi) (xs : List ℚ)
    (hx : ∀ x ∈ xs, NotHuge lo hi N x) (bins : List ℕ) (hlen : bins.length = N + 2) :
    ∃ bins', (⟨bins, lo, hi, (hi - lo) / N⟩ : Histogram).addAll xs = .ok ⟨bins', lo, hi, (hi - lo) / N⟩ ∧
      bins'.length = N + 2 ∧ bins'.sum = bins.sum + xs.length ∧
      ∀ i b, bins[i]? = some b → bins'[i]? = some (b + binCount lo hi N xs i) := by
  induction xs generalizing bins with
  | nil => exact ⟨bins, rfl, hlen, by simp, by intro i b h; simpa [binCount] using h⟩
  | cons x xs ih =>
    obtain ⟨i, hi', hb, he⟩ := histogram_add ⟨bins, lo, hi, (hi - lo) / N⟩ N hN hlt rfl hlen x (hx x (List.mem_cons_self))
    dsimp only at hi' hb he
    obtain ⟨bins', h1, h2, h3, h4⟩ := ih (fun y hy => hx y (List.mem_cons_of_mem _ hy)) (bins.set i (bins[i] + 1))
      (by simpa using hlen)
    refine ⟨bins', ?_, h2, ?_, ?_⟩
    · unfold Histogram.addAll
      rw [he]
      exact h1
    · rw [h3]
      have : (bins.set i (bins[i] + 1)).sum = bins.sum + 1 := by
        clear h3 h4 h1 h2 he ih hb hlen
        induction bins generalizing i with
        | nil => simp at hi'
        | cons b bs ihb =>
          cases i with
          | zero => simp; omega
          | succ i =>
            have := ihb i (by simpa using hi')
            simp only [List.getElem_cons_succ, List.set_cons_succ, List.sum_cons]
            omega
      rw [this, List.length_cons]
      omega
    · intro j b hj
      have hcount : binCount lo hi N (x :: xs) j = binCount lo hi N xs j + if j = i then 1 else 0 := by
        unfold binCount
        rw [List.countP_cons]
        congr 1
        by_cases hji : j = i
        · subst hji; simp [hb]
        · have : ¬ InBin lo hi N x j := fun hc => hji (inBin_unique hlt hN hc hb)
          simp [this, hji]
      rw [hcount]
      by_cases hji : j = i
      · subst hji
        have hbe : bins[j] = b := by
          rw [List.getElem?_eq_getElem hi'] at hj
          exact Option.some.inj hj
        rw [h4 j (b + 1) (by rw [List.getElem?_set_self hi', hbe])]
        simp
        omega
      · rw [h4 j b (by rw [List.getElem?_set_ne (fun h => hji h.symm)]; exact hj)]
        simp [hji]

/-- C19. A histogram with `N ≥ 1` bins from `lo < hi` accepts every finite sequence of samples (that are not more than
2·10⁹ bin widths away), without any out-of-bounds access; afterwards there are `N + 2` bins, bin `i` holds the number
of samples that belong to it, and the bins sum to the number of samples. -/
theorem histogram_counts (N : ℕ) (hN : 0 < N) (lo hi : ℚ) (hlt : lo < hi) (xs : List ℚ)
    (hx : ∀ x ∈ xs, NotHuge lo hi N x) :
    ∃ h, (Histogram.make lo hi N >>= fun h => h.addAll xs) = .ok h ∧ h.bins.length = N + 2 ∧
      h.bins.sum = xs.length ∧ ∀ i < N + 2, h.bins[i]? = some (binCount lo hi N xs i) := by
  obtain ⟨bins', h1, h2, h3, h4⟩ := histogram_addAll N hN lo hi hlt xs hx (List.replicate (N + 2) 0) (by simp)
  refine ⟨⟨bins', lo, hi, (hi - lo) / N⟩, ?_, h2, by simpa using h3, ?_⟩
  · unfold Histogram.make
    rw [if_neg (by omega)]
    exact h1
  · intro i hi'
    have := h4 i 0 (by simp [hi'])
    simpa using this

/-- Every value belongs to exactly one bin (so `binCount` counts every sample once). -/
theorem inBin_existsUnique (N : ℕ) (hN : 0 < N) (lo hi : ℚ) (hlt : lo < hi) (x : ℚ) : ∃! i, InBin lo hi N x i := by
  -- scale the sample back into the admissible range: only its position relative to the edges matters
  have hNq : (0:ℚ) < N := by exact_mod_cast hN
  have hd : 0 < (hi - lo) / N := div_pos (by linarith) hNq
  have hNd : (N:ℚ) * ((hi - lo) / N) = hi - lo := by field_simp
  have ex : ∃ i, InBin lo hi N x i := by
    rcases lt_or_ge x lo with h | h
    · exact ⟨0, Or.inl ⟨rfl, h⟩⟩
    · rcases lt_or_ge x hi with h' | h'
      · have hq : (x - lo) / ((hi - lo) / N) * ((hi - lo) / N) = x - lo := by
          rw [div_mul_cancel₀ _ hd.ne']
        set q := (x - lo) / ((hi - lo) / N)
        have q0 : 0 ≤ q := div_nonneg (by linarith) hd.le
        have a := Nat.floor_le q0
        have b := Nat.lt_floor_add_one q
        refine ⟨⌊q⌋₊ + 1, Or.inr (Or.inl ⟨by omega, ?_, ?_, ?_⟩)⟩
        · have : ((⌊q⌋₊ : ℕ) : ℚ) < N := by
            by_contra hc
            push Not at hc
            nlinarith
          have : ⌊q⌋₊ < N := by exact_mod_cast this
          omega
        · unfold histEdge
          simp only [Nat.add_sub_cancel]
          nlinarith
        · unfold histEdge
          push_cast
          nlinarith
      · exact ⟨N + 1, Or.inr (Or.inr ⟨rfl, h'⟩)⟩
  obtain ⟨i, hi'⟩ := ex
  exact ⟨i, hi', fun j hj => inBin_unique hlt hN hj hi'⟩

/-- Non-vacuity: 4 bins from 0 to 2, six samples including both edges and values outside. -/
example : (Histogram.make 0 2 4 >>= fun h => h.addAll [-1, 0, 1/2, 1, 2, 5]) = .ok ⟨[1, 1, 1, 1, 0, 2], 0, 2, 1/2⟩ ∧
    ∀ x ∈ [-1, 0, 1/2, 1, 2, (5:ℚ)], NotHuge 0 2 4 x := by
  refine ⟨by decide +kernel, ?_⟩
  intro x hx
  simp only [List.mem_cons, List.mem_nil_iff, or_false] at hx
  rcases hx with rfl | rfl | rfl | rfl | rfl | rfl <;> norm_num [NotHuge]

/-- C19, the edges reported are the `N + 1` edges of the bins. -/
theorem histogram_edges (N : ℕ) (hN : 0 < N) (hN' : N < 2147483647) (lo hi : ℚ) (hlt : lo < hi) :
    (Histogram.make lo hi N >>= fun h => h.edges) = .ok ((List.range (N + 1)).map (histEdge lo hi N)) := by
  have hNq : (0:ℚ) < N := by exact_mod_cast hN
  have hd : 0 < (hi - lo) / N := div_pos (by linarith) hNq
  have e : (hi - lo) / ((hi - lo) / N) = N := by
    have : hi - lo ≠ 0 := by linarith
    field_simp
  unfold Histogram.make
  rw [if_neg (by omega)]
  simp only [Outcome.ok_bind]
  unfold Histogram.edges rangeFix
  dsimp only
  rw [if_neg hd.ne', e]
  have t : toInt (N:ℚ) = .ok (N:ℤ) := by
    unfold toInt
    rw [if_pos hNq.le, Int.floor_natCast]
    exact if_pos ⟨by omega, by omega⟩
  rw [t]
  simp only [Outcome.ok_bind, Outcome.pure_eq]
  unfold FixedData.values
  rw [if_neg (by dsimp only; omega)]
  have : ((N:ℤ) + 1).toNat = N + 1 := by omega
  rw [this]
  congr 1

example : (Histogram.make (-1) 2 3 >>= fun h => h.edges) = .ok [-1, 0, 1, 2] := by decide +kernel

/-- C19 for arbitrary samples, as stated. -/
def HistogramTotal : Prop :=
  ∀ (N : ℕ) (lo hi : ℚ) (xs : List ℚ), 0 < N → lo < hi →
    ∃ h, (Histogram.make lo hi N >>= fun h => h.addAll xs) = .ok h

/-- C19 is false of the code for huge samples: the bin number is converted to `int` before it is clamped. -/
theorem histogram_huge_ub : ¬ HistogramTotal := by
  intro h
  obtain ⟨r, hr⟩ := h 100 0 1 [100000000] (by norm_num) (by norm_num)
  have : (Histogram.make 0 1 100 >>= fun h => h.addAll [100000000]) = .ub "conversion to int out of range" := by
    decide +kernel
  rw [this] at hr
  cases hr

theorem toInt_no_throw (q : ℚ) : (∃ t, toInt q = .ok t) ∨ toInt q = .ub "conversion to int out of range" := by
  unfold toInt
  dsimp only
  split_ifs <;> simp

/-- A default-constructed histogram has no bins: adding to it is undefined behaviour, for every sample. -/
theorem histogram_default_ub (x : ℚ) : ∃ w, Histogram.default.add x = .ub w := by
  unfold Histogram.add Histogram.default
  rw [if_neg (by norm_num)]
  dsimp only
  rcases toInt_no_throw (1 + (x - 0) / 1) with ⟨t, ht⟩ | ht
  · rw [ht]
    simp only [Outcome.ok_bind]
    rw [readAt_of_ge (by simp)]
    exact ⟨_, rfl⟩
  · rw [ht]
    exact ⟨_, rfl⟩

/-! ### C26 -/

namespace SmallVector
variable {α : Type}

/-- C26 when there is room: the element is appended, everything else stays. -/
theorem pushBack_room (v : SmallVector α) (a : α) (h : v.N < v.data.length) :
    ∃ w, v.pushBack a = .ok w ∧ w.elems = v.elems ++ [a] ∧ w.N = v.N + 1 ∧ w.data.length = v.data.length := by
  refine ⟨⟨v.data.set v.N a, v.N + 1⟩, ?_, ?_, rfl, by simp⟩
  · unfold pushBack
    rw [if_neg (by omega), writeAt_of_lt h]
    rfl
  · unfold elems
    dsimp only
    rw [List.take_succ_eq_append_getElem (by simpa using h), List.take_set_of_le (le_refl _), List.getElem_set_self]

/-- C26 for a full vector, as stated. -/
def FullThrows : Prop :=
  ∀ (v : SmallVector ℕ) (a : ℕ), v.N = v.data.length → v.pushBack a = .throw 1234

/-- C26 is false of the code: pushing to *any* full vector writes one element past the storage. -/
theorem pushBack_full_ub (v : SmallVector α) (a : α) (h : v.N = v.data.length) :
    v.pushBack a = .ub "out-of-bounds write" := by
  unfold pushBack
  rw [if_neg (by omega), writeAt_of_ge (by omega)]
  rfl

theorem not_fullThrows : ¬ FullThrows := by
  intro h
  have h1 := h (empty 0 0) 5 rfl
  rw [pushBack_full_ub _ _ rfl] at h1
  cases h1

/-- C26, sequences: starting from an empty vector with room for `Nmax` elements, pushing a list works exactly when it
has at most `Nmax` elements and then the vector holds that list; every longer list ends in undefined behaviour (never in
the intended exception). -/
theorem pushAll_partial (Nmax : ℕ) (z : α) (as : List α) :
    (as.length ≤ Nmax → ∃ v, (empty Nmax z).pushAll as = .ok v ∧ v.elems = as ∧ v.N = as.length) ∧
    (Nmax < as.length → (empty Nmax z).pushAll as = .ub "out-of-bounds write") := by
  have key : ∀ (as : List α) (v : SmallVector α), v.N ≤ v.data.length →
      (v.N + as.length ≤ v.data.length → ∃ w, v.pushAll as = .ok w ∧ w.elems = v.elems ++ as ∧ w.N = v.N + as.length) ∧
      (v.data.length < v.N + as.length → v.pushAll as = .ub "out-of-bounds write") := by
    intro as
    induction as with
    | nil =>
      intro v hv
      exact ⟨fun _ => ⟨v, rfl, by simp, rfl⟩, fun h => by simp at h; omega⟩
    | cons a as ih =>
      intro v hv
      rcases Nat.lt_or_ge v.N v.data.length with h | h
      · obtain ⟨w, h1, h2, h3, h4⟩ := pushBack_room v a h
        obtain ⟨i1, i2⟩ := ih w (by omega)
        constructor
        · intro hl
          simp only [List.length_cons] at hl
          obtain ⟨w', j1, j2, j3⟩ := i1 (by omega)
          refine ⟨w', ?_, ?_, ?_⟩
          · unfold pushAll; rw [h1]; exact j1
          · rw [j2, h2]; simp
          · rw [j3, h3, List.length_cons]; omega
        · intro hl
          simp only [List.length_cons] at hl
          unfold pushAll
          rw [h1]
          exact i2 (by omega)
      · constructor
        · intro hl
          simp only [List.length_cons] at hl
          omega
        · intro _
          unfold pushAll
          rw [pushBack_full_ub v a (by omega)]
          rfl
  obtain ⟨k1, k2⟩ := key as (empty Nmax z) (by simp [empty])
  constructor
  · intro h
    obtain ⟨w, h1, h2, h3⟩ := k1 (by simpa [empty] using h)
    exact ⟨w, h1, by rw [h2]; simp [elems, empty], by rw [h3]; simp [empty]⟩
  · intro h
    exact k2 (by simpa [empty] using h)

/-- The checked access: elements pushed are read back, positions beyond the used length throw. -/
theorem get_spec (v : SmallVector α) (h : v.N ≤ v.data.length) (i : ℕ) :
    v.get i = match v.elems[i]? with | some a => .ok a | none => .throw 1234 := by
  unfold get elems
  by_cases hi : i < v.N
  · rw [if_pos hi, readAt_of_lt (by omega), List.getElem?_eq_getElem (by simp; omega)]
    simp
  · rw [if_neg hi, List.getElem?_eq_none (by simp; omega)]

example : (empty 3 0).pushAll [7, 8] = .ok ⟨[7, 8, 0], 2⟩ := by decide +kernel

end SmallVector

/-- C26 for degradation model lists: adding any sequence of identifiers keeps exactly the non-zero ones, in order, as
long as there are at most ten of them; an eleventh one is written out of bounds. -/
theorem addModels_partial (ids : List ℕ) :
    ((ids.filter (· ≠ 0)).length ≤ 10 →
      ∃ v, addModels (SmallVector.empty 10 0) ids = .ok v ∧ v.elems = ids.filter (· ≠ 0)) ∧
    (10 < (ids.filter (· ≠ 0)).length → addModels (SmallVector.empty 10 0) ids = .ub "out-of-bounds write") := by
  have key : ∀ (ids : List ℕ) (v : SmallVector ℕ), addModels v ids = v.pushAll (ids.filter (· ≠ 0)) := by
    intro ids
    induction ids with
    | nil => intro v; rfl
    | cons a as ih =>
      intro v
      unfold addModels addModel
      by_cases h : a ≠ 0
      · rw [if_pos h, List.filter_cons_of_pos (by simpa using h)]
        unfold SmallVector.pushAll
        cases v.pushBack a with
        | ok w => exact ih w
        | throw e => rfl
        | ub w => rfl
      · rw [if_neg h, List.filter_cons_of_neg (by simpa using h)]
        exact ih v
  rw [key]
  obtain ⟨h1, h2⟩ := SmallVector.pushAll_partial 10 0 (ids.filter (· ≠ 0))
  exact ⟨fun h => let ⟨v, a, b, _⟩ := h1 h; ⟨v, a, b⟩, h2⟩

example : addModels (SmallVector.empty 10 0) [1, 0, 3] = .ok ⟨[1, 3, 0, 0, 0, 0, 0, 0, 0, 0], 2⟩ := by decide +kernel

/-! ### C27 -/

namespace DynMatrix
variable {α : Type}

/-- The storage has the size of the matrix (true after construction and `resize`). -/
def Sized (M : DynMatrix α) : Prop := M.data.length = M.m * M.n

theorem make_sized (m n : ℕ) (x : α) : (make m n x).Sized := by simp [Sized, make]

theorem resize_sized (M : DynMatrix α) (m n : ℕ) (x : α) : (M.resize m n x).Sized := by
  simp only [Sized, resize, vecResize, List.length_append, List.length_take, List.length_replicate]
  omega

theorem index_lt {m n i j : ℕ} (hi : i < m) (hj : j < n) : i + j * m < m * n := by
  have : (j + 1) * m ≤ n * m := Nat.mul_le_mul_right m hj
  have e : (j + 1) * m = j * m + m := by ring
  have e2 : n * m = m * n := by ring
  omega

theorem index_inj {m i j i' j' : ℕ} (hi : i < m) (hi' : i' < m) (h : i + j * m = i' + j' * m) : i = i' ∧ j = j' := by
  have hm : 0 < m := by omega
  have h1 := congrArg (· % m) h
  simp only [Nat.add_mul_mod_self_right, Nat.mod_eq_of_lt hi, Nat.mod_eq_of_lt hi'] at h1
  subst h1
  have : j * m = j' * m := by omega
  exact ⟨rfl, Nat.eq_of_mul_eq_mul_right hm this⟩

/-- C27: every valid pair of indices can be written and read; reading gives the value written; all other valid
elements keep their value; the size is unchanged. -/
theorem matrix_write_read (M : DynMatrix α) (hM : M.Sized) (i j : ℕ) (hi : i < M.m) (hj : j < M.n) (a : α) :
    ∃ M', M.set i j a = .ok M' ∧ M'.m = M.m ∧ M'.n = M.n ∧ M'.Sized ∧ M'.get i j = .ok a ∧
      ∀ i' j', i' < M.m → j' < M.n → (i', j') ≠ (i, j) →
        ∃ b, M.get i' j' = .ok b ∧ M'.get i' j' = .ok b := by
  have hl : i + j * M.m < M.data.length := by rw [hM]; exact index_lt hi hj
  refine ⟨{ M with data := M.data.set (i + j * M.m) a }, ?_, rfl, rfl, ?_, ?_, ?_⟩
  · unfold set; rw [writeAt_of_lt hl]; rfl
  · simpa [Sized] using hM
  · unfold get
    dsimp only
    rw [readAt_of_lt (by simpa using hl)]
    simp
  · intro i' j' hi' hj' hne
    have hl' : i' + j' * M.m < M.data.length := by rw [hM]; exact index_lt hi' hj'
    refine ⟨M.data[i' + j' * M.m], readAt_of_lt hl', ?_⟩
    unfold get
    dsimp only
    rw [readAt_of_lt (by simpa using hl')]
    rw [List.getElem_set_ne]
    intro h
    obtain ⟨h1, h2⟩ := index_inj hi hi' h
    exact hne (by rw [h1, h2])

/-- C27: conversely every element of the storage is addressed by exactly one valid pair. -/
theorem matrix_index_bijective (M : DynMatrix α) (hM : M.Sized) (k : ℕ) (hk : k < M.data.length) :
    ∃! p : ℕ × ℕ, p.1 < M.m ∧ p.2 < M.n ∧ p.1 + p.2 * M.m = k := by
  rw [hM] at hk
  have hm : 0 < M.m := by
    rcases Nat.eq_zero_or_pos M.m with h | h
    · rw [h] at hk; simp at hk
    · exact h
  refine ⟨(k % M.m, k / M.m), ⟨Nat.mod_lt _ hm, ?_, ?_⟩, ?_⟩
  · exact Nat.div_lt_of_lt_mul hk
  · have := Nat.mod_add_div k M.m
    dsimp only
    rw [Nat.mul_comm (k / M.m)]
    exact this
  · rintro ⟨i, j⟩ ⟨h1, h2, h3⟩
    dsimp only at h1 h2 h3
    have h4 : k % M.m + k / M.m * M.m = k := by
      have := Nat.mod_add_div k M.m
      rw [Nat.mul_comm (k / M.m)]
      exact this
    obtain ⟨a, b⟩ := index_inj (j := j) (j' := k / M.m) h1 (Nat.mod_lt k hm) (h3.trans h4.symm)
    rw [a, b]

/-- A freshly built matrix holds the initial value everywhere. -/
theorem make_get (m n : ℕ) (x : α) (i j : ℕ) (hi : i < m) (hj : j < n) : (make m n x).get i j = .ok x := by
  have := index_lt hi hj
  unfold get make
  dsimp only
  rw [readAt_of_lt (by simpa using this)]
  simp

/-- `resize` keeps elements when the number of rows stays the same and columns are only added … -/
theorem resize_keeps (M : DynMatrix α) (hM : M.Sized) (n : ℕ) (x : α) (hn : M.n ≤ n) (i j : ℕ) (hi : i < M.m) :
    (j < M.n → (M.resize M.m n x).get i j = M.get i j) ∧
    (M.n ≤ j → j < n → (M.resize M.m n x).get i j = .ok x) := by
  have hle : M.m * M.n ≤ M.m * n := Nat.mul_le_mul_left _ hn
  have hM' : M.data.length = M.m * M.n := hM
  have hdata : (M.resize M.m n x).data = M.data ++ List.replicate (M.m * n - M.data.length) x := by
    unfold resize vecResize
    rw [List.take_of_length_le (by omega)]
  constructor
  · intro hj
    have hl := index_lt hi hj
    unfold get
    rw [hdata]
    show readAt _ (i + j * M.m) = _
    rw [readAt_of_lt (by simp; omega), readAt_of_lt (by omega), List.getElem_append_left (by omega)]
  · intro hj hj'
    have hl := index_lt hi hj'
    have hge : M.data.length ≤ i + j * M.m := by
      have : M.n * M.m ≤ j * M.m := Nat.mul_le_mul_right _ hj
      rw [hM', Nat.mul_comm]
      omega
    unfold get
    rw [hdata]
    show readAt _ (i + j * M.m) = _
    rw [readAt_of_lt (by simp; omega), List.getElem_append_right hge]
    simp

/-- … but moves them when the number of rows changes: element (0,1) of a 1×2 matrix is element (1,0) after
`resize(2, 2)`. -/
theorem resize_moves : ∃ M : DynMatrix ℕ, M.Sized ∧ M.get 0 1 = .ok 8 ∧ (M.resize 2 2 0).get 0 1 = .ok 0 ∧
    (M.resize 2 2 0).get 1 0 = .ok 8 :=
  ⟨⟨1, 2, [7, 8]⟩, rfl, by decide, by decide, by decide⟩

example : ∃ M : DynMatrix ℕ, M.Sized ∧ 1 < M.m ∧ 2 < M.n := ⟨make 2 3 0, make_sized _ _ _, by decide, by decide⟩

end DynMatrix

/-! ### C40 -/

theorem linspaceLoop_spec (x2 dx : ℚ) (N : ℕ) (left k : ℕ) (out : List ℚ) (hlen : out.length = N) (hk : k + left = N) :
    ∃ r, linspaceLoop x2 dx N left k out = .ok r ∧ r.length = N ∧
      ∀ i, i < N → r[i]? = if i + k < N then some (x2 - ((N - 1 - i : ℕ) : ℚ) * dx) else out[i]? := by
  induction left generalizing k out with
  | zero =>
    refine ⟨out, rfl, hlen, ?_⟩
    intro i hi
    rw [if_neg (by omega)]
  | succ left ih =>
    unfold linspaceLoop
    rw [writeAt_of_lt (by omega)]
    simp only [Outcome.ok_bind]
    obtain ⟨r, h1, h2, h3⟩ := ih (k + 1) (out.set (N - 1 - k) (x2 - k * dx)) (by simpa using hlen) (by omega)
    refine ⟨r, h1, h2, ?_⟩
    intro i hi
    rw [h3 i hi]
    by_cases hc : i + (k + 1) < N
    · rw [if_pos hc, if_pos (by omega)]
    · rw [if_neg hc]
      by_cases hc' : i + k < N
      · have e : N - 1 - k = i := by omega
        rw [if_pos hc', e, List.getElem?_set_self (by omega)]
        have : N - 1 - i = k := by omega
        rw [this]
      · rw [if_neg hc', List.getElem?_set_ne (by omega)]

/-- C40: `linspace(x1, x2, N)` with `N ≥ 2` returns `N` entries without out-of-bounds access; the first is `x1`, the
last `x2`, and consecutive ones differ by `(x2 - x1)/(N - 1)`. -/
theorem linspace_spec (x1 x2 : ℚ) (N : ℕ) (hN : 2 ≤ N) :
    ∃ r, linspace x1 x2 N = .ok r ∧ r.length = N ∧ r[0]? = some x1 ∧ r[N - 1]? = some x2 ∧
      ∀ i a b, r[i]? = some a → r[i + 1]? = some b → b - a = (x2 - x1) / ((N : ℚ) - 1) := by
  have hNq : ((N - 1 : ℕ) : ℚ) = (N : ℚ) - 1 := by rw [Nat.cast_sub (by omega)]; simp
  have hpos : (0:ℚ) < (N:ℚ) - 1 := by
    have : (2:ℚ) ≤ N := by exact_mod_cast hN
    linarith
  obtain ⟨r, h1, h2, h3⟩ := linspaceLoop_spec x2 ((x2 - x1) / ((N - 1 : ℕ) : ℚ)) N N 0 (List.replicate N 0) (by simp) (by omega)
  have h3' : ∀ i, i < N → r[i]? = some (x2 - ((N - 1 - i : ℕ) : ℚ) * ((x2 - x1) / ((N : ℚ) - 1))) := by
    intro i hi
    rw [h3 i hi, if_pos (by omega), hNq]
  refine ⟨r, ?_, h2, ?_, ?_, ?_⟩
  · unfold linspace
    dsimp only
    rw [Int.toNat_natCast, if_neg (by omega), if_pos (by omega)]
    exact h1
  · rw [h3' 0 (by omega)]
    congr 1
    rw [Nat.sub_zero, hNq]
    field_simp
    ring
  · rw [h3' (N - 1) (by omega)]
    simp
  · intro i a b ha hb
    have hi : i + 1 < N := by
      by_contra hc
      rw [List.getElem?_eq_none (by omega)] at hb
      cases hb
    rw [h3' i (by omega)] at ha
    rw [h3' (i + 1) hi] at hb
    cases ha
    cases hb
    have e1 : ((N - 1 - i : ℕ) : ℚ) = ((N - 1 - (i + 1) : ℕ) : ℚ) + 1 := by
      have : N - 1 - i = (N - 1 - (i + 1)) + 1 := by omega
      rw [this]; push_cast; ring
    rw [e1]
    ring

/-- Short lengths: an empty result for `N ≤ 0`, the single value `x2` for `N = 1`. -/
theorem linspace_short (x1 x2 : ℚ) (N : ℤ) :
    (N ≤ 0 → linspace x1 x2 N = .ok []) ∧ linspace x1 x2 1 = .ok [x2] := by
  constructor
  · intro h
    unfold linspace
    have : N.toNat = 0 := by omega
    simp [this]
  · unfold linspace
    simp [linspaceLoop, writeAt]

example : linspace 1 2 5 = .ok [1, 5/4, 3/2, 7/4, 2] := by decide +kernel

/-- C40: `linspace_fix` represents the same values as `linspace`, for every `N`. -/
theorem linspaceFix_values (x1 x2 : ℚ) (N : ℤ) : (linspaceFix x1 x2 N).values = linspace x1 x2 N := by
  rcases lt_trichotomy N 1 with h | rfl | h
  · rw [(linspace_short x1 x2 N).1 (by omega)]
    unfold linspaceFix FixedData.values
    rw [if_pos h]
    rfl
  · rw [(linspace_short x1 x2 0).2]
    unfold linspaceFix FixedData.values FixedData.at_
    simp
  · obtain ⟨k, rfl⟩ := Int.eq_ofNat_of_zero_le (by omega : 0 ≤ N)
    obtain ⟨r, h1, h2, -⟩ := linspace_spec x1 x2 k (by omega)
    obtain ⟨r', g1, g2, g3⟩ := linspaceLoop_spec x2 ((x2 - x1) / ((k - 1 : ℕ) : ℚ)) k k 0 (List.replicate k 0) (by simp) (by omega)
    have hl : linspace x1 x2 k = .ok r' := by
      unfold linspace
      dsimp only
      rw [Int.toNat_natCast, if_neg (by omega), if_pos (by omega)]
      exact g1
    rw [hl]
    have hf : linspaceFix x1 x2 k = ⟨x1, (x2 - x1) / (((k : ℤ) - 1 : ℤ) : ℚ), k⟩ := by
      unfold linspaceFix
      rw [if_neg (by omega), if_neg (by omega)]
    rw [hf]
    unfold FixedData.values FixedData.at_
    dsimp only
    rw [if_neg (by omega), Int.toNat_natCast]
    congr 1
    apply List.ext_getElem?
    intro i
    by_cases hi : i < k
    · rw [g3 i hi, if_pos (by omega), List.getElem?_map, List.getElem?_range hi]
      simp only [Option.map_some, Option.some.injEq]
      have e1 : ((k - 1 - i : ℕ) : ℚ) = (k:ℚ) - 1 - i := by
        rw [Nat.cast_sub (by omega), Nat.cast_sub (by omega)]; simp
      have e2 : ((k - 1 : ℕ) : ℚ) = (k:ℚ) - 1 := by rw [Nat.cast_sub (by omega)]; simp
      have hk1 : (k:ℚ) - 1 ≠ 0 := by
        have : (1:ℚ) < k := by exact_mod_cast h
        linarith
      rw [e1, e2]
      push_cast
      field_simp
      ring
    · rw [List.getElem?_eq_none (by simp; omega), List.getElem?_eq_none (by omega)]

end Slide

import Verif.Lemmas.Csv

/-!
C41: the CSV readers return the numbers of the file.  C71: the cached reader.
-/

namespace Slide.Csv
open Spec

/-! ### Matrices of fixed size -/

/-- Full statement of C41, first half: a file of rows of comma separated numbers – with any white space in front, and
anything behind the rows that cannot continue the last number – is read into a matrix of that size exactly. -/
def MatReadsAll : Prop :=
  ∀ (cols : ℕ) (lead tail : List Char) (rows : List (List Field)) (old : List (List ℚ)),
    0 < cols → Rect cols rows → rows ≠ [] → Blanks lead → (tail = [] ∨ tail.head? = some '\n') →
    old.length = rows.length → (∀ o ∈ old, o.length = cols) →
    loadMat (some (lead ++ renderRows rows ++ tail)) old = .ok (numbers rows)

/-- Full statement of C41, second half: reading a matrix ends for every file. -/
def MatTerminates : Prop := ∀ (file : Option (List Char)) (old : List (List ℚ)), loadMat file old ≠ .ub "endless loop"

/-- A missing file is an error with code 2 for all readers. -/
theorem missing_file (old : List (List ℚ)) (n : ℤ) :
    loadMat none old = .throw 2 ∧ load2col none n = .throw 2 ∧ loadNcol none n = .throw 2 := ⟨rfl, rfl, rfl⟩

theorem skipLead_go (c : Char) (r : List Char) (h : 32 < c.toNat) : skipLead { rest := c :: r } = .ok { rest := c :: r } := by
  rw [skipLead]
  have hp : peek { rest := c :: r } = (some c, { rest := c :: r }) := rfl
  rw [hp]
  dsimp only
  rw [if_pos h]

theorem skipLead_eat (b : Char) (bs : List Char) (c : Char) (r : List Char) (hb : Blanks (b :: bs)) (hc : isSpace c = false) :
    skipLead { rest := (b :: bs) ++ c :: r } = skipLead { rest := r } := by
  have hg := getChar_blanks (b :: bs) c r hb hc
  have h32 : ¬ 32 < b.toNat := by
    rcases hb b (by simp) with rfl | rfl | rfl | rfl | rfl | rfl <;> decide
  have hp : peek { rest := (b :: bs) ++ c :: r } = (some b, { rest := (b :: bs) ++ c :: r }) := rfl
  rw [skipLead, hp]
  dsimp only
  rw [if_neg h32]
  split <;> rename_i e
  · rw [hg] at e; cases e
  · rw [hg] at e; cases e; rfl

/-- The row starts with the first character of its first number if that has no blanks in front. -/
theorem rows_head (cols : ℕ) (hc : 0 < cols) (rows : List (List Field)) (hr : Rect cols rows) (hne : rows ≠ [])
    (hpre : ∀ f fs rs, rows = (f :: fs) :: rs → f.pre = []) (tail : List Char) :
    ∃ c r, renderRows rows ++ tail = c :: r ∧ isSpace c = false ∧ 32 < c.toNat := by
  obtain ⟨r, rs, rfl⟩ := List.exists_cons_of_ne_nil hne
  have h1 := hr r (by simp)
  obtain ⟨f, fs, rfl⟩ : ∃ f fs, r = f :: fs := by
    cases r with
    | nil => simp at h1; omega
    | cons f fs => exact ⟨f, fs, rfl⟩
  obtain ⟨rest, hrest⟩ := renderRow_cons f fs
  obtain ⟨rest2, hrest2⟩ := renderRows_cons rs
  obtain ⟨c, l, hl, hh, _⟩ := render_head f.num (h1.2 f (by simp)).num
  obtain ⟨p1, p2, _⟩ := head_props hh
  refine ⟨c, l ++ f.post ++ rest ++ rest2 ++ tail, ?_, p1, p2⟩
  rw [hrest2, hrest f rfl, Field.render, hpre f fs rs rfl, hl]
  simp

theorem tail_stop (tail : List Char) (h : tail = [] ∨ tail.head? = some '\n') : Stop tail := by
  rcases h with rfl | h
  · exact stop_nil
  · cases tail with
    | nil => exact stop_nil
    | cons c r =>
      simp only [List.head?_cons, Option.some.injEq] at h
      subst h
      exact stop_cons _ (.inr rfl)

/-- C41 (partial): a file that starts with its first number is read exactly, whatever white space surrounds the other
numbers, with or without a newline at the end, and whatever follows behind the rows.  Missing: white space (or a byte
order mark) in front of the first number, see `loadMat_eats_first`. -/
theorem loadMat_reads_partial (cols : ℕ) (tail : List Char) (rows : List (List Field)) (old : List (List ℚ)) (hc : 0 < cols)
    (hr : Rect cols rows) (hne : rows ≠ []) (hpre : ∀ f fs rs, rows = (f :: fs) :: rs → f.pre = [])
    (ht : tail = [] ∨ tail.head? = some '\n') (hl : old.length = rows.length) (ho : ∀ o ∈ old, o.length = cols) :
    loadMat (some (renderRows rows ++ tail)) old = .ok (numbers rows) := by
  obtain ⟨c, r, he, _, h32⟩ := rows_head cols hc rows hr hne hpre tail
  have h := readRows_render cols hc rows [] old tail hr blanks_nil (tail_stop tail ht) hl ho
  rw [List.nil_append] at h
  unfold loadMat
  dsimp only
  rw [he, skipLead_go c r h32]
  show Outcome.ok (readRows { rest := c :: r } old) = _
  rw [← he, h]

/-- What white space in front of the first number does: the first character of the number is lost as well. -/
theorem loadMat_eats_first (b : Char) (bs : List Char) (c : Char) (r : List Char) (old : List (List ℚ))
    (hb : Blanks (b :: bs)) (hc : isSpace c = false) :
    loadMat (some ((b :: bs) ++ c :: r)) old = loadMat (some r) old := by
  unfold loadMat
  dsimp only
  rw [skipLead_eat b bs c r hb hc]

/-- White space is exactly the six characters of the C locale: after blanks, the next character that is none of them is
what is read, and nothing else is skipped. -/
theorem getChar_next (l : List Char) (c : Char) (r : List Char) (h : Blanks l) (hc : ¬ Blanks [c]) :
    getChar { rest := l ++ c :: r } = (some c, { rest := r }) := by
  refine getChar_blanks l c r h ?_
  by_contra hs
  apply hc
  intro d hd
  rw [List.mem_singleton.mp hd]
  have hs : isSpace c = true := by simpa using hs
  have he : ∀ e : Char, c.toNat = e.toNat → c = e := fun e h => Char.ext (UInt32.toNat_inj.mp h)
  simp only [isSpace, Bool.or_eq_true, beq_iff_eq, Bool.and_eq_true, decide_eq_true_eq] at hs
  have : c.toNat = 32 ∨ c.toNat = 9 ∨ c.toNat = 10 ∨ c.toNat = 13 ∨ c.toNat = 11 ∨ c.toNat = 12 := by omega
  rcases this with h | h | h | h | h | h
  · exact .inl (he _ h)
  · exact .inr (.inl (he _ h))
  · exact .inr (.inr (.inl (he _ h)))
  · exact .inr (.inr (.inr (.inl (he _ h))))
  · exact .inr (.inr (.inr (.inr (.inl (he _ h)))))
  · exact .inr (.inr (.inr (.inr (.inr (he _ h)))))

example : ¬ Blanks ['\x0e'] := by
  intro h
  have := h '\x0e' List.mem_cons_self
  revert this; decide

/-- The numerals `12` and `3` and the file `12,3`. -/
def twelve : Field := ⟨[], ⟨none, [1, 2], false, [], none⟩, []⟩
def three : Field := ⟨[], ⟨none, [3], false, [], none⟩, []⟩
/-- ` -0.5e+1`, a number with everything. -/
def fancy : Field := ⟨[' '], ⟨some true, [0], true, [5], some (false, some false, [1])⟩, ['\t']⟩

theorem twelve_wf : twelve.WF := ⟨⟨.inl (by decide), fun _ => rfl, by intro u s ds h; cases h⟩, blanks_nil, blanks_nil⟩
theorem three_wf : three.WF := ⟨⟨.inl (by decide), fun _ => rfl, by intro u s ds h; cases h⟩, blanks_nil, blanks_nil⟩
theorem fancy_wf : fancy.WF := by
  refine ⟨⟨.inl (by decide), ?_, ?_⟩, ?_, ?_⟩
  · intro h; cases h
  · intro u s ds h; cases h; decide
  · intro c hc; simp only [fancy, List.mem_singleton] at hc; exact .inl hc
  · intro c hc; simp only [fancy, List.mem_singleton] at hc; exact .inr (.inl hc)

theorem rect_example : Rect 2 [[twelve, fancy], [three, twelve]] := by
  intro r hr
  simp only [List.mem_cons, List.not_mem_nil, or_false] at hr
  rcases hr with rfl | rfl
  · refine ⟨rfl, fun f hf => ?_⟩
    simp only [List.mem_cons, List.not_mem_nil, or_false] at hf
    rcases hf with rfl | rfl
    · exact twelve_wf
    · exact fancy_wf
  · refine ⟨rfl, fun f hf => ?_⟩
    simp only [List.mem_cons, List.not_mem_nil, or_false] at hf
    rcases hf with rfl | rfl
    · exact three_wf
    · exact twelve_wf

/-- The hypotheses of `loadMat_reads_partial` are met by the file `12, -0.5e+1\t⏎3,12`. -/
example : 0 < 2 ∧ Rect 2 [[twelve, fancy], [three, twelve]] ∧
    (∀ f fs rs, [[twelve, fancy], [three, twelve]] = (f :: fs) :: rs → f.pre = []) ∧
    renderRows [[twelve, fancy], [three, twelve]] = "12, -0.5e+1\t\n3,12".toList ∧
    numbers [[twelve, fancy], [three, twelve]] = [[12, -5], [3, 12]] := by
  refine ⟨by decide, rect_example, ?_, by decide, ?_⟩
  · intro f fs rs h; cases h; rfl
  · decide +kernel

/-- C41 is false of the code with white space in front: `⏎12,3` is read as 2 and 3. -/
theorem not_matReadsAll : ¬ MatReadsAll := by
  intro h
  have hr : Rect 2 [[twelve, three]] := by
    intro r hr
    simp only [List.mem_singleton] at hr
    subst hr
    refine ⟨rfl, fun f hf => ?_⟩
    simp only [List.mem_cons, List.not_mem_nil, or_false] at hf
    rcases hf with rfl | rfl
    · exact twelve_wf
    · exact three_wf
  have h1 := h 2 ['\n'] [] [[twelve, three]] [[0, 0]] (by decide) hr (by simp) blanks_newline (.inl rfl) rfl (by simp)
  have h2 := loadMat_eats_first '\n' [] '1' "2,3".toList [[0, 0]] blanks_newline (by decide)
  have e : ['\n'] ++ renderRows [[twelve, three]] ++ [] = ['\n'] ++ '1' :: "2,3".toList := by decide
  rw [e, h2] at h1
  have h3 : skipLead { rest := "2,3".toList } = _ := skipLead_go '2' [',', '3'] (by decide)
  unfold loadMat at h1
  dsimp only at h1
  rw [h3] at h1
  have h4 : readRows { rest := ['2', ',', '3'] } [[0, 0]] = numbers [[twelve, three]] := Outcome.ok.inj h1
  revert h4
  decide +kernel

/-- C41 is false of the code for an empty file: the loop that skips white space never ends. -/
theorem not_matTerminates : ¬ MatTerminates := by
  intro h
  apply h (some []) []
  unfold loadMat
  dsimp only
  rw [skipLead]
  rfl

/-- The reader ends for every file that starts with a visible character. -/
theorem loadMat_terminates_partial (c : Char) (r : List Char) (old : List (List ℚ)) (h : 32 < c.toNat) :
    ∃ x, loadMat (some (c :: r)) old = .ok x := by
  unfold loadMat
  dsimp only
  rw [skipLead_go c r h]
  exact ⟨_, rfl⟩

/-- Numbers that are missing in the file are not reported: the old contents stay. -/
example : readRows { rest := "1,2".toList } [[7, 7], [7, 7]] = [[1, 2], [7, 7]] := by decide +kernel

/-! ### Two columns -/

/-- C41 for files of two columns: whatever byte order mark, white space or other bytes that count as less than `-` are in
front, and whatever white space is at the end, the reader returns all rows (`n = 0`) or the first `n` rows. -/
theorem load2col_reads (bom tail : List Char) (rows : List (List Field)) (n : ℕ) (hb : ∀ c ∈ bom, signedCode c < 45)
    (hr : Rect 2 rows) (hne : rows ≠ []) (ht : Blanks tail) :
    ∃ x, load2col (some (bom ++ (renderRows rows ++ tail))) n = .ok x ∧
      x.map (fun p => [p.1, p.2]) = if n = 0 then numbers rows else (numbers rows).take n := by
  obtain ⟨rows', h1, h2, _, h4⟩ := ignoreBOM_rows 2 (by decide) bom hb rows hr hne tail
  unfold load2col
  dsimp only
  rw [h4]
  refine ⟨_, rfl, ?_⟩
  have h := readPairs_rows rows' (if (n : ℤ) = 0 then none else some (n : ℤ).toNat) [] tail h1 blanks_nil ht
  rw [List.nil_append] at h
  rw [h, h2]
  by_cases h0 : n = 0
  · subst h0; rfl
  · rw [if_neg (by exact_mod_cast h0), if_neg h0]
    rfl

/-- The hypotheses are met by a file with a UTF-8 byte order mark. -/
example : (∀ c ∈ [Char.ofNat 0xEF, Char.ofNat 0xBB, Char.ofNat 0xBF], signedCode c < 45) ∧
    Rect 2 [[twelve, fancy], [three, twelve]] ∧ Blanks ['\n'] := by
  refine ⟨by decide, rect_example, blanks_newline⟩

/-- Reading two columns ends for every file. -/
def TwoColTerminates : Prop := ∀ (file : Option (List Char)) (n : ℤ), load2col file n ≠ .ub "endless loop"

/-- That is false: for the file `,` the loop that skips the byte order mark never ends (an empty file is fine). -/
theorem not_twoColTerminates : ¬ TwoColTerminates := by
  intro h
  apply h (some [',']) 0
  have h1 : ignoreBOM '.' { rest := [','] } = .ub "endless loop" := by
    rw [ignoreBOM_eq, getChar_plain ',' [] (by decide)]
    dsimp only
    rw [if_pos (by decide), ignoreBOM_eq]
    rfl
  unfold load2col
  dsimp only
  rw [h1]
  rfl

/-- The reader ends for an empty file and for every file with a visible character that is not less than `-`. -/
theorem load2col_terminates_partial (f : List Char) (n : ℤ)
    (h : f = [] ∨ ∃ c ∈ f, isSpace c = false ∧ 45 ≤ signedCode c) : ∃ x, load2col (some f) n = .ok x := by
  rcases h with rfl | h
  · have h1 : ignoreBOM '.' { rest := [] } = .ok { rest := [], eof := false, fail := true } := by
      rw [ignoreBOM_eq]; rfl
    unfold load2col
    dsimp only
    rw [h1]
    exact ⟨_, rfl⟩
  · have key : ∀ (l : List Char) (c0 : Char), (∃ c ∈ l, isSpace c = false ∧ 45 ≤ signedCode c) →
        ∃ s, ignoreBOM c0 { rest := l } = .ok s := by
      intro l
      induction l with
      | nil => rintro c0 ⟨c, hc, _⟩; cases hc
      | cons a l ih =>
        rintro c0 ⟨c, hc, hs, h45⟩
        by_cases ha : isSpace a = true
        · rw [ignoreBOM_congr c0 _ _ (getChar_space a l ha)]
          refine ih c0 ⟨c, ?_, hs, h45⟩
          rcases List.mem_cons.mp hc with rfl | hc
          · rw [hs] at ha; cases ha
          · exact hc
        · rw [ignoreBOM_eq, getChar_plain a l (by simpa using ha)]
          dsimp only
          by_cases h : signedCode a < 45
          · rw [if_pos h]
            refine ih a ⟨c, ?_, hs, h45⟩
            rcases List.mem_cons.mp hc with rfl | hc
            · omega
            · exact hc
          · rw [if_neg h]; exact ⟨_, rfl⟩
    obtain ⟨s, hs⟩ := key f '.' h
    unfold load2col
    dsimp only
    rw [hs]
    exact ⟨_, rfl⟩

/-! ### Any number of columns -/

/-- C41 for files with any number of columns: row `r`, column `c` of the file is `x(c, r)`, for all rows or the first `n`.
(Line breaks may not occur inside a row, and only one at the end: an empty last line would be counted as a row.) -/
theorem loadNcol_reads (cols : ℕ) (hc : 0 < cols) (bom tail : List Char) (rows : List (List Field)) (n : ℕ)
    (hb : ∀ c ∈ bom, signedCode c < 45) (hr : Rect cols rows) (hne : rows ≠ [])
    (hnl : ∀ r ∈ rows, ∀ f ∈ r, '\n' ∉ f.pre ∧ '\n' ∉ f.post) (ht : tail = [] ∨ tail = ['\n']) :
    ∃ x : DynMat, loadNcol (some (bom ++ (renderRows rows ++ tail))) n = .ok x ∧ x.m = cols ∧
      x.n = (if n = 0 then rows.length else min n rows.length) ∧
      ∀ r c (hr : r < rows.length) (hc : c < (rows[r]'hr).length), r < x.n → x.get c r = .ok ((rows[r]'hr)[c]'hc).num.value := by
  obtain ⟨rows', h1, h2, h3, h4⟩ := ignoreBOM_rows cols hc bom hb rows hr hne tail
  have hlen : rows'.length = rows.length := by
    have := congrArg List.length h2
    simpa [numbers] using this
  have hne' : rows' ≠ [] := by
    intro e; rw [e] at hlen
    exact hne (List.eq_nil_of_length_eq_zero hlen.symm)
  have hL := getLines_rows cols hc rows' tail h1 (h3 '\n' hnl) hne' ht
  -- the rows that are read
  obtain ⟨k, hk⟩ : ∃ k, k = if n = 0 then rows'.length else n := ⟨_, rfl⟩
  have hkpos : 0 < k := by
    rw [hk]
    by_cases h0 : n = 0
    · rw [if_pos h0]; exact List.length_pos_of_ne_nil hne'
    · rw [if_neg h0]; omega
  have hlines : (if (n : ℤ) = 0 then rows'.map renderRow else (rows'.map renderRow).take (n : ℤ).toNat) =
      (rows'.take k).map renderRow := by
    rw [hk]
    by_cases h0 : n = 0
    · subst h0; simp
    · rw [if_neg (by exact_mod_cast h0), if_neg h0, List.map_take]; rfl
  have hrect : Rect cols (rows'.take k) := fun r hr => h1 r (List.mem_of_mem_take hr)
  have hdata := flatMap_parse cols hc (rows'.take k) hrect
  have hnum := numbers_length cols _ hrect
  have htake : numbers (rows'.take k) = (numbers rows).take k := by
    rw [← h2]; unfold numbers; rw [List.map_take]
  have hnonempty : (rows'.take k).map renderRow ≠ [] := by
    intro e
    have := congrArg List.length e
    simp only [List.length_map, List.length_take, List.length_nil] at this
    have h5 := List.length_pos_of_ne_nil hne'
    omega
  have hflat := flatten_length cols _ hnum
  have hnl2 : (numbers (rows'.take k)).length = (rows'.take k).length := by simp [numbers]
  have htl : 0 < (rows'.take k).length := by
    rw [List.length_take]
    have h5 := List.length_pos_of_ne_nil hne'
    omega
  refine ⟨{ m := cols, n := (rows'.take k).length, data := (numbers (rows'.take k)).flatten }, ?_, rfl, ?_, ?_⟩
  · unfold loadNcol
    dsimp only
    rw [h4]
    show (if _ then _ else _) = _
    simp only [Bool.false_eq_true, if_false]
    rw [hL, hlines, if_neg hnonempty, hdata, List.length_map, hflat, hnl2, Nat.mul_div_cancel_left _ htl]
  · show (rows'.take k).length = _
    rw [List.length_take, hk, hlen]
    by_cases h0 : n = 0
    · rw [if_pos h0, if_pos h0]; simp
    · rw [if_neg h0, if_neg h0]
  · intro r c hrr hcc hrx
    have hrx : r < (rows'.take k).length := hrx
    have hrk : r < k := by rw [List.length_take] at hrx; omega
    have hcols : c < cols := by rw [← (hr _ (List.getElem_mem hrr)).1]; exact hcc
    have hget := flatten_get cols _ hnum r c hcols
    show readAt (numbers (rows'.take k)).flatten (c + r * cols) = _
    unfold readAt
    have hval : (numbers (rows'.take k))[r]?.bind (·[c]?) = some ((rows[r]'hrr)[c]'hcc).num.value := by
      rw [htake, List.getElem?_take_of_lt hrk]
      simp [numbers, hrr, hcc]
    rw [hval] at hget
    rw [hget]

/-- The hypotheses are met by the file `12, -0.5e+1\t⏎3,12⏎`. -/
example : Rect 2 [[twelve, fancy], [three, twelve]] ∧
    (∀ r ∈ [[twelve, fancy], [three, twelve]], ∀ f ∈ r, '\n' ∉ f.pre ∧ '\n' ∉ f.post) := by
  refine ⟨rect_example, ?_⟩
  decide

/-- Every file that is no error gives a matrix. -/
def NcolDefined : Prop := ∀ (f : List Char) (n : ℤ), ∃ x, loadNcol (some f) n = .ok x

/-- That is false: an empty file divides by zero rows. -/
theorem not_ncolDefined : ¬ NcolDefined := by
  intro h
  obtain ⟨x, hx⟩ := h [] 0
  have h1 : ignoreBOM '.' { rest := [] } = .ok { rest := [], eof := false, fail := true } := by
    rw [ignoreBOM_eq]; rfl
  unfold loadNcol at hx
  dsimp only at hx
  rw [h1] at hx
  cases hx

/-! ### C71: the cached reader -/

/-- C71: once a file has been read, the same rows are returned at every later call – whatever has happened to the file on
the disk – and the cache is unchanged; other files are read from the disk. -/
theorem span_reads_once (cache cache' : Cache) (disk disk' : String → Option (List Char)) (name : String) (x : List (ℚ × ℚ))
    (h : load2colSpan cache disk name 0 = (.ok x, cache')) (n : ℕ) (hn : n ≤ x.length) :
    load2colSpan cache' disk' name n = (.ok (if n = 0 then x else x.take n), cache') := by
  have hlook : cache'.lookup name = some x := by
    unfold load2colSpan at h
    dsimp only at h
    cases hc : cache.lookup name with
    | some d => rw [hc] at h; cases h; exact hc
    | none =>
      rw [hc] at h
      dsimp only at h
      cases hd : load2col (disk name) 0 with
      | ok d => rw [hd] at h; cases h; simp
      | throw e => rw [hd] at h; cases h
      | ub w => rw [hd] at h; cases h
  unfold load2colSpan
  rw [hlook]
  dsimp only
  by_cases h0 : n = 0
  · subst h0; rfl
  · rw [if_neg (by exact_mod_cast h0), if_neg h0, if_neg (by push Not; exact ⟨by omega, by exact_mod_cast hn⟩)]
    rfl

/-- A file that was not read before is read from the disk; a failed read is not remembered. -/
theorem span_first_read (cache : Cache) (disk : String → Option (List Char)) (name : String)
    (h : cache.lookup name = none) :
    (∀ x, load2col (disk name) 0 = .ok x → load2colSpan cache disk name 0 = (.ok x, (name, x) :: cache)) ∧
    (∀ e n, load2col (disk name) 0 = .throw e → load2colSpan cache disk name n = (.throw e, cache)) := by
  refine ⟨fun x hx => ?_, fun e n he => ?_⟩
  · unfold load2colSpan; rw [h]; dsimp only; rw [hx]; rfl
  · unfold load2colSpan; rw [h]; dsimp only; rw [he]

/-- Reading one file does not change what the cache knows of another. -/
theorem span_other (cache : Cache) (disk : String → Option (List Char)) (name other : String) (n : ℤ) (h : other ≠ name) :
    (load2colSpan cache disk name n).2.lookup other = cache.lookup other := by
  have key : ∀ r : Outcome (List (ℚ × ℚ)) × Cache, r.2.lookup other = cache.lookup other →
      (match r with
        | (.ok d, c) =>
          if n = 0 then ((.ok d, c) : Outcome (List (ℚ × ℚ)) × Cache)
          else if n < 0 ∨ d.length < n then (.ub "span beyond the data", c)
          else (.ok (d.take n.toNat), c)
        | r => r).2.lookup other = cache.lookup other := by
    rintro ⟨o, c⟩ hr
    cases o with
    | ok d =>
      dsimp only
      split_ifs <;> exact hr
    | throw e => exact hr
    | ub w => exact hr
  unfold load2colSpan
  apply key
  cases hc : cache.lookup name with
  | some d => rfl
  | none =>
    dsimp only
    cases hd : load2col (disk name) 0 with
    | ok d =>
      dsimp only
      rw [List.lookup_cons]
      have : (other == name) = false := by simpa using h
      rw [this]
    | throw e => rfl
    | ub w => rfl

/-- Full statement of C71 with any number of rows: asking for a number of rows is always answered or refused. -/
def SpanDefined : Prop := ∀ (cache : Cache) (disk : String → Option (List Char)) (name : String) (n : ℤ),
  cache.lookup name ≠ none → ∀ w, (load2colSpan cache disk name n).1 ≠ .ub w

/-- C71 is false of the code when more rows are asked for than the file has: the span reaches beyond the data. -/
theorem not_spanDefined : ¬ SpanDefined := by
  intro h
  exact h [("a", [(1, 2)])] (fun _ => none) "a" 2 (by decide) _ rfl

/-- The first load of the two-row file, then a longer prefix. -/
example : (load2colSpan [("a", [(1, 2), (3, 4)])] (fun _ => none) "a" 1).1 = .ok [(1, 2)] := by decide +kernel

end Slide.Csv

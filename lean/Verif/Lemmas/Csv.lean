import Verif.Spec.Csv
import Verif.Tac
import Mathlib.Tactic.FieldSimp
import Mathlib.Data.List.TakeWhile

/-!
Helper lemmas for the CSV readers: reading back one numeral, one row and several rows.
-/

namespace Slide.Csv
open Spec

theorem dchar_digit : ∀ d : Fin 10, isDigit (dchar d) = true ∧ digit (dchar d) = d.val ∧ isSpace (dchar d) = false ∧
    dchar d ≠ '.' ∧ dchar d ≠ 'e' ∧ dchar d ≠ 'E' ∧ dchar d ≠ '-' ∧ dchar d ≠ '+' ∧ dchar d ≠ ',' ∧ 45 ≤ signedCode (dchar d) ∧
    dchar d ≠ '\n' ∧ 32 < (dchar d).toNat := by decide

/-- The list does not start with a character that could continue a number. -/
def Stop (l : List Char) : Prop := ∀ c r, l = c :: r → isDigit c = false ∧ c ≠ '.' ∧ c ≠ 'e' ∧ c ≠ 'E'

/-- The list does not start with a digit. -/
def NoDigit (l : List Char) : Prop := ∀ c r, l = c :: r → isDigit c = false

theorem Stop.noDigit {l : List Char} (h : Stop l) : NoDigit l := fun c r e => (h c r e).1

theorem takeWhile_digits (ds : List (Fin 10)) (r : List Char) (hr : NoDigit r) :
    (digitChars ds ++ r).takeWhile isDigit = digitChars ds ∧ (digitChars ds ++ r).dropWhile isDigit = r := by
  induction ds with
  | nil =>
    cases r with
    | nil => simp [digitChars]
    | cons c r => have := hr c r rfl; simp [digitChars, this]
  | cons d ds ih =>
    have hd := (dchar_digit d).1
    simp only [digitChars, List.map_cons, List.cons_append] at ih ⊢
    rw [List.takeWhile_cons_of_pos hd, List.dropWhile_cons_of_pos hd, ih.1, ih.2]
    exact ⟨rfl, rfl⟩

theorem digitsVal_foldl (ds : List (Fin 10)) (n : ℕ) :
    (digitChars ds).foldl (fun n c => 10 * n + digit c) n = 10 ^ ds.length * n + whole ds := by
  induction ds generalizing n with
  | nil => simp [digitChars, whole]
  | cons d ds ih =>
    simp only [digitChars, List.map_cons, List.foldl_cons] at ih ⊢
    rw [ih, (dchar_digit d).2.1]
    unfold whole
    simp only [List.reverse_cons, List.map_append, List.map_cons, List.map_nil, Nat.ofDigits_append, List.length_map,
      List.length_reverse, Nat.ofDigits_singleton, List.length_cons]
    ring

theorem digitsVal_eq (ds : List (Fin 10)) : digitsVal (digitChars ds) = whole ds := by
  unfold digitsVal
  rw [digitsVal_foldl]; simp

theorem whole_append (a b : List (Fin 10)) : whole (a ++ b) = 10 ^ b.length * whole a + whole b := by
  rw [← digitsVal_eq, ← digitsVal_eq a]
  have : digitChars (a ++ b) = digitChars a ++ digitChars b := by simp [digitChars]
  rw [this]
  unfold digitsVal
  rw [List.foldl_append, digitsVal_foldl b]

/-- The list does not start with a sign. -/
def NoSign (l : List Char) : Prop := ∀ c r, l = c :: r → c ≠ '-' ∧ c ≠ '+'

theorem takeSign_render (s : Option Bool) (r : List Char) (hr : NoSign r) :
    takeSign (signChars s ++ r) = (decide (s = some true), r) := by
  cases s with
  | none =>
    cases r with
    | nil => rfl
    | cons c r =>
      have := hr c r rfl
      simp [signChars, takeSign, this.1, this.2]
  | some b => cases b <;> simp [signChars, takeSign]

theorem noSign_digits (ds : List (Fin 10)) (h : ds ≠ []) (r : List Char) : NoSign (digitChars ds ++ r) := by
  obtain ⟨d, ds, rfl⟩ := List.exists_cons_of_ne_nil h
  intro c r' e
  simp only [digitChars, List.map_cons, List.cons_append, List.cons.injEq] at e
  rw [← e.1]
  exact ⟨(dchar_digit d).2.2.2.2.2.2.1, (dchar_digit d).2.2.2.2.2.2.2.1⟩

/-- The characters of an exponent. -/
def expChars : Option (Bool × Option Bool × List (Fin 10)) → List Char
  | none => []
  | some (u, s, ds) => (if u then 'E' else 'e') :: (signChars s ++ digitChars ds)

theorem takeExp_render (e : Option (Bool × Option Bool × List (Fin 10))) (he : ∀ u s ds, e = some (u, s, ds) → ds ≠ [])
    (r : List Char) (hr : Stop r) :
    takeExp true (expChars e ++ r) = (e.map fun p => some (signVal p.2.1 * (whole p.2.2 : ℤ)), r) := by
  cases e with
  | none =>
    cases r with
    | nil => rfl
    | cons c r =>
      have := hr c r rfl
      simp [expChars, takeExp, this.2.2.1, this.2.2.2]
  | some p =>
    obtain ⟨u, s, ds⟩ := p
    have hds := he u s ds rfl
    have h1 : takeSign (signChars s ++ (digitChars ds ++ r)) = _ := takeSign_render s _ (noSign_digits ds hds r)
    have h2 := takeWhile_digits ds r hr.noDigit
    have hne : digitChars ds ≠ [] := by simpa [digitChars] using hds
    have hc : (if u = true then 'E' else 'e') = 'e' ∨ (if u = true then 'E' else 'e') = 'E' := by cases u <;> simp
    simp only [expChars, List.cons_append, List.append_assoc, takeExp]
    rw [if_pos ⟨hc, trivial⟩, h1]
    dsimp only
    rw [h2.1, h2.2, if_neg hne, digitsVal_eq]
    rcases s with _ | b
    · simp [signVal]
    · cases b <;> simp [signVal]

theorem takeFrac_render (point : Bool) (fp : List (Fin 10)) (r : List Char) (hr : NoDigit r)
    (hp : point = false → fp = [] ∧ ∀ c r', r = c :: r' → c ≠ '.') :
    takeFrac ((if point then '.' :: digitChars fp else []) ++ r) = (digitChars fp, r) := by
  cases point with
  | true =>
    have h2 := takeWhile_digits fp r hr
    simp [takeFrac, h2.1, h2.2]
  | false =>
    obtain ⟨h1, h2⟩ := hp rfl
    subst h1
    cases r with
    | nil => rfl
    | cons c r =>
      have := h2 c r rfl
      simp [takeFrac, this, digitChars]

theorem expChars_head (e : Option (Bool × Option Bool × List (Fin 10))) (r : List Char) :
    ∀ c r', expChars e ++ r = c :: r' → isDigit c = false ∧ c ≠ '.' ∧ c ≠ '-' ∨ e = none := by
  intro c r' h
  cases e with
  | none => exact .inr rfl
  | some p =>
    obtain ⟨u, s, ds⟩ := p
    simp only [expChars, List.cons_append, List.cons.injEq] at h
    refine .inl ?_
    rw [← h.1]
    cases u <;> decide

/-- Reading back a numeral that is followed by something that cannot continue it. -/
theorem takeNum_render (x : Numeral) (hx : x.WF) (r : List Char) (hr : Stop r) :
    takeNum (x.render ++ r) = (some x.value, r) := by
  obtain ⟨sign, ip, point, fp, exp⟩ := x
  have hd : ip ≠ [] ∨ fp ≠ [] := hx.digits
  have hf : point = false → fp = [] := hx.frac
  have he : ∀ u s ds, exp = some (u, s, ds) → ds ≠ [] := hx.exp
  have hren : (Numeral.render ⟨sign, ip, point, fp, exp⟩) ++ r =
      signChars sign ++ (digitChars ip ++ ((if point then '.' :: digitChars fp else []) ++ (expChars exp ++ r))) := by
    unfold Numeral.render expChars
    rcases exp with _ | ⟨u, s, ds⟩ <;> simp
  -- what follows the digits
  have hE : NoDigit (expChars exp ++ r) ∧ ∀ c r', expChars exp ++ r = c :: r' → c ≠ '.' := by
    cases exp with
    | none => exact ⟨hr.noDigit, fun c r' e => (hr c r' e).2.1⟩
    | some p =>
      constructor
      · intro c r' h
        rcases expChars_head (some p) r c r' h with h | h
        · exact h.1
        · cases h
      · intro c r' h
        rcases expChars_head (some p) r c r' h with h | h
        · exact h.2.1
        · cases h
  have hP : NoDigit ((if point then '.' :: digitChars fp else []) ++ (expChars exp ++ r)) := by
    cases point with
    | true =>
      intro c r' h
      simp at h
      rw [← h.1]; decide
    | false => simpa using hE.1
  have hS : NoSign (digitChars ip ++ ((if point then '.' :: digitChars fp else []) ++ (expChars exp ++ r))) := by
    by_cases hip : ip = []
    · subst hip
      have hfp : fp ≠ [] := by simpa using hd
      have hpt : point = true := by
        cases point with
        | true => rfl
        | false => exact absurd (hf rfl) hfp
      subst hpt
      intro c r' h
      simp [digitChars] at h
      rw [← h.1]; decide
    · exact noSign_digits ip hip _
  have t1 := takeSign_render sign _ hS
  have t2 := takeWhile_digits ip _ hP
  have t3 := takeFrac_render point fp (expChars exp ++ r) hE.1 (fun h => ⟨hf h, hE.2⟩)
  have hne : digitChars ip ++ digitChars fp ≠ [] := by
    rcases hd with h | h <;> simp [digitChars, h]
  have t4 := takeExp_render exp he r hr
  have hcat : digitChars ip ++ digitChars fp = digitChars (ip ++ fp) := by simp [digitChars]
  rw [hren]
  unfold takeNum
  rw [t1]
  dsimp only
  rw [t2.1, t2.2, t3]
  dsimp only
  rw [if_neg hne, decide_eq_true hne, t4]
  refine Prod.ext ?_ rfl
  dsimp only
  have hlen : (digitChars fp).length = fp.length := by simp [digitChars]
  rw [hcat, digitsVal_eq, whole_append, hlen]
  have hmant : (if decide (sign = some true) = true then (-1:ℚ) else 1) * ((10 ^ fp.length * whole ip + whole fp : ℕ) : ℚ) /
      10 ^ fp.length = (signVal sign : ℚ) * (whole ip + whole fp / 10 ^ fp.length) := by
    have h10 : (10 : ℚ) ^ fp.length ≠ 0 := by positivity
    have hs : (if decide (sign = some true) = true then (-1:ℚ) else 1) = (signVal sign : ℚ) := by
      rcases sign with _ | b
      · simp [signVal]
      · cases b <;> simp [signVal]
    rw [hs]
    push_cast
    field_simp
  rw [hmant]
  unfold Numeral.value
  rcases exp with _ | ⟨u, s, ds⟩
  · simp
  · simp

/-! ### Reading back one numeral from a stream -/

theorem blank_space {l : List Char} (h : Blanks l) (c : Char) (hc : c ∈ l) : isSpace c = true := by
  rcases h c hc with rfl | rfl | rfl | rfl | rfl | rfl <;> decide

theorem dropWhile_blanks (l r : List Char) (h : Blanks l) (hr : ∀ c r', r = c :: r' → isSpace c = false) :
    (l ++ r).dropWhile isSpace = r := by
  induction l with
  | nil =>
    cases r with
    | nil => rfl
    | cons c r => have := hr c r rfl; simp [this]
  | cons c l ih =>
    have hc := blank_space h c (by simp)
    rw [List.cons_append, List.dropWhile_cons_of_pos hc, ih (fun c hc => h c (by simp [hc]))]

/-- First character of a numeral. -/
theorem render_head (x : Numeral) (hx : x.WF) : ∃ c l, x.render = c :: l ∧
    (c = '-' ∨ c = '+' ∨ c = '.' ∨ ∃ d, c = dchar d) ∧ (c = '+' → x.sign = some false) := by
  obtain ⟨sign, ip, point, fp, exp⟩ := x
  have hd : ip ≠ [] ∨ fp ≠ [] := hx.digits
  have hf : point = false → fp = [] := hx.frac
  unfold Numeral.render
  rcases sign with _ | b
  · cases ip with
    | cons d ip =>
      refine ⟨dchar d, _, rfl, .inr (.inr (.inr ⟨d, rfl⟩)), fun e => absurd e (dchar_digit d).2.2.2.2.2.2.2.1⟩
    | nil =>
      have hfp : fp ≠ [] := by simpa using hd
      have hpt : point = true := by
        cases point with
        | true => rfl
        | false => exact absurd (hf rfl) hfp
      subst hpt
      exact ⟨'.', _, rfl, .inr (.inr (.inl rfl)), fun e => absurd e (by decide)⟩
  · cases b
    · exact ⟨'+', _, rfl, .inr (.inl rfl), fun _ => rfl⟩
    · exact ⟨'-', _, rfl, .inl rfl, fun e => absurd e (by decide)⟩

theorem head_props {c : Char} (h : c = '-' ∨ c = '+' ∨ c = '.' ∨ ∃ d, c = dchar d) :
    isSpace c = false ∧ 32 < c.toNat ∧ c ≠ '\n' ∧ c ≠ ',' ∧ (c ≠ '+' → 45 ≤ signedCode c) := by
  rcases h with rfl | rfl | rfl | ⟨d, rfl⟩
  · decide
  · decide
  · decide
  · obtain ⟨_, _, h1, _, _, _, _, _, h2, h3, h4, h5⟩ := dchar_digit d
    exact ⟨h1, h5, h4, h2, fun _ => h3⟩

theorem sentry_blanks (l : List Char) (c : Char) (r : List Char) (h : Blanks l) (hc : isSpace c = false) :
    sentry { rest := l ++ c :: r } = (true, { rest := c :: r }) := by
  unfold sentry
  dsimp only
  rw [if_neg (by simp), dropWhile_blanks l (c :: r) h (by intro c' r' e; cases e; exact hc), if_neg (by simp)]

theorem getNum_render (pre : List Char) (x : Numeral) (r : List Char) (hp : Blanks pre) (hx : x.WF) (hr : Stop r) :
    getNum { rest := pre ++ (x.render ++ r) } = (some x.value, { rest := r, eof := r.isEmpty }) := by
  obtain ⟨c, l, hc, hh, _⟩ := render_head x hx
  have hs := sentry_blanks pre c (l ++ r) hp (head_props hh).1
  have h := takeNum_render x hx r hr
  rw [hc] at h ⊢
  unfold getNum
  rw [List.cons_append, hs]
  dsimp only
  rw [if_pos rfl, ← List.cons_append, h]
  rfl

theorem getChar_blanks (l : List Char) (c : Char) (r : List Char) (h : Blanks l) (hc : isSpace c = false) :
    getChar { rest := l ++ c :: r } = (some c, { rest := r }) := by
  unfold getChar
  rw [sentry_blanks l c r h hc]
  rfl

theorem stop_blank (l r : List Char) (h : Blanks l) (hr : Stop r) : Stop (l ++ r) := by
  cases l with
  | nil => exact hr
  | cons a l =>
    intro c r' e
    simp only [List.cons_append, List.cons.injEq] at e
    rw [← e.1]
    rcases h a (by simp) with rfl | rfl | rfl | rfl | rfl | rfl <;> decide

theorem stop_cons {c : Char} (r : List Char) (h : c = ',' ∨ c = '\n') : Stop (c :: r) := by
  intro c' r' e
  cases e
  rcases h with rfl | rfl <;> decide

theorem stop_nil : Stop [] := by intro c r e; cases e

/-! ### Rows of a matrix -/

theorem blanks_append {a b : List Char} (ha : Blanks a) (hb : Blanks b) : Blanks (a ++ b) := by
  intro c hc
  rcases List.mem_append.mp hc with h | h
  · exact ha c h
  · exact hb c h

theorem blanks_newline : Blanks ['\n'] := by
  intro c hc
  simp only [List.mem_singleton] at hc
  exact .inr (.inr (.inl hc))

theorem blanks_nil : Blanks [] := by intro c hc; cases hc

theorem readInto_render (b : List Char) (f : Field) (r : List Char) (old : ℚ) (hb : Blanks b) (hf : f.WF) (hr : Stop r) :
    readInto { rest := b ++ (f.render ++ r) } old =
      (f.num.value, { rest := f.post ++ r, eof := (f.post ++ r).isEmpty }) := by
  have := getNum_render (b ++ f.pre) f.num (f.post ++ r) (blanks_append hb hf.pre) hf.num (stop_blank _ _ hf.post hr)
  have e : b ++ (f.render ++ r) = (b ++ f.pre) ++ (f.num.render ++ (f.post ++ r)) := by simp [Field.render]
  unfold readInto
  rw [e, this]
  rfl

theorem readRow_render : ∀ (fs : List Field) (b : List Char) (olds : List ℚ) (tail : List Char), fs ≠ [] →
    (∀ f ∈ fs, f.WF) → Blanks b → Stop tail → olds.length = fs.length →
    ∃ p, Blanks p ∧ readRow { rest := b ++ (renderRow fs ++ tail) } olds =
      (fs.map fun f => f.num.value, { rest := p ++ tail, eof := (p ++ tail).isEmpty })
  | [], _, _, _, h, _, _, _, _ => absurd rfl h
  | [f], b, olds, tail, _, hf, hb, ht, hl => by
    obtain ⟨o, rfl⟩ := List.length_eq_one_iff.mp hl
    have hw := hf f (by simp)
    refine ⟨f.post, hw.post, ?_⟩
    rw [readRow, renderRow, readInto_render b f tail o hb hw ht]
    rfl
  | f :: g :: fs, b, olds, tail, _, hf, hb, ht, hl => by
    obtain ⟨o, o2, olds, rfl⟩ : ∃ o o2 l, olds = o :: o2 :: l := by
      match olds, hl with
      | o :: o2 :: l, _ => exact ⟨o, o2, l, rfl⟩
    have hw := hf f (by simp)
    obtain ⟨p, hp, ih⟩ := readRow_render (g :: fs) [] (o2 :: olds) tail (by simp) (fun x hx => hf x (by simp [hx]))
      blanks_nil ht (by simpa using hl)
    refine ⟨p, hp, ?_⟩
    have e : b ++ (renderRow (f :: g :: fs) ++ tail) = b ++ (f.render ++ (',' :: (renderRow (g :: fs) ++ tail))) := by
      simp [renderRow]
    have h1 := readInto_render b f (',' :: (renderRow (g :: fs) ++ tail)) o hb hw (stop_cons _ (.inl rfl))
    have h2 := getChar_blanks f.post ',' (renderRow (g :: fs) ++ tail) hw.post (by decide)
    have h0 : (f.post ++ ',' :: (renderRow (g :: fs) ++ tail)).isEmpty = false := by simp
    rw [h0] at h1
    rw [readRow, e, h1]
    dsimp only
    rw [h2]
    dsimp only
    rw [List.nil_append] at ih
    rw [ih]
    rfl

theorem readRows_render (cols : ℕ) (hc : 0 < cols) : ∀ (rows : List (List Field)) (b : List Char) (olds : List (List ℚ))
    (tail : List Char), Rect cols rows → Blanks b → Stop tail → olds.length = rows.length → (∀ o ∈ olds, o.length = cols) →
    readRows { rest := b ++ (renderRows rows ++ tail) } olds = numbers rows
  | [], _, olds, _, _, _, _, hl, _ => by
    obtain rfl : olds = [] := by simpa using hl
    rfl
  | [r], b, olds, tail, hr, hb, ht, hl, ho => by
    obtain ⟨o, rfl⟩ := List.length_eq_one_iff.mp hl
    have h1 := hr r (by simp)
    obtain ⟨p, _, h⟩ := readRow_render r b o tail (by rintro rfl; simp at h1; omega) h1.2 hb ht
      (by rw [ho o (by simp), h1.1])
    rw [readRows, renderRows, h]
    rfl
  | r :: r2 :: rs, b, olds, tail, hr, hb, ht, hl, ho => by
    obtain ⟨o, olds, rfl⟩ : ∃ o l, olds = o :: l := by
      match olds, hl with
      | o :: l, _ => exact ⟨o, l, rfl⟩
    have h1 := hr r (by simp)
    obtain ⟨p, hp, h⟩ := readRow_render r b o ('\n' :: (renderRows (r2 :: rs) ++ tail)) (by rintro rfl; simp at h1; omega)
      h1.2 hb (stop_cons _ (.inr rfl)) (by rw [ho o (by simp), h1.1])
    have ih := readRows_render cols hc (r2 :: rs) (p ++ ['\n']) olds tail (fun x hx => hr x (by simp [hx]))
      (blanks_append hp blanks_newline) ht (by simpa using hl) (fun x hx => ho x (by simp [hx]))
    have e : b ++ (renderRows (r :: r2 :: rs) ++ tail) = b ++ (renderRow r ++ ('\n' :: (renderRows (r2 :: rs) ++ tail))) := by
      simp [renderRows]
    have e2 : (p ++ ['\n']) ++ (renderRows (r2 :: rs) ++ tail) = p ++ ('\n' :: (renderRows (r2 :: rs) ++ tail)) := by simp
    rw [e2] at ih
    have h0 : (p ++ '\n' :: (renderRows (r2 :: rs) ++ tail)).isEmpty = false := by simp
    rw [h0] at h
    rw [readRows, e, h]
    dsimp only
    rw [ih]
    rfl

/-! ### What `ignoreBOM` leaves -/

theorem getChar_space (a : Char) (l : List Char) (h : isSpace a = true) :
    getChar { rest := a :: l } = getChar { rest := l } := by
  have : sentry { rest := a :: l } = sentry { rest := l } := by
    unfold sentry
    dsimp only
    rw [List.dropWhile_cons_of_pos h]
    rfl
  unfold getChar
  rw [this]

theorem getChar_plain (a : Char) (l : List Char) (h : isSpace a = false) :
    getChar { rest := a :: l } = (some a, { rest := l }) := getChar_blanks [] a l blanks_nil h

theorem ignoreBOM_eq (c0 : Char) (s : Stream) : ignoreBOM c0 s =
    (match getChar s with
      | (none, s') => if signedCode c0 < 45 then .ub "endless loop" else .ok { s' with eof := false }
      | (some c, s') => if signedCode c < 45 then ignoreBOM c s' else .ok { s' with rest := c :: s'.rest }) := by
  rw [ignoreBOM]
  split <;> rename_i h <;> simp only [h]

theorem ignoreBOM_congr (c0 : Char) (s t : Stream) (h : getChar s = getChar t) : ignoreBOM c0 s = ignoreBOM c0 t := by
  rw [ignoreBOM_eq, ignoreBOM_eq c0 t, h]

theorem ignoreBOM_skip (bom : List Char) (hb : ∀ c ∈ bom, signedCode c < 45) (c : Char) (r : List Char)
    (hs : isSpace c = false) (hc : 45 ≤ signedCode c) : ∀ c0, ignoreBOM c0 { rest := bom ++ c :: r } = .ok { rest := c :: r } := by
  induction bom with
  | nil =>
    intro c0
    have h := getChar_plain c r hs
    rw [ignoreBOM]
    split <;> rename_i h1
    · rw [List.nil_append, h] at h1; cases h1
    · rw [List.nil_append, h] at h1; cases h1
      rw [if_neg (by omega)]
  | cons a bom ih =>
    intro c0
    have ih := ih (fun c hc => hb c (by simp [hc]))
    by_cases ha : isSpace a = true
    · rw [← ih c0]
      exact ignoreBOM_congr _ _ _ (getChar_space _ _ ha)
    · have h := getChar_plain a (bom ++ c :: r) (by simpa using ha)
      rw [ignoreBOM]
      split <;> rename_i h1
      · rw [List.cons_append, h] at h1; cases h1
      · rw [List.cons_append, h] at h1; cases h1
        rw [if_pos (hb a (by simp))]
        exact ih a

theorem blank_low {l : List Char} (h : Blanks l) (c : Char) (hc : c ∈ l) : signedCode c < 45 := by
  rcases h c hc with rfl | rfl | rfl | rfl | rfl | rfl <;> decide

/-- A numeral without its plus sign. -/
def unplus (x : Numeral) : Numeral := if x.sign = some false then { x with sign := none } else x

theorem unplus_props (x : Numeral) (hx : x.WF) : (unplus x).WF ∧ (unplus x).value = x.value ∧ (unplus x).sign ≠ some false ∧
    ((unplus x).render = x.render ∨ x.render = '+' :: (unplus x).render) := by
  unfold unplus
  by_cases h : x.sign = some false
  · rw [if_pos h]
    refine ⟨⟨hx.digits, hx.frac, hx.exp⟩, ?_, by simp, .inr ?_⟩
    · unfold Numeral.value; rw [h]; rfl
    · unfold Numeral.render; rw [h]; rfl
  · rw [if_neg h]
    exact ⟨hx, rfl, h, .inl rfl⟩

/-- `ignoreBOM` leaves a field whose numeral starts at once. -/
theorem ignoreBOM_field (bom : List Char) (hb : ∀ c ∈ bom, signedCode c < 45) (f : Field) (hf : f.WF) (r : List Char) :
    ∃ g : Field, g.WF ∧ g.num.value = f.num.value ∧ g.pre = [] ∧ g.post = f.post ∧
      ignoreBOM '.' { rest := bom ++ (f.render ++ r) } = .ok { rest := g.render ++ r } := by
  obtain ⟨h1, h2, h3, h4⟩ := unplus_props f.num hf.num
  obtain ⟨c, l, hc, hh, hp⟩ := render_head (unplus f.num) h1
  have hne : c ≠ '+' := fun e => h3 (hp e)
  obtain ⟨c1, _, _, _, c5⟩ := head_props hh
  refine ⟨⟨[], unplus f.num, f.post⟩, ⟨h1, blanks_nil, hf.post⟩, h2, rfl, rfl, ?_⟩
  have hb2 : ∀ c ∈ bom ++ f.pre, signedCode c < 45 := by
    intro c hc
    rcases List.mem_append.mp hc with h | h
    · exact hb c h
    · exact blank_low hf.pre c h
  rcases h4 with h4 | h4
  · have e : bom ++ (f.render ++ r) = (bom ++ f.pre) ++ c :: (l ++ (f.post ++ r)) := by
      unfold Field.render; rw [← h4, hc]; simp
    rw [e, ignoreBOM_skip _ hb2 c _ c1 (c5 hne)]
    simp [Field.render, hc]
  · have e : bom ++ (f.render ++ r) = ((bom ++ f.pre) ++ ['+']) ++ c :: (l ++ (f.post ++ r)) := by
      unfold Field.render; rw [h4, hc]; simp
    have hb3 : ∀ c ∈ (bom ++ f.pre) ++ ['+'], signedCode c < 45 := by
      intro c hc
      rcases List.mem_append.mp hc with h | h
      · exact hb2 c h
      · simp only [List.mem_singleton] at h; subst h; decide
    rw [e, ignoreBOM_skip _ hb3 c _ c1 (c5 hne)]
    simp [Field.render, hc]

theorem renderRow_cons (f : Field) (fs : List Field) : ∃ rest, ∀ g : Field, g.post = f.post →
    renderRow (g :: fs) = g.render ++ rest := by
  cases fs with
  | nil => exact ⟨[], fun g _ => by simp [renderRow]⟩
  | cons h fs => exact ⟨',' :: renderRow (h :: fs), fun g _ => by simp [renderRow]⟩

theorem renderRows_cons (rs : List (List Field)) : ∃ rest, ∀ r' : List Field,
    renderRows (r' :: rs) = renderRow r' ++ rest := by
  cases rs with
  | nil => exact ⟨[], fun r' => by simp [renderRows]⟩
  | cons h rs => exact ⟨'\n' :: renderRows (h :: rs), fun r' => by simp [renderRows]⟩

/-- After `ignoreBOM` the stream holds a file with the same numbers. -/
theorem ignoreBOM_rows (cols : ℕ) (hc : 0 < cols) (bom : List Char) (hb : ∀ c ∈ bom, signedCode c < 45)
    (rows : List (List Field)) (hr : Rect cols rows) (hne : rows ≠ []) (tail : List Char) :
    ∃ rows', Rect cols rows' ∧ numbers rows' = numbers rows ∧
      (∀ c, (∀ r ∈ rows, ∀ f ∈ r, c ∉ f.pre ∧ c ∉ f.post) → ∀ r ∈ rows', ∀ f ∈ r, c ∉ f.pre ∧ c ∉ f.post) ∧
      ignoreBOM '.' { rest := bom ++ (renderRows rows ++ tail) } = .ok { rest := renderRows rows' ++ tail } := by
  obtain ⟨r, rs, rfl⟩ := List.exists_cons_of_ne_nil hne
  have h1 := hr r (by simp)
  obtain ⟨f, fs, rfl⟩ : ∃ f fs, r = f :: fs := by
    cases r with
    | nil => simp at h1; omega
    | cons f fs => exact ⟨f, fs, rfl⟩
  obtain ⟨rest, hrest⟩ := renderRow_cons f fs
  obtain ⟨rest2, hrest2⟩ := renderRows_cons rs
  have hf := h1.2 f (by simp)
  obtain ⟨g, hg, hv, hpre, hpost, h⟩ := ignoreBOM_field bom hb f hf (rest ++ (rest2 ++ tail))
  refine ⟨(g :: fs) :: rs, ?_, ?_, ?_, ?_⟩
  · intro x hx
    rcases List.mem_cons.mp hx with rfl | hx
    · refine ⟨by simpa using h1.1, fun y hy => ?_⟩
      rcases List.mem_cons.mp hy with rfl | hy
      · exact hg
      · exact h1.2 y (by simp [hy])
    · exact hr x (by simp [hx])
  · simp [numbers, hv]
  · intro c hcc x hx y hy
    rcases List.mem_cons.mp hx with rfl | hx
    · rcases List.mem_cons.mp hy with rfl | hy
      · rw [hpre, hpost]; exact ⟨by simp, (hcc (f :: fs) (by simp) f (by simp)).2⟩
      · exact hcc (f :: fs) (by simp) y (by simp [hy])
    · exact hcc x (by simp [hx]) y hy
  · have e : bom ++ (renderRows ((f :: fs) :: rs) ++ tail) = bom ++ (f.render ++ (rest ++ (rest2 ++ tail))) := by
      rw [hrest2, hrest f rfl]; simp
    rw [e, h, hrest2, hrest g hpost]
    simp

/-! ### Pairs -/

theorem getNum_blank (l : List Char) (h : Blanks l) (e : Bool) : (getNum { rest := l, eof := e }).1 = none := by
  unfold getNum sentry
  dsimp only
  by_cases he : e = true
  · rw [he]; rfl
  · have hd : l.dropWhile isSpace = [] := by
      have := dropWhile_blanks l [] h (by intro c r h; cases h)
      simpa using this
    have he' : e = false := by simpa using he
    rw [he', hd]; rfl

theorem readPairs_blank (left : Option ℕ) (l : List Char) (h : Blanks l) (e : Bool) : readPairs left { rest := l, eof := e } = [] := by
  rw [readPairs]
  by_cases h0 : left = some 0
  · rw [if_pos h0]
  · rw [if_neg h0]
    have hn := getNum_blank l h e
    split <;> rename_i h1
    · rw [h1] at hn; cases hn
    · rfl

theorem readPairs_cons (left : Option ℕ) (s s1 s2 s3 : Stream) (x y : ℚ) (c : Char) (h0 : left ≠ some 0)
    (h1 : getNum s = (some x, s1)) (h2 : getChar s1 = (some c, s2)) (h3 : getNum s2 = (some y, s3)) (hf : s3.fail = false) :
    readPairs left s = (x, y) :: readPairs (left.map (· - 1)) s3 := by
  rw [readPairs, if_neg h0]
  split <;> rename_i e1
  · rw [h1] at e1; cases e1
    split <;> rename_i e2
    · rw [h2] at e2; cases e2
      split <;> rename_i e3
      · rw [h3] at e3; cases e3
        rw [if_neg (by simp [hf])]
      · rw [h3] at e3; cases e3
    · rw [h2] at e2; cases e2
  · rw [h1] at e1; cases e1

theorem getNum_field (b : List Char) (f : Field) (r : List Char) (hb : Blanks b) (hf : f.WF) (hr : Stop r) :
    getNum { rest := b ++ (f.render ++ r) } =
      (some f.num.value, { rest := f.post ++ r, eof := (f.post ++ r).isEmpty }) := by
  have := getNum_render (b ++ f.pre) f.num (f.post ++ r) (blanks_append hb hf.pre) hf.num (stop_blank _ _ hf.post hr)
  have e : b ++ (f.render ++ r) = (b ++ f.pre) ++ (f.num.render ++ (f.post ++ r)) := by simp [Field.render]
  rw [e, this]

/-- One line of two fields. -/
theorem readPairs_row (left : Option ℕ) (b : List Char) (f g : Field) (tail : List Char) (h0 : left ≠ some 0) (hb : Blanks b)
    (hf : f.WF) (hg : g.WF) (ht : Stop tail) :
    readPairs left { rest := b ++ (renderRow [f, g] ++ tail) } =
      (f.num.value, g.num.value) :: readPairs (left.map (· - 1)) { rest := g.post ++ tail, eof := (g.post ++ tail).isEmpty } := by
  have e : b ++ (renderRow [f, g] ++ tail) = b ++ (f.render ++ (',' :: (g.render ++ tail))) := by simp [renderRow]
  have h1 := getNum_field b f (',' :: (g.render ++ tail)) hb hf (stop_cons _ (.inl rfl))
  have h2 := getChar_blanks f.post ',' (g.render ++ tail) hf.post (by decide)
  have h3 := getNum_field [] g tail blanks_nil hg ht
  have h0' : (f.post ++ ',' :: (g.render ++ tail)).isEmpty = false := by simp
  rw [h0'] at h1
  rw [e]
  exact readPairs_cons left _ _ _ _ _ _ _ h0 h1 h2 h3 rfl

/-- What may follow the last row: white space only, and nothing that would continue it. -/
theorem stop_blanks {l : List Char} (h : Blanks l) : Stop l := by
  have := stop_blank l [] h stop_nil
  simpa using this

/-- The first `n` elements, or all. -/
def upTo {α : Type} (left : Option ℕ) (l : List α) : List α :=
  match left with
  | none => l
  | some n => l.take n

theorem take_opt {α : Type} (left : Option ℕ) (a : α) (l : List α) (h0 : left ≠ some 0) :
    upTo left (a :: l) = a :: upTo (left.map (· - 1)) l := by
  cases left with
  | none => rfl
  | some n =>
    cases n with
    | zero => exact absurd rfl h0
    | succ n => simp [upTo]

theorem upTo_nil {α : Type} (left : Option ℕ) : upTo left ([] : List α) = [] := by cases left <;> simp [upTo]

theorem readPairs_rows : ∀ (rows : List (List Field)) (left : Option ℕ) (b tail : List Char), Rect 2 rows → Blanks b →
    Blanks tail →
    (readPairs left { rest := b ++ (renderRows rows ++ tail) }).map (fun p => [p.1, p.2]) =
      upTo left (numbers rows)
  | [], left, b, tail, _, hb, ht => by
    have : readPairs left { rest := b ++ (renderRows [] ++ tail) } = [] := by
      apply readPairs_blank
      simpa [renderRows] using blanks_append hb ht
    rw [this]
    exact (upTo_nil left).symm
  | [r], left, b, tail, hr, hb, ht => by
    obtain ⟨hl, hw⟩ := hr r (by simp)
    obtain ⟨f, g, rfl⟩ := List.length_eq_two.mp hl
    have hf := hw f (by simp)
    have hg := hw g (by simp)
    by_cases h0 : left = some 0
    · subst h0
      have : readPairs (some 0) { rest := b ++ (renderRows [[f, g]] ++ tail) } = [] := by rw [readPairs, if_pos rfl]
      rw [this]; simp [upTo]
    · rw [renderRows, readPairs_row left b f g tail h0 hb hf hg (stop_blanks ht),
        readPairs_blank _ _ (blanks_append hg.post ht)]
      have := take_opt left [f.num.value, g.num.value] [] h0
      rw [upTo_nil] at this
      exact this.symm
  | r :: r2 :: rs, left, b, tail, hr, hb, ht => by
    obtain ⟨hl, hw⟩ := hr r (by simp)
    obtain ⟨f, g, rfl⟩ := List.length_eq_two.mp hl
    have hf := hw f (by simp)
    have hg := hw g (by simp)
    by_cases h0 : left = some 0
    · subst h0
      have : readPairs (some 0) { rest := b ++ (renderRows ([f, g] :: r2 :: rs) ++ tail) } = [] := by
        rw [readPairs, if_pos rfl]
      rw [this]; simp [upTo]
    · have ih := readPairs_rows (r2 :: rs) (left.map (· - 1)) (g.post ++ ['\n']) tail (fun x hx => hr x (by simp [hx]))
        (blanks_append hg.post blanks_newline) ht
      have e : b ++ (renderRows ([f, g] :: r2 :: rs) ++ tail) =
          b ++ (renderRow [f, g] ++ ('\n' :: (renderRows (r2 :: rs) ++ tail))) := by simp [renderRows]
      have e2 : (g.post ++ ['\n']) ++ (renderRows (r2 :: rs) ++ tail) = g.post ++ ('\n' :: (renderRows (r2 :: rs) ++ tail)) := by
        simp
      have h0' : (g.post ++ '\n' :: (renderRows (r2 :: rs) ++ tail)).isEmpty = false := by simp
      rw [e2] at ih
      rw [e, readPairs_row left b f g _ h0 hb hf hg (stop_cons _ (.inr rfl)), h0', List.map_cons, ih]
      exact (take_opt left [f.num.value, g.num.value] (numbers (r2 :: rs)) h0).symm

/-! ### Lines -/

theorem getLines_nil : getLines [] = [] := by rw [getLines]; rfl

theorem getLines_last (l : List Char) (h : l ≠ []) (hn : '\n' ∉ l) : getLines l = [l] := by
  have hd : l.dropWhile (fun c => decide (c ≠ '\n')) = [] := by
    rw [List.dropWhile_eq_nil_iff]
    intro c hc
    simp only [decide_eq_true_eq]
    rintro rfl
    exact hn hc
  rw [getLines, if_neg h]
  split <;> rename_i h1
  · rfl
  · rw [hd] at h1; cases h1

theorem newline_split (l r : List Char) (hn : '\n' ∉ l) :
    (l ++ '\n' :: r).dropWhile (fun c => decide (c ≠ '\n')) = '\n' :: r ∧
      (l ++ '\n' :: r).takeWhile (fun c => decide (c ≠ '\n')) = l := by
  induction l with
  | nil => simp
  | cons a l ih =>
    have ha : a ≠ '\n' := by rintro rfl; simp at hn
    have ih := ih (by intro h; exact hn (by simp [h]))
    rw [List.cons_append, List.dropWhile_cons_of_pos (by simpa using ha), List.takeWhile_cons_of_pos (by simpa using ha),
      ih.1, ih.2]
    exact ⟨rfl, rfl⟩

theorem getLines_cons (l r : List Char) (hn : '\n' ∉ l) : getLines (l ++ '\n' :: r) = l :: getLines r := by
  obtain ⟨h1, h2⟩ := newline_split l r hn
  rw [getLines, if_neg (by simp)]
  split <;> rename_i h
  · rw [h1] at h; cases h
  · rw [h1] at h; cases h
    rw [h2]

theorem render_no_newline (x : Numeral) : '\n' ∉ x.render := by
  have hd : ∀ ds : List (Fin 10), '\n' ∉ digitChars ds := by
    intro ds h
    simp only [digitChars, List.mem_map] at h
    obtain ⟨d, _, h⟩ := h
    exact (dchar_digit d).2.2.2.2.2.2.2.2.2.2.1 h
  have hs : ∀ s, '\n' ∉ signChars s := by
    intro s
    rcases s with _ | b
    · simp [signChars]
    · cases b <;> simp [signChars]
  unfold Numeral.render
  have hE : '\n' ∉ (match x.exp with
      | none => []
      | some (u, s, ds) => (if u then 'E' else 'e') :: (signChars s ++ digitChars ds)) := by
    rcases x.exp with _ | ⟨u, s, ds⟩
    · simp
    · cases u <;> simp [hs s, hd ds]
  have hP : '\n' ∉ (if x.point then '.' :: digitChars x.fp else []) := by
    by_cases h : x.point = true
    · rw [if_pos h]; simp [hd]
    · rw [if_neg h]; simp
  simp only [List.mem_append, not_or]
  exact ⟨⟨⟨hs _, hd _⟩, hP⟩, hE⟩

theorem field_no_newline (f : Field) (h : '\n' ∉ f.pre ∧ '\n' ∉ f.post) : '\n' ∉ f.render := by
  unfold Field.render
  simp only [List.mem_append, not_or]
  exact ⟨⟨h.1, render_no_newline _⟩, h.2⟩

theorem row_no_newline : ∀ (fs : List Field), (∀ f ∈ fs, '\n' ∉ f.pre ∧ '\n' ∉ f.post) → '\n' ∉ renderRow fs
  | [], _ => by simp [renderRow]
  | [f], h => field_no_newline f (h f (by simp))
  | f :: g :: fs, h => by
    have := row_no_newline (g :: fs) (fun x hx => h x (by simp [hx]))
    simp only [renderRow, List.mem_append, not_or, List.mem_cons]
    exact ⟨field_no_newline f (h f (by simp)), by decide, this⟩

theorem field_ne (f : Field) (h : f.WF) : f.render ≠ [] := by
  obtain ⟨c, l, hc, _⟩ := render_head f.num h.num
  simp [Field.render, hc]

theorem row_ne : ∀ (fs : List Field), fs ≠ [] → (∀ f ∈ fs, f.WF) → renderRow fs ≠ []
  | [], h, _ => absurd rfl h
  | [f], _, h => field_ne f (h f (by simp))
  | f :: g :: fs, _, _ => by simp [renderRow]

theorem getLines_rows (cols : ℕ) (hc : 0 < cols) : ∀ (rows : List (List Field)) (tail : List Char), Rect cols rows →
    (∀ r ∈ rows, ∀ f ∈ r, '\n' ∉ f.pre ∧ '\n' ∉ f.post) → rows ≠ [] → (tail = [] ∨ tail = ['\n']) →
    getLines (renderRows rows ++ tail) = rows.map renderRow
  | [], _, _, _, h, _ => absurd rfl h
  | [r], tail, hr, hn, _, ht => by
    obtain ⟨hl, hw⟩ := hr r (by simp)
    have h1 := row_no_newline r (hn r (by simp))
    have h2 := row_ne r (by rintro rfl; simp at hl; omega) hw
    rcases ht with rfl | rfl
    · rw [renderRows, List.append_nil, getLines_last _ h2 h1]; rfl
    · rw [renderRows, getLines_cons _ _ h1, getLines_nil]; rfl
  | r :: r2 :: rs, tail, hr, hn, _, ht => by
    have ih := getLines_rows cols hc (r2 :: rs) tail (fun x hx => hr x (by simp [hx])) (fun x hx => hn x (by simp [hx]))
      (by simp) ht
    have e : renderRows (r :: r2 :: rs) ++ tail = renderRow r ++ '\n' :: (renderRows (r2 :: rs) ++ tail) := by
      simp [renderRows]
    rw [e, getLines_cons _ _ (row_no_newline r (hn r (by simp))), ih]
    rfl

theorem getChar_blank (l : List Char) (h : Blanks l) (e : Bool) : (getChar { rest := l, eof := e }).1 = none := by
  unfold getChar sentry
  dsimp only
  by_cases he : e = true
  · rw [he]; rfl
  · have hd : l.dropWhile isSpace = [] := by
      have := dropWhile_blanks l [] h (by intro c r h; cases h)
      simpa using this
    have he' : e = false := by simpa using he
    rw [he', hd]; rfl

theorem parseLine_row : ∀ (fs : List Field), fs ≠ [] → (∀ f ∈ fs, f.WF) →
    parseLine { rest := renderRow fs } = fs.map fun f => f.num.value
  | [], h, _ => absurd rfl h
  | [f], _, h => by
    have hf := h f (by simp)
    have h1 := getNum_field [] f [] blanks_nil hf stop_nil
    rw [List.nil_append, List.append_nil, List.append_nil] at h1
    have h2 := getChar_blank f.post hf.post f.post.isEmpty
    rw [parseLine]
    split <;> rename_i e1
    · rw [renderRow, h1] at e1; cases e1
      rw [if_neg (by simp)]
      split <;> rename_i e2
      · rw [e2] at h2; cases h2
      · rfl
    · rw [renderRow, h1] at e1; cases e1
  | f :: g :: fs, _, h => by
    have hf := h f (by simp)
    have ih := parseLine_row (g :: fs) (by simp) (fun x hx => h x (by simp [hx]))
    have h1 := getNum_field [] f (',' :: renderRow (g :: fs)) blanks_nil hf (stop_cons _ (.inl rfl))
    have h2 := getChar_blanks f.post ',' (renderRow (g :: fs)) hf.post (by decide)
    have h0' : (f.post ++ ',' :: renderRow (g :: fs)).isEmpty = false := by simp
    rw [h0', List.nil_append] at h1
    rw [parseLine]
    split <;> rename_i e1
    · rw [renderRow, h1] at e1; cases e1
      rw [if_neg (by simp)]
      split <;> rename_i e2
      · rw [h2] at e2; cases e2
        rw [ih]; rfl
      · rw [h2] at e2; cases e2
    · rw [renderRow, h1] at e1; cases e1

theorem flatMap_parse (cols : ℕ) (hc : 0 < cols) (rows : List (List Field)) (hr : Rect cols rows) :
    (rows.map renderRow).flatMap (fun l => parseLine { rest := l }) = (numbers rows).flatten := by
  induction rows with
  | nil => rfl
  | cons r rs ih =>
    obtain ⟨hl, hw⟩ := hr r (by simp)
    rw [List.map_cons, List.flatMap_cons, ih (fun x hx => hr x (by simp [hx])),
      parseLine_row r (by rintro rfl; simp at hl; omega) hw]
    rfl

theorem numbers_length (cols : ℕ) (rows : List (List Field)) (hr : Rect cols rows) : ∀ l ∈ numbers rows, l.length = cols := by
  intro l hl
  simp only [numbers, List.mem_map] at hl
  obtain ⟨r, h, rfl⟩ := hl
  simpa using (hr r h).1

theorem flatten_length {α : Type} (cols : ℕ) (L : List (List α)) (h : ∀ l ∈ L, l.length = cols) :
    L.flatten.length = L.length * cols := by
  induction L with
  | nil => simp
  | cons l L ih =>
    rw [List.flatten_cons, List.length_append, h l (by simp), ih (fun x hx => h x (by simp [hx])), List.length_cons]
    ring

theorem flatten_get {α : Type} (cols : ℕ) (L : List (List α)) (h : ∀ l ∈ L, l.length = cols) (r c : ℕ) (hc : c < cols) :
    L.flatten[c + r * cols]? = L[r]?.bind (·[c]?) := by
  induction L generalizing r with
  | nil => simp
  | cons l L ih =>
    have hl := h l (by simp)
    have ih := ih (fun x hx => h x (by simp [hx]))
    cases r with
    | zero =>
      rw [List.flatten_cons, List.getElem?_append_left (by omega)]
      simp
    | succ r =>
      rw [List.flatten_cons, List.getElem?_append_right (by rw [hl]; nlinarith)]
      have : c + (r + 1) * cols - l.length = c + r * cols := by rw [hl, Nat.add_mul, Nat.one_mul]; omega
      rw [this, ih]
      simp

end Slide.Csv

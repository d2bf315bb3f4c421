import Verif.Model.Outcome
import Mathlib.Algebra.Order.Ring.Rat
import Mathlib.Algebra.Order.Group.Abs
import Mathlib.Data.Rat.Floor

/-!
Model of the CSV readers – `/repo/src/utility/io/read_CSVfiles.hpp` – on top of a small model of `std::ifstream`
(libstdc++, "C" locale, 8-bit signed `char`).

Simplifications: a file is a list of characters (bytes are characters with a code below 256); a number is read as an
exact rational (no rounding, no overflow); the character loop of `num_get` is written as the grammar it accepts.  A loop
that never ends is the outcome `ub "endless loop"`.
-/

namespace Slide.Csv

/-- An input stream: the characters left and the flags `eofbit`, `failbit`. -/
structure Stream where
  rest : List Char
  eof : Bool := false
  fail : Bool := false
  deriving DecidableEq

/-- `isspace` in the "C" locale. -/
def isSpace (c : Char) : Bool := c.toNat == 32 || (9 ≤ c.toNat && c.toNat ≤ 13)

/-- `isdigit`. -/
def isDigit (c : Char) : Bool := 48 ≤ c.toNat && c.toNat ≤ 57

/-- Value of a digit. -/
def digit (c : Char) : ℕ := c.toNat - 48

/-- The `sentry` of a formatted input function: skips white space; `false` if the stream is or becomes unusable. -/
def sentry (s : Stream) : Bool × Stream :=
  if s.fail || s.eof then (false, { s with fail := true })
  else
    let r := s.rest.dropWhile isSpace
    if r = [] then (false, { rest := [], eof := true, fail := true }) else (true, { s with rest := r })

/-- `in >> c` for a `char`; the character is `none` when nothing is stored. -/
def getChar (s : Stream) : Option Char × Stream :=
  let p := sentry s
  if p.1 then
    match p.2.rest with
    | [] => (none, p.2)
    | c :: r => (some c, { p.2 with rest := r })
  else (none, p.2)

/-- `in.peek()`; `none` is `EOF`. -/
def peek (s : Stream) : Option Char × Stream :=
  if s.fail || s.eof then (none, { s with fail := true })
  else
    match s.rest with
    | [] => (none, { s with eof := true })
    | c :: _ => (some c, s)

/-- A sign in front of digits: negative?, rest. -/
def takeSign : List Char → Bool × List Char
  | c :: r => if c = '-' then (true, r) else if c = '+' then (false, r) else (false, c :: r)
  | [] => (false, [])

/-- Value of a list of digits. -/
def digitsVal (l : List Char) : ℕ := l.foldl (fun n c => 10 * n + digit c) 0

/-- A decimal point and the digits behind it. -/
def takeFrac : List Char → List Char × List Char
  | c :: r => if c = '.' then (r.takeWhile isDigit, r.dropWhile isDigit) else ([], c :: r)
  | [] => ([], [])

/-- An exponent, recognised only after a digit (`digits`): `none` if there is none, `some none` if no digit follows. -/
def takeExp (digits : Bool) : List Char → Option (Option ℤ) × List Char
  | c :: r =>
    if (c = 'e' ∨ c = 'E') ∧ digits = true then
      let a := takeSign r
      let ed := a.2.takeWhile isDigit
      (some (if ed = [] then none else some (if a.1 then -(digitsVal ed : ℤ) else digitsVal ed)), a.2.dropWhile isDigit)
    else (none, c :: r)
  | [] => (none, [])

/-- The characters that `num_get` accumulates: sign, digits, point, digits, exponent.  Returns the value (`none` if the
conversion fails) and the characters left. -/
def takeNum (l : List Char) : Option ℚ × List Char :=
  let a := takeSign l
  let ip := a.2.takeWhile isDigit
  let f := takeFrac (a.2.dropWhile isDigit)
  let e := takeExp (decide (ip ++ f.1 ≠ [])) f.2
  let mant : ℚ := (if a.1 then -1 else 1) * (digitsVal (ip ++ f.1) : ℚ) / 10 ^ f.1.length
  (if ip ++ f.1 = [] then none
   else match e.1 with
     | none => some mant
     | some none => none
     | some (some k) => some (mant * 10 ^ k), e.2)

/-- `in >> x` for a `double`: the value stored (`none`: nothing stored; a failed conversion stores 0). -/
def getNum (s : Stream) : Option ℚ × Stream :=
  let p := sentry s
  if p.1 then
    let t := takeNum p.2.rest
    (some (t.1.getD 0), { rest := t.2, eof := t.2.isEmpty, fail := t.1.isNone })
  else (none, p.2)

/-! ### `loadCSV_mat` -/

theorem sentry_rest_le (s : Stream) : (sentry s).2.rest.length ≤ s.rest.length := by
  unfold sentry
  by_cases h : (s.fail || s.eof) = true
  · rw [if_pos h]
  · rw [if_neg h]
    dsimp only
    by_cases h2 : s.rest.dropWhile isSpace = []
    · rw [if_pos h2]; simp
    · rw [if_neg h2]; exact (List.dropWhile_suffix _).length_le

theorem getChar_lt {s s' : Stream} {c : Char} (h : getChar s = (some c, s')) : s'.rest.length < s.rest.length := by
  unfold getChar at h
  have hle := sentry_rest_le s
  dsimp only at h
  by_cases h1 : (sentry s).1 = true
  · rw [if_pos h1] at h
    cases hr : (sentry s).2.rest with
    | nil => rw [hr] at h; cases h
    | cons d r =>
      rw [hr] at h
      cases h
      rw [hr] at hle
      simpa [Nat.lt_iff_add_one_le] using hle
  · rw [if_neg h1] at h; cases h

theorem takeSign_le (l : List Char) : (takeSign l).2.length ≤ l.length := by
  cases l with
  | nil => exact le_rfl
  | cons c r => simp only [takeSign]; split_ifs <;> simp

theorem drop_le (l : List Char) : (l.dropWhile isDigit).length ≤ l.length := (List.dropWhile_suffix _).length_le

theorem takeFrac_le (l : List Char) : (takeFrac l).2.length ≤ l.length := by
  cases l with
  | nil => exact le_rfl
  | cons c r =>
    have := drop_le r
    simp only [takeFrac]; split_ifs <;> simp; omega

theorem takeExp_le (b : Bool) (l : List Char) : (takeExp b l).2.length ≤ l.length := by
  cases l with
  | nil => exact le_rfl
  | cons c r =>
    have h1 := takeSign_le r
    have h2 := drop_le (takeSign r).2
    simp only [takeExp]; split_ifs <;> simp <;> omega

theorem takeNum_le (l : List Char) : (takeNum l).2.length ≤ l.length := by
  unfold takeNum
  have h1 := takeSign_le l
  have h2 := drop_le (takeSign l).2
  have h3 := takeFrac_le ((takeSign l).2.dropWhile isDigit)
  have h4 := takeExp_le (decide ((takeSign l).2.takeWhile isDigit ++ (takeFrac ((takeSign l).2.dropWhile isDigit)).1 ≠ []))
    (takeFrac ((takeSign l).2.dropWhile isDigit)).2
  exact le_trans h4 (le_trans h3 (le_trans h2 h1))

theorem getNum_le (s : Stream) : (getNum s).2.rest.length ≤ s.rest.length := by
  unfold getNum
  have h1 := sentry_rest_le s
  dsimp only
  by_cases h : (sentry s).1 = true
  · rw [if_pos h]; exact le_trans (takeNum_le _) h1
  · rw [if_neg h]; exact h1

/-- `while (in.peek() <= 32) in >> c;` – `read_CSVfiles.hpp:76-77`.  (`EOF` is -1.) -/
def skipLead (s : Stream) : Outcome Stream :=
  match peek s with
  | (none, _) => .ub "endless loop"
  | (some c, _) =>
    if 32 < c.toNat then .ok s
    else
      match h : getChar s with
      | (none, _) => .ub "endless loop"
      | (some _, s') =>
        have := getChar_lt h
        skipLead s'
  termination_by s.rest.length

/-- `in >> x[i][j]` into an entry that holds `old`. -/
def readInto (s : Stream) (old : ℚ) : ℚ × Stream :=
  let p := getNum s
  (p.1.getD old, p.2)

/-- One row: numbers and commas, no comma after the last number – `read_CSVfiles.hpp:81-85`. -/
def readRow : Stream → List ℚ → List ℚ × Stream
  | s, [] => ([], s)
  | s, [old] => let p := readInto s old; ([p.1], p.2)
  | s, old :: o2 :: olds =>
    let p := readInto s old
    let q := getChar p.2
    let r := readRow q.2 (o2 :: olds)
    (p.1 :: r.1, r.2)

/-- All rows. -/
def readRows : Stream → List (List ℚ) → List (List ℚ)
  | _, [] => []
  | s, row :: rows =>
    let p := readRow s row
    p.1 :: readRows p.2 rows

/-- `loadCSV_mat(name, x)` – `read_CSVfiles.hpp:53-89`; `file` is `none` if it cannot be opened, `x` are the contents of
the matrix before the call. -/
def loadMat (file : Option (List Char)) (x : List (List ℚ)) : Outcome (List (List ℚ)) :=
  match file with
  | none => .throw 2
  | some f => (skipLead { rest := f }).bind fun s => .ok (readRows s x)

/-! ### `ignoreBOM` and the two-column reader -/

/-- A `char` compared as a number: bytes from 128 on are negative (x86). -/
def signedCode (c : Char) : ℤ := if c.toNat < 128 then c.toNat else (c.toNat : ℤ) - 256

/-- `do in >> c while (c < 45); in.putback(c);` – `read_CSVfiles.hpp:101-110`; `c0` is the value of `c` so far. -/
def ignoreBOM (c0 : Char) (s : Stream) : Outcome Stream :=
  match h : getChar s with
  | (none, s') => if signedCode c0 < 45 then .ub "endless loop" else .ok { s' with eof := false }
  | (some c, s') =>
    if signedCode c < 45 then
      have := getChar_lt h
      ignoreBOM c s'
    else .ok { s' with rest := c :: s'.rest }
  termination_by s.rest.length

/-- `while ((n == 0 || j < n) && (in >> x_i >> c >> y_i)) push_back` – `read_CSVfiles.hpp:139-145`.  `left` is `none` for
`n = 0`. -/
def readPairs (left : Option ℕ) (s : Stream) : List (ℚ × ℚ) :=
  if left = some 0 then []
  else
    match hx : getNum s with
    | (some x, s1) =>
      match hc : getChar s1 with
      | (some _, s2) =>
        match hy : getNum s2 with
        | (some y, s3) =>
          if s3.fail then []
          else
            have : s3.rest.length < s.rest.length := by
              have h1 := getNum_le s
              have h2 := getChar_lt hc
              have h3 := getNum_le s2
              rw [hx] at h1
              rw [hy] at h3
              dsimp only at h1 h3
              omega
            (x, y) :: readPairs (left.map (· - 1)) s3
        | (none, _) => []
      | (none, _) => []
    | (none, _) => []
  termination_by s.rest.length

/-- `loadCSV_2col(name, x, y, n)` into vectors – `read_CSVfiles.hpp:112-149`. -/
def load2col (file : Option (List Char)) (n : ℤ) : Outcome (List (ℚ × ℚ)) :=
  match file with
  | none => .throw 2
  | some f => (ignoreBOM '.' { rest := f }).bind fun s => .ok (readPairs (if n = 0 then none else some n.toNat) s)

/-! ### The cached two-column reader -/

/-- The static map of files read so far. -/
abbrev Cache := List (String × List (ℚ × ℚ))

/-- `loadCSV_2col(name, span &x, span &y, n)` – `read_CSVfiles.hpp:206-250`.  Spans of `n` elements over a vector with fewer
elements (or a negative number of elements) are undefined. -/
def load2colSpan (cache : Cache) (disk : String → Option (List Char)) (name : String) (n : ℤ) :
    Outcome (List (ℚ × ℚ)) × Cache :=
  let r : Outcome (List (ℚ × ℚ)) × Cache :=
    match cache.lookup name with
    | some d => (.ok d, cache)
    | none =>
      match load2col (disk name) 0 with
      | .ok d => (.ok d, (name, d) :: cache)
      | .throw e => (.throw e, cache)
      | .ub w => (.ub w, cache)
  match r with
  | (.ok d, c) =>
    if n = 0 then (.ok d, c)
    else if n < 0 ∨ d.length < n then (.ub "span beyond the data", c)
    else (.ok (d.take n.toNat), c)
  | r => r

/-! ### `loadCSV_Ncol` -/

/-- Successive `std::getline`: the pieces between newline characters; an empty last piece is not a line. -/
def getLines (f : List Char) : List (List Char) :=
  if f = [] then []
  else
    match h : f.dropWhile (· ≠ '\n') with
    | [] => [f]
    | _ :: r =>
      have : r.length < f.length := by
        have := (List.dropWhile_suffix (l := f) (fun c => decide (c ≠ '\n'))).length_le
        rw [h] at this
        simpa [Nat.lt_iff_add_one_le] using this
      f.takeWhile (· ≠ '\n') :: getLines r
  termination_by f.length

/-- `while (in_line >> x_i) { push_back(x_i); in_line >> c; }` – `read_CSVfiles.hpp:188-191`. -/
def parseLine (s : Stream) : List ℚ :=
  match hx : getNum s with
  | (some x, s1) =>
    if s1.fail then []
    else
      match hc : getChar s1 with
      | (some _, s2) =>
        have : s2.rest.length < s.rest.length := by
          have h1 := getNum_le s
          have h2 := getChar_lt hc
          rw [hx] at h1
          dsimp only at h1
          omega
        x :: parseLine s2
      | (none, _) => [x]
  | (none, _) => []
  termination_by s.rest.length

/-- `DynamicMatrix`: `rows()`, `cols()` and the data, `x(i, j) = data[i + j * rows]` –
`/repo/src/types/DynamicMatrix.hpp:13-57`. -/
structure DynMat where
  m : ℕ
  n : ℕ
  data : List ℚ
  deriving DecidableEq

/-- `operator()(i, j)`, unchecked. -/
def DynMat.get (x : DynMat) (i j : ℕ) : Outcome ℚ := readAt x.data (i + j * x.m)

/-- `loadCSV_Ncol(name, x, n)` – `read_CSVfiles.hpp:151-201`; without rows the number of columns is a division by zero. -/
def loadNcol (file : Option (List Char)) (n : ℤ) : Outcome DynMat :=
  match file with
  | none => .throw 2
  | some f =>
    (ignoreBOM '.' { rest := f }).bind fun s =>
      let lines := if s.fail then [] else getLines s.rest
      let lines := if n = 0 then lines else lines.take n.toNat
      let data := lines.flatMap fun l => parseLine { rest := l }
      if lines = [] then .ub "division by zero rows"
      else .ok { m := data.length / lines.length, n := lines.length, data := data }

end Slide.Csv

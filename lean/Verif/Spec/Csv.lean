import Verif.Model.Csv
import Mathlib.Data.Nat.Digits.Defs

/-!
What a CSV file of numbers is: numerals, blanks and separators, and the numbers they stand for – written without the
reader.
-/

namespace Slide.Csv.Spec

/-- The character of a decimal digit. -/
def dchar (d : Fin 10) : Char := Char.ofNat (48 + d.val)

/-- A decimal numeral: sign, digits, point, digits, exponent (upper case?, sign, digits). -/
structure Numeral where
  sign : Option Bool
  ip : List (Fin 10)
  point : Bool
  fp : List (Fin 10)
  exp : Option (Bool × Option Bool × List (Fin 10))

/-- There is a digit, digits behind the point only if there is a point, and an exponent has a digit. -/
structure Numeral.WF (x : Numeral) : Prop where
  digits : x.ip ≠ [] ∨ x.fp ≠ []
  frac : x.point = false → x.fp = []
  exp : ∀ u s ds, x.exp = some (u, s, ds) → ds ≠ []

/-- `-` is `some true`, `+` is `some false`. -/
def signChars : Option Bool → List Char
  | none => []
  | some true => ['-']
  | some false => ['+']

def digitChars (ds : List (Fin 10)) : List Char := ds.map dchar

/-- The characters of a numeral. -/
def Numeral.render (x : Numeral) : List Char :=
  signChars x.sign ++ digitChars x.ip ++ (if x.point then '.' :: digitChars x.fp else []) ++
  match x.exp with
  | none => []
  | some (u, s, ds) => (if u then 'E' else 'e') :: (signChars s ++ digitChars ds)

/-- The number of a list of digits, most significant first. -/
def whole (ds : List (Fin 10)) : ℕ := Nat.ofDigits 10 (ds.reverse.map Fin.val)

/-- The number of a sign. -/
def signVal : Option Bool → ℤ
  | some true => -1
  | _ => 1

/-- The number a numeral stands for. -/
def Numeral.value (x : Numeral) : ℚ :=
  signVal x.sign * (whole x.ip + whole x.fp / 10 ^ x.fp.length) *
  match x.exp with
  | none => 1
  | some (_, s, ds) => 10 ^ (signVal s * whole ds)

/-- White space. -/
def Blanks (l : List Char) : Prop := ∀ c ∈ l, c = ' ' ∨ c = '\t' ∨ c = '\n' ∨ c = '\r' ∨ c = '\x0b' ∨ c = '\x0c'

/-- A field: a numeral between blanks. -/
structure Field where
  pre : List Char
  num : Numeral
  post : List Char

structure Field.WF (f : Field) : Prop where
  num : f.num.WF
  pre : Blanks f.pre
  post : Blanks f.post

def Field.render (f : Field) : List Char := f.pre ++ f.num.render ++ f.post

/-- A row: fields separated by commas. -/
def renderRow : List Field → List Char
  | [] => []
  | [f] => f.render
  | f :: g :: fs => f.render ++ ',' :: renderRow (g :: fs)

/-- Rows separated by newlines (without a newline behind the last row). -/
def renderRows : List (List Field) → List Char
  | [] => []
  | [r] => renderRow r
  | r :: r2 :: rs => renderRow r ++ '\n' :: renderRows (r2 :: rs)

/-- The numbers of a file. -/
def numbers (rows : List (List Field)) : List (List ℚ) := rows.map fun r => r.map fun f => f.num.value

/-- All fields are well formed and all rows have `cols` fields. -/
def Rect (cols : ℕ) (rows : List (List Field)) : Prop := ∀ r ∈ rows, r.length = cols ∧ ∀ f ∈ r, f.WF

end Slide.Csv.Spec

import Verif.Model.Containers

/-!
Model of `DEG_ID` – `/repo/src/cells/Cell_SPM/param/DEG_ID.hpp`: the selection of degradation models and its text.
Texts are lists of characters; `std::to_string` of an unsigned integer is `Nat.toDigits 10`.
-/

namespace Slide

/-- `struct DEG_ID` – `DEG_ID.hpp:22-83`; the three arrays are `SmallVector`s filled by `add_model`. -/
structure DegId where
  sei : List ℕ
  porosity : ℕ
  cs : List ℕ
  diffusion : ℕ
  lam : List ℕ
  pl : ℕ
  deriving DecidableEq

namespace DegId

/-- `std::to_string`. -/
def num (n : ℕ) : List Char := Nat.toDigits 10 n

/-- `if (empty()) id += "0-"; else for (...) id += std::to_string(x) + '-';` – `DEG_ID.hpp:111-115, 124-128, 136-140`. -/
def ids (l : List ℕ) : List Char :=
  if l = [] then ['0', '-'] else l.flatMap fun n => num n ++ ['-']

/-- `print` – `DEG_ID.hpp:85-154`.  `id.back() = '_'` replaces the last character, which is a `-`. -/
def print (d : DegId) : List Char :=
  let id := ids d.sei ++ num d.porosity ++ ['_']
  let id := id ++ ids d.cs ++ num d.diffusion ++ ['_']
  let id := id ++ ids d.lam
  let id := if d.lam = [] then id ++ ['_'] else id.dropLast ++ ['_']
  id ++ num d.pl

end DegId
end Slide

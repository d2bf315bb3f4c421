import Verif.Model.Outcome
import Mathlib.Analysis.SpecialFunctions.Sqrt
import Mathlib.Data.List.FinRange

/-!
Model of the rank-one Cholesky update `cholUpdate` – `/repo/src/types/matrix.hpp:53-76` – and of the update of the
proposal covariance `S_update` – `/repo/src/optimisation/MCMC.hpp:25-49`.

Numbers are reals because of the square roots.  Divisions by zero and the square root of a negative number (infinity or
NaN in C++) are made explicit as undefined.
-/

namespace Slide

/-- `slide::Matrix<double, N, N>` – `matrix.hpp:20-21`. -/
abbrev Mat (N : ℕ) := Fin N → Fin N → ℝ

/-- `A[i][j] = v`. -/
def Mat.set {N : ℕ} (A : Mat N) (i j : Fin N) (v : ℝ) : Mat N := Function.update A i (Function.update (A i) j v)

/-- `eye<N>(1.0)` – `matrix.hpp:23-32`. -/
def eye (N : ℕ) : Mat N := fun i j => if i = j then 1 else 0

/-- Body of the inner loop – `matrix.hpp:69-73`. -/
noncomputable def cholInner {N : ℕ} (down : Bool) (k : Fin N) (s c : ℝ) (p : Mat N × (Fin N → ℝ)) (j : Fin N) :
    Mat N × (Fin N → ℝ) :=
  let L := p.1.set j k (if down then p.1 j k - s * p.2 j / c else p.1 j k + s * p.2 j / c)
  (L, Function.update p.2 j (c * p.2 j - s * L j k))

/-- The values of `j` in the inner loop, in order – `matrix.hpp:68`. -/
def below {N : ℕ} (k : Fin N) : List (Fin N) := (List.finRange N).filter fun j => k < j

/-- Body of the outer loop – `matrix.hpp:57-74`. -/
noncomputable def cholCol {N : ℕ} (down : Bool) (p : Mat N × (Fin N → ℝ)) (k : Fin N) : Outcome (Mat N × (Fin N → ℝ)) :=
  open Classical in
  let Lk := p.1 k k
  if Lk = 0 then .ub "division by L[k][k] = 0"
  else
    let s := p.2 k / Lk
    if down = true ∧ Lk * Lk - p.2 k * p.2 k < 0 then .ub "square root of a negative number"
    else
      let r := if down then √(Lk * Lk - p.2 k * p.2 k) else √(Lk * Lk + p.2 k * p.2 k)
      let c := r / Lk
      if c = 0 ∧ below k ≠ [] then .ub "division by c = 0"
      else .ok ((below k).foldl (cholInner down k s c) (p.1.set k k r, p.2))

/-- The outer loop. -/
noncomputable def cholLoop {N : ℕ} (down : Bool) : List (Fin N) → Mat N × (Fin N → ℝ) → Outcome (Mat N × (Fin N → ℝ))
  | [], p => .ok p
  | k :: ks, p => (cholCol down p k).bind (cholLoop down ks)

/-- `cholUpdate(L, x, isDowndate)` – `matrix.hpp:53-76`; `x` is passed by value. -/
noncomputable def cholUpdate {N : ℕ} (L : Mat N) (x : Fin N → ℝ) (down : Bool) : Outcome (Mat N) :=
  (cholLoop down (List.finRange N) (L, x)).bind fun p => .ok p.1

/-- `norm_sq<2>` – `/repo/src/utility/slide_aux.hpp:37-54`. -/
def normSq {N : ℕ} (w : Fin N → ℝ) : ℝ := ∑ i, w i ^ 2

/-- `S_update(S, w, alpha, n)` – `MCMC.hpp:25-49`; `pow(n, -0.5)` is written `1 / √n`.  `n = 0`, `n < 0` and `w = 0`
give infinities or NaN in C++. -/
noncomputable def sUpdate {N : ℕ} (S : Mat N) (w : Fin N → ℝ) (alpha n : ℝ) : Outcome (Mat N) :=
  open Classical in
  if n ≤ 0 then .ub "pow(n, -0.5)"
  else if normSq w = 0 then .ub "division by the norm of w"
  else
    let m := 1 / √n * (alpha - 234/1000) / normSq w
    let root := √|m|
    (cholUpdate (eye N) (fun i => w i * root) (decide (m < 0))).bind fun A =>
      .ok fun i j => if j ≤ i then ∑ o ∈ Finset.univ.filter (· ≤ i), S i o * A o j else 0

end Slide

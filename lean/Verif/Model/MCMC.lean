import Verif.Model.Outcome
import Mathlib.Analysis.SpecialFunctions.Log.Basic
import Mathlib.Analysis.Real.Pi.Bounds
import Mathlib.Data.EReal.Operations

/-!
Model of the log-likelihood of the Markov-chain Monte-Carlo parameter estimation – `MCMC_Input`, `Prior`, `LL`,
`MCMC_Record` of `/repo/src/optimisation/MCMC.hpp:51-181` (`S_update` is in `Cholesky`).

Numbers are reals; results of logarithms are extended reals, because the logarithm of a density that is 0 is minus
infinity.  The logarithm of a negative number (NaN) is made explicit as undefined.
-/

namespace Slide
namespace MCMC

/-- `std::log`. -/
noncomputable def log (x : ℝ) : Outcome EReal :=
  open Classical in
  if x < 0 then .ub "logarithm of a negative number" else .ok (if x = 0 then ⊥ else ((Real.log x : ℝ) : EReal))

/-- `MCMC_Input` – `MCMC.hpp:51-55`: parameters and logarithms of the noise variances. -/
structure Input (np no : ℕ) where
  param : Fin np → ℝ
  logR : Fin no → ℝ

/-- `scale(param_scalar)` – `MCMC.hpp:57-65`. -/
def Input.scale {np no : ℕ} (x : Input np no) (s : Fin np → ℝ) : Fin np → ℝ := fun i => x.param i * s i

/-- `operator[](i)` – `MCMC.hpp:67-89`.  With `N_OUTPUT = 0` the array `logR` is empty. -/
def Input.get {np no : ℕ} (x : Input np no) (i : ℕ) : Outcome ℝ :=
  if h : i < np then .ok (x.param ⟨i, h⟩)
  else if i = np then
    if h' : i - np < no then .ok (x.logR ⟨i - np, h'⟩) else .ub "index out of bounds"
  else .throw 123511

/-- `size()` – `MCMC.hpp:95`. -/
def Input.size {np no : ℕ} (_ : Input np no) : ℕ := np + no

/-- `get_R()` – `MCMC.hpp:97`. -/
noncomputable def Input.getR {np no : ℕ} (x : Input np no) : Outcome ℝ :=
  if h : 0 < no then .ok (Real.exp (x.logR ⟨0, h⟩)) else .ub "index out of bounds"

/-- The loop that adds the logarithms of the densities – `MCMC.hpp:123-125`. -/
noncomputable def sumLog {np : ℕ} (dist : List (ℝ → ℝ)) (b : Fin np → ℝ) : ℕ → EReal → Outcome EReal
  | 0, sum => .ok sum
  | k + 1, sum =>
    let i := np - (k + 1)
    if hi : i < np then
      match dist[i]? with
      | none => .ub "index out of bounds"
      | some d => (log (d (b ⟨i, hi⟩))).bind fun l => sumLog dist b k (sum + l)
    else .ub "index out of bounds"

/-- `Prior::operator()(b)` – `MCMC.hpp:116-128`. -/
noncomputable def prior {np : ℕ} (dist : List (ℝ → ℝ)) (b : Fin np → ℝ) : Outcome (EReal × Bool) :=
  open Classical in
  if ∃ i, b i ≤ 0 then .ok (((-10 ^ 25 : ℝ) : EReal), false)
  else (sumLog dist b np 0).bind fun s => .ok (s, true)

/-- `LL_Result` – `MCMC.hpp:131`: likelihood, its two parts, prior and squared error. -/
abbrev LLResult := Fin 5 → EReal

/-- `LL(theta_cand, prior, costFun, Nobservations, mcmcSettings)` – `MCMC.hpp:137-157`.  The cost function may throw. -/
noncomputable def LL {np no : ℕ} (x : Input np no) (dist : List (ℝ → ℝ)) (cost : (Fin np → ℝ) → Outcome ℝ) (nobs : ℕ)
    (scalar : Fin np → ℝ) : Outcome (LLResult × Bool) :=
  (prior dist x.param).bind fun p =>
    if p.2 = false then .ok (fun _ => 0, false)
    else
      (cost (x.scale scalar)).bind fun errSqr =>
      x.getR.bind fun R =>
      (log (2 * Real.pi * R)).bind fun l =>
      let LL1 : EReal := ((1 / 2 : ℝ) : EReal) * l * ((nobs : ℝ) : EReal)
      let LL2 : EReal := ((1 / 2 * errSqr / R : ℝ) : EReal)
      let out : EReal := -p.1 + LL1 + LL2
      .ok (![out, LL1, LL2, p.1, (errSqr : EReal)], p.2)

/-- `MCMC_Record` – `MCMC.hpp:159-163`. -/
structure Record (np no : ℕ) where
  input : Input np no
  ll : LLResult

/-- `MCMC_Record::operator[](i)` – `MCMC.hpp:165-171`. -/
noncomputable def Record.get {np no : ℕ} (r : Record np no) (i : ℕ) : Outcome EReal :=
  if i < r.input.size then (r.input.get i).bind fun x => .ok (x : EReal)
  else if h : i - r.input.size < 5 then .ok (r.ll ⟨i - r.input.size, h⟩) else .ub "index out of bounds"

/-- `size()` – `MCMC.hpp:178-181`. -/
def Record.size {np no : ℕ} (r : Record np no) : ℕ := r.input.size + 5

/-- `back()` – `MCMC.hpp:173-176`. -/
def Record.back {np no : ℕ} (r : Record np no) : EReal := r.ll 4

end MCMC
end Slide

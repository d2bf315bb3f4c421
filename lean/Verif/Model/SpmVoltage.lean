import Verif.Model.SPM

/-!
`setVoltage` of the single-particle cell: `Cell_SPM` does not override `StorageUnit::setVoltage`, so that
`free::setVoltage_iterative` runs (`/repo/src/StorageUnit.hpp:67-70`, `/repo/src/utility/free_functions.hpp:24-47`).
-/

namespace Slide.SPM

variable {N : ℕ}

/-- The body of the loop of `free::setVoltage_iterative` – `free_functions.hpp:33-43`.  `Ia` is the local variable of
that name; `none`: the voltage is reached, `some Ia`: go on with this value.  The statuses of `setCurrent` are ignored,
exceptions of `V()` leave the function.  `Va = Vb` divides by zero: in C++ this gives an infinity or a NaN which is then
set as current; the model makes it undefined. -/
def voltTry (Vset Ia : ℚ) (c : SPM N) : Outcome (Option ℚ) × SPM N :=
  match c.V with
  | (.throw e, c0) => (.throw e, c0)
  | (.ub w, c0) => (.ub w, c0)
  | (.ok Va, c0) =>
    if |Vset - Va| < 1 / 1000000 then (.ok none, c0)
    else
      let Ib := if Vset > Va then Ia - 1 / 100 * c0.par.cap else Ia + 1 / 100 * c0.par.cap
      match c0.setCurrent Ib true with
      | (.throw e, c1) => (.throw e, c1)
      | (.ub w, c1) => (.ub w, c1)
      | (.ok _, c1) =>
        match c1.V with
        | (.throw e, c2) => (.throw e, c2)
        | (.ub w, c2) => (.ub w, c2)
        | (.ok Vb, c2) =>
          if Va - Vb = 0 then (.ub "division by Va - Vb = 0", c2)
          else
            let slope := (Ia - Ib) / (Va - Vb)
            let Ia' := Ib - (Vb - Vset) * slope
            match c2.setCurrent Ia' true with
            | (.throw e, c3) => (.throw e, c3)
            | (.ub w, c3) => (.ub w, c3)
            | (.ok _, c3) => (.ok (some Ia'), c3)

/-- The loop – `free_functions.hpp:32-46`. -/
def voltLoop (Vset : ℚ) : ℕ → ℚ → SPM N → Outcome Status × SPM N
  | 0, _, c => (.ok .RedistributeCurrent_failed, c)
  | fuel + 1, Ia, c =>
    match voltTry Vset Ia c with
    | (.ok none, c1) => (.ok .Success, c1)
    | (.ok (some Ia'), c1) => voltLoop Vset fuel Ia' c1
    | (.throw e, c1) => (.throw e, c1)
    | (.ub w, c1) => (.ub w, c1)

/-- `free::setVoltage_iterative` – `free_functions.hpp:24-47`. -/
def setVoltage (c : SPM N) (Vset : ℚ) : Outcome Status × SPM N := voltLoop Vset 50 c.st.I c

end Slide.SPM

import Verif.Model.ECM

/-!
Independent vocabulary for C11/C14: the charge seen from outside, as an ammeter and a clock would record it.
-/

namespace Slide.Spec

/-- What an observer writes down: pairs (current during a period, length of the period in s).
Only the getter `I()` and the arguments of the calls are used. Calls with a negative step are rejected, so no
time passes. -/
def ammeter {n : ℕ} (c : ECM n) : List ECM.Op → List (ℚ × ℚ)
  | [] => []
  | .step dt k :: os =>
    (if dt < 0 then [] else [(c.st.I, dt * k)]) ++ ammeter (c.apply (.step dt k)) os
  | o :: os => ammeter (c.apply o) os

/-- Net charge in As. -/
def netCharge (l : List (ℚ × ℚ)) : ℚ := (l.map fun p => p.1 * p.2).sum
/-- Charge throughput in As. -/
def absCharge (l : List (ℚ × ℚ)) : ℚ := (l.map fun p => |p.1| * p.2).sum
/-- Elapsed time in s. -/
def elapsed (l : List (ℚ × ℚ)) : ℚ := (l.map fun p => p.2).sum

end Slide.Spec

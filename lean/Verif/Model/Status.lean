import Mathlib.Tactic.Basic
import Mathlib.Order.Defs.LinearOrder

/-!
Model of `/repo/src/types/Status.hpp`.
-/

namespace Slide

/-- `enum class Status` – `/repo/src/types/Status.hpp:13-44` (explicit enumerators; the two auxiliary
names `Critical` and `NotSafe` are definitions below). -/
inductive Status where
  | ReachedCurrentLimit | ReachedVoltageLimit | ReachedTimeLimit | ReachedSmallCurrent
  | Invalid_Vset | SafeVoltage
  | Success
  | Vmin_violation | Vmax_violation | VMIN_violation | VMAX_violation
  | VMINsafety_violation | VMAXsafety_violation
  | V_not_calculated | SOC_limits_violation | Invalid_states | Invalid_SUs
  | ParallelUnit_failed | RedistributeCurrent_failed | timeStep_CC_failed
  | setVoltage_not_defined | Unknown_problem
  deriving Repr, DecidableEq

namespace Status

/-- Underlying integer of the enumerator (`Status.hpp:13-44`). -/
def code : Status → Int
  | ReachedCurrentLimit => -6 | ReachedVoltageLimit => -5 | ReachedTimeLimit => -4
  | ReachedSmallCurrent => -3 | Invalid_Vset => -2 | SafeVoltage => -1
  | Success => 0
  | Vmin_violation => 1 | Vmax_violation => 2 | VMIN_violation => 3 | VMAX_violation => 4
  | VMINsafety_violation => 5 | VMAXsafety_violation => 6
  | V_not_calculated => 7 | SOC_limits_violation => 8 | Invalid_states => 9 | Invalid_SUs => 10
  | ParallelUnit_failed => 11 | RedistributeCurrent_failed => 12 | timeStep_CC_failed => 13
  | setVoltage_not_defined => 14 | Unknown_problem => 127

/-- `Status::Critical` – `Status.hpp:41`. -/
def Critical : Status := VMIN_violation
/-- `Status::NotSafe` – `Status.hpp:42`. -/
def NotSafe : Status := VMINsafety_violation

/-- `isStatusSuccessful` – `Status.hpp:47`. -/
def isSuccessful (s : Status) : Bool := s.code == Success.code
/-- `isStatusFailed` – `Status.hpp:48`. -/
def isFailed (s : Status) : Bool := !s.isSuccessful
/-- `isStatusOK` – `Status.hpp:49`. -/
def isOK (s : Status) : Bool := s.code < Critical.code
/-- `isStatusBad` – `Status.hpp:50`. -/
def isBad (s : Status) : Bool := !s.isOK
/-- `isStatusWarning` – `Status.hpp:51`. -/
def isWarning (s : Status) : Bool := s.code != Success.code && s.isOK
/-- `isStatusSafe` – `Status.hpp:52`. -/
def isSafe (s : Status) : Bool := s.code < NotSafe.code
/-- `isLimitsReached` – `Status.hpp:53`. -/
def isLimitsReached (s : Status) : Bool := s.code < ReachedTimeLimit.code
/-- `isStatusVoltageLimitsViolated` – `Status.hpp:55`. -/
def isVoltageLimitsViolated (s : Status) : Bool :=
  Success.code < s.code && s.code ≤ VMAXsafety_violation.code
/-- `isCCLimitReached` – `Status.hpp:57`. -/
def isCCLimitReached (s : Status) : Bool := s == ReachedVoltageLimit || s == ReachedTimeLimit
/-- `isCVLimitReached` – `Status.hpp:58`. -/
def isCVLimitReached (s : Status) : Bool := s == ReachedCurrentLimit || s == ReachedTimeLimit
/-- `isCurrentLimitReached` – `Status.hpp:59`. -/
def isCurrentLimitReached (s : Status) : Bool := s == ReachedCurrentLimit
/-- `isVoltageLimitReached` – `Status.hpp:60`. -/
def isVoltageLimitReached (s : Status) : Bool := s == ReachedVoltageLimit

theorem code_injective : Function.Injective code := by
  intro a b h; cases a <;> cases b <;> first | rfl | (simp [code] at h)

/-- `std::max(a, b)` on `Status` (compares the underlying integers, returns the first on ties). -/
def worst (a b : Status) : Status := if a.code < b.code then b else a

/-- `getStatusMessage` – `Status.hpp:63-110` (switch without cases for the two `...safety_violation`s). -/
def message : Status → String
  | VMIN_violation => "VMIN is violated!"
  | Vmin_violation => "Vmin is violated!"
  | Success => "Success! Yay!"
  | Vmax_violation => "Vmax is violated!"
  | VMAX_violation => "VMAX is violated!"
  | V_not_calculated => "V could not be calculated at all!"
  | SOC_limits_violation => "SOC_limits_violation!"
  | Invalid_states => "Invalid_states!"
  | Invalid_SUs => "Invalid_SUs!"
  | ReachedCurrentLimit => "ReachedCurrentLimit!"
  | ReachedVoltageLimit => "ReachedVoltageLimit!"
  | ReachedTimeLimit => "ReachedTimeLimit!"
  | ReachedSmallCurrent => "ReachedSmallCurrent!"
  | Invalid_Vset => "Invalid_Vset!"
  | SafeVoltage => "SafeVoltage!"
  | ParallelUnit_failed => "ParallelUnit_failed!"
  | RedistributeCurrent_failed => "RedistributeCurrent_failed!"
  | timeStep_CC_failed => "timeStep_CC_failed!"
  | setVoltage_not_defined => "setVoltage is not defined for this class!"
  | Unknown_problem => "Unknown problem!"
  | VMINsafety_violation => "Unkown status?!"
  | VMAXsafety_violation => "Unkown status?!"

end Status
end Slide

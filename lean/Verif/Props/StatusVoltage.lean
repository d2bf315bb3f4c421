import Verif.Model.Voltage
import Verif.Spec.Voltage
import Mathlib.Tactic.NormNum
import Mathlib.Tactic.Linarith

/-!
Properties C15 (voltage classification), C30 (status severity), C51 (status messages).
-/

namespace Slide

open Status

/-! ### C30 – status severity is consistent -/

/-- C30: OK and bad are complementary. -/
theorem status_ok_iff_not_bad (s : Status) : s.isOK = true ↔ ¬ s.isBad = true := by
  cases s <;> decide

/-- C30: exactly the statuses from the safety-limit violations on are bad. -/
theorem status_bad_iff (s : Status) : s.isBad = true ↔ 3 ≤ s.code := by
  cases s <;> decide

/-- C30: warnings are exactly the non-success acceptable statuses. -/
theorem status_warning_iff (s : Status) : s.isWarning = true ↔ s ≠ .Success ∧ s.isOK = true := by
  cases s <;> decide

/-- C30: every stop reason of the cycler (negative codes) is acceptable and safe, and not a voltage
violation. -/
theorem status_cycler_reasons_ok (s : Status) (h : s.code < 0) :
    s.isOK = true ∧ s.isSafe = true ∧ s.isVoltageLimitsViolated = false := by
  cases s <;> simp_all [code] <;> decide

example : (Status.ReachedTimeLimit).code < 0 := by decide

/-- C30: every acceptable status is safe; unsafe statuses are bad. -/
theorem status_ok_safe (s : Status) (h : s.isOK = true) : s.isSafe = true := by
  cases s <;> revert h <;> decide

example : (Status.Vmin_violation).isOK = true := by decide

/-- C30: distinct statuses have distinct codes, so comparing codes is comparing statuses. -/
theorem status_code_injective : Function.Injective Status.code := Status.code_injective

/-- C30: the worse of two statuses is one of them, is at least as severe as both, and is acceptable
exactly when both are. -/
theorem status_worst_spec (a b : Status) :
    (worst a b = a ∨ worst a b = b) ∧ a.code ≤ (worst a b).code ∧ b.code ≤ (worst a b).code ∧
    ((worst a b).isOK = true ↔ a.isOK = true ∧ b.isOK = true) := by
  unfold worst
  have h1 : ∀ s : Status, s.isOK = true ↔ s.code < 3 := by
    intro s; cases s <;> decide
  rw [h1, h1, h1]
  split <;> rename_i h
  · refine ⟨Or.inr rfl, by omega, le_refl _, by omega⟩
  · refine ⟨Or.inl rfl, le_refl _, by omega, by omega⟩

/-- C30: the worst status of any collection of any size is acceptable iff all members are. -/
theorem status_worst_fold_ok (l : List Status) (a : Status) :
    ((l.foldl worst a).isOK = true ↔ a.isOK = true ∧ ∀ s ∈ l, s.isOK = true) ∧
    (l.foldl worst a = a ∨ l.foldl worst a ∈ l) ∧
    a.code ≤ (l.foldl worst a).code ∧ ∀ s ∈ l, s.code ≤ (l.foldl worst a).code := by
  induction l generalizing a with
  | nil => simp
  | cons b l ih =>
    obtain ⟨h1, h2, h3, h4⟩ := ih (worst a b)
    obtain ⟨w1, w2, w3, w4⟩ := status_worst_spec a b
    simp only [List.foldl_cons, List.mem_cons]
    refine ⟨?_, ?_, by omega, ?_⟩
    · rw [h1, w4]
      constructor
      · rintro ⟨⟨ha, hb⟩, hl⟩
        exact ⟨ha, by rintro s (rfl | hs); exacts [hb, hl s hs]⟩
      · rintro ⟨ha, hl⟩
        exact ⟨⟨ha, hl b (Or.inl rfl)⟩, fun s hs => hl s (Or.inr hs)⟩
    · rcases h2 with h2 | h2
      · rcases w1 with w1 | w1
        · left; rw [h2, w1]
        · right; left; rw [h2, w1]
      · right; right; exact h2
    · rintro s (rfl | hs)
      · omega
      · exact h4 s hs

/-- C30: the two "limit reached" predicates used after CC and CV phases classify exactly the documented
stop reasons. -/
theorem status_limit_reached_iff (s : Status) :
    (s.isCCLimitReached = true ↔ s = .ReachedVoltageLimit ∨ s = .ReachedTimeLimit) ∧
    (s.isCVLimitReached = true ↔ s = .ReachedCurrentLimit ∨ s = .ReachedTimeLimit) := by
  cases s <;> decide

/-- Observation recorded in DESIGN.md: `isLimitsReached` does not count the time limit. -/
theorem status_limitsReached_excludes_time :
    Status.ReachedTimeLimit.isLimitsReached = false := by decide

/-! ### C51 – every status has its own message -/

/-- Full statement of C51. -/
def StatusMessagesDistinct : Prop := ∀ a b : Status, a.message = b.message → a = b

/-- C51 is false of the code: the two cycler-safety violations share the fallback text. -/
theorem status_messages_not_distinct : ¬ StatusMessagesDistinct := by
  intro h
  have := h .VMINsafety_violation .VMAXsafety_violation rfl
  cases this

/-- C51, part that holds: apart from the two cycler-safety violations, messages are distinct and never the
fallback text. -/
theorem status_messages_distinct_partial (a b : Status)
    (ha : a ≠ .VMINsafety_violation ∧ a ≠ .VMAXsafety_violation) (h : a.message = b.message) : a = b := by
  cases a <;> cases b <;> simp_all [message]

example : Status.Success ≠ .VMINsafety_violation ∧ Status.Success ≠ .VMAXsafety_violation := by decide

/-! ### C15 – voltage classification -/

/-- C15: the status returned by the check is the one the specification table assigns, for every
voltage, every current and all nested limits. -/
theorem checkVoltage_classified (lim : VLimits) (hl : Spec.Nested lim) (v I : ℚ) :
    Spec.Classified lim v I (checkVoltage lim (some v) I) := by
  obtain ⟨h1, h2, h3⟩ := hl
  unfold checkVoltage P_V_ABSTOL
  dsimp only
  split_ifs with c0 c1 c2 c3 c4 c5
  · exact .notCalculated c0
  · exact .inside (by linarith) c1.1.le c1.2.le
  · exact .belowSafety (by linarith) c2.1 c2.2
  · exact .aboveSafety (by linarith) c3.1 c3.2
  · refine .below (by linarith) ?_ c4.1 c4.2
    by_contra hh
    exact c2 ⟨by linarith, c4.2⟩
  · refine .above (by linarith) ?_ c5.1 c5.2
    by_contra hh
    exact c3 ⟨by linarith, c5.2⟩
  · have hv : 0 < v := by linarith
    rcases lt_or_ge v (lim.Vmin - 1/100) with hlo | hlo
    · refine .lowButNotDischarging hv hlo ?_
      by_contra hI
      exact c4 ⟨hlo, by linarith⟩
    · rcases lt_or_ge (lim.Vmax + 1/100) v with hhi | hhi
      · refine .highButNotCharging hv hhi ?_
        by_contra hI
        exact c5 ⟨hhi, by linarith⟩
      · exact .inside hv hlo hhi

/-- C15: the table is unambiguous, so it determines the returned status completely. -/
theorem classified_unique (lim : VLimits) (hl : Spec.Nested lim) {v I : ℚ} {s t : Status}
    (hs : Spec.Classified lim v I s) (ht : Spec.Classified lim v I t) : s = t := by
  obtain ⟨h1, h2, h3⟩ := hl
  cases hs <;> cases ht <;> first | rfl | (exfalso; linarith)

/-- C15 combined: `checkVoltage` returns `s` exactly when the table says `s`. -/
theorem checkVoltage_iff (lim : VLimits) (hl : Spec.Nested lim) (v I : ℚ) (s : Status) :
    checkVoltage lim (some v) I = s ↔ Spec.Classified lim v I s := by
  constructor
  · rintro rfl; exact checkVoltage_classified lim hl v I
  · intro h; exact classified_unique lim hl (checkVoltage_classified lim hl v I) h

example : Spec.Nested cellLimits := by
  constructor <;> norm_num [cellLimits]

/-- C15: a bad status is returned exactly for an impossible voltage or when the current drives the cell
beyond a safety limit. -/
theorem checkVoltage_bad_iff (lim : VLimits) (hl : Spec.Nested lim) (v I : ℚ) :
    (checkVoltage lim (some v) I).isBad = true ↔
      v ≤ 0 ∨ (v < lim.VMIN ∧ 0 < I) ∨ (lim.VMAX < v ∧ I < 0) := by
  have h := checkVoltage_classified lim hl v I
  obtain ⟨h1, h2, h3⟩ := hl
  generalize checkVoltage lim (some v) I = s at h
  cases h <;> simp [isBad, isOK, code, Critical] <;>
    first
    | tauto
    | (refine ⟨by assumption, fun _ => ?_, fun _ => ?_⟩ <;> linarith)

/-- C15: a current that moves the voltage back into the window (charging while too low, discharging while
too high) and a zero current are never rejected, with any limits whatsoever. -/
theorem checkVoltage_rectifying_ok (lim : VLimits) (v I : ℚ) (hv : 0 < v)
    (h : I = 0 ∨ (I < 0 ∧ v ≤ lim.VMAX) ∨ (0 < I ∧ lim.VMIN ≤ v)) :
    (checkVoltage lim (some v) I).isOK = true := by
  unfold checkVoltage P_V_ABSTOL
  dsimp only
  split_ifs with c0 c1 c2 c3 c4 c5 <;> try rfl
  · linarith
  · exfalso; rcases h with h | h | h
    · linarith [c2.2]
    · linarith [c2.2, h.1]
    · linarith [c2.1, h.2]
  · exfalso; rcases h with h | h | h
    · linarith [c3.2]
    · linarith [c3.1, h.2]
    · linarith [c3.2, h.1]

example : (0:ℚ) < 1 ∧ ((-5:ℚ) < 0 ∧ (1:ℚ) ≤ cellLimits.VMAX) := by norm_num [cellLimits]

/-- C15: a voltage that could not be computed is always reported as such (the `catch` branch). -/
theorem checkVoltage_none (lim : VLimits) (I : ℚ) : checkVoltage lim none I = .V_not_calculated := rfl

/-- The 10 mV nesting margin is necessary: with limits closer than that, a voltage beyond the *safety*
limit in the discharging direction is reported as `Success`. -/
theorem checkVoltage_needs_margin :
    ∃ (lim : VLimits) (v I : ℚ), lim.VMIN ≤ lim.Vmin ∧ lim.Vmin ≤ lim.Vmax ∧ lim.Vmax ≤ lim.VMAX ∧
      v < lim.VMIN ∧ 0 < I ∧ checkVoltage lim (some v) I = .Success := by
  refine ⟨⟨27/10, 42/10, 2699/1000, 43/10⟩, 2695/1000, 1, ?_⟩
  norm_num [checkVoltage, P_V_ABSTOL]

/-- Cycler safety check: `SafeVoltage` exactly inside the closed window. -/
theorem checkSafety_safe_iff (lo hi v : ℚ) (_h : lo ≤ hi) :
    (checkSafety lo hi v = .SafeVoltage ↔ lo ≤ v ∧ v ≤ hi) ∧
    (checkSafety lo hi v = .VMINsafety_violation ↔ v < lo) ∧
    (checkSafety lo hi v = .VMAXsafety_violation ↔ hi < v) := by
  unfold checkSafety
  split_ifs with h1 h2
  · refine ⟨⟨by simp, fun h => by linarith [h.1]⟩, by simp [h1], ⟨by simp, fun h => by linarith⟩⟩
  · refine ⟨⟨by simp, fun h => by linarith [h.2]⟩, ⟨by simp, fun h => by linarith⟩, by simp [h2]⟩
  · refine ⟨⟨fun _ => ⟨by linarith, by linarith⟩, fun _ => rfl⟩, ⟨by simp, fun h => by linarith⟩,
      ⟨by simp, fun h => by linarith⟩⟩

example : (2:ℚ) ≤ 4 := by norm_num

end Slide

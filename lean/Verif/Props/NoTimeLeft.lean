import Verif.Lemmas.CyclerLoops
import Verif.Props.CyclerLimits

/-!
# C21: a rest without time (time limit zero or negative)
-/

namespace Slide
open StorageUnit Spec Cyc

variable {U : Type} [StorageUnit U]

/-- A rest with a time limit of zero or less simulates nothing: no time is reported and the unit is as it was, except for
its current (and what recording its state changes in the cycler).  Down to -1 s the status is `ReachedTimeLimit`, below that
the rest throws 100. -/
theorem rest_no_time (fuel : ℕ) (c : Cyc U) (tlim dt : ℚ) (ndt : ℤ) (th : Thr) (ht : tlim ≤ 0) :
    (c.rest fuel tlim dt ndt th).2.2 = th ∧
    (tlim ≤ -1 → (c.rest fuel tlim dt ndt th).1 = .throw 100 ∧ (c.rest fuel tlim dt ndt th).2.1.su = c.su) ∧
    (-1 < tlim → (c.rest fuel tlim dt ndt th).2.1.su = (StorageUnit.setCurrent c.su 0 false).2 ∧
      (∀ st, (StorageUnit.setCurrent c.su 0 false).1 = .ok st → (c.rest fuel tlim dt ndt th).1 = .ok .ReachedTimeLimit)) := by
  have hl : ∀ (n : ℕ) (v : RestVars) (c : Cyc U), v.ttot = 0 →
      restLoop tlim ndt n fuel v c = (.ok (.inr v), c) := by
    intro n v c hv
    cases fuel with
    | zero => unfold restLoop; rw [if_neg (by rw [hv]; exact not_lt.mpr ht)]
    | succ k => unfold restLoop; rw [if_neg (by rw [hv]; exact not_lt.mpr ht)]
  unfold rest
  dsimp only
  rw [hl _ _ _ rfl]
  dsimp only
  rw [zero_sub, abs_neg, abs_of_nonpos ht]
  by_cases h : -1 < tlim
  · rw [if_pos ⟨ht, by linarith⟩, storeIf_su]
    rcases hs : StorageUnit.setCurrent c.su 0 false with ⟨st | e | w, u⟩
    · refine ⟨?_, fun h' => absurd h (not_lt.mpr h'), fun _ => ⟨?_, fun st _ => rfl⟩⟩
      · show ({ th with time := th.time + 0 } : Thr) = th
        rw [add_zero]
      · dsimp only
        rw [storeIf_su]; rfl
    · exact ⟨rfl, fun h' => absurd h (not_lt.mpr h'), fun _ => ⟨rfl, fun st h => by cases h⟩⟩
    · exact ⟨rfl, fun h' => absurd h (not_lt.mpr h'), fun _ => ⟨rfl, fun st h => by cases h⟩⟩
  · rw [if_neg (by rintro ⟨-, h2⟩; exact h (by linarith))]
    exact ⟨rfl, fun _ => ⟨rfl, by dsimp only; rw [storeIf_su]⟩, fun h' => absurd h' h⟩

/-- A rest of -0.5 s is reported as done, one of -2 s throws. -/
example : (({ su := resCell 1 } : Cyc (ECM 0)).rest 5 (-1/2) 1 0 Thr.zero).1 = .ok .ReachedTimeLimit ∧
    (({ su := resCell 1 } : Cyc (ECM 0)).rest 5 (-2) 1 0 Thr.zero).1 = .throw 100 :=
  ⟨((rest_no_time 5 _ (-1/2) 1 0 Thr.zero (by norm_num)).2.2 (by norm_num)).2 .Success rfl,
    ((rest_no_time 5 _ (-2) 1 0 Thr.zero (by norm_num)).2.1 (by norm_num)).1⟩

end Slide

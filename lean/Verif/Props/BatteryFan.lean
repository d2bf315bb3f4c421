import Verif.Props.Battery
import Verif.Props.Cooling

/-!
C33 for the battery container: which temperatures steer its fan.
-/

namespace Slide
open StorageUnit Spec CoolSystem

variable {M : Type} [StorageUnit M]

/-- **C33, container.** The fan of a container that is controlled by the hottest spot, with the threshold for switching on
above the one for switching off: after every accepted time step it runs at full flow if the hottest spot of the module *or*
the air of the container has reached the upper threshold, stands still if neither is above the lower threshold, and is as
before in between. -/
theorem battery_fan_onoff (b b' : Battery M) (dt : ℚ) (n : ℕ) (tl tg : M → ℚ) (hk : b.cool.kind ≠ .openSys)
    (hs : b.cool.strategy = 3) (hT : b.cool.Toff < b.cool.Ton) (h : b.timeStepWith dt n tl tg = (.ok (), b')) :
    ((b.cool.Ton ≤ tg b'.cells ∨ b.cool.Ton ≤ b.cool.T) → b'.cool.flowrate = b.cool.flr) ∧
    ((tg b'.cells ≤ b.cool.Toff ∧ b.cool.T ≤ b.cool.Toff) → b'.cool.flowrate = 0) ∧
    ((tg b'.cells < b.cool.Ton ∧ b.cool.T < b.cool.Ton) → (b.cool.Toff < tg b'.cells ∨ b.cool.Toff < b.cool.T) →
      b'.cool.flowrate = b.cool.flowrate) := by
  have hc : b'.cool = b.cool.control (tl b'.cells) (max (tg b'.cells) b.cool.T) := by
    unfold Battery.timeStepWith at h
    rcases h1 : StorageUnit.timeStep b.cells dt n with ⟨_ | _ | _, m'⟩ <;> rw [h1] at h <;> dsimp only at h
    · rcases h2 : b.conv.getLosses ({ b with cells := m' } : Battery M).V ({ b with cells := m' } : Battery M).I with
        l | _ | _ <;> rw [h2] at h <;> simp only [Prod.mk.injEq, true_and, false_and, reduceCtorEq] at h
      rw [← h]
    all_goals cases h
  have hf : b'.cool.flowrate = if b.cool.Ton ≤ max (tg b'.cells) b.cool.T then b.cool.flr else
      if max (tg b'.cells) b.cool.T ≤ b.cool.Toff then 0 else b.cool.flowrate := by
    have := controlFan_flow_onoff b.cool (tl b'.cells) (max (tg b'.cells) b.cool.T) (.inr hs) hT
    rw [hs] at this
    have e : seen 3 (tl b'.cells, max (tg b'.cells) b.cool.T) = max (tg b'.cells) b.cool.T := by simp [seen]
    rw [e] at this
    rw [hc, ← this]
    unfold CoolSystem.control
    rcases hkk : b.cool.kind with _ | _ | _ <;> dsimp only
    · exact controlAC_flow _ _
    · exact absurd hkk hk
  rw [hf]
  refine ⟨fun g => ?_, fun g => ?_, fun g g' => ?_⟩
  · rw [if_pos (le_max_iff.mpr g)]
  · rw [if_neg (by have := max_le g.1 g.2; linarith), if_pos (max_le g.1 g.2)]
  · rw [if_neg (by rw [le_max_iff]; rintro (h | h) <;> linarith [g.1, g.2]),
      if_neg (by rw [max_le_iff]; rintro ⟨h, h'⟩; rcases g' with g' | g' <;> linarith)]

/-- A warm string in a cold container: the fan starts. -/
example : let b : Battery (ModuleS (ECM 0)) :=
      { cells := { T := 310, kids := [⟨0, bucket half 0⟩, ⟨0, bucket half 0⟩] }, cool := CoolSystem.make 2 3,
        conv := Converter.init, ns := 3, np := 2 }
    b.cool.kind ≠ .openSys ∧ b.cool.strategy = 3 ∧ b.cool.Toff < b.cool.Ton ∧ (timeStep b 2 1).1 = .ok () ∧
      b.cool.Ton ≤ T (timeStep b 2 1).2.cells ∧ b.cool.T < b.cool.Ton ∧
      (timeStep b 2 1).2.cool.flowrate = b.cool.flr ∧ 0 < b.cool.flr := by decide +kernel

end Slide

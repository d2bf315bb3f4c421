import Verif.Props.OcvFit

/-! C79: a search whose second level is worse than its first one. -/

namespace Slide.OcvFit
open Spec

/-- A measured point on the two electrodes. -/
def dataW : Data := { p := ⟨[0, 1], [5, 4]⟩, n := ⟨[0, 1], [1, 0]⟩, cell := ⟨[1], [97/24]⟩, cmaxp := 2, cmaxn := 2 }

/-- Six amounts of cathode material, the other parameters are known. -/
def spacesW : Spaces :=
  { AMp := ⟨2 * 3600 / F, 1 / 5 * 3600 / F, 6⟩
    AMn := ⟨3600 / F, 0, 5⟩
    sp := ⟨1/4, 0, 5⟩
    sn := ⟨1, 0, 5⟩ }

theorem fitW : hierarchicalFit dataW 1 spacesW = .ok (⟨8640 / 96487, 3600 / 96487, 1/4, 1⟩, 0) ∧
    hierarchicalFit dataW 2 spacesW = .ok (⟨8784 / 96487, 3600 / 96487, 1/4, 1⟩, 25 / 2143296) := by decide +kernel

theorem goodW : GoodData dataW where
  p := ⟨rfl, by decide, by decide +kernel⟩
  n := ⟨rfl, by decide, by decide +kernel⟩
  len := rfl
  ne := by decide
  short := by decide
  voltsP := by decide +kernel
  voltsN := by decide +kernel
  volts := by decide +kernel
  cmaxp := by decide +kernel
  cmaxn := by decide +kernel

theorem roomyW : Roomy spacesW := by
  refine ⟨⟨1/1000, 100, by norm_num, ?_⟩, ⟨1/1000, 100, by norm_num, ?_⟩, ?_, ?_⟩ <;> unfold Room <;> decide +kernel

/-- The full claim is false: the second level of this search does not contain the exact fit found by the first one. -/
theorem not_eachLevelImproves : ¬ EachLevelImproves := by
  intro h
  have := h dataW spacesW 0 _ _ _ _ goodW roomyW fitW.1 fitW.2
  exact absurd this (by decide +kernel)

end Slide.OcvFit

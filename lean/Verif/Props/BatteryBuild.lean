import Verif.Props.Battery
import Verif.Props.Converter

/-!
# C69 A battery is built with a converter and an air conditioning of the right size
-/

namespace Slide
open StorageUnit Spec

variable {M : Type} [StorageUnit M]

/-- **C69, refusal.** A module that has a parent, no cooling system or an HVAC cooling system is refused with 10. -/
theorem setModule_refuses (m : M) (par : Bool) (mc : Option CoolSystem) (ns np : ℕ)
    (h : par = true ∨ mc = none ∨ ∃ c, mc = some c ∧ c.kind = .hvac) :
    Battery.setModule m par mc ns np = .throw 10 := by
  unfold Battery.setModule
  by_cases hp : par = true
  · rw [if_pos hp]
  · rw [if_neg hp]
    rcases h with h | h | ⟨c, h, hk⟩
    · exact absurd h hp
    · rw [h]
    · rw [h]; dsimp only; rw [if_pos hk]

/-- **C69, acceptance.** A free module with a normal or open cooling system is accepted if the battery has cells.  The
battery holds that module and the given number of copies, its converter is rated for the capacity times the maximum
voltage of the whole battery, its HVAC system follows the strategy of the module, its air conditioning removes 7.5 W per
cell plus twice the losses `q` of a 200 kW converter at maximum voltage and 1C, and no losses have been counted. -/
theorem setModule_builds (m : M) (mc : CoolSystem) (ns np : ℕ) (hk : mc.kind ≠ .hvac) (hn : 0 < nCells m * ns * np) :
    ∃ (b : Battery M) (q : ℚ), Battery.setModule m false (some mc) ns np = .ok b ∧
      Converter.init.getLosses (lim b).Vmax (Cap b) = .ok q ∧
      b.cells = m ∧ b.ns = ns ∧ b.np = np ∧ b.convlosses = 0 ∧ b.convlossesTot = 0 ∧
      b.conv.Pnom = Cap b * (lim b).Vmax ∧ b.conv.Vdc = 1500 ∧ b.conv.Vac = 1500 ∧
      b.cool.kind = .hvac ∧ b.cool.strategy = mc.strategy ∧ b.cool.acQ = 75/10 * nCells b + 2 * q := by
  have h1 : Converter.init.nInverters = .ok 1 := by decide +kernel
  have hq : ∀ v i, Converter.init.getLosses v i = .ok (Converter.init.lossPerInverter v (i / 1) * 1) := by
    intro v i
    unfold Converter.getLosses
    rw [h1]
    dsimp only
    rw [if_neg (by decide)]
    norm_num
  unfold Battery.setModule CoolSystem.makeHVAC
  rw [if_neg (by decide)]
  dsimp only
  rw [if_neg hk, hq]
  rw [Outcome.bind, if_neg (by omega), Outcome.bind]
  refine ⟨_, _, rfl, hq _ _, rfl, rfl, rfl, rfl, rfl, rfl, rfl, rfl, rfl, rfl, ?_⟩
  show 75 / 10 * ((nCells m * ns * np : ℕ) : ℚ) + _ * 2 = 75 / 10 * ((nCells m * ns * np : ℕ) : ℚ) + 2 * _
  congr 1
  exact mul_comm _ _

/-- **C69, inverters.** A battery with positive capacity and voltage gets enough 200 kW inverters for its 1C power at
maximum voltage, and not one more than needed. -/
theorem inverters_enough (c : Converter) (k : ℤ) (hP : 0 < c.Pnom) (h : c.nInverters = .ok k) :
    1 ≤ k ∧ c.Pnom ≤ 200000 * k ∧ 200000 * ((k : ℚ) - 1) < c.Pnom := by
  have hk : k = ⌈c.Pnom / 200000⌉ := by
    unfold Converter.nInverters toInt at h
    have e : (if (0:ℚ) ≤ (⌈c.Pnom / 200000⌉ : ℚ) then ⌊((⌈c.Pnom / 200000⌉ : ℤ) : ℚ)⌋
        else ⌈((⌈c.Pnom / 200000⌉ : ℤ) : ℚ)⌉) = ⌈c.Pnom / 200000⌉ := by
      split_ifs <;> simp
    dsimp only at h
    rw [e] at h
    by_cases hr : -2147483648 ≤ ⌈c.Pnom / 200000⌉ ∧ ⌈c.Pnom / 200000⌉ ≤ 2147483647
    · rw [if_pos hr] at h
      cases h; rfl
    · rw [if_neg hr] at h; cases h
  have h1 : 0 < c.Pnom / 200000 := by positivity
  have h2 : 0 < ⌈c.Pnom / 200000⌉ := Int.ceil_pos.mpr h1
  have h3 := Int.le_ceil (c.Pnom / 200000)
  have h4 := Int.ceil_lt_add_one (c.Pnom / 200000)
  rw [← hk] at h2 h3 h4
  refine ⟨h2, ?_, ?_⟩
  · rw [div_le_iff₀ (by norm_num)] at h3; linarith
  · have : (k : ℚ) - 1 < c.Pnom / 200000 := by linarith
    rw [lt_div_iff₀ (by norm_num)] at this; linarith

/-- The module and strategy of the example: two half-full cells in series, cooled with strategy 1. -/
example : 0 < nCells (badString) * 100 * 9 ∧ (CoolSystem.make 2 1).kind ≠ .hvac := by decide

/-- Full statement of C69: whatever the order of `setModule` and `setSeriesandParallel`, the converter is rated for the
1C power of the battery at maximum voltage. -/
def ConverterAlwaysRated (M : Type) [StorageUnit M] : Prop :=
  ∀ (m : M) (mc : CoolSystem) (ns np ns' np' : ℕ) (b : Battery M), Battery.setModule m false (some mc) ns np = .ok b →
    (b.setSeriesParallel ns' np').conv.Pnom = Cap (b.setSeriesParallel ns' np') * (lim (b.setSeriesParallel ns' np')).Vmax

/-- False: the number of copies can be changed after the module is connected, and the converter keeps its rating. -/
theorem not_converterAlwaysRated : ¬ ConverterAlwaysRated (ModuleS (ECM 0)) := by
  intro h
  obtain ⟨b, q, hb, _, hc, hns, hnp, _, _, hP, _⟩ :=
    setModule_builds badString (CoolSystem.make 2 1) 1 1 (by decide) (by decide)
  have h1 := h _ _ 1 1 2 1 b hb
  have h2 : (b.setSeriesParallel 2 1).conv.Pnom = Cap b * (lim b).Vmax := hP
  rw [h2] at h1
  have e1 : Cap b = Cap badString * (b.np : ℚ) := by show Cap b.cells * (b.np : ℚ) = _; rw [hc]
  have e2 : (lim b).Vmax = (lim badString).Vmax * (b.ns : ℚ) := by show (lim b.cells).Vmax * (b.ns : ℚ) = _; rw [hc]
  have e3 : Cap (b.setSeriesParallel 2 1) = Cap badString * ((1 : ℕ) : ℚ) := by
    show Cap b.cells * ((1 : ℕ) : ℚ) = _; rw [hc]
  have e4 : (lim (b.setSeriesParallel 2 1)).Vmax = (lim badString).Vmax * ((2 : ℕ) : ℚ) := by
    show (lim b.cells).Vmax * ((2 : ℕ) : ℚ) = _; rw [hc]
  rw [e1, e2, e3, e4, hns, hnp] at h1
  exact absurd h1 (by decide +kernel)

end Slide

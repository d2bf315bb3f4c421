import Verif.Spec.BatteryOverheat
import Verif.Props.Overheat
import Verif.Props.BatteryIsothermal

/-!
# C166 for batteries
-/

namespace Slide
open Spec

/-! ## Helper lemmas -/

/-- The thermal model of a battery does what that of a module with one child does; the losses of the converter take the place of
the heat of the contacts. -/
theorem battery_as_module {H : CoolSystem → ℚ} {t losses T' : ℚ} (ht : t ≠ 0) {b b' : BatteryTherm}
    (h : b.thermal H losses 0 t = (.ok T', b')) :
    ∃ w', (HTree.module { A := b.cells.A, k := 0, Qcontact := losses * t, time := t } b.cool [b.cells]).thermal H [] t = (.ok T', w') ∧
      w'.setT T' = (.ok (), b'.tree) := by
  unfold BatteryTherm.thermal at h
  rcases h1 : b.cells.thermal H [⟨b.cool.T, H b.cool, b.cells.A⟩] t with ⟨o, u⟩
  have hf := HTree.thermal_frame H [⟨b.cool.T, H b.cool, b.cells.A⟩] t b.cells
  rw [h1] at h hf
  dsimp only at hf
  cases o with
  | throw e => simp at h
  | ub e => simp at h
  | ok tc =>
    simp only [ne_eq, not_true_eq_false, if_false] at h
    rcases h2 : b.cool.dstate (H b.cool * b.cells.A * (u.T - b.cool.T) * t + losses * t)
      (H b.cool * b.cells.A * (u.T - b.cool.T) * t + losses * t) t with ⟨o2, c⟩
    rw [h2] at h
    cases o2 with
    | throw e => simp at h
    | ub e => simp at h
    | ok t1 =>
      dsimp only at h
      by_cases h3 : b.cool.rho * b.cool.cp * b.cool.vol = 0 ∨ t1 < 273 ∨ t1 > 273 + 75
      · rw [if_pos h3] at h; simp at h
      rw [if_neg h3] at h
      have hA := setT_area tc u
      rcases h4 : u.setT tc with ⟨o3, u'⟩
      rw [h4] at h hA
      cases o3 with
      | throw e => simp at h
      | ub e => simp at h
      | ok x =>
        dsimp only at h hA
        rcases h5 : c.setT t1 with ⟨o4, c'⟩
        rw [h5] at h
        cases o4 with
        | throw e => simp at h
        | ub e => simp at h
        | ok y =>
          simp only [Prod.mk.injEq, Outcome.ok.injEq] at h
          obtain ⟨rfl, rfl⟩ := h
          have e1 : HTree.thermalKids H ⟨b.cool.T, H b.cool, b.cells.A⟩ 0 t (b.cool.T, b.cells.A) [b.cells] = (.ok [tc], [u]) := by
            rw [HTree.thermalKids, thermal_insulated, h1]
            simp [HTree.thermalKids]
          have e2 : HTree.coolLoop (H b.cool) 0 b.cells.A b.cool.T t 1 0 0 [u] = H b.cool * b.cells.A * (u.T - b.cool.T) * t := by
            simp [HTree.coolLoop, hf.2]
          have e3 : HTree.setKids [u] [tc] = (.ok (), [u']) := by
            rw [HTree.setKids, h4]
            simp [HTree.setKids]
          refine ⟨.module (HTree.reset { A := b.cells.A, k := 0, Qcontact := losses * t, time := t }) c [u'], ?_, ?_⟩
          · rw [HTree.thermal, if_neg (by simp), if_neg ht, if_neg (by simp [HTree.maxKids])]
            unfold HTree.finish
            simp only [List.length_singleton, e1, e2, List.foldl_nil, h2, e3, if_neg h3]
          · simp only [HTree.setT, h5]
            unfold BatteryTherm.tree
            rw [hA, hf.2, HTree.reset]

theorem sameBodies_area : ∀ u w : HTree, SameBodies u w → w.A = u.A
  | .cell _, .cell _, h => by rw [SameBodies] at h; exact h.2.1
  | .plain _, .plain _, _ => rfl
  | .module _ _ _, .module _ _ _, h => by rw [SameBodies] at h; exact h.1
  | .cell _, .plain _, h => by simp [SameBodies] at h
  | .cell _, .module _ _ _, h => by simp [SameBodies] at h
  | .plain _, .cell _, h => by simp [SameBodies] at h
  | .plain _, .module _ _ _, h => by simp [SameBodies] at h
  | .module _ _ _, .cell _, h => by simp [SameBodies] at h
  | .module _ _ _, .plain _, h => by simp [SameBodies] at h

theorem batteryWorkStep_tree {H : CoolSystem → ℚ} {q : ℚ} {b b' : BatteryTherm} (h : BatteryWorkStep H q b b') :
    WorkStep H q b.tree b'.tree := by
  obtain ⟨t, losses, T', w, ht, hb, hs, hq, h1⟩ := h
  obtain ⟨w', r1, r2⟩ := battery_as_module ht.ne' h1
  refine ⟨t, _, w', T', ht, ?_, ?_, ?_, r1, r2⟩
  · simp only [BatteryTherm.tree, SameBodies, SameBodiess]
    exact ⟨sameBodies_area _ _ hb, trivial, trivial, hb, trivial⟩
  · simp only [Synced, Synceds]
    exact ⟨hs, trivial⟩
  · simp only [removed, removeds, pending, pendings]
    linarith

/-! ## C166 -/

/-- **C166 for batteries** -/
theorem battery_overheats_in_time : BatteryOverheatsInTime := by
  intro H q b ha hc hcap k hk
  have := overheats_in_time H q (fun i => (b i).tree)
    (by simpa [BatteryTherm.tree, Areas, Areass] using ⟨areas_nonneg _ ha, ha⟩)
    (by simpa [BatteryTherm.tree, CapsOk, CapsOks] using ⟨hcap, hc⟩) k fun i hi => batteryWorkStep_tree (hk i hi)
  simp only [BatteryTherm.tree, maxEnergy, maxEnergies, energy, energies] at this
  linarith

/-- Non-vacuity: the losses of the converter of `warmBattery`. -/
example : ∃ b', BatteryWorkStep (fun _ => 1) 1 warmBattery b' := by
  have e : (({ warmBattery with cells := passing (1/4) warmCellIn } : BatteryTherm).thermal (fun _ => 1) 4 0 (1/4)).1 =
      .ok 291 := by decide +kernel
  rcases h : ({ warmBattery with cells := passing (1/4) warmCellIn } : BatteryTherm).thermal (fun _ => 1) 4 0 (1/4) with ⟨o, b'⟩
  rw [h] at e
  dsimp only at e
  subst e
  refine ⟨b', 1/4, 4, 291, _, by norm_num, ?_, ?_, ?_, h⟩
  · simp [warmBattery, warmCellIn, cellInModule, passing, passings, SameBodies, SameBodiess]
  · simp [warmCellIn, cellInModule, passing, passings, Synced, Synceds]
  · simp [warmBattery, warmCellIn, cellInModule, passing, passings, removed, removeds, pending, pendings, CoolSystem.make]

end Slide

import Verif.Spec.BatteryIsothermal
import Verif.Props.QuietRuns

/-!
# C165: a battery that is left alone gets one temperature
-/

namespace Slide
open Spec

/-! ## Helper lemmas -/

/-- A battery as the thermal model sees it: a module with one child. -/
def BatteryTherm.tree (b : BatteryTherm) : HTree := .module { A := b.cells.A, k := 0 } b.cool [b.cells]

theorem setT_area (T : ℚ) : ∀ u : HTree, (u.setT T).2.A = u.A
  | .cell _ => rfl
  | .plain _ => rfl
  | .module _ _ _ => rfl

theorem passing_area (t : ℚ) : ∀ u : HTree, (passing t u).A = u.A
  | .cell _ => by simp [passing, HTree.A]
  | .plain _ => by simp [passing, HTree.A]
  | .module _ _ _ => by simp [passing, HTree.A]

/-- Neighbours that do not conduct change nothing. -/
theorem thermal_insulated (H : CoolSystem → ℚ) (t : ℚ) (m : Neigh) (T1 A1 T2 A2 : ℚ) : ∀ u : HTree,
    u.thermal H [m, ⟨T1, 0, A1⟩, ⟨T2, 0, A2⟩] t = u.thermal H [m] t
  | .cell c => by simp [HTree.thermal, ThermCell.thermal]
  | .plain _ => by simp [HTree.thermal]
  | .module th cool ks => by
    rw [HTree.thermal, HTree.thermal]
    unfold HTree.finish
    simp

theorem quietBattery_tree {H : CoolSystem → ℚ} {t : ℚ} (ht : t ≠ 0) {b b' : BatteryTherm} (h : quietBattery H t b = some b') :
    quietStep H t b.tree = some b'.tree := by
  unfold quietBattery BatteryTherm.thermal at h
  simp only [passing_area] at h
  rcases h1 : (passing t b.cells).thermal H [⟨b.cool.T, H b.cool, b.cells.A⟩] t with ⟨o, u⟩
  have hf := HTree.thermal_frame H [⟨b.cool.T, H b.cool, b.cells.A⟩] t (passing t b.cells)
  rw [h1] at h hf
  dsimp only at hf
  rw [passing_area] at hf
  cases o with
  | throw e => simp at h
  | ub e => simp at h
  | ok tc =>
    simp only [ne_eq, not_true_eq_false, if_false, zero_mul, add_zero] at h
    rcases h2 : b.cool.dstate (H b.cool * b.cells.A * (u.T - b.cool.T) * t) (H b.cool * b.cells.A * (u.T - b.cool.T) * t) t with ⟨o2, c⟩
    rw [h2] at h
    cases o2 with
    | throw e => simp at h
    | ub e => simp at h
    | ok t1 =>
      dsimp only at h
      by_cases h3 : b.cool.rho * b.cool.cp * b.cool.vol = 0 ∨ t1 < 273 ∨ t1 > 273 + 75
      · rw [if_pos h3] at h; simp at h
      rw [if_neg h3] at h
      have hA := setT_area tc u
      rcases h4 : u.setT tc with ⟨o3, u'⟩
      rw [h4] at h hA
      cases o3 with
      | throw e => simp at h
      | ub e => simp at h
      | ok x =>
        dsimp only at h hA
        rcases h5 : c.setT t1 with ⟨o4, c'⟩
        rw [h5] at h
        cases o4 with
        | throw e => simp at h
        | ub e => simp at h
        | ok y =>
          simp only [Option.some.injEq] at h
          subst h
          have e1 : HTree.thermalKids H ⟨b.cool.T, H b.cool, b.cells.A⟩ 0 t (b.cool.T, b.cells.A) [passing t b.cells] =
              (.ok [tc], [u]) := by
            rw [HTree.thermalKids, thermal_insulated, h1]
            simp [HTree.thermalKids]
          have e2 : HTree.coolLoop (H b.cool) 0 b.cells.A b.cool.T t 1 0 0 [u] + 0 =
              H b.cool * b.cells.A * (u.T - b.cool.T) * t := by
            simp [HTree.coolLoop, hf.2]
          have e3 : HTree.setKids [u] [tc] = (.ok (), [u']) := by
            rw [HTree.setKids, h4]
            simp [HTree.setKids]
          unfold quietStep BatteryTherm.tree
          rw [passing, passings, passings, HTree.thermal, if_neg (by simp), if_neg ht, if_neg (by simp [HTree.maxKids])]
          unfold HTree.finish
          simp only [List.length_singleton, e1, e2, List.foldl_nil, h2, e3, if_neg h3]
          simp only [HTree.setT, h5]
          rw [hA, hf.2, HTree.reset]

/-- A pack within its limits, at rest, with short intervals to come. -/
structure QuietWithin (H : CoolSystem → ℚ) (τ : ℕ → ℚ) (lo hi : ℚ) (u : HTree) : Prop where
  synced : Synced 0 u
  areas : Areas u
  passive : Passive u
  within : Within lo hi u
  allows : Allows 0 lo hi u
  short : ∀ k, ShortStep H (τ k) 0 u

theorem quietWithin_step {H : CoolSystem → ℚ} {h : ℚ} (h0 : 0 ≤ h) (hH : ∀ c, H c = h) {τ : ℕ → ℚ} {lo hi : ℚ} (i : ℕ)
    (ht : 0 < τ i) {u v : HTree} (hu : QuietWithin H τ lo hi u) (e : quietStep H (τ i) u = some v) : QuietWithin H τ lo hi v := by
  have hHn : ∀ c, 0 ≤ H c := fun c => by rw [hH]; exact h0
  obtain ⟨T', u', r1, r2⟩ := quietStep_run e
  obtain ⟨p1, p2, p3, p4, p5, p6, p7, p8, p9, p10⟩ := passing_keeps (τ i) u hu.synced
  have hau := settled_tree H (τ i) ht.ne' _ _ p1 _ _ _ r1 r2
  obtain ⟨k1, k2, k3, _, k5⟩ := settled_keeps _ _ hau (p2 hu.areas) (p3 hu.passive)
  have q3 := temperatures_between_partial H hHn (τ i) lo hi ht _ [] p1 (p2 hu.areas) (p3 hu.passive) (p5 _ _ hu.within) (by simp)
    (by simpa using p10 _ _ _ (hu.short i)) _ _ _ r1 r2
  exact ⟨k1, k2, k3, q3, allows_after (τ i) lo hi _ _ hau (allows_passing lo hi (τ i) u hu.allows),
    fun k => k5 H h _ 0 hH (p10 _ _ _ (hu.short k))⟩

theorem quietBattery_step {H : CoolSystem → ℚ} {h : ℚ} (h0 : 0 ≤ h) (hH : ∀ c, H c = h) {τ : ℕ → ℚ} {lo hi : ℚ} (hlo : 273 ≤ lo)
    (hhi : hi ≤ 273 + 75) (i : ℕ) (ht : 0 < τ i) (b : BatteryTherm) (hb : QuietWithin H τ lo hi b.tree) :
    ∃ b', quietBattery H (τ i) b = some b' := by
  have hHn : ∀ c, 0 ≤ H c := fun c => by rw [hH]; exact h0
  obtain ⟨hs, ha, hp, hw, hal, hsh⟩ := hb
  have hsh := hsh i
  simp only [BatteryTherm.tree, Synced, Synceds, Areas, Areass, Passive, Passives, Within, Withins, Allows, Allowss, ShortStep, ShortSteps,
    totalArea, List.map_cons, List.map_nil, List.sum_cons, List.sum_nil, hH, mul_zero, add_zero, le_refl, true_and, and_true,
    zero_mul, zero_add] at hs ha hp hw hal hsh
  obtain ⟨p1, p2, p3, p4, p5, p6, p7, p8, p9, p10⟩ := passing_keeps (τ i) b.cells hs
  obtain ⟨tc, u, r1, b1, b2⟩ := runs_tree H hHn (τ i) lo hi ht hlo hhi (passing (τ i) b.cells) [⟨b.cool.T, H b.cool, b.cells.A⟩] p1
    (p2 ha.2) (p3 hp.2) (p5 _ _ hw.2) (allows_passing lo hi (τ i) b.cells hal.2.2)
    (by simpa using ⟨hHn _, ha.1, hw.1⟩) (by simpa [hH] using p10 _ _ _ hsh.2.2)
  have hf := HTree.thermal_frame H [⟨b.cool.T, H b.cool, b.cells.A⟩] (τ i) (passing (τ i) b.cells)
  have hT := within_T lo hi _ (p5 _ _ hw.2)
  rw [r1] at hf
  dsimp only at hf
  rw [← hf.1] at hT
  have hg : 0 ≤ h * b.cells.A * τ i := mul_nonneg (mul_nonneg h0 ha.1) ht.le
  have hmix := mix_bounds (b.cool.rho * b.cool.cp * b.cool.vol) b.cool.T (H b.cool * b.cells.A * (u.T - b.cool.T) * τ i)
    (h * b.cells.A * τ i) lo hi hsh.1 hsh.2.1 hw.1.1 hw.1.2
    (by rw [hH]; nlinarith [mul_nonneg hg (sub_nonneg.mpr hT.1)]) (by rw [hH]; nlinarith [mul_nonneg hg (sub_nonneg.mpr hT.2)])
  obtain ⟨c, hd⟩ : ∃ c, b.cool.dstate (H b.cool * b.cells.A * (u.T - b.cool.T) * τ i) (H b.cool * b.cells.A * (u.T - b.cool.T) * τ i)
      (τ i) = (.ok (b.cool.T + H b.cool * b.cells.A * (u.T - b.cool.T) * τ i / (b.cool.rho * b.cool.cp * b.cool.vol)), c) := by
    unfold CoolSystem.dstate
    cases hk : b.cool.kind <;> first | exact absurd hk hal.1 | exact ⟨_, rfl⟩
  generalize b.cool.T + H b.cool * b.cells.A * (u.T - b.cool.T) * τ i / (b.cool.rho * b.cool.cp * b.cool.vol) = t1 at hd hmix
  obtain ⟨u', r2⟩ := setT_runs (hlo.trans b1) (b2.trans hhi) u
  have r3 : c.setT t1 = (.ok (), { c with T := t1 }) := by
    rw [CoolSystem.setT, if_neg (by push Not; exact ⟨hlo.trans hmix.1, hmix.2.trans hhi⟩)]
  unfold quietBattery BatteryTherm.thermal
  simp only [passing_area, r1, ne_eq, not_true_eq_false, if_false, zero_mul, add_zero, hd]
  rw [if_neg (by push Not; exact ⟨hsh.1.ne', hlo.trans hmix.1, hmix.2.trans hhi⟩)]
  simp only [r2, r3]
  exact ⟨_, rfl⟩

/-! ## C165 -/

/-- **C165 for batteries, the part that holds**: the coolant of a battery that is left alone and everything in it tend to one
temperature. -/
theorem battery_isothermal_partial (H : CoolSystem → ℚ) (h : ℚ) (h0 : 0 < h) (hH : ∀ c, H c = h) (τ : ℕ → ℚ) (t a : ℚ)
    (ht : 0 < t) (hτ : ∀ k, t ≤ τ k) (ha : 0 < a) (v : ℕ → BatteryTherm)
    (hv : ∀ k, quietBattery H (τ k) (v k) = some (v (k + 1))) (hs : Synced 0 (v 0).cells) (hA : AreasAtLeast a (v 0).cells)
    (hp : Passive (v 0).cells) (hac : (v 0).cool.kind = .hvac → (v 0).cool.Qac = 0)
    (hsc : ∀ k, ShortStep H (2 * τ k) h (v 0).cells)
    (hsb : ∀ k, 0 < (v 0).cool.rho * (v 0).cool.cp * (v 0).cool.vol ∧
      h * (v 0).cells.A * (2 * τ k) ≤ (v 0).cool.rho * (v 0).cool.cp * (v 0).cool.vol) (ε : ℝ) (hε : 0 < ε) :
    ∃ N, ∀ k ≥ N, |((v k).cool.T : ℝ) - batteryMean (v 0)| < ε ∧ EachT (Metric.ball (batteryMean (v 0)) ε) (v k).cells := by
  have run : ∀ k, quietSteps H ((List.range k).map τ) (v 0).tree = some (v k).tree := by
    intro k
    induction k with
    | zero => rfl
    | succ k ih =>
      rw [List.range_succ, List.map_append, List.map_singleton, quietSteps_snoc, ih]
      exact quietBattery_tree (ht.trans_le (hτ k)).ne' (hv k)
  obtain ⟨N, hN⟩ := becomes_isothermal_partial H h h0 hH τ t a ht hτ ha (v 0).tree
    (by simpa [BatteryTherm.tree, Synced, Synceds] using hs)
    (by simpa [BatteryTherm.tree, AreasAtLeast, AreasAtLeasts] using ⟨areasAtLeast_A _ hA, hA⟩)
    (by simpa [BatteryTherm.tree, Passive, Passives] using ⟨hac, hp⟩)
    (fun k => by
      simp only [BatteryTherm.tree, ShortStep, ShortSteps, totalArea, List.map_cons, List.map_nil, List.sum_cons, List.sum_nil, hH,
        mul_zero, add_zero, le_refl, true_and, and_true, zero_mul, zero_add]
      exact ⟨(hsb k).1, (hsb k).2, hsc k⟩) _ run ε hε
  have e : meanTemperature (v 0).tree = batteryMean (v 0) := by
    simp [meanTemperature, batteryMean, BatteryTherm.tree, heatSum, heatSums]
  refine ⟨N, fun k hk => ?_⟩
  have := hN k hk
  rw [e] at this
  simp only [BatteryTherm.tree, EachT, EachTs, Metric.mem_ball, Real.dist_eq] at this
  exact ⟨this.1, this.2.1⟩

/-- **C165 for batteries, both parts**: a battery within its limits can be left alone for any number of short intervals; its coolant
and everything in it tend to one temperature. -/
theorem battery_left_alone_partial (H : CoolSystem → ℚ) (h : ℚ) (h0 : 0 < h) (hH : ∀ c, H c = h) (τ : ℕ → ℚ) (t a lo hi : ℚ)
    (ht : 0 < t) (hτ : ∀ k, t ≤ τ k) (ha : 0 < a) (hlo : 273 ≤ lo) (hhi : hi ≤ 273 + 75) (b : BatteryTherm)
    (hs : Synced 0 b.cells) (hA : AreasAtLeast a b.cells) (hp : Passive b.cells) (hw : Within lo hi b.cells)
    (hal : Allows 0 lo hi b.cells) (hk : b.cool.kind ≠ .hvac) (hT : lo ≤ b.cool.T ∧ b.cool.T ≤ hi)
    (hsc : ∀ k, ShortStep H (2 * τ k) h b.cells)
    (hsb : ∀ k, 0 < b.cool.rho * b.cool.cp * b.cool.vol ∧ h * b.cells.A * (2 * τ k) ≤ b.cool.rho * b.cool.cp * b.cool.vol) :
    ∃ v : ℕ → BatteryTherm, v 0 = b ∧ (∀ k, quietBattery H (τ k) (v k) = some (v (k + 1))) ∧
      ∀ ε > 0, ∃ N, ∀ k ≥ N, |((v k).cool.T : ℝ) - batteryMean b| < ε ∧ EachT (Metric.ball (batteryMean b) ε) (v k).cells := by
  have ht' : ∀ k, 0 < τ k := fun k => ht.trans_le (hτ k)
  have hq : QuietWithin H τ lo hi b.tree := by
    have hAr := areas_of_atLeast ha.le _ hA
    refine ⟨by simpa [BatteryTherm.tree, Synced, Synceds] using hs,
      by simpa [BatteryTherm.tree, Areas, Areass] using ⟨areas_nonneg _ hAr, hAr⟩,
      by simpa [BatteryTherm.tree, Passive, Passives] using ⟨fun hh => absurd hh hk, hp⟩,
      by simpa [BatteryTherm.tree, Within, Withins] using ⟨hT, hw⟩,
      by simpa [BatteryTherm.tree, Allows, Allowss] using ⟨hk, hal⟩, fun k => ?_⟩
    simp only [BatteryTherm.tree, ShortStep, ShortSteps, totalArea, List.map_cons, List.map_nil, List.sum_cons, List.sum_nil, hH,
      mul_zero, add_zero, le_refl, true_and, and_true, zero_mul, zero_add]
    exact ⟨(hsb k).1, by linarith [(hsb k).1, (hsb k).2], shortStep_half H (τ k) _ _ (hsc k)⟩
  have next : ∀ (k : ℕ) (x : { x : BatteryTherm // QuietWithin H τ lo hi x.tree }),
      ∃ y : { x : BatteryTherm // QuietWithin H τ lo hi x.tree }, quietBattery H (τ k) x.1 = some y.1 := by
    rintro k ⟨x, hx⟩
    obtain ⟨y, hy⟩ := quietBattery_step h0.le hH hlo hhi k (ht' k) x hx
    exact ⟨⟨y, quietWithin_step h0.le hH k (ht' k) hx (quietBattery_tree (ht' k).ne' hy)⟩, hy⟩
  choose nxt hnxt using next
  let w : ℕ → { x : BatteryTherm // QuietWithin H τ lo hi x.tree } := fun k => Nat.rec ⟨b, hq⟩ (fun k x => nxt k x) k
  have hv : ∀ k, quietBattery H (τ k) (w k).1 = some (w (k + 1)).1 := fun k => hnxt k (w k)
  exact ⟨fun k => (w k).1, rfl, hv, fun ε hε => battery_isothermal_partial H h h0 hH τ t a ht hτ ha (fun k => (w k).1) hv hs hA hp
    (fun hh => absurd hh hk) hsc hsb ε hε⟩

/-- A battery of 290 K around a module of 290 K with a cell of 300 K. -/
def warmBattery : BatteryTherm where
  cells := warmCellIn
  cool := { CoolSystem.make 1 1 with T := 290, rho := 1, cp := 1, vol := 1 }
  ns := 1
  np := 1

/-- Non-vacuity of `battery_left_alone_partial` (and with it of `battery_isothermal_partial`). -/
example : Synced 0 warmBattery.cells ∧ AreasAtLeast 1 warmBattery.cells ∧ Passive warmBattery.cells ∧
    Within 290 300 warmBattery.cells ∧ Allows 0 290 300 warmBattery.cells ∧ warmBattery.cool.kind ≠ .hvac ∧
    (290 ≤ warmBattery.cool.T ∧ warmBattery.cool.T ≤ 300) ∧ ShortStep (fun _ => 1) (2 * (1/4)) 1 warmBattery.cells ∧
    (0 < warmBattery.cool.rho * warmBattery.cool.cp * warmBattery.cool.vol ∧
      1 * warmBattery.cells.A * (2 * (1/4)) ≤ warmBattery.cool.rho * warmBattery.cool.cp * warmBattery.cool.vol) := by
  obtain ⟨o1, o2, o3, _⟩ := warmCellIn_ok
  refine ⟨o1, o2, o3, ?_, ?_, by decide, by decide +kernel, ?_, by decide +kernel⟩
  · simp only [warmBattery, warmCellIn, cellInModule, Within, Withins]; norm_num
  · simp only [warmBattery, warmCellIn, cellInModule, Allows, Allowss, CoolSystem.make]; norm_num; decide
  · simp only [warmBattery, warmCellIn, cellInModule, ShortStep, ShortSteps, totalArea, List.map_cons, List.map_nil, List.sum_cons,
      List.sum_nil, HTree.A]
    norm_num

end Slide

import Verif.Spec.DecayRate
import Verif.Props.BatteryIsothermal

/-!
# C165: the temperatures approach each other geometrically
-/

namespace Slide
open Spec

/-! ## Helper lemmas -/

mutual
theorem depthOf_eq : ∀ u : HTree, depthOf u = nesting u
  | .cell _ => by simp [depthOf, nesting]
  | .plain _ => by simp [depthOf, nesting]
  | .module _ _ ks => by simp [depthOf, nesting, depthsOf_eq ks]
theorem depthsOf_eq : ∀ us : List HTree, depthsOf us = nestings us
  | [] => by simp [depthsOf, nestings]
  | u :: us => by simp [depthsOf, nestings, depthOf_eq u, depthsOf_eq us]
end

theorem sq_near {c x R : ℝ} (h : x ∈ Metric.closedBall c R) : (x - c) ^ 2 ≤ R ^ 2 := by
  rw [Metric.mem_closedBall, Real.dist_eq] at h
  exact sq_le_sq' (abs_le.mp h).1 (abs_le.mp h).2

mutual
theorem spread_near (H : CoolSystem → ℚ) {t K : ℚ} (c R : ℝ) : ∀ u : HTree, ShortStep H t K u → EachT (Metric.closedBall c R) u →
    heatSum (fun x => (x - c) ^ 2) u ≤ R ^ 2 * heatSum (fun _ => 1) u
  | .cell x, h, hT => by
    rw [ShortStep] at h
    rw [EachT] at hT
    have h1 : (0 : ℝ) < x.C := by exact_mod_cast h.1
    simp only [heatSum, mul_one]
    rw [mul_comm]
    exact mul_le_mul_of_nonneg_right (sq_near hT) h1.le
  | .plain _, _, _ => by simp [heatSum]
  | .module th cool ks, h, hT => by
    rw [ShortStep] at h
    rw [EachT] at hT
    have h1 : (0 : ℝ) < ((cool.rho * cool.cp * cool.vol : ℚ) : ℝ) := by exact_mod_cast h.1
    have h2 := spreads_near H c R ks h.2.2.2 hT.2
    have h3 := mul_le_mul_of_nonneg_right (sq_near hT.1) h1.le
    simp only [heatSum, mul_one]
    linarith
theorem spreads_near (H : CoolSystem → ℚ) {t K : ℚ} (c R : ℝ) : ∀ us : List HTree, ShortSteps H t K us →
    EachTs (Metric.closedBall c R) us → heatSums (fun x => (x - c) ^ 2) us ≤ R ^ 2 * heatSums (fun _ => 1) us
  | [], _, _ => by simp [heatSums]
  | u :: us, h, hT => by
    rw [ShortSteps] at h
    rw [EachTs] at hT
    have h1 := spread_near H c R u h.1 hT.1
    have h2 := spreads_near H c R us h.2 hT.2
    simp only [heatSums]
    linarith
end

/-- The spread is at most what the differences to the coolants allow. -/
theorem spread_le_gaps {H : CoolSystem → ℚ} {h a : ℚ} (hH : ∀ c, H c = h) (h0 : 0 < h) (ha : 0 < a) {τ : ℕ → ℚ} {t : ℚ} (ht : 0 < t)
    {u w : HTree} (k : Keeps H τ a u w) :
    ((h * a * t : ℚ) : ℝ) * heatSum (fun x => (x - meanTemperature u) ^ 2) w ≤
      4 * (nesting u : ℝ) ^ 2 * heatSum (fun _ => 1) u * coolGaps H t w := by
  have hHn : ∀ c, 0 ≤ H c := fun c => by rw [hH]; exact h0.le
  have g : (0 : ℝ) < ((h * a * t : ℚ) : ℝ) := by exact_mod_cast mul_pos (mul_pos h0 ha) ht
  have hD := coolGaps_nonneg H hHn ha.le ht.le w k.areas
  set r : ℝ := Real.sqrt (coolGaps H t w / ((h * a * t : ℚ) : ℝ)) with hr
  have hr0 : 0 ≤ r := Real.sqrt_nonneg _
  have hr2 : ((h * a * t : ℚ) : ℝ) * r ^ 2 = coolGaps H t w := by
    rw [hr, Real.sq_sqrt (div_nonneg hD g.le)]
    field_simp
  have near := near_tree H hH h0 ha ht hr0 w k.areas hr2.ge
  have cp := cap_pos H w k.areas (k.short 0)
  have mn := mean_near H _ _ w (k.short 0) near
  have e : meanTemperature u = heatSum id w / heatSum (fun _ => 1) w := by
    unfold meanTemperature
    rw [k.cap, k.heat]
  rw [k.nest] at near mn
  have m2 : |(w.T : ℝ) - meanTemperature u| ≤ (nesting u : ℝ) * r := by
    rw [abs_sub_comm, e]
    rw [show heatSum id w / heatSum (fun _ => 1) w - (w.T : ℝ) =
      (heatSum id w - (w.T : ℝ) * heatSum (fun _ => 1) w) / heatSum (fun _ => 1) w by field_simp,
      abs_div, abs_of_pos cp, div_le_iff₀ cp]
    exact mn
  have near2 : EachT (Metric.closedBall (meanTemperature u) (2 * (nesting u : ℝ) * r)) w := by
    refine eachT_mono (Metric.closedBall_subset_closedBall' ?_) w near
    rw [Real.dist_eq]
    linarith
  have hsp := spread_near H _ _ w (k.short 0) near2
  rw [k.cap] at hsp
  calc ((h * a * t : ℚ) : ℝ) * heatSum (fun x => (x - meanTemperature u) ^ 2) w
      ≤ ((h * a * t : ℚ) : ℝ) * ((2 * (nesting u : ℝ) * r) ^ 2 * heatSum (fun _ => 1) u) := mul_le_mul_of_nonneg_left hsp g.le
    _ = 4 * (nesting u : ℝ) ^ 2 * heatSum (fun _ => 1) u * (((h * a * t : ℚ) : ℝ) * r ^ 2) := by ring
    _ = _ := by rw [hr2]

mutual
theorem coolGaps_time {H : CoolSystem → ℚ} {t t' a : ℚ} (hH : ∀ c, 0 ≤ H c) (ha : 0 ≤ a) (htt : t ≤ t') : ∀ u : HTree,
    AreasAtLeast a u → coolGaps H t u ≤ coolGaps H t' u
  | .cell _, _ => by simp [coolGaps]
  | .plain _, _ => by simp [coolGaps]
  | .module th cool ks, h => by
    rw [AreasAtLeast] at h
    rw [coolGaps, coolGaps]
    exact coolGapss_time hH ha htt ks _ (hH cool) (ha.trans h.1) h.2
theorem coolGapss_time {H : CoolSystem → ℚ} {t t' a : ℚ} (hH : ∀ c, 0 ≤ H c) (ha : 0 ≤ a) (htt : t ≤ t') : ∀ (us : List HTree)
    (m : Neigh), 0 ≤ m.K → 0 ≤ m.A → AreasAtLeasts a us → coolGapss H t m us ≤ coolGapss H t' m us
  | [], _, _, _, _ => by simp [coolGapss]
  | u :: us, m, hK, hA, h => by
    rw [AreasAtLeasts] at h
    rw [coolGapss, coolGapss]
    have h1 := coolGaps_time hH ha htt u h.1
    have h2 := coolGapss_time hH ha htt us m hK hA h.2
    have h3 : ((m.K * min m.A u.A * t : ℚ) : ℝ) ≤ ((m.K * min m.A u.A * t' : ℚ) : ℝ) := by
      exact_mod_cast mul_le_mul_of_nonneg_left htt (mul_nonneg hK (le_min hA (ha.trans (areasAtLeast_A u h.1))))
    have h4 := mul_le_mul_of_nonneg_right h3 (sq_nonneg ((m.T : ℝ) - u.T))
    linarith
end

theorem keeps_all {H : CoolSystem → ℚ} {h a : ℚ} (hH : ∀ c, H c = h) (h0 : 0 < h) {τ : ℕ → ℚ} (ht' : ∀ k, 0 < τ k) (ha : 0 < a)
    {u : HTree} (hs : Synced 0 u) (hA : AreasAtLeast a u) (hp : Passive u) (hsh : ∀ k, ShortStep H (2 * τ k) 0 u) {v : ℕ → HTree}
    (hv : ∀ k, quietSteps H ((List.range k).map τ) u = some (v k)) :
    (∀ k, quietStep H (τ k) (v k) = some (v (k + 1))) ∧ ∀ k, Keeps H τ a u (v k) := by
  have step : ∀ k, quietStep H (τ k) (v k) = some (v (k + 1)) := by
    intro k
    have := hv (k + 1)
    rw [List.range_succ, List.map_append, List.map_singleton, quietSteps_snoc, hv k] at this
    exact this
  have keep : ∀ k, Keeps H τ a u (v k) := by
    intro k
    induction k with
    | zero =>
      have := hv 0
      simp only [List.range_zero, List.map_nil, quietSteps, Option.some.injEq] at this
      rw [← this]
      exact ⟨hs, hp, hsh, hA, rfl, rfl, rfl⟩
    | succ k ih => exact (keeps_step hH h0 k (ht' k) ha ih (step k) 0).1
  exact ⟨step, keep⟩

/-! ## C165 -/

/-- **C165, how fast**: the weighted sum of squared distances from the common temperature shrinks in each interval at least by the
factor `1 - decayRate`. -/
theorem spread_decays_partial (H : CoolSystem → ℚ) (h : ℚ) (h0 : 0 < h) (hH : ∀ c, H c = h) (τ : ℕ → ℚ) (t a : ℚ) (ht : 0 < t)
    (hτ : ∀ k, t ≤ τ k) (ha : 0 < a) (u : HTree) (hs : Synced 0 u) (hA : AreasAtLeast a u) (hp : Passive u)
    (hsh : ∀ k, ShortStep H (2 * τ k) 0 u) (v : ℕ → HTree) (hv : ∀ k, quietSteps H ((List.range k).map τ) u = some (v k)) (k : ℕ) :
    spreadAbout (meanTemperature u) (v (k + 1)) ≤ (1 - decayRate h a t u) * spreadAbout (meanTemperature u) (v k) := by
  have hHn : ∀ c, 0 ≤ H c := fun c => by rw [hH]; exact h0.le
  have ht' : ∀ k, 0 < τ k := fun k => ht.trans_le (hτ k)
  obtain ⟨step, keep⟩ := keeps_all hH h0 (fun k => ht' k) ha hs hA hp hsh hv
  have d := (keeps_step hH h0 k (ht' k) ha (keep k) (step k) (meanTemperature u)).2
  have g := spread_le_gaps hH h0 ha ht (keep k)
  have m := coolGaps_time hHn ha.le (hτ k) (v k) (keep k).areas
  have hD := coolGaps_nonneg H hHn ha.le ht.le (v k) (keep k).areas
  have cp := cap_pos H u hA (hsh 0)
  unfold spreadAbout decayRate
  rw [depthOf_eq]
  generalize heatSum (fun x => (x - meanTemperature u) ^ 2) (v k) = S at *
  generalize heatSum (fun x => (x - meanTemperature u) ^ 2) (v (k + 1)) = S' at *
  generalize heatSum (fun _ => 1) u = C at *
  generalize coolGaps H t (v k) = D at *
  generalize coolGaps H (τ k) (v k) = D' at *
  generalize ((h * a * t : ℚ) : ℝ) = c at *
  have key : c / (8 * (nesting u : ℝ) ^ 2 * C) * S ≤ D / 2 := by
    rcases Nat.eq_zero_or_pos (nesting u) with hn | hn
    · rw [hn]
      simp
      linarith
    · have hn' : (0 : ℝ) < (nesting u : ℝ) := by exact_mod_cast hn
      have hpos : 0 < 8 * (nesting u : ℝ) ^ 2 * C := by positivity
      rw [div_mul_eq_mul_div, div_le_iff₀ hpos]
      linarith
  rw [sub_mul, one_mul]
  linarith

/-- **C165, how fast**, over any number of intervals. -/
theorem spread_decays_geometrically_partial (H : CoolSystem → ℚ) (h : ℚ) (h0 : 0 < h) (hH : ∀ c, H c = h) (τ : ℕ → ℚ) (t a : ℚ)
    (ht : 0 < t) (hτ : ∀ k, t ≤ τ k) (ha : 0 < a) (u : HTree) (hs : Synced 0 u) (hA : AreasAtLeast a u) (hp : Passive u)
    (hsh : ∀ k, ShortStep H (2 * τ k) 0 u) (v : ℕ → HTree)
    (hv : ∀ k, quietSteps H ((List.range k).map τ) u = some (v k)) (k : ℕ) :
    spreadAbout (meanTemperature u) (v k) ≤ (1 - decayRate h a t u) ^ k * spreadAbout (meanTemperature u) u := by
  have dec := spread_decays_partial H h h0 hH τ t a ht hτ ha u hs hA hp hsh v hv
  have e0 : v 0 = u := by
    have := hv 0
    simp only [List.range_zero, List.map_nil, quietSteps, Option.some.injEq] at this
    exact this.symm
  have nn : ∀ k, 0 ≤ spreadAbout (meanTemperature u) (v k) := fun k =>
    heatSum_sq_nonneg H _ _ (((keeps_all hH h0 (fun k => ht.trans_le (hτ k)) ha hs hA hp hsh hv).2 k).short 0)
  rcases le_or_gt (decayRate h a t u) 1 with hr | hr
  · induction k with
    | zero => rw [e0, pow_zero, one_mul]
    | succ k ih =>
      refine (dec k).trans ?_
      rw [pow_succ', mul_assoc]
      exact mul_le_mul_of_nonneg_left ih (by linarith)
  · have z : ∀ k, spreadAbout (meanTemperature u) (v k) = 0 := fun k => by nlinarith [dec k, nn k, nn (k + 1)]
    have z0 := z 0
    rw [e0] at z0
    rw [z k, z0, mul_zero]

/-- Non-vacuity: for `warmCellIn` and intervals of a quarter of a second the rate is 1/64. -/
example : decayRate 1 1 (1/4) warmCellIn = 1 / 64 ∧ Synced 0 warmCellIn ∧ AreasAtLeast 1 warmCellIn ∧ Passive warmCellIn ∧
    ShortStep (fun _ => 1) (2 * (1/4)) 0 warmCellIn ∧
    ∃ v : ℕ → HTree, ∀ k, quietSteps (fun _ => 1) ((List.range k).map fun _ => 1/4) warmCellIn = some (v k) := by
  obtain ⟨o1, o2, o3, _⟩ := warmCellIn_ok
  have o4 : ShortStep (fun _ => 1) (2 * (1/4)) 0 warmCellIn := by
    simp only [warmCellIn, cellInModule, ShortStep, ShortSteps, totalArea, List.map_cons, List.map_nil, List.sum_cons, List.sum_nil,
      HTree.A]
    norm_num
  refine ⟨?_, o1, o2, o3, o4, ?_⟩
  · simp only [decayRate, warmCellIn, cellInModule, depthOf, depthsOf, heatSum, heatSums]
    norm_num
  · obtain ⟨v, hv, -⟩ := left_alone_partial (fun _ => 1) 1 (by norm_num) (fun _ => rfl) (fun _ => 1/4) (1/4) 1 290 300 (by norm_num)
      (fun _ => le_refl _) (by norm_num) (by norm_num) (by norm_num) warmCellIn o1 o2 o3
      (by simp only [warmCellIn, cellInModule, Within, Withins]; norm_num)
      (by simp only [warmCellIn, cellInModule, Allows, Allowss, CoolSystem.make]; norm_num; decide) (fun _ => o4)
    exact ⟨v, hv⟩

end Slide

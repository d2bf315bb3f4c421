import Verif.Spec.QuietRuns
import Verif.Props.Isothermal

/-!
# C165: the updates of a pack that is left alone succeed
-/

namespace Slide
open Spec

/-! ## Helper lemmas -/

theorem setT_runs {T : ℚ} (h1 : 273 ≤ T) (h2 : T ≤ 273 + 75) : ∀ u : HTree, ∃ u', u.setT T = (.ok (), u')
  | .cell _ => ⟨_, rfl⟩
  | .plain _ => ⟨_, rfl⟩
  | .module th cool ks => by
    rw [HTree.setT, CoolSystem.setT, if_neg (by push Not; exact ⟨h1, h2⟩)]
    exact ⟨_, rfl⟩

theorem setKids_runs : ∀ (us : List HTree) (ts : List ℚ), us.length = ts.length → (∀ T ∈ ts, 273 ≤ T ∧ T ≤ 273 + 75) →
    ∃ us', HTree.setKids us ts = (.ok (), us')
  | [], _, _, _ => ⟨_, rfl⟩
  | _ :: _, [], h, _ => by simp at h
  | u :: us, T :: ts, h, hT => by
    obtain ⟨u', e1⟩ := setT_runs (hT T List.mem_cons_self).1 (hT T List.mem_cons_self).2 u
    obtain ⟨us', e2⟩ := setKids_runs us ts (by simpa using h) fun x hx => hT x (List.mem_cons_of_mem _ hx)
    rw [HTree.setKids, e1]
    dsimp only
    rw [e2]
    exact ⟨_, rfl⟩

mutual
theorem runs_tree (H : CoolSystem → ℚ) (hH : ∀ c, 0 ≤ H c) (t lo hi : ℚ) (ht : 0 < t) (hlo : 273 ≤ lo) (hhi : hi ≤ 273 + 75) :
    ∀ (u : HTree) (ns : List Neigh), Synced t u → Areas u → Passive u → Within lo hi u → Allows t lo hi u →
      (∀ n ∈ ns, 0 ≤ n.K ∧ 0 ≤ n.A ∧ lo ≤ n.T ∧ n.T ≤ hi) → ShortStep H t (ns.map Neigh.K).sum u →
      ∃ T' u', u.thermal H ns t = (.ok T', u') ∧ lo ≤ T' ∧ T' ≤ hi
  | .cell c, ns, hs, ha, hp, hw, hl, hn, hsh => by
    rw [Synced] at hs
    rw [Areas] at ha
    rw [Passive] at hp
    rw [Within] at hw
    rw [Allows] at hl
    rw [ShortStep] at hsh
    have := mix_bounds c.C c.T _ ((ns.map Neigh.K).sum * c.A * t) lo hi hsh.1 hsh.2 hw.1 hw.2
      (received_ge t c.T c.A lo ns ht.le hw.1 ha fun n h => ⟨(hn n h).1, (hn n h).2.1, (hn n h).2.2.1⟩)
      (received_le t c.T c.A hi ns ht.le hw.2 ha fun n h => ⟨(hn n h).1, (hn n h).2.1, (hn n h).2.2.2⟩)
    refine ⟨c.T + received t c.T c.A ns / c.C, .cell c.done, ?_, this⟩
    rw [HTree.thermal]
    unfold ThermCell.thermal
    simp only [hs, received_fold, hp, zero_add]
    rw [if_neg (by simp), if_neg hsh.1.ne', if_neg (by push Not; exact ⟨this.2.trans hl.2, hl.1.trans this.1⟩)]
  | .plain T0, ns, _, _, _, hw, _, _, _ => by
    rw [Within] at hw
    exact ⟨T0, _, rfl, hw.1, hw.2⟩
  | .module th cool ks, ns, hs, ha, hp, hw, hl, hn, hsh => by
    rw [Synced] at hs
    rw [Areas] at ha
    rw [Passive] at hp
    rw [Within] at hw
    rw [Allows] at hl
    rw [ShortStep] at hsh
    obtain ⟨ts, ks1, hk, hlen, hts⟩ := runs_trees H hH t lo hi ht hlo hhi ks ⟨cool.T, H cool, th.A⟩ th.k (cool.T, th.A)
      hs ha.2 hp.2.2 hw.2 hl.2.2.2 (hH cool) hsh.2.1 ha.1 ha.1 hw.1 hw.1 hsh.2.2.2
    obtain ⟨ks2, hsk⟩ := setKids_runs ks1 ts hlen fun T h => ⟨hlo.trans (hts T h).1, (hts T h).2.trans hhi⟩
    have hf := HTree.thermalKids_frame H ⟨cool.T, H cool, th.A⟩ th.k t ks (cool.T, th.A) ts ks1 hk
    obtain ⟨c1, c2⟩ := coolLoop_bounds (H cool) th.k th.A cool.T t lo hi ks.length (hH cool) hsh.2.1 ha.1 ht.le hw.1.1
      hw.1.2 ks 0 0 (mem_bounds lo hi ks hw.2 ha.2)
    have g1 := received_ge t cool.T th.A lo ns ht.le hw.1.1 ha.1 fun n h => ⟨(hn n h).1, (hn n h).2.1, (hn n h).2.2.1⟩
    have g2 := received_le t cool.T th.A hi ns ht.le hw.1.2 ha.1 fun n h => ⟨(hn n h).1, (hn n h).2.1, (hn n h).2.2.2⟩
    have hmix := mix_bounds (cool.rho * cool.cp * cool.vol) cool.T
      (HTree.coolLoop (H cool) th.k th.A cool.T t ks.length 0 0 ks + received t cool.T th.A ns)
      (((ns.map Neigh.K).sum * th.A + (H cool + 2 * th.k) * totalArea ks) * t) lo hi hsh.1 hsh.2.2.1 hw.1.1 hw.1.2
      (by linarith) (by linarith)
    rw [HTree.thermal, if_neg (by push Not; rw [hl.1]; simp), if_neg ht.ne', if_neg (by unfold HTree.maxKids; push Not; exact hl.2.2.1)]
    unfold HTree.finish
    rw [hk]
    dsimp only
    rw [coolLoop_congr _ _ _ _ _ _ _ _ _ _ hf, received_fold, hp.1, add_zero]
    generalize HTree.coolLoop (H cool) th.k th.A cool.T t ks.length 0 0 ks = e at *
    obtain ⟨cool2, hd⟩ : ∃ cool2, cool.dstate (e + received t cool.T th.A ns) e t =
        (.ok (cool.T + (e + received t cool.T th.A ns) / (cool.rho * cool.cp * cool.vol)), cool2) := by
      unfold CoolSystem.dstate
      cases hk : cool.kind <;> first | exact absurd hk hl.2.1 | exact ⟨_, rfl⟩
    rw [hd]
    dsimp only
    rw [hsk]
    dsimp only
    rw [if_neg (by push Not; exact ⟨hsh.1.ne', hlo.trans hmix.1, hmix.2.trans hhi⟩)]
    exact ⟨_, _, rfl, hmix⟩
theorem runs_trees (H : CoolSystem → ℚ) (hH : ∀ c, 0 ≤ H c) (t lo hi : ℚ) (ht : 0 < t) (hlo : 273 ≤ lo) (hhi : hi ≤ 273 + 75) :
    ∀ (us : List HTree) (m : Neigh) (k : ℚ) (l : ℚ × ℚ), Synceds t us → Areass us → Passives us → Withins lo hi us →
      Allowss t lo hi us → 0 ≤ m.K → 0 ≤ k → 0 ≤ m.A → 0 ≤ l.2 → (lo ≤ m.T ∧ m.T ≤ hi) → (lo ≤ l.1 ∧ l.1 ≤ hi) →
      ShortSteps H t (m.K + 2 * k) us →
      ∃ ts us', HTree.thermalKids H m k t l us = (.ok ts, us') ∧ us'.length = ts.length ∧ ∀ T ∈ ts, lo ≤ T ∧ T ≤ hi
  | [], m, k, l, _, _, _, _, _, _, _, _, _, _, _, _ => ⟨[], [], rfl, rfl, by simp⟩
  | u :: us, m, k, l, hs, ha, hp, hw, ho, hmK, hk0, hm, hl, hmT, hlT, hsh => by
    rw [Synceds] at hs
    rw [Areass] at ha
    rw [Passives] at hp
    rw [Withins] at hw
    rw [Allowss] at ho
    rw [ShortSteps] at hsh
    have hr : 0 ≤ (HTree.rightOf m us).2 ∧ lo ≤ (HTree.rightOf m us).1 ∧ (HTree.rightOf m us).1 ≤ hi := by
      cases us with
      | nil => exact ⟨hm, hmT⟩
      | cons v vs =>
        rw [Areass] at ha
        rw [Withins] at hw
        exact ⟨areas_nonneg v ha.2.1, within_T lo hi v hw.2.1⟩
    obtain ⟨T', u1, e1, b1, b2⟩ := runs_tree H hH t lo hi ht hlo hhi u
      [m, ⟨l.1, k, l.2⟩, ⟨(HTree.rightOf m us).1, k, (HTree.rightOf m us).2⟩] hs.1 ha.1 hp.1 hw.1 ho.1
      (by simp [hmK, hk0, hm, hl, hmT, hlT, hr])
      (by
        have : (([m, ⟨l.1, k, l.2⟩, ⟨(HTree.rightOf m us).1, k, (HTree.rightOf m us).2⟩] : List Neigh).map Neigh.K).sum =
            m.K + 2 * k := by simp; ring
        rw [this]; exact hsh.1)
    have hf := HTree.thermal_frame H [m, ⟨l.1, k, l.2⟩, ⟨(HTree.rightOf m us).1, k, (HTree.rightOf m us).2⟩] t u
    rw [e1] at hf
    dsimp only at hf
    obtain ⟨ts, us2, e2, b3, b4⟩ := runs_trees H hH t lo hi ht hlo hhi us m k (u1.T, u1.A) hs.2 ha.2 hp.2 hw.2 ho.2 hmK hk0 hm
      (by rw [hf.2]; exact areas_nonneg u ha.1) hmT (by rw [hf.1]; exact within_T lo hi u hw.1) hsh.2
    rw [HTree.thermalKids]
    rw [e1]
    dsimp only
    rw [e2]
    refine ⟨_, _, rfl, by simp [b3], ?_⟩
    intro T hT
    rcases List.mem_cons.mp hT with rfl | h
    · exact ⟨b1, b2⟩
    · exact b4 T h
end

mutual
theorem allows_after (x lo hi : ℚ) : ∀ (u v : HTree), AfterUpdate u v → Allows x lo hi u → Allows 0 lo hi v
  | .cell c, .cell d, h, ha => by
    rw [AfterUpdate] at h
    rw [Allows] at ha ⊢
    rw [h.2.2.2.2.1, h.2.2.2.2.2]
    exact ha
  | .plain c, .plain d, _, _ => by rw [Allows]; trivial
  | .module th cool ks, .module th' cool' ks', h, ha => by
    rw [AfterUpdate] at h
    rw [Allows] at ha ⊢
    obtain ⟨f1, f2⟩ := allowss_after x lo hi ks ks' h.2.2.2.2 ha.2.2.2
    exact ⟨by rw [h.1, HTree.reset], by rw [h.2.2.1]; exact ha.2.1, by rw [f1]; exact ha.2.2.1, f2⟩
  | .cell _, .plain _, h, _ => by simp [AfterUpdate] at h
  | .cell _, .module _ _ _, h, _ => by simp [AfterUpdate] at h
  | .plain _, .cell _, h, _ => by simp [AfterUpdate] at h
  | .plain _, .module _ _ _, h, _ => by simp [AfterUpdate] at h
  | .module _ _ _, .cell _, h, _ => by simp [AfterUpdate] at h
  | .module _ _ _, .plain _, h, _ => by simp [AfterUpdate] at h
theorem allowss_after (x lo hi : ℚ) : ∀ (us vs : List HTree), AfterUpdates us vs → Allowss x lo hi us →
    vs.length = us.length ∧ Allowss 0 lo hi vs
  | [], [], _, _ => ⟨rfl, by rw [Allowss]; trivial⟩
  | u :: us, v :: vs, h, ha => by
    rw [AfterUpdates] at h
    rw [Allowss] at ha ⊢
    obtain ⟨f1, f2⟩ := allowss_after x lo hi us vs h.2 ha.2
    exact ⟨by simp [f1], allows_after x lo hi u v h.1 ha.1, f2⟩
  | [], _ :: _, h, _ => by simp [AfterUpdates] at h
  | _ :: _, [], h, _ => by simp [AfterUpdates] at h
end

mutual
theorem allows_passing (lo hi x : ℚ) : ∀ u : HTree, Allows 0 lo hi u → Allows x lo hi (passing x u)
  | .cell _, h => by rw [passing]; rw [Allows] at h ⊢; exact h
  | .plain _, _ => by rw [passing, Allows]; trivial
  | .module th cool ks, h => by
    rw [passing]
    rw [Allows] at h ⊢
    obtain ⟨f1, f2⟩ := allowss_passing lo hi x ks h.2.2.2
    exact ⟨by rw [h.1, zero_add], h.2.1, by rw [f1]; exact h.2.2.1, f2⟩
theorem allowss_passing (lo hi x : ℚ) : ∀ us : List HTree, Allowss 0 lo hi us →
    (passings x us).length = us.length ∧ Allowss x lo hi (passings x us)
  | [], _ => by simp [passings, Allowss]
  | u :: us, h => by
    rw [Allowss] at h
    obtain ⟨f1, f2⟩ := allowss_passing lo hi x us h.2
    rw [passings, Allowss]
    exact ⟨by simp [f1], allows_passing lo hi x u h.1, f2⟩
end

mutual
theorem shortStep_half (H : CoolSystem → ℚ) (t : ℚ) : ∀ (u : HTree) (K : ℚ), ShortStep H (2 * t) K u → ShortStep H t K u
  | .cell c, K, h => by
    rw [ShortStep] at h ⊢
    exact ⟨h.1, by linarith [h.1, h.2]⟩
  | .plain _, _, _ => by rw [ShortStep]; trivial
  | .module th cool ks, K, h => by
    rw [ShortStep] at h ⊢
    exact ⟨h.1, h.2.1, by linarith [h.1, h.2.2.1], shortSteps_half H t ks _ h.2.2.2⟩
theorem shortSteps_half (H : CoolSystem → ℚ) (t : ℚ) : ∀ (us : List HTree) (K : ℚ), ShortSteps H (2 * t) K us → ShortSteps H t K us
  | [], _, _ => by rw [ShortSteps]; trivial
  | u :: us, K, h => by
    rw [ShortSteps] at h ⊢
    exact ⟨shortStep_half H t u K h.1, shortSteps_half H t us K h.2⟩
end

/-! ## C165 -/

/-- **C165, all updates succeed**: however many short intervals a pack is left alone, no update of its temperatures fails. -/
theorem quiet_runs_partial (H : CoolSystem → ℚ) (h : ℚ) (h0 : 0 ≤ h) (hH : ∀ c, H c = h) (lo hi : ℚ) (hlo : 273 ≤ lo)
    (hhi : hi ≤ 273 + 75) : ∀ (ts : List ℚ), (∀ t ∈ ts, 0 < t) → ∀ u : HTree, Synced 0 u → Areas u → Passive u →
      Within lo hi u → Allows 0 lo hi u → (∀ t ∈ ts, ShortStep H t 0 u) → ∃ u'', quietSteps H ts u = some u'' := by
  intro ts hts
  induction ts with
  | nil => exact fun u _ _ _ _ _ _ => ⟨u, rfl⟩
  | cons t ts ih =>
    intro u hs ha hp hw hal hsh
    have ht : 0 < t := hts t List.mem_cons_self
    have hHn : ∀ c, 0 ≤ H c := fun c => by rw [hH]; exact h0
    obtain ⟨p1, p2, p3, p4, p5, p6, p7, p8, p9, p10⟩ := passing_keeps t u hs
    obtain ⟨T', u', r1, b1, b2⟩ := runs_tree H hHn t lo hi ht hlo hhi (passing t u) [] p1 (p2 ha) (p3 hp) (p5 _ _ hw)
      (allows_passing lo hi t u hal) (by simp) (by simpa using p10 _ _ _ (hsh t List.mem_cons_self))
    obtain ⟨v, r2⟩ := setT_runs (hlo.trans b1) (b2.trans hhi) u'
    have hau := settled_tree H t ht.ne' _ _ p1 _ _ _ r1 r2
    obtain ⟨k1, k2, k3, _, k5⟩ := settled_keeps _ _ hau (p2 ha) (p3 hp)
    have q3 := temperatures_between_partial H hHn t lo hi ht _ [] p1 (p2 ha) (p3 hp) (p5 _ _ hw) (by simp)
      (by simpa using p10 _ _ _ (hsh t List.mem_cons_self)) _ _ _ r1 r2
    obtain ⟨w, e⟩ := ih (fun t h => hts t (List.mem_cons_of_mem _ h)) v k1 k2 k3 q3
      (allows_after t lo hi _ _ hau (allows_passing lo hi t u hal))
      fun y hy => k5 H h y 0 hH (p10 _ _ _ (hsh y (List.mem_cons_of_mem _ hy)))
    refine ⟨w, ?_⟩
    rw [quietSteps, quietStep, r1]
    dsimp only
    rw [r2]
    exact e

/-- **C165, both parts**: a pack within its limits can be left alone for any number of short intervals, and gets one temperature. -/
theorem left_alone_partial (H : CoolSystem → ℚ) (h : ℚ) (h0 : 0 < h) (hH : ∀ c, H c = h) (τ : ℕ → ℚ) (t a lo hi : ℚ) (ht : 0 < t)
    (hτ : ∀ k, t ≤ τ k) (ha : 0 < a) (hlo : 273 ≤ lo) (hhi : hi ≤ 273 + 75) (u : HTree) (hs : Synced 0 u) (hA : AreasAtLeast a u) (hp : Passive u)
    (hw : Within lo hi u) (hal : Allows 0 lo hi u) (hsh : ∀ k, ShortStep H (2 * τ k) 0 u) :
    ∃ v : ℕ → HTree, (∀ k, quietSteps H ((List.range k).map τ) u = some (v k)) ∧
      ∀ ε > 0, ∃ N, ∀ k ≥ N, EachT (Metric.ball (meanTemperature u) ε) (v k) := by
  have run : ∀ k, ∃ w, quietSteps H ((List.range k).map τ) u = some w := fun k =>
    quiet_runs_partial H h h0.le hH lo hi hlo hhi _ (fun x hx => by obtain ⟨i, -, rfl⟩ := List.mem_map.mp hx; exact ht.trans_le (hτ i)) u hs
      (areas_of_atLeast ha.le u hA) hp hw hal fun x hx => by
        obtain ⟨i, -, rfl⟩ := List.mem_map.mp hx; exact shortStep_half H (τ i) u 0 (hsh i)
  choose v hv using run
  exact ⟨v, hv, fun ε hε => becomes_isothermal_partial H h h0 hH τ t a ht hτ ha u hs hA hp hsh v hv ε hε⟩

/-- Non-vacuity of `quiet_runs_partial` and `left_alone_partial`. -/
example : Synced 0 warmCellIn ∧ AreasAtLeast 1 warmCellIn ∧ Passive warmCellIn ∧ Within 290 300 warmCellIn ∧ Allows 0 290 300 warmCellIn ∧
    ShortStep (fun _ => 1) (2 * (1/3)) 0 warmCellIn ∧ ShortStep (fun _ => 1) (1/3) 0 warmCellIn := by
  obtain ⟨o1, o2, o3, _⟩ := warmCellIn_ok
  refine ⟨o1, o2, o3, ?_, ?_, ?_, ?_⟩
  · simp only [warmCellIn, cellInModule, Within, Withins]; norm_num
  · simp only [warmCellIn, cellInModule, Allows, Allowss, CoolSystem.make]; norm_num; decide
  all_goals
    simp only [warmCellIn, cellInModule, ShortStep, ShortSteps, totalArea, List.map_cons, List.map_nil, List.sum_cons, List.sum_nil,
      HTree.A]
    norm_num

end Slide

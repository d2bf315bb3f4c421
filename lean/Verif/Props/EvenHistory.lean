import Verif.Spec.EvenHistory
import Verif.Props.EvenOut

/-!
# C161 for histories: a pack that is left alone
-/

namespace Slide
open Spec

/-! ## Helper lemmas -/

mutual
/-- `v` has the bodies of `u`; its clocks show 0 and no heat is waiting. -/
def AfterUpdate : HTree → HTree → Prop
  | .cell c, .cell d => d.A = c.A ∧ d.C = c.C ∧ d.Qgen = 0 ∧ d.time = 0 ∧ d.Tmin = c.Tmin ∧ d.Tmax = c.Tmax
  | .plain _, .plain _ => True
  | .module th cool ks, .module th' cool' ks' =>
    th' = HTree.reset th ∧ cool'.rho * cool'.cp * cool'.vol = cool.rho * cool.cp * cool.vol ∧ cool'.kind = cool.kind ∧
      cool'.Qac = cool.Qac ∧ AfterUpdates ks ks'
  | _, _ => False
termination_by structural u => u
def AfterUpdates : List HTree → List HTree → Prop
  | [], [] => True
  | u :: us, v :: vs => AfterUpdate u v ∧ AfterUpdates us vs
  | _, _ => False
termination_by structural us => us
end

theorem settled_module_run {H : CoolSystem → ℚ} {th : ModTherm} {cool : CoolSystem} {ks : List HTree} {ns : List Neigh}
    {t T' : ℚ} {u' u'' : HTree} (ht : t ≠ 0) (h : (HTree.module th cool ks).thermal H ns t = (.ok T', u'))
    (hset : u'.setT T' = (.ok (), u'')) :
    ∃ ts ks1 ks2 cool', HTree.thermalKids H ⟨cool.T, H cool, th.A⟩ th.k t (cool.T, th.A) ks = (.ok ts, ks1) ∧
      HTree.setKids ks1 ts = (.ok (), ks2) ∧ u'' = .module (HTree.reset th) cool' ks2 ∧
      cool'.rho * cool'.cp * cool'.vol = cool.rho * cool.cp * cool.vol ∧ cool'.kind = cool.kind ∧ cool'.Qac = cool.Qac := by
  rw [HTree.thermal] at h
  by_cases h1 : |th.time - t| > 1
  · rw [if_pos h1] at h; cases h
  rw [if_neg h1, if_neg ht] at h
  by_cases h2 : ks.length > HTree.maxKids
  · rw [if_pos h2] at h; cases h
  rw [if_neg h2] at h
  unfold HTree.finish at h
  rcases hk : HTree.thermalKids H ⟨cool.T, H cool, th.A⟩ th.k t (cool.T, th.A) ks with ⟨o, ks1⟩
  rw [hk] at h
  cases o with
  | throw e => cases h
  | ub e => cases h
  | ok ts =>
    dsimp only at h
    generalize HTree.coolLoop (H cool) th.k th.A cool.T t ks.length 0 0 ks1 + th.Qcontact = e at *
    generalize ns.foldl (fun e n => e + n.K * min n.A th.A * (n.T - cool.T) * t) e = q at *
    have hdf := cool.dstate_frame q e t
    rcases hd : cool.dstate q e t with ⟨o2, cool2⟩
    rw [hd] at h hdf
    cases o2 with
    | throw e => cases h
    | ub e => cases h
    | ok t1 =>
      dsimp only at h hdf
      rcases hsk : HTree.setKids ks1 ts with ⟨o3, ks2⟩
      rw [hsk] at h
      cases o3 with
      | throw e => cases h
      | ub e => cases h
      | ok x =>
        dsimp only at h
        by_cases h3 : cool.rho * cool.cp * cool.vol = 0 ∨ t1 < 273 ∨ t1 > 273 + 75
        · rw [if_pos h3] at h; cases h
        rw [if_neg h3] at h
        simp only [Prod.mk.injEq, Outcome.ok.injEq] at h
        obtain ⟨rfl, rfl⟩ := h
        push Not at h3
        simp only [HTree.setT, CoolSystem.setT, if_neg (show ¬ (t1 < 273 ∨ t1 > 273 + 75) by push Not; exact h3.2),
          Prod.mk.injEq, true_and] at hset
        refine ⟨ts, ks1, ks2, { cool2 with T := t1 }, rfl, hsk, hset.symm, ?_, hdf.2.2.2.2.1, hdf.2.2.2.2.2⟩
        dsimp only
        rw [hdf.2.1, hdf.2.2.1, hdf.2.2.2.1]

mutual
theorem settled_tree (H : CoolSystem → ℚ) (t : ℚ) (ht : t ≠ 0) : ∀ (u : HTree) (ns : List Neigh), Synced t u →
    ∀ T' u' u'', u.thermal H ns t = (.ok T', u') → u'.setT T' = (.ok (), u'') → AfterUpdate u u''
  | .cell c, ns, hs, T', u', u'', h1, h2 => by
    rw [Synced] at hs
    obtain ⟨-, rfl⟩ := cell_run hs h1 h2
    rw [AfterUpdate]
    exact ⟨rfl, rfl, rfl, rfl, rfl, rfl⟩
  | .plain T, ns, _, T', u', u'', h1, h2 => by
    rw [HTree.thermal] at h1
    simp only [Prod.mk.injEq, Outcome.ok.injEq] at h1
    obtain ⟨rfl, rfl⟩ := h1
    simp only [HTree.setT, Prod.mk.injEq, true_and] at h2
    rw [← h2, AfterUpdate]
    trivial
  | .module th cool ks, ns, hs, T', u', u'', h1, h2 => by
    rw [Synced] at hs
    obtain ⟨ts, ks1, ks2, c2, a1, a2, rfl, a3, a4, a5⟩ := settled_module_run ht h1 h2
    rw [AfterUpdate]
    exact ⟨rfl, a3, a4, a5, settled_kids H t ht ks _ _ _ hs _ _ _ a1 a2⟩
theorem settled_kids (H : CoolSystem → ℚ) (t : ℚ) (ht : t ≠ 0) : ∀ (us : List HTree) (m : Neigh) (k : ℚ) (l : ℚ × ℚ),
    Synceds t us → ∀ ts us' us'', HTree.thermalKids H m k t l us = (.ok ts, us') → HTree.setKids us' ts = (.ok (), us'') →
    AfterUpdates us us''
  | [], m, k, l, _, ts, us', us'', h1, h2 => by
    rw [HTree.thermalKids] at h1
    simp only [Prod.mk.injEq, Outcome.ok.injEq] at h1
    obtain ⟨rfl, rfl⟩ := h1
    simp only [HTree.setKids, Prod.mk.injEq, true_and] at h2
    rw [← h2, AfterUpdates]
    trivial
  | u :: us, m, k, l, hs, ts, us', us'', h1, h2 => by
    rw [Synceds] at hs
    obtain ⟨T', u1, u2, ts2, us2, us3, rfl, b1, b2, b3, b4⟩ := cons_run h1 h2
    rw [AfterUpdates]
    exact ⟨settled_tree H t ht u _ hs.1 _ _ _ b1 b2, settled_kids H t ht us _ _ _ hs.2 _ _ _ b3 b4⟩
end

mutual
theorem settled_keeps : ∀ (u v : HTree), AfterUpdate u v → Areas u → Passive u →
    Synced 0 v ∧ Areas v ∧ Passive v ∧ v.A = u.A ∧ ∀ (H : CoolSystem → ℚ) (h t K : ℚ), (∀ c, H c = h) →
      ShortStep H t K u → ShortStep H t K v
  | .cell c, .cell d, h, ha, hp => by
    rw [AfterUpdate] at h
    rw [Areas] at ha
    simp only [Synced, Areas, Passive, ShortStep, HTree.A]
    obtain ⟨e1, e2, e3, e4, -⟩ := h
    exact ⟨e4, e1 ▸ ha, e3, e1, fun H h t K _ hh => by rw [e1, e2]; exact hh⟩
  | .plain c, .plain d, h, ha, hp => by
    simp [Synced, Areas, Passive, ShortStep, HTree.A]
  | .module th cool ks, .module th' cool' ks', h, ha, hp => by
    rw [AfterUpdate] at h
    rw [Areas] at ha
    rw [Passive] at hp
    obtain ⟨rfl, e1, e2, e3, e4⟩ := h
    obtain ⟨f1, f2, f3, f4, f5⟩ := settleds_keeps ks ks' e4 ha.2 hp.2.2
    simp only [Synced, Areas, Passive, ShortStep, HTree.A, HTree.reset]
    refine ⟨f1, ⟨ha.1, f2⟩, ⟨trivial, by rw [e2, e3]; exact hp.2.1, f3⟩, trivial, fun H h t K hH hh => ?_⟩
    rw [e1, f4, hH cool', ← hH cool]
    exact ⟨hh.1, hh.2.1, hh.2.2.1, f5 H h t _ hH hh.2.2.2⟩
  | .cell _, .plain _, h, _, _ => by simp [AfterUpdate] at h
  | .cell _, .module _ _ _, h, _, _ => by simp [AfterUpdate] at h
  | .plain _, .cell _, h, _, _ => by simp [AfterUpdate] at h
  | .plain _, .module _ _ _, h, _, _ => by simp [AfterUpdate] at h
  | .module _ _ _, .cell _, h, _, _ => by simp [AfterUpdate] at h
  | .module _ _ _, .plain _, h, _, _ => by simp [AfterUpdate] at h
theorem settleds_keeps : ∀ (us vs : List HTree), AfterUpdates us vs → Areass us → Passives us →
    Synceds 0 vs ∧ Areass vs ∧ Passives vs ∧ totalArea vs = totalArea us ∧ ∀ (H : CoolSystem → ℚ) (h t K : ℚ), (∀ c, H c = h) →
      ShortSteps H t K us → ShortSteps H t K vs
  | [], [], _, _, _ => by simp [Synceds, Areass, Passives, ShortSteps]
  | u :: us, v :: vs, h, ha, hp => by
    rw [AfterUpdates] at h
    rw [Areass] at ha
    rw [Passives] at hp
    obtain ⟨a1, a2, a3, a4, a5⟩ := settled_keeps u v h.1 ha.1 hp.1
    obtain ⟨f1, f2, f3, f4, f5⟩ := settleds_keeps us vs h.2 ha.2 hp.2
    simp only [Synceds, Areass, Passives, ShortSteps]
    refine ⟨⟨a1, f1⟩, ⟨a2, f2⟩, ⟨a3, f3⟩, ?_, fun H h t K hH hh => ⟨a5 H h t K hH hh.1, f5 H h t K hH hh.2⟩⟩
    unfold totalArea at *
    simp only [List.map_cons, List.sum_cons, f4, a4]
  | [], _ :: _, h, _, _ => by simp [AfterUpdates] at h
  | _ :: _, [], h, _, _ => by simp [AfterUpdates] at h
end

mutual
theorem passing_keeps (x : ℚ) : ∀ u : HTree, Synced 0 u → Synced x (passing x u) ∧ (Areas u → Areas (passing x u)) ∧
    (Passive u → Passive (passing x u)) ∧ (passing x u).A = u.A ∧ (∀ lo hi, Within lo hi u → Within lo hi (passing x u)) ∧
    (∀ f, heatSum f (passing x u) = heatSum f u) ∧ energy (passing x u) = energy u ∧ pending (passing x u) = pending u ∧
    (∀ y, removed y (passing x u) = removed y u) ∧ ∀ H t K, ShortStep H t K u → ShortStep H t K (passing x u)
  | .cell c, h => by
    rw [Synced] at h
    simp only [passing, Synced, Areas, Passive, HTree.A, Within, heatSum, energy, pending, removed, ShortStep, h]
    simp
  | .plain _, _ => by
    simp only [passing, Synced, Areas, Passive, HTree.A, Within, heatSum, energy, pending, removed, ShortStep]
    simp
  | .module th cool ks, h => by
    rw [Synced] at h
    obtain ⟨a1, a2, a3, a4, a5, a6, a7, a8, a9, a10⟩ := passings_keeps x ks h
    simp only [passing, Synced, Areas, Passive, HTree.A, Within, heatSum, energy, pending, removed, ShortStep]
    refine ⟨a1, fun h => ⟨h.1, a2 h.2⟩, fun h => ⟨h.1, h.2.1, a3 h.2.2⟩, trivial, fun lo hi h => ⟨h.1, a5 lo hi h.2⟩,
      fun f => by rw [a6], by rw [a7], by rw [a8], fun y => by rw [a9], fun H t K h => ?_⟩
    rw [a4]
    exact ⟨h.1, h.2.1, h.2.2.1, a10 _ _ _ h.2.2.2⟩
theorem passings_keeps (x : ℚ) : ∀ us : List HTree, Synceds 0 us → Synceds x (passings x us) ∧
    (Areass us → Areass (passings x us)) ∧ (Passives us → Passives (passings x us)) ∧ totalArea (passings x us) = totalArea us ∧
    (∀ lo hi, Withins lo hi us → Withins lo hi (passings x us)) ∧ (∀ f, heatSums f (passings x us) = heatSums f us) ∧
    energies (passings x us) = energies us ∧ pendings (passings x us) = pendings us ∧
    (∀ y, removeds y (passings x us) = removeds y us) ∧ ∀ H t K, ShortSteps H t K us → ShortSteps H t K (passings x us)
  | [], _ => by simp [passings, Synceds, Areass, Passives, Withins, ShortSteps]
  | u :: us, h => by
    rw [Synceds] at h
    obtain ⟨b1, b2, b3, b4, b5, b6, b7, b8, b9, b10⟩ := passing_keeps x u h.1
    obtain ⟨a1, a2, a3, a4, a5, a6, a7, a8, a9, a10⟩ := passings_keeps x us h.2
    simp only [passings, Synceds, Areass, Passives, Withins, heatSums, energies, pendings, removeds, ShortSteps]
    refine ⟨⟨b1, a1⟩, fun h => ⟨b2 h.1, a2 h.2⟩, fun h => ⟨b3 h.1, a3 h.2⟩, ?_, fun lo hi h => ⟨b5 lo hi h.1, a5 lo hi h.2⟩,
      fun f => by rw [b6, a6], by rw [b7, a7], by rw [b8, a8], fun y => by rw [b9, a9],
      fun H t K h => ⟨b10 _ _ _ h.1, a10 _ _ _ h.2⟩⟩
    unfold totalArea at *
    simp only [List.map_cons, List.sum_cons, a4, b4]
end

mutual
theorem passive_heat (t : ℚ) : ∀ u : HTree, Passive u → pending u = 0 ∧ removed t u = 0
  | .cell c, h => by rw [Passive] at h; simp [pending, removed, h]
  | .plain _, _ => by simp [pending, removed]
  | .module th cool ks, h => by
    rw [Passive] at h
    obtain ⟨h1, h2, h3⟩ := h
    obtain ⟨a, b⟩ := passives_heat t ks h3
    simp only [pending, removed, a, b, h1]
    refine ⟨by simp, ?_⟩
    split_ifs with hk
    · rw [h2 hk]; simp
    · simp
theorem passives_heat (t : ℚ) : ∀ us : List HTree, Passives us → pendings us = 0 ∧ removeds t us = 0
  | [], _ => by simp [pendings, removeds]
  | u :: us, h => by
    rw [Passives] at h
    obtain ⟨a, b⟩ := passive_heat t u h.1
    obtain ⟨c, d⟩ := passives_heat t us h.2
    simp [pendings, removeds, a, b, c, d]
end

mutual
theorem within_eachT (lo hi : ℚ) (h0 : 0 < lo) : ∀ u : HTree, Within lo hi u → EachT (Set.Ioi 0) u
  | .cell c, h => by
    rw [Within] at h
    rw [EachT, Set.mem_Ioi]
    exact_mod_cast lt_of_lt_of_le h0 h.1
  | .plain T, h => by
    rw [Within] at h
    rw [EachT, Set.mem_Ioi]
    exact_mod_cast lt_of_lt_of_le h0 h.1
  | .module th cool ks, h => by
    rw [Within] at h
    rw [EachT, Set.mem_Ioi]
    exact ⟨by exact_mod_cast lt_of_lt_of_le h0 h.1.1, withins_eachT lo hi h0 ks h.2⟩
theorem withins_eachT (lo hi : ℚ) (h0 : 0 < lo) : ∀ us : List HTree, Withins lo hi us → EachTs (Set.Ioi 0) us
  | [], _ => by simp [EachTs]
  | u :: us, h => by
    rw [Withins] at h
    rw [EachTs]
    exact ⟨within_eachT lo hi h0 u h.1, withins_eachT lo hi h0 us h.2⟩
end

theorem quietStep_run {H : CoolSystem → ℚ} {t : ℚ} {u v : HTree} (h : quietStep H t u = some v) :
    ∃ T' u', (passing t u).thermal H [] t = (.ok T', u') ∧ u'.setT T' = (.ok (), v) := by
  unfold quietStep at h
  rcases h1 : (passing t u).thermal H [] t with ⟨o, u'⟩
  rw [h1] at h
  cases o with
  | throw e => cases h
  | ub e => cases h
  | ok T' =>
    dsimp only at h
    rcases h2 : u'.setT T' with ⟨o, u''⟩
    rw [h2] at h
    cases o with
    | throw e => cases h
    | ub e => cases h
    | ok x =>
      simp only [Option.some.injEq] at h
      subst h
      exact ⟨T', u', rfl, h2⟩

/-! ## C161 -/

/-- **C161 for histories, the part that holds**: a pack with a steady heat-transfer coefficient that is left alone for any
intervals, each short compared with the time constants of all bodies. -/
theorem evens_out_always_partial (H : CoolSystem → ℚ) (h : ℚ) (h0 : 0 ≤ h) (hH : ∀ c, H c = h) (ts : List ℚ)
    (hts : ∀ t ∈ ts, 0 < t) : ∀ (u u'' : HTree) (lo hi : ℚ), 0 < lo → Synced 0 u → Areas u → Passive u → Within lo hi u →
    (∀ t ∈ ts, ShortStep H t 0 u) → quietSteps H ts u = some u'' →
      entropy u ≤ entropy u'' ∧ (∀ T0, spreadAbout T0 u'' ≤ spreadAbout T0 u) ∧ energy u'' = energy u ∧ Within lo hi u'' := by
  induction ts with
  | nil =>
    intro u u'' lo hi _ _ _ _ hw _ e
    simp only [quietSteps, Option.some.injEq] at e
    subst e
    exact ⟨le_refl _, fun _ => le_refl _, rfl, hw⟩
  | cons t ts ih =>
    intro u u'' lo hi hlo hs ha hp hw hsh e
    rw [quietSteps, Option.bind_eq_some_iff] at e
    obtain ⟨v, e1, e2⟩ := e
    obtain ⟨T', u', r1, r2⟩ := quietStep_run e1
    have ht : 0 < t := hts t List.mem_cons_self
    obtain ⟨p1, p2, p3, p4, p5, p6, p7, p8, p9, p10⟩ := passing_keeps t u hs
    have hHn : ∀ c, 0 ≤ H c := fun c => by rw [hH]; exact h0
    obtain ⟨q1, q2⟩ := evens_out_partial H hHn t ht _ p1 (p2 ha) (p3 hp) (within_eachT lo hi hlo _ (p5 _ _ hw))
      (p10 _ _ _ (hsh t List.mem_cons_self)) _ _ _ r1 r2
    have q3 := temperatures_between_partial H hHn t lo hi ht _ [] p1 (p2 ha) (p3 hp) (p5 _ _ hw) (by simp)
      (by simpa using p10 _ _ _ (hsh t List.mem_cons_self)) _ _ _ r1 r2
    obtain ⟨k1, k2, k3, _, k5⟩ := settled_keeps _ _ (settled_tree H t ht.ne' _ _ p1 _ _ _ r1 r2) (p2 ha) (p3 hp)
    have q4 := (heat_balance_partial H _ [] t ht.ne' p1 (p2 ha) (by simp) _ _ _ r1 r2).1
    rw [(passive_heat t _ (p3 hp)).1, (passive_heat t _ (p3 hp)).2, p7] at q4
    simp only [received, List.map_nil, List.sum_nil, add_zero] at q4
    obtain ⟨i1, i2, i3, i4⟩ := ih (fun t h => hts t (List.mem_cons_of_mem _ h)) v u'' lo hi hlo k1 k2 k3 q3
      (fun y hy => k5 H h y 0 hH (p10 _ _ _ (hsh y (List.mem_cons_of_mem _ hy)))) e2
    unfold entropy spreadAbout at *
    rw [p6] at q1
    simp only [p6] at q2
    exact ⟨q1.trans i1, fun T0 => (i2 T0).trans (q2 T0), i3.trans q4, i4⟩

/-- **C161 for histories is false of the code** if intervals may be long: in `warmInCold` the coolant gets 310 K. -/
theorem not_evensOutAlways : ¬ EvensOutAlways := by
  intro h
  have e : (quietSteps (fun _ => 1) [2] (passing (-2) warmInCold)).map HTree.T = some 310 := by decide +kernel
  obtain ⟨u'', e1, e2⟩ := Option.map_eq_some_iff.mp e
  have h0 := (h (fun _ => 1) (fun _ => by norm_num) [2] (by simp) _ u'' 290 300 (by norm_num)
    (by simp [passing, passings, warmInCold, Synced, Synceds]) (by simp [passing, passings, warmInCold, Areas, Areass])
    (by simp [passing, passings, warmInCold, Passive, Passives, CoolSystem.make])
    (by simp only [passing, passings, warmInCold, Within, Withins]; norm_num) e1).2.2.2
  cases u'' with
  | cell c => rw [Within] at h0; change c.T = 310 at e2; rw [e2] at h0; norm_num at h0
  | plain T => rw [Within] at h0; change T = 310 at e2; rw [e2] at h0; norm_num at h0
  | module th cool ks => rw [Within] at h0; change cool.T = 310 at e2; rw [e2] at h0; norm_num at h0

/-- Non-vacuity of `evens_out_always_partial`: five intervals. -/
example : Synced 0 (passing (-1) quietCells) ∧ Areas (passing (-1) quietCells) ∧ Passive (passing (-1) quietCells) ∧
    Within 273 333 (passing (-1) quietCells) ∧ (∀ t ∈ [1, 1/2, 1, 1/3, (1 : ℚ)], ShortStep (fun _ => 1) t 0 (passing (-1) quietCells)) ∧
    (quietSteps (fun _ => 1) [1, 1/2, 1, 1/3, 1] (passing (-1) quietCells)).isSome := by
  refine ⟨by simp [quietCells, passing, passings, Synced, Synceds], by simp [quietCells, passing, passings, Areas, Areass],
    by simp [quietCells, passing, passings, Passive, Passives, CoolSystem.make], ?_, ?_, by decide +kernel⟩
  · simp only [quietCells, passing, passings, Within, Withins, CoolSystem.make, CoolSystem.T_ENV]; norm_num
  · simp only [quietCells, passing, passings, ShortStep, ShortSteps, CoolSystem.make, CoolSystem.T_ENV, totalArea, List.map_cons,
      List.map_nil, List.sum_cons, List.sum_nil, HTree.A, List.mem_cons, List.not_mem_nil, or_false]
    rintro t (rfl | rfl | rfl | rfl | rfl) <;> norm_num

end Slide

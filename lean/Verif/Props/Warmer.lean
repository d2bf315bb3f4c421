import Verif.Props.Thermal
import Verif.Spec.Warmer

/-!
# C160: warmer surroundings and more heat make nothing colder
-/

namespace Slide
open Spec

/-! ## Helper lemmas -/

theorem received_mono {t A T S : ℚ} {ns ms : List Neigh} (ht : 0 ≤ t) (hA : 0 ≤ A) (hT : T ≤ S) (h : NoWarmerOutside ns ms)
    (hn : ∀ n ∈ ns, 0 ≤ n.K ∧ 0 ≤ n.A) :
    received t T A ns - (ns.map Neigh.K).sum * A * t * (S - T) ≤ received t S A ms := by
  induction h with
  | nil => simp [received]
  | @cons n m ns ms h0 _ ih =>
    have ih := ih fun x hx => hn x (List.mem_cons_of_mem _ hx)
    obtain ⟨h1, h2⟩ := hn n List.mem_cons_self
    obtain ⟨e1, e2, e3⟩ := h0
    unfold received at ih ⊢
    simp only [List.map_cons, List.sum_cons]
    rw [← e2, ← e3]
    have hm : 0 ≤ min n.A A := le_min h2 hA
    have hc : 0 ≤ n.K * min n.A A * t := mul_nonneg (mul_nonneg h1 hm) ht
    have a1 := mul_le_mul_of_nonneg_left e1 hc
    have a2 : n.K * min n.A A * t ≤ n.K * A * t :=
      mul_le_mul_of_nonneg_right (mul_le_mul_of_nonneg_left (min_le_right _ _) h1) ht
    have a3 := mul_le_mul_of_nonneg_right a2 (show 0 ≤ S - T by linarith)
    linarith

/-- Temperatures and areas of two lists of units. -/
def Beside (us vs : List HTree) : Prop := List.Forall₂ (fun u v => u.T ≤ v.T ∧ u.A = v.A ∧ 0 ≤ u.A) us vs

theorem noWarmer_T : ∀ u v : HTree, NoWarmer u v → u.T ≤ v.T ∧ u.A = v.A
  | .cell _, .cell _, h => by rw [NoWarmer] at h; exact ⟨h.1, h.2.1⟩
  | .plain _, .plain _, h => by rw [NoWarmer] at h; exact ⟨h, rfl⟩
  | .module _ _ _, .module _ _ _, h => by rw [NoWarmer] at h; exact ⟨h.1, h.2.1⟩
  | .cell _, .plain _, h => by simp [NoWarmer] at h
  | .cell _, .module _ _ _, h => by simp [NoWarmer] at h
  | .plain _, .cell _, h => by simp [NoWarmer] at h
  | .plain _, .module _ _ _, h => by simp [NoWarmer] at h
  | .module _ _ _, .cell _, h => by simp [NoWarmer] at h
  | .module _ _ _, .plain _, h => by simp [NoWarmer] at h

theorem beside_of : ∀ us vs : List HTree, NoWarmers us vs → Areass us → Beside us vs
  | [], [], _, _ => List.Forall₂.nil
  | u :: us, v :: vs, h, ha => by
    rw [NoWarmers] at h
    rw [Areass] at ha
    have := noWarmer_T u v h.1
    exact List.Forall₂.cons ⟨this.1, this.2, areas_nonneg u ha.1⟩ (beside_of us vs h.2 ha.2)
  | [], _ :: _, h, _ => by simp [NoWarmers] at h
  | _ :: _, [], h, _ => by simp [NoWarmers] at h

theorem coolLoop_mono {h k A Tm Sm t : ℚ} {n : ℕ} (hh : 0 ≤ h) (hk : 0 ≤ k) (hA : 0 ≤ A) (ht : 0 ≤ t) (hT : Tm ≤ Sm) :
    ∀ {us vs : List HTree}, Beside us vs → ∀ (i : ℕ) (e d : ℚ),
      HTree.coolLoop h k A Tm t n i e us - e - (h + 2 * k) * totalArea us * t * (Sm - Tm) ≤
        HTree.coolLoop h k A Sm t n i d vs - d := by
  intro us vs hb
  induction hb with
  | nil => intro i e d; simp [HTree.coolLoop, totalArea]
  | @cons u v us vs h0 _ ih =>
    intro i e d
    obtain ⟨u1, u2, u3⟩ := h0
    have ih := ih (i + 1)
    rw [HTree.coolLoop, HTree.coolLoop, ← u2]
    have hm : 0 ≤ min A u.A := le_min hA u3
    have hm2 : min A u.A ≤ u.A := min_le_right _ _
    generalize min A u.A = a at *
    have key : ∀ c : ℚ, 0 ≤ c → c * a * (u.T - Tm) * t - c * u.A * t * (Sm - Tm) ≤ c * a * (v.T - Sm) * t := by
      intro c hc
      have b0 : 0 ≤ c * a * t := mul_nonneg (mul_nonneg hc hm) ht
      have b1 : c * a * t ≤ c * u.A * t := mul_le_mul_of_nonneg_right (mul_le_mul_of_nonneg_left hm2 hc) ht
      have := mul_le_mul_of_nonneg_left u1 b0
      have := mul_le_mul_of_nonneg_right b1 (show 0 ≤ Sm - Tm by linarith)
      linarith
    have p := key h hh
    have q := key k hk
    have z : 0 ≤ k * u.A * t * (Sm - Tm) := mul_nonneg (mul_nonneg (mul_nonneg hk u3) ht) (by linarith)
    have hta : totalArea (u :: us) = u.A + totalArea us := by simp [totalArea]
    rw [hta]
    split_ifs
    · have := ih (e + h * a * (u.T - Tm) * t + k * a * (u.T - Tm) * t + k * a * (u.T - Tm) * t)
        (d + h * a * (v.T - Sm) * t + k * a * (v.T - Sm) * t + k * a * (v.T - Sm) * t)
      linarith
    · have := ih (e + h * a * (u.T - Tm) * t + k * a * (u.T - Tm) * t) (d + h * a * (v.T - Sm) * t + k * a * (v.T - Sm) * t)
      linarith
    · have := ih (e + h * a * (u.T - Tm) * t + k * a * (u.T - Tm) * t) (d + h * a * (v.T - Sm) * t + k * a * (v.T - Sm) * t)
      linarith
    · have := ih (e + h * a * (u.T - Tm) * t) (d + h * a * (v.T - Sm) * t)
      linarith

/-- A successful run on a cell. -/
theorem cell_run {H : CoolSystem → ℚ} {c : ThermCell} {ns : List Neigh} {t T' : ℚ} {u' u'' : HTree} (hs : c.time = t)
    (h : (HTree.cell c).thermal H ns t = (.ok T', u')) (hset : u'.setT T' = (.ok (), u'')) :
    T' = c.T + (c.Qgen + received t c.T c.A ns) / c.C ∧ u'' = .cell { c.done with T := T' } := by
  rw [HTree.thermal] at h
  unfold ThermCell.thermal at h
  simp only [hs, received_fold] at h
  split_ifs at h
  · cases h
  · cases h
  · cases h
  · simp only [Prod.mk.injEq, Outcome.ok.injEq] at h
    obtain ⟨rfl, rfl⟩ := h
    simp only [HTree.setT, Prod.mk.injEq, true_and] at hset
    exact ⟨rfl, hset.symm⟩

/-- A successful run on a module. -/
theorem module_run {H : CoolSystem → ℚ} {th : ModTherm} {cool : CoolSystem} {ks : List HTree} {ns : List Neigh} {t T' : ℚ}
    {u' u'' : HTree} (ht : t ≠ 0) (h : (HTree.module th cool ks).thermal H ns t = (.ok T', u'))
    (hset : u'.setT T' = (.ok (), u'')) :
    ∃ ts ks1 ks2 cool', HTree.thermalKids H ⟨cool.T, H cool, th.A⟩ th.k t (cool.T, th.A) ks = (.ok ts, ks1) ∧
      HTree.setKids ks1 ts = (.ok (), ks2) ∧ u'' = .module (HTree.reset th) cool' ks2 ∧ cool'.T = T' ∧
      cool'.rho * cool'.cp * cool'.vol = cool.rho * cool.cp * cool.vol ∧
      cool.rho * cool.cp * cool.vol * T' + (if cool.kind = .hvac then cool.Qac * t else 0) =
        cool.rho * cool.cp * cool.vol * cool.T +
          (HTree.coolLoop (H cool) th.k th.A cool.T t ks.length 0 0 ks + th.Qcontact + received t cool.T th.A ns) := by
  rw [HTree.thermal] at h
  by_cases h1 : |th.time - t| > 1
  · rw [if_pos h1] at h; cases h
  rw [if_neg h1, if_neg ht] at h
  by_cases h2 : ks.length > HTree.maxKids
  · rw [if_pos h2] at h; cases h
  rw [if_neg h2] at h
  have hf := HTree.thermalKids_frame H ⟨cool.T, H cool, th.A⟩ th.k t ks (cool.T, th.A)
  unfold HTree.finish at h
  rcases hk : HTree.thermalKids H ⟨cool.T, H cool, th.A⟩ th.k t (cool.T, th.A) ks with ⟨o, ks1⟩
  rw [hk] at h
  cases o with
  | throw e => cases h
  | ub e => cases h
  | ok ts =>
    dsimp only at h
    have hf := hf ts ks1 hk
    rw [coolLoop_congr _ _ _ _ _ _ _ _ _ _ hf, received_fold] at h
    generalize HTree.coolLoop (H cool) th.k th.A cool.T t ks.length 0 0 ks = e at *
    have hdf := cool.dstate_frame (e + th.Qcontact + received t cool.T th.A ns) (e + th.Qcontact) t
    rcases hd : cool.dstate (e + th.Qcontact + received t cool.T th.A ns) (e + th.Qcontact) t with ⟨o2, cool2⟩
    rw [hd] at h hdf
    cases o2 with
    | throw e => cases h
    | ub e => cases h
    | ok t1 =>
      dsimp only at h hdf
      rcases hsk : HTree.setKids ks1 ts with ⟨o3, ks2⟩
      rw [hsk] at h
      cases o3 with
      | throw e => cases h
      | ub e => cases h
      | ok x =>
        dsimp only at h
        by_cases h3 : cool.rho * cool.cp * cool.vol = 0 ∨ t1 < 273 ∨ t1 > 273 + 75
        · rw [if_pos h3] at h; cases h
        rw [if_neg h3] at h
        simp only [Prod.mk.injEq, Outcome.ok.injEq] at h
        obtain ⟨rfl, rfl⟩ := h
        push Not at h3
        have hT := cool.dstate_T cool2 _ _ t t1 hd h3.1
        simp only [HTree.setT, CoolSystem.setT, if_neg (show ¬ (t1 < 273 ∨ t1 > 273 + 75) by push Not; exact h3.2),
          Prod.mk.injEq, true_and] at hset
        refine ⟨ts, ks1, ks2, { cool2 with T := t1 }, rfl, hsk, hset.symm, rfl, ?_, hT⟩
        dsimp only
        rw [hdf.2.1, hdf.2.2.1, hdf.2.2.2.1]

/-- A successful run over the children. -/
theorem cons_run {H : CoolSystem → ℚ} {m : Neigh} {k t : ℚ} {l : ℚ × ℚ} {u : HTree} {us : List HTree} {ts : List ℚ}
    {us' us'' : List HTree} (h : HTree.thermalKids H m k t l (u :: us) = (.ok ts, us'))
    (hset : HTree.setKids us' ts = (.ok (), us'')) :
    ∃ T' u1 u2 ts2 us2 us3, us'' = u2 :: us3 ∧
      u.thermal H [m, ⟨l.1, k, l.2⟩, ⟨(HTree.rightOf m us).1, k, (HTree.rightOf m us).2⟩] t = (.ok T', u1) ∧
      u1.setT T' = (.ok (), u2) ∧ HTree.thermalKids H m k t (u.T, u.A) us = (.ok ts2, us2) ∧
      HTree.setKids us2 ts2 = (.ok (), us3) := by
  rw [HTree.thermalKids] at h
  have hf := HTree.thermal_frame H [m, ⟨l.1, k, l.2⟩, ⟨(HTree.rightOf m us).1, k, (HTree.rightOf m us).2⟩] t u
  rcases hq : HTree.thermal H [m, ⟨l.1, k, l.2⟩, ⟨(HTree.rightOf m us).1, k, (HTree.rightOf m us).2⟩] t u with ⟨o, u1⟩
  rw [hq] at h hf
  cases o with
  | throw e => cases h
  | ub e => cases h
  | ok t1 =>
    dsimp only at h hf
    rw [hf.1, hf.2] at h
    rcases hk : HTree.thermalKids H m k t (u.T, u.A) us with ⟨o2, us2⟩
    rw [hk] at h
    cases o2 with
    | throw e => cases h
    | ub e => cases h
    | ok ts2 =>
      simp only [Prod.mk.injEq, Outcome.ok.injEq] at h
      obtain ⟨rfl, rfl⟩ := h
      rw [HTree.setKids] at hset
      rcases hsu : u1.setT t1 with ⟨o3, u2⟩
      rw [hsu] at hset
      cases o3 with
      | throw e => cases hset
      | ub e => cases hset
      | ok x =>
        dsimp only at hset
        rcases hss : HTree.setKids us2 ts2 with ⟨o4, us3⟩
        rw [hss] at hset
        simp only [Prod.mk.injEq] at hset
        obtain ⟨rfl, rfl⟩ := hset
        exact ⟨t1, u1, u2, ts2, us2, us3, rfl, rfl, hsu, rfl, hss⟩

/-- The warmer body stays the warmer one. -/
theorem mix_mono {C T S e d g : ℚ} (hC : 0 < C) (hg : g ≤ C) (hT : T ≤ S) (h : e - g * (S - T) ≤ d) :
    T + e / C ≤ S + d / C := by
  have h1 : g * (S - T) ≤ C * (S - T) := mul_le_mul_of_nonneg_right hg (by linarith)
  have h2 : (e - d) / C ≤ S - T := by rw [div_le_iff₀ hC]; linarith
  rw [sub_div] at h2
  linarith

mutual
theorem mono_tree (H : CoolSystem → ℚ) (hH : ∀ c, 0 ≤ H c) (t : ℚ) (ht : 0 < t) :
    ∀ (u v : HTree) (ns ms : List Neigh), Synced t u → Synced t v → Areas u → NoWarmer u v → NoMoreHeat H u v →
      NoWarmerOutside ns ms → (∀ n ∈ ns, 0 ≤ n.K ∧ 0 ≤ n.A) → ShortStep H t (ns.map Neigh.K).sum u →
      ∀ T' u' u'' S' v' v'', u.thermal H ns t = (.ok T', u') → u'.setT T' = (.ok (), u'') →
        v.thermal H ms t = (.ok S', v') → v'.setT S' = (.ok (), v'') → NoWarmer u'' v''
  | .cell c, .cell d, ns, ms, hs, hs', ha, hw, hq, hns, hn, hsh => by
    intro T' u' u'' S' v' v'' h1 h2 h3 h4
    rw [Synced] at hs hs'
    rw [Areas] at ha
    rw [NoWarmer] at hw
    rw [NoMoreHeat] at hq
    rw [ShortStep] at hsh
    obtain ⟨e1, rfl⟩ := cell_run hs h1 h2
    obtain ⟨e2, rfl⟩ := cell_run hs' h3 h4
    rw [NoWarmer]
    refine ⟨?_, hw.2.1, hw.2.2⟩
    dsimp only
    rw [e1, e2, ← hw.2.1, ← hw.2.2]
    have := received_mono ht.le ha hw.1 hns hn
    exact mix_mono hsh.1 hsh.2 hw.1 (by linarith)
  | .plain a, .plain b, ns, ms, _, _, _, hw, _, _, _, _ => by
    intro T' u' u'' S' v' v'' h1 h2 h3 h4
    rw [HTree.thermal] at h1 h3
    simp only [Prod.mk.injEq, Outcome.ok.injEq] at h1 h3
    obtain ⟨rfl, rfl⟩ := h1
    obtain ⟨rfl, rfl⟩ := h3
    simp only [HTree.setT, Prod.mk.injEq] at h2 h4
    rw [← h2.2, ← h4.2]
    exact hw
  | .module th cool ks, .module th' cool' ks', ns, ms, hs, hs', ha, hw, hq, hns, hn, hsh => by
    intro T' u' u'' S' v' v'' h1 h2 h3 h4
    rw [Synced] at hs hs'
    rw [Areas] at ha
    rw [NoWarmer] at hw
    rw [NoMoreHeat] at hq
    rw [ShortStep] at hsh
    obtain ⟨w1, w2, w3, w4, w5⟩ := hw
    obtain ⟨q1, q2, q3, q4⟩ := hq
    obtain ⟨ts, ks1, ks2, c2, a1, a2, rfl, rfl, a5, a6⟩ := module_run ht.ne' h1 h2
    obtain ⟨ts', ks1', ks2', c2', b1, b2, rfl, rfl, b5, b6⟩ := module_run ht.ne' h3 h4
    have hlen := (beside_of ks ks' w5 ha.2).length_eq
    rw [← q2, ← w2, ← w3] at b1 b6
    rw [← w4, ← hlen] at b6
    have hkids := mono_trees H hH t ht ks ks' ⟨cool.T, H cool, th.A⟩ ⟨cool'.T, H cool, th.A⟩ th.k (cool.T, th.A) (cool'.T, th.A)
      hs hs' ha.2 w5 q4 w1 rfl rfl w1 rfl (hH cool) hsh.2.1 ha.1 ha.1 hsh.2.2.2 _ _ _ _ _ _ a1 a2 b1 b2
    rw [NoWarmer]
    refine ⟨?_, w2, w3, by rw [a5, b5, w4], hkids⟩
    have hcl := coolLoop_mono (n := ks.length) (hH cool) hsh.2.1 ha.1 ht.le w1 (beside_of ks ks' w5 ha.2) 0 0 0
    have hre := received_mono ht.le ha.1 w1 hns hn
    have hac : (if cool'.kind = .hvac then cool'.Qac * t else 0) ≤ (if cool.kind = .hvac then cool.Qac * t else 0) := by
      have := mul_le_mul_of_nonneg_right q3 ht.le
      simpa only [ite_mul, zero_mul] using this
    have hC := hsh.1
    have hst := mul_le_mul_of_nonneg_right hsh.2.2.1 (show 0 ≤ cool'.T - cool.T by linarith)
    have : cool.rho * cool.cp * cool.vol * c2.T ≤ cool.rho * cool.cp * cool.vol * c2'.T := by linarith
    exact le_of_mul_le_mul_left this hC
  | .cell _, .plain _, _, _, _, _, _, h, _, _, _, _ => by simp [NoWarmer] at h
  | .cell _, .module _ _ _, _, _, _, _, _, h, _, _, _, _ => by simp [NoWarmer] at h
  | .plain _, .cell _, _, _, _, _, _, h, _, _, _, _ => by simp [NoWarmer] at h
  | .plain _, .module _ _ _, _, _, _, _, _, h, _, _, _, _ => by simp [NoWarmer] at h
  | .module _ _ _, .cell _, _, _, _, _, _, h, _, _, _, _ => by simp [NoWarmer] at h
  | .module _ _ _, .plain _, _, _, _, _, _, h, _, _, _, _ => by simp [NoWarmer] at h
theorem mono_trees (H : CoolSystem → ℚ) (hH : ∀ c, 0 ≤ H c) (t : ℚ) (ht : 0 < t) :
    ∀ (us vs : List HTree) (m n : Neigh) (k : ℚ) (l r : ℚ × ℚ), Synceds t us → Synceds t vs → Areass us → NoWarmers us vs →
      NoMoreHeats H us vs → m.T ≤ n.T → m.K = n.K → m.A = n.A → l.1 ≤ r.1 → l.2 = r.2 →
      0 ≤ m.K → 0 ≤ k → 0 ≤ m.A → 0 ≤ l.2 → ShortSteps H t (m.K + 2 * k) us →
      ∀ ts us' us'' ss vs' vs'', HTree.thermalKids H m k t l us = (.ok ts, us') → HTree.setKids us' ts = (.ok (), us'') →
        HTree.thermalKids H n k t r vs = (.ok ss, vs') → HTree.setKids vs' ss = (.ok (), vs'') → NoWarmers us'' vs''
  | [], [], m, n, k, l, r, _, _, _, _, _, _, _, _, _, _, _, _, _, _, _ => by
    intro ts us' us'' ss vs' vs'' h1 h2 h3 h4
    rw [HTree.thermalKids] at h1 h3
    simp only [Prod.mk.injEq] at h1 h3
    rw [← h1.2, HTree.setKids] at h2
    rw [← h3.2, HTree.setKids] at h4
    simp only [Prod.mk.injEq] at h2 h4
    rw [← h2.2, ← h4.2, NoWarmers]
    trivial
  | u :: us, v :: vs, m, n, k, l, r, hs, hs', ha, hw, hq, m1, m2, m3, l1, l2, hmK, hk0, hmA, hl, hsh => by
    intro ts us' us'' ss vs' vs'' h1 h2 h3 h4
    rw [Synceds] at hs hs'
    rw [Areass] at ha
    rw [NoWarmers] at hw
    rw [NoMoreHeats] at hq
    rw [ShortSteps] at hsh
    obtain ⟨T', u1, u2, ts2, us2, us3, rfl, a1, a2, a3, a4⟩ := cons_run h1 h2
    obtain ⟨S', v1, v2, ss2, vs2, vs3, rfl, b1, b2, b3, b4⟩ := cons_run h3 h4
    have hr : (HTree.rightOf m us).1 ≤ (HTree.rightOf n vs).1 ∧ (HTree.rightOf m us).2 = (HTree.rightOf n vs).2 ∧
        0 ≤ (HTree.rightOf m us).2 := by
      match us, vs, hw.2, ha.2 with
      | [], [], _, _ => exact ⟨m1, m3, hmA⟩
      | x :: xs, y :: ys, hw, ha =>
        rw [NoWarmers] at hw
        rw [Areass] at ha
        have := noWarmer_T x y hw.1
        exact ⟨this.1, this.2, areas_nonneg x ha.1⟩
      | [], _ :: _, hw, _ => simp [NoWarmers] at hw
      | _ :: _, [], hw, _ => simp [NoWarmers] at hw
    have huv := noWarmer_T u v hw.1
    rw [NoWarmers]
    refine ⟨mono_tree H hH t ht u v _ _ hs.1 hs'.1 ha.1 hw.1 hq.1 ?_ ?_ ?_ _ _ _ _ _ _ a1 a2 b1 b2,
      mono_trees H hH t ht us vs m n k _ _ hs.2 hs'.2 ha.2 hw.2 hq.2 m1 m2 m3 huv.1 huv.2 hmK hk0 hmA (areas_nonneg u ha.1) hsh.2
        _ _ _ _ _ _ a3 a4 b3 b4⟩
    · exact List.Forall₂.cons ⟨m1, m2, m3⟩ (List.Forall₂.cons ⟨l1, rfl, l2⟩ (List.Forall₂.cons ⟨hr.1, rfl, hr.2.1⟩ List.Forall₂.nil))
    · simp [hmK, hk0, hmA, hl, hr.2.2]
    · have : (([m, ⟨l.1, k, l.2⟩, ⟨(HTree.rightOf m us).1, k, (HTree.rightOf m us).2⟩] : List Neigh).map Neigh.K).sum = m.K + 2 * k := by
        simp; ring
      rw [this]; exact hsh.1
  | [], _ :: _, _, _, _, _, _, _, _, _, h, _, _, _, _, _, _, _, _, _, _, _ => by simp [NoWarmers] at h
  | _ :: _, [], _, _, _, _, _, _, _, _, h, _, _, _, _, _, _, _, _, _, _, _ => by simp [NoWarmers] at h
end

/-! ## C160 -/

/-- **C160** (full statement): of two packs of the same build, the one that is nowhere warmer, has nowhere more heat to get rid
of and nowhere warmer neighbours is nowhere warmer after an update of the thermal model. -/
def WarmerStaysWarmer : Prop :=
  ∀ (H : CoolSystem → ℚ), (∀ c, 0 ≤ H c) → ∀ t : ℚ, 0 < t → ∀ (u v : HTree) (ns ms : List Neigh), Synced t u → Synced t v →
    Areas u → NoWarmer u v → NoMoreHeat H u v → NoWarmerOutside ns ms → (∀ n ∈ ns, 0 ≤ n.K ∧ 0 ≤ n.A) →
    ∀ T' u' u'' S' v' v'', u.thermal H ns t = (.ok T', u') → u'.setT T' = (.ok (), u'') →
      v.thermal H ms t = (.ok S', v') → v'.setT S' = (.ok (), v'') → NoWarmer u'' v''

/-- **C160, the part that holds**: for time steps that are short compared with the time constants of all bodies. -/
theorem warmer_stays_warmer_partial (H : CoolSystem → ℚ) (hH : ∀ c, 0 ≤ H c) (t : ℚ) (ht : 0 < t) (u v : HTree)
    (ns ms : List Neigh) (hs : Synced t u) (hs' : Synced t v) (ha : Areas u) (hw : NoWarmer u v) (hq : NoMoreHeat H u v)
    (hns : NoWarmerOutside ns ms) (hn : ∀ n ∈ ns, 0 ≤ n.K ∧ 0 ≤ n.A) (hsh : ShortStep H t (ns.map Neigh.K).sum u)
    (T' S' : ℚ) (u' u'' v' v'' : HTree) (h1 : u.thermal H ns t = (.ok T', u')) (h2 : u'.setT T' = (.ok (), u''))
    (h3 : v.thermal H ms t = (.ok S', v')) (h4 : v'.setT S' = (.ok (), v'')) : NoWarmer u'' v'' :=
  mono_tree H hH t ht u v ns ms hs hs' ha hw hq hns hn hsh T' u' u'' S' v' v'' h1 h2 h3 h4

/-- **C160** for a battery, whose losses heat its coolant: more converter losses, or a warmer battery house, make no cell colder. -/
theorem battery_stays_warmer_partial (H : CoolSystem → ℚ) (hH : ∀ c, 0 ≤ H c) (t : ℚ) (ht : 0 < t) (b d : BatteryTherm)
    (lb ld : ℚ) (hkb : b.cool.kind = .hvac) (hkd : d.cool.kind = .hvac) (hs : Synced t b.cells) (hs' : Synced t d.cells)
    (ha : Areas b.cells) (hw : NoWarmer b.cells d.cells) (hq : NoMoreHeat H b.cells d.cells)
    (hT : b.cool.T ≤ d.cool.T) (hHc : H b.cool = H d.cool) (hac : d.cool.Qac ≤ b.cool.Qac) (hl : lb ≤ ld)
    (hC : 0 < b.cool.rho * b.cool.cp * b.cool.vol)
    (hCe : b.cool.rho * b.cool.cp * b.cool.vol = d.cool.rho * d.cool.cp * d.cool.vol)
    (hsh : ShortStep H t (H b.cool) b.cells) (hsb : H b.cool * b.cells.A * t ≤ b.cool.rho * b.cool.cp * b.cool.vol)
    (T' S' : ℚ) (b' d' : BatteryTherm) (h1 : b.thermal H lb 0 t = (.ok T', b')) (h2 : d.thermal H ld 0 t = (.ok S', d')) :
    NoWarmer b'.cells d'.cells ∧ b'.cool.T ≤ d'.cool.T := by
  obtain ⟨tc, u, u', e1, e2, e3, e4⟩ := batteryTherm_ok H b b' lb t T' h1 hkb
  obtain ⟨sc, v, v', f1, f2, f3, f4⟩ := batteryTherm_ok H d d' ld t S' h2 hkd
  have hTA := noWarmer_T _ _ hw
  have hA := areas_nonneg _ ha
  rw [e3, f3]
  refine ⟨mono_tree H hH t ht b.cells d.cells _ _ hs hs' ha hw hq
    (List.Forall₂.cons ⟨hT, hHc, hTA.2⟩ List.Forall₂.nil) (by simpa using ⟨hH _, hA⟩) (by simpa using hsh)
    _ _ _ _ _ _ e1 e2 f1 f2, ?_⟩
  rw [← hCe, ← hHc, ← hTA.2] at f4
  have c0 : 0 ≤ H b.cool * b.cells.A * t := mul_nonneg (mul_nonneg (hH _) hA) ht.le
  have c1 := mul_le_mul_of_nonneg_left hTA.1 c0
  have c2 := mul_le_mul_of_nonneg_right hsb (show 0 ≤ d.cool.T - b.cool.T by linarith)
  have c3 := mul_le_mul_of_nonneg_right hl ht.le
  have c4 := mul_le_mul_of_nonneg_right hac ht.le
  refine le_of_mul_le_mul_left ?_ hC
  linarith

/-- **C160 is false of the code** for long steps: of two cells next to a body of 300 K the warmer one, at 310 K instead of
305 K, overshoots and is the colder one afterwards. -/
theorem not_warmerStaysWarmer : ¬ WarmerStaysWarmer := by
  intro h
  have h := h (fun _ => 1) (fun _ => by norm_num) 2 (by norm_num)
    (.cell { T := 305, A := 1, C := 1, Qgen := 0, time := 2 }) (.cell { T := 310, A := 1, C := 1, Qgen := 0, time := 2 })
    [⟨300, 1, 1⟩] [⟨300, 1, 1⟩] (by simp [Synced]) (by simp [Synced]) (by simp [Areas]) (by simp only [NoWarmer]; norm_num)
    (by simp [NoMoreHeat]) (List.Forall₂.cons ⟨le_rfl, rfl, rfl⟩ List.Forall₂.nil) (by simp) 295 _ _ 290 _ _
    (Prod.ext (by decide +kernel) rfl) rfl (Prod.ext (by decide +kernel) rfl) rfl
  simp only [NoWarmer] at h
  norm_num [ThermCell.setT] at h

/-- The pack of `quietCells`, with a warmer second cell in which heat is waiting. -/
def busyCells : HTree :=
  .module { A := 1, k := 1, time := 1 } (CoolSystem.make 10 1)
    [.cell { T := 300, A := 1, C := 100, Qgen := 0, time := 1 }, .cell { T := 295, A := 2, C := 100, Qgen := 50, time := 1 }]

/-- Non-vacuity of `warmer_stays_warmer_partial`. -/
example : Synced 1 quietCells ∧ Synced 1 busyCells ∧ Areas quietCells ∧ NoWarmer quietCells busyCells ∧
    NoMoreHeat (fun _ => 1) quietCells busyCells ∧ ShortStep (fun _ => 1) 1 0 quietCells ∧
    (quietCells.thermal (fun _ => 1) [] 1).1.bind
      (fun T' => ((quietCells.thermal (fun _ => 1) [] 1).2.setT T').1) = .ok () ∧
    (busyCells.thermal (fun _ => 1) [] 1).1.bind
      (fun T' => ((busyCells.thermal (fun _ => 1) [] 1).2.setT T').1) = .ok () := by
  refine ⟨by simp [quietCells, Synced, Synceds], by simp [busyCells, Synced, Synceds], by simp [quietCells, Areas, Areass],
    ?_, ?_, ?_, by decide +kernel, by decide +kernel⟩
  · simp only [quietCells, busyCells, NoWarmer, NoWarmers]; norm_num
  · simp only [quietCells, busyCells, NoMoreHeat, NoMoreHeats]; norm_num
  · simp only [quietCells, ShortStep, ShortSteps, CoolSystem.make, CoolSystem.T_ENV, totalArea, List.map_cons, List.map_nil,
      List.sum_cons, List.sum_nil, HTree.A]
    norm_num

/-- Non-vacuity of `battery_stays_warmer_partial`: one battery house at 290 K without losses, the other at 295 K with losses. -/
def warmHouse (T : ℚ) (cells : HTree) : BatteryTherm :=
  { cells := cells, cool := { CoolSystem.make 100 1 with kind := .hvac, T := T }, ns := 1, np := 1 }

example : (warmHouse 290 quietCells).cool.kind = .hvac ∧ (warmHouse 290 quietCells).cool.T ≤ (warmHouse 295 busyCells).cool.T ∧
    0 < (warmHouse 290 quietCells).cool.rho * (warmHouse 290 quietCells).cool.cp * (warmHouse 290 quietCells).cool.vol ∧
    ShortStep (fun _ => 1) 1 1 quietCells ∧
    1 * (warmHouse 290 quietCells).cells.A * 1 ≤
      (warmHouse 290 quietCells).cool.rho * (warmHouse 290 quietCells).cool.cp * (warmHouse 290 quietCells).cool.vol ∧
    (((warmHouse 290 quietCells).thermal (fun _ => 1) 0 0 1).1.bind fun _ => .ok ()) = .ok () ∧
    (((warmHouse 295 busyCells).thermal (fun _ => 1) 30 0 1).1.bind fun _ => .ok ()) = .ok () := by
  refine ⟨rfl, by decide +kernel, by decide +kernel, ?_, by decide +kernel, by decide +kernel, by decide +kernel⟩
  simp only [quietCells, ShortStep, ShortSteps, CoolSystem.make, CoolSystem.T_ENV, totalArea, List.map_cons, List.map_nil,
      List.sum_cons, List.sum_nil, HTree.A]
  norm_num

end Slide

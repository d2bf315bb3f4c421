import Verif.Spec.Overheat
import Verif.Props.EvenHistory

/-!
# C166: heat that is not taken away ends the run
-/

namespace Slide
open Spec

/-! ## Helper lemmas -/

theorem cell_limit {H : CoolSystem → ℚ} {c : ThermCell} {ns : List Neigh} {t T' : ℚ} {u' : HTree}
    (h : (HTree.cell c).thermal H ns t = (.ok T', u')) : T' ≤ c.Tmax := by
  rw [HTree.thermal] at h
  unfold ThermCell.thermal at h
  dsimp only at h
  split_ifs at h with h1 h2 h3
  · cases h
  · cases h
  · cases h
  · simp only [Prod.mk.injEq, Outcome.ok.injEq] at h
    push Not at h3
    rw [← h.1]
    exact h3.1

theorem module_limit {u' : HTree} {T' : ℚ} {th : ModTherm} {cool : CoolSystem} {ks : List HTree}
    (h : u'.setT T' = (.ok (), .module th cool ks)) : T' ≤ 273 + 75 := by
  cases u' with
  | cell c => simp [HTree.setT] at h
  | plain T => simp [HTree.setT] at h
  | module th' cool' ks' =>
    rw [HTree.setT, CoolSystem.setT] at h
    split_ifs at h with h1
    · cases h
    · push Not at h1; exact h1.2

mutual
theorem bounded_tree (H : CoolSystem → ℚ) (t : ℚ) (ht : t ≠ 0) : ∀ (u : HTree) (ns : List Neigh), Synced t u → CapsOk u →
    ∀ T' u' u'', u.thermal H ns t = (.ok T', u') → u'.setT T' = (.ok (), u'') → energy u'' ≤ maxEnergy u
  | .cell c, ns, hs, hc, T', u', u'', h1, h2 => by
    rw [Synced] at hs
    rw [CapsOk] at hc
    have := cell_limit h1
    obtain ⟨-, rfl⟩ := cell_run hs h1 h2
    simp only [energy, maxEnergy, ThermCell.done]
    exact mul_le_mul_of_nonneg_left this hc
  | .plain T, ns, _, _, T', u', u'', h1, h2 => by
    rw [HTree.thermal] at h1
    simp only [Prod.mk.injEq, Outcome.ok.injEq] at h1
    obtain ⟨rfl, rfl⟩ := h1
    simp only [HTree.setT, Prod.mk.injEq, true_and] at h2
    rw [← h2]
    simp [energy, maxEnergy]
  | .module th cool ks, ns, hs, hc, T', u', u'', h1, h2 => by
    rw [Synced] at hs
    rw [CapsOk] at hc
    obtain ⟨ts, ks1, ks2, c2, a1, a2, e, a4, a5, -⟩ := module_run ht h1 h2
    subst e
    have hT := module_limit h2
    have hk := bounded_kids H t ht ks _ _ _ hs hc.2 _ _ _ a1 a2
    simp only [energy, maxEnergy]
    rw [a5, a4]
    exact add_le_add (mul_le_mul_of_nonneg_left hT hc.1) hk
theorem bounded_kids (H : CoolSystem → ℚ) (t : ℚ) (ht : t ≠ 0) : ∀ (us : List HTree) (m : Neigh) (k : ℚ) (l : ℚ × ℚ),
    Synceds t us → CapsOks us → ∀ ts us' us'', HTree.thermalKids H m k t l us = (.ok ts, us') →
      HTree.setKids us' ts = (.ok (), us'') → energies us'' ≤ maxEnergies us
  | [], m, k, l, _, _, ts, us', us'', h1, h2 => by
    rw [HTree.thermalKids] at h1
    simp only [Prod.mk.injEq, Outcome.ok.injEq] at h1
    obtain ⟨rfl, rfl⟩ := h1
    simp only [HTree.setKids, Prod.mk.injEq, true_and] at h2
    rw [← h2]
    simp [energies, maxEnergies]
  | u :: us, m, k, l, hs, hc, ts, us', us'', h1, h2 => by
    rw [Synceds] at hs
    rw [CapsOks] at hc
    obtain ⟨T', u1, u2, ts2, us2, us3, rfl, b1, b2, b3, b4⟩ := cons_run h1 h2
    simp only [energies, maxEnergies]
    exact add_le_add (bounded_tree H t ht u _ hs.1 hc.1 _ _ _ b1 b2) (bounded_kids H t ht us _ _ _ hs.2 hc.2 _ _ _ b3 b4)
end

mutual
theorem afterUpdate_bodies : ∀ (u v : HTree), AfterUpdate u v →
    (Areas u → Areas v) ∧ (CapsOk u → CapsOk v) ∧ maxEnergy v = maxEnergy u
  | .cell c, .cell d, h => by
    rw [AfterUpdate] at h
    simp only [Areas, CapsOk, maxEnergy]
    rw [h.1, h.2.1, h.2.2.2.2.2]
    exact ⟨id, id, rfl⟩
  | .plain c, .plain d, _ => by simp [Areas, CapsOk, maxEnergy]
  | .module th cool ks, .module th' cool' ks', h => by
    rw [AfterUpdate] at h
    obtain ⟨rfl, e1, -, -, e4⟩ := h
    obtain ⟨f1, f2, f3⟩ := afterUpdates_bodies ks ks' e4
    simp only [Areas, CapsOk, maxEnergy, HTree.reset]
    rw [e1, f3]
    exact ⟨fun h => ⟨h.1, f1 h.2⟩, fun h => ⟨h.1, f2 h.2⟩, rfl⟩
  | .cell _, .plain _, h => by simp [AfterUpdate] at h
  | .cell _, .module _ _ _, h => by simp [AfterUpdate] at h
  | .plain _, .cell _, h => by simp [AfterUpdate] at h
  | .plain _, .module _ _ _, h => by simp [AfterUpdate] at h
  | .module _ _ _, .cell _, h => by simp [AfterUpdate] at h
  | .module _ _ _, .plain _, h => by simp [AfterUpdate] at h
theorem afterUpdates_bodies : ∀ (us vs : List HTree), AfterUpdates us vs →
    (Areass us → Areass vs) ∧ (CapsOks us → CapsOks vs) ∧ maxEnergies vs = maxEnergies us
  | [], [], _ => by simp
  | u :: us, v :: vs, h => by
    rw [AfterUpdates] at h
    obtain ⟨a1, a2, a3⟩ := afterUpdate_bodies u v h.1
    obtain ⟨f1, f2, f3⟩ := afterUpdates_bodies us vs h.2
    simp only [Areass, CapsOks, maxEnergies]
    rw [a3, f3]
    exact ⟨fun h => ⟨a1 h.1, f1 h.2⟩, fun h => ⟨a2 h.1, f2 h.2⟩, rfl⟩
  | [], _ :: _, h => by simp [AfterUpdates] at h
  | _ :: _, [], h => by simp [AfterUpdates] at h
end

mutual
theorem sameBodies_bodies : ∀ (u v : HTree), SameBodies u v →
    (Areas u → Areas v) ∧ (CapsOk u → CapsOk v) ∧ maxEnergy v = maxEnergy u ∧ energy v = energy u
  | .cell c, .cell d, h => by
    rw [SameBodies] at h
    simp only [Areas, CapsOk, maxEnergy, energy]
    rw [h.1, h.2.1, h.2.2.1, h.2.2.2]
    exact ⟨id, id, rfl, rfl⟩
  | .plain c, .plain d, _ => by simp [Areas, CapsOk, maxEnergy, energy]
  | .module th cool ks, .module th' cool' ks', h => by
    rw [SameBodies] at h
    obtain ⟨e1, -, rfl, e4⟩ := h
    obtain ⟨f1, f2, f3, f4⟩ := sameBodiess_bodies ks ks' e4
    simp only [Areas, CapsOk, maxEnergy, energy]
    rw [e1, f3, f4]
    exact ⟨fun h => ⟨h.1, f1 h.2⟩, fun h => ⟨h.1, f2 h.2⟩, rfl, rfl⟩
  | .cell _, .plain _, h => by simp [SameBodies] at h
  | .cell _, .module _ _ _, h => by simp [SameBodies] at h
  | .plain _, .cell _, h => by simp [SameBodies] at h
  | .plain _, .module _ _ _, h => by simp [SameBodies] at h
  | .module _ _ _, .cell _, h => by simp [SameBodies] at h
  | .module _ _ _, .plain _, h => by simp [SameBodies] at h
theorem sameBodiess_bodies : ∀ (us vs : List HTree), SameBodiess us vs →
    (Areass us → Areass vs) ∧ (CapsOks us → CapsOks vs) ∧ maxEnergies vs = maxEnergies us ∧ energies vs = energies us
  | [], [], _ => by simp
  | u :: us, v :: vs, h => by
    rw [SameBodiess] at h
    obtain ⟨a1, a2, a3, a4⟩ := sameBodies_bodies u v h.1
    obtain ⟨f1, f2, f3, f4⟩ := sameBodiess_bodies us vs h.2
    simp only [Areass, CapsOks, maxEnergies, energies]
    rw [a3, f3, a4, f4]
    exact ⟨fun h => ⟨a1 h.1, f1 h.2⟩, fun h => ⟨a2 h.1, f2 h.2⟩, rfl, rfl⟩
  | [], _ :: _, h => by simp [SameBodiess] at h
  | _ :: _, [], h => by simp [SameBodiess] at h
end

theorem workStep_bodies {H : CoolSystem → ℚ} {q : ℚ} {u v : HTree} (h : WorkStep H q u v) (ha : Areas u) (hc : CapsOk u) :
    Areas v ∧ CapsOk v ∧ maxEnergy v = maxEnergy u ∧ energy u + q ≤ energy v ∧ energy v ≤ maxEnergy u := by
  obtain ⟨t, w, w', T', ht, hb, hs, hq, h1, h2⟩ := h
  obtain ⟨s1, s2, s3, s4⟩ := sameBodies_bodies u w hb
  obtain ⟨f1, f2, f3⟩ := afterUpdate_bodies w v (settled_tree H t ht.ne' _ _ hs _ _ _ h1 h2)
  have e := (heat_balance_partial H w [] t ht.ne' hs (s1 ha) (by simp) _ _ _ h1 h2).1
  have b := bounded_tree H t ht.ne' w [] hs (s2 hc) _ _ _ h1 h2
  simp only [received, List.map_nil, List.sum_nil, add_zero] at e
  exact ⟨f1 (s1 ha), f2 (s2 hc), f3.trans s3, by linarith, by linarith⟩

/-! ## C166 -/

/-- **C166** -/
theorem overheats_in_time : OverheatsInTime := by
  intro H q u ha hc k hk
  have inv : ∀ i ≤ k + 1, Areas (u i) ∧ CapsOk (u i) ∧ maxEnergy (u i) = maxEnergy (u 0) ∧ energy (u 0) + i * q ≤ energy (u i) := by
    intro i
    induction i with
    | zero => intro _; exact ⟨ha, hc, rfl, by simp⟩
    | succ i ih =>
      intro hi
      obtain ⟨a1, a2, a3, a4⟩ := ih (by omega)
      obtain ⟨b1, b2, b3, b4, -⟩ := workStep_bodies (hk i (by omega)) a1 a2
      refine ⟨b1, b2, b3.trans a3, ?_⟩
      push_cast
      linarith
  obtain ⟨a1, a2, a3, a4⟩ := inv k (by omega)
  obtain ⟨-, -, -, b4, b5⟩ := workStep_bodies (hk k le_rfl) a1 a2
  linarith

/-- **C166**, for ever: no pack can produce heat again and again that is not taken away. -/
theorem not_forever (H : CoolSystem → ℚ) (q : ℚ) (hq : 0 < q) (u : ℕ → HTree) (ha : Areas (u 0)) (hc : CapsOk (u 0)) :
    ∃ k, ¬ WorkStep H q (u k) (u (k + 1)) := by
  by_contra h
  push Not at h
  obtain ⟨n, hn⟩ := exists_nat_gt ((maxEnergy (u 0) - energy (u 0)) / q)
  rw [div_lt_iff₀ hq] at hn
  have := overheats_in_time H q u ha hc n fun i _ => h i
  linarith

/-- Non-vacuity: eight joules, generated in a cell and in the contacts of `twoCells`. -/
example : ∃ v, WorkStep (fun _ => 1) 8 (twoCells 0 0 0) v ∧ Areas (twoCells 0 0 0) ∧ CapsOk (twoCells 0 0 0) := by
  have e : ((twoCells 1 1 1).thermal (fun _ => 1) [] 1).1.bind (fun T' => ((((twoCells 1 1 1).thermal (fun _ => 1) [] 1).2).setT T').1) =
      .ok () := by decide +kernel
  rcases h : (twoCells 1 1 1).thermal (fun _ => 1) [] 1 with ⟨o, w'⟩
  rw [h] at e
  cases o with
  | throw x => cases e
  | ub x => cases e
  | ok T' =>
    refine ⟨(w'.setT T').2, ⟨1, twoCells 1 1 1, w', T', by norm_num, ?_, ?_, ?_, h, Prod.ext e rfl⟩, ?_, ?_⟩
    · simp [twoCells, SameBodies, SameBodiess]
    · simp [twoCells, Synced, Synceds]
    · simp only [twoCells, removed, removeds, pending, pendings, CoolSystem.make]; norm_num
    · simp [twoCells, Areas, Areass]
    · simp only [twoCells, CapsOk, CapsOks, CoolSystem.make]; norm_num

end Slide

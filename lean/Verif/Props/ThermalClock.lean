import Verif.Spec.ThermalClock
import Verif.Props.Thermal

/-!
C127: time keeping of the thermal model.
-/

namespace Slide
open Spec

theorem clocksAt_setT (t T : ℚ) (u : HTree) (h : ClocksAt t u) : ClocksAt t (u.setT T).2 := by
  cases u with
  | cell c => exact h
  | plain x => exact trivial
  | module th cool ks => rw [ClocksAt] at h; unfold HTree.setT; rw [ClocksAt]; exact h

theorem clocksAts_setKids (t : ℚ) : ∀ (us : List HTree) (ts : List ℚ), ClocksAts t us → ClocksAts t (HTree.setKids us ts).2
  | [], _, _ => by rw [HTree.setKids]; exact trivial
  | u :: us, [], h => by rw [HTree.setKids]; exact h
  | u :: us, T :: ts, h => by
    rw [ClocksAts] at h
    have h1 := clocksAt_setT t T u h.1
    have h2 := clocksAts_setKids t us ts h.2
    rw [HTree.setKids]
    rcases hk : u.setT T with ⟨o, u'⟩
    rw [hk] at h1
    rcases o with ⟨⟨⟩⟩ | e | w
    · exact ⟨h1, h2⟩
    · exact ⟨h1, h.2⟩
    · exact ⟨h1, h.2⟩

mutual
theorem clocksAt_elapse (s t : ℚ) : ∀ u : HTree, ClocksAt s u → ClocksAt (s + t) (elapse t u)
  | .cell c, h => by rw [ClocksAt] at h; rw [elapse, ClocksAt, h]
  | .plain _, _ => trivial
  | .module th cool ks, h => by
    rw [ClocksAt] at h
    rw [elapse, ClocksAt]
    exact ⟨by rw [h.1], clocksAts_elapses s t ks h.2⟩
termination_by structural u => u
theorem clocksAts_elapses (s t : ℚ) : ∀ us : List HTree, ClocksAts s us → ClocksAts (s + t) (elapses t us)
  | [], _ => trivial
  | u :: us, h => by
    rw [ClocksAts] at h
    rw [elapses, ClocksAts]
    exact ⟨clocksAt_elapse s t u h.1, clocksAts_elapses s t us h.2⟩
termination_by structural us => us
end

/-- What the end of the update of a module does to clocks and outcomes. -/
theorem finish_clocks (H : CoolSystem → ℚ) (th : ModTherm) (cool : CoolSystem) (n : ℕ) (ns : List Neigh) (t : ℚ)
    (r : Outcome (List ℚ) × List HTree) (hr : r.1 ≠ .throw 8 ∧ r.1 ≠ .throw 98)
    (hc : ∀ ts, r.1 = .ok ts → ClocksAts 0 r.2) :
    ¬ Refused (HTree.finish H th cool n ns t r).1 ∧
    ∀ T, (HTree.finish H th cool n ns t r).1 = .ok T → ClocksAt 0 (HTree.finish H th cool n ns t r).2 := by
  obtain ⟨o, ks⟩ := r
  unfold HTree.finish
  rcases o with ts | e | w
  · dsimp only
    generalize HTree.coolLoop _ _ _ _ _ _ _ _ _ + _ = ech
    generalize List.foldl _ _ _ = etot
    have hcode : ∀ e, (cool.dstate etot ech t).1 = .throw e → e = 10 := by
      intro e he
      unfold CoolSystem.dstate at he
      split at he
      · split_ifs at he
        cases he; rfl
      · cases he
    rcases hq : cool.dstate etot ech t with ⟨o2, c2⟩
    rw [hq] at hcode
    rcases o2 with T | e | w
    · dsimp only
      have hk := clocksAts_setKids 0 ks ts (hc ts rfl)
      have hkc : ∀ e, (HTree.setKids ks ts).1 = .throw e → e = 99 := by
        clear hk hc hr
        induction ks generalizing ts with
        | nil => intro e he; rw [HTree.setKids] at he; cases he
        | cons u us ih =>
          intro e he
          cases ts with
          | nil => rw [HTree.setKids] at he; cases he
          | cons T1 ts =>
            rw [HTree.setKids] at he
            have hu : ∀ e, (u.setT T1).1 = .throw e → e = 99 := by
              intro e he
              cases u with
              | cell c => cases he
              | plain x => cases he
              | module a b d =>
                unfold HTree.setT CoolSystem.setT at he
                dsimp only at he
                split_ifs at he
                cases he; rfl
            rcases hv : u.setT T1 with ⟨o, u'⟩
            rw [hv] at hu
            rw [hv] at he
            rcases o with ⟨⟨⟩⟩ | e' | w
            · exact ih ts e he
            · cases he; exact hu _ rfl
            · cases he
      rcases hs : HTree.setKids ks ts with ⟨o3, ks3⟩
      rw [hs] at hk hkc
      rcases o3 with ⟨⟨⟩⟩ | e | w
      · dsimp only
        split_ifs
        · refine ⟨?_, fun T h => (by cases h)⟩
          rintro (h | h) <;> cases h
        · refine ⟨?_, fun T _ => ?_⟩
          · rintro (h | h) <;> cases h
          · rw [ClocksAt]; exact ⟨rfl, hk⟩
      · have := hkc e rfl
        subst this
        refine ⟨?_, fun T h => (by cases h)⟩
        rintro (h | h) <;> cases h
      · refine ⟨?_, fun T h => (by cases h)⟩
        rintro (h | h) <;> cases h
    · have := hcode e rfl
      subst this
      refine ⟨?_, fun T h => (by cases h)⟩
      rintro (h | h) <;> cases h
    · refine ⟨?_, fun T h => (by cases h)⟩
      rintro (h | h) <;> cases h
  · refine ⟨?_, fun T h => (by cases h)⟩
    rintro (h | h)
    · cases h; exact hr.1 rfl
    · cases h; exact hr.2 rfl
  · refine ⟨?_, fun T h => (by cases h)⟩
    rintro (h | h) <;> cases h

mutual
theorem clocks_tree (H : CoolSystem → ℚ) (t : ℚ) : ∀ (u : HTree) (ns : List Neigh), ClocksAt t u →
    ¬ Refused (u.thermal H ns t).1 ∧ ∀ T, (u.thermal H ns t).1 = .ok T → ClocksAt 0 (u.thermal H ns t).2
  | .cell c, ns, h => by
    rw [ClocksAt] at h
    rw [HTree.thermal]
    refine ⟨?_, fun T _ => ?_⟩
    · dsimp only
      unfold ThermCell.thermal
      rw [if_neg (by rw [h]; simp)]
      rintro (h | h)
      · split_ifs at h
        · cases h
        · dsimp only at h
          split_ifs at h
          cases h
      · split_ifs at h
        · cases h
        · dsimp only at h
          split_ifs at h
          cases h
    · dsimp only
      rw [ThermCell.thermal_frame, ClocksAt]; rfl
  | .plain x, ns, h => by
    rw [HTree.thermal]
    exact ⟨(by rintro (h | h) <;> cases h), fun _ _ => trivial⟩
  | .module th cool ks, ns, h => by
    rw [ClocksAt] at h
    rw [HTree.thermal, if_neg (by rw [h.1]; simp)]
    by_cases h0 : t = 0
    · rw [if_pos h0]
      refine ⟨(by rintro (h | h) <;> cases h), fun _ _ => ?_⟩
      rw [ClocksAt]
      exact ⟨rfl, h0 ▸ h.2⟩
    · rw [if_neg h0]
      by_cases h2 : ks.length > HTree.maxKids
      · rw [if_pos h2]
        exact ⟨(by rintro (h | h) <;> cases h), fun _ h => (by cases h)⟩
      · rw [if_neg h2]
        obtain ⟨k1, k2⟩ := clocks_trees H t ks ⟨cool.T, H cool, th.A⟩ th.k (cool.T, th.A) h.2
        exact finish_clocks H th cool ks.length ns t _ k1 k2
termination_by structural u => u
theorem clocks_trees (H : CoolSystem → ℚ) (t : ℚ) : ∀ (us : List HTree) (m : Neigh) (k : ℚ) (l : ℚ × ℚ), ClocksAts t us →
    ((HTree.thermalKids H m k t l us).1 ≠ .throw 8 ∧ (HTree.thermalKids H m k t l us).1 ≠ .throw 98) ∧
    ∀ ts, (HTree.thermalKids H m k t l us).1 = .ok ts → ClocksAts 0 (HTree.thermalKids H m k t l us).2
  | [], m, k, l, _ => by
    rw [HTree.thermalKids]
    exact ⟨⟨fun h => (by cases h), fun h => (by cases h)⟩, fun _ _ => trivial⟩
  | u :: us, m, k, l, h => by
    rw [ClocksAts] at h
    rw [HTree.thermalKids]
    obtain ⟨a1, a2⟩ := clocks_tree H t u [m, ⟨l.1, k, l.2⟩, ⟨(HTree.rightOf m us).1, k, (HTree.rightOf m us).2⟩] h.1
    rcases hu : HTree.thermal H [m, ⟨l.1, k, l.2⟩, ⟨(HTree.rightOf m us).1, k, (HTree.rightOf m us).2⟩] t u with ⟨o, u'⟩
    rw [hu] at a1 a2
    rcases o with T | e | w
    · dsimp only
      obtain ⟨b1, b2⟩ := clocks_trees H t us m k (u'.T, u'.A) h.2
      rcases hk : HTree.thermalKids H m k t (u'.T, u'.A) us with ⟨o2, us'⟩
      rw [hk] at b1 b2
      rcases o2 with ts | e | w
      · refine ⟨⟨fun h => (by cases h), fun h => (by cases h)⟩, fun _ _ => ?_⟩
        rw [ClocksAts]; exact ⟨a2 T rfl, b2 ts rfl⟩
      · refine ⟨⟨fun h => ?_, fun h => ?_⟩, fun _ h => (by cases h)⟩
        · cases h; exact b1.1 rfl
        · cases h; exact b1.2 rfl
      · exact ⟨⟨fun h => (by cases h), fun h => (by cases h)⟩, fun _ h => (by cases h)⟩
    · refine ⟨⟨fun h => ?_, fun h => ?_⟩, fun _ h => (by cases h)⟩
      · cases h; exact a1 (.inl rfl)
      · cases h; exact a1 (.inr rfl)
    · exact ⟨⟨fun h => (by cases h), fun h => (by cases h)⟩, fun _ h => (by cases h)⟩
termination_by structural us => us
end

/-- C127: an update for the time everybody counts is not refused for its time keeping, and if it succeeds everybody starts
counting at zero again. -/
theorem thermal_clocks (H : CoolSystem → ℚ) (ns : List Neigh) (t : ℚ) (u : HTree) (h : ClocksAt t u) :
    ¬ Refused (u.thermal H ns t).1 ∧ ∀ T, (u.thermal H ns t).1 = .ok T → ClocksAt 0 (u.thermal H ns t).2 :=
  clocks_tree H t u ns h

/-- C127: a module refuses updates for a time that differs by more than a second from the one it counts; its own clock starts
again whatever the outcome. -/
theorem thermal_own_clock (H : CoolSystem → ℚ) (ns : List Neigh) (t : ℚ) (th : ModTherm) (cool : CoolSystem) (ks : List HTree) :
    (1 < |th.time - t| → ((HTree.module th cool ks).thermal H ns t).1 = .throw 98) ∧
    ∃ th' cool' ks', ((HTree.module th cool ks).thermal H ns t).2 = .module th' cool' ks' ∧ th'.time = 0 ∧ th'.Qcontact = 0 ∧
      th'.A = th.A ∧ th'.k = th.k := by
  rw [HTree.thermal]
  refine ⟨fun h => by rw [if_pos h], ?_⟩
  split_ifs
  · exact ⟨_, _, _, rfl, rfl, rfl, rfl, rfl⟩
  · exact ⟨_, _, _, rfl, rfl, rfl, rfl, rfl⟩
  · exact ⟨_, _, _, rfl, rfl, rfl, rfl, rfl⟩
  · unfold HTree.finish
    generalize HTree.thermalKids _ _ _ _ _ _ = r
    obtain ⟨o, ks'⟩ := r
    rcases o with ts | e | w
    · dsimp only
      generalize HTree.coolLoop _ _ _ _ _ _ _ _ _ + _ = ech
      generalize List.foldl _ _ _ = etot
      rcases cool.dstate etot ech t with ⟨o2, c2⟩
      rcases o2 with T | e | w
      · dsimp only
        rcases HTree.setKids ks' ts with ⟨o3, ks3⟩
        rcases o3 with ⟨⟨⟩⟩ | e | w
        · dsimp only
          split_ifs
          · exact ⟨_, _, _, rfl, rfl, rfl, rfl, rfl⟩
          · exact ⟨_, _, _, rfl, rfl, rfl, rfl, rfl⟩
        · exact ⟨_, _, _, rfl, rfl, rfl, rfl, rfl⟩
        · exact ⟨_, _, _, rfl, rfl, rfl, rfl, rfl⟩
      · exact ⟨_, _, _, rfl, rfl, rfl, rfl, rfl⟩
      · exact ⟨_, _, _, rfl, rfl, rfl, rfl, rfl⟩
    · exact ⟨_, _, _, rfl, rfl, rfl, rfl, rfl⟩
    · exact ⟨_, _, _, rfl, rfl, rfl, rfl, rfl⟩

theorem thermalRound_clocks (H : CoolSystem → ℚ) (ns : List Neigh) (t : ℚ) (u : HTree) (h : ClocksAt 0 u) :
    ¬ Refused (thermalRound H ns t u).1 ∧ ∀ T, (thermalRound H ns t u).1 = .ok T → ClocksAt 0 (thermalRound H ns t u).2 := by
  have h1 := clocksAt_elapse 0 t u h
  rw [zero_add] at h1
  obtain ⟨a, b⟩ := thermal_clocks H ns t _ h1
  unfold thermalRound
  rcases hk : (elapse t u).thermal H ns t with ⟨o, u'⟩
  rw [hk] at a b
  rcases o with T | e | w
  · exact ⟨(by rintro (h | h) <;> cases h), fun _ _ => clocksAt_setT 0 T u' (b T rfl)⟩
  · exact ⟨a, fun _ h => (by cases h)⟩
  · exact ⟨a, fun _ h => (by cases h)⟩

/-- **C127, the part that holds.** Updates after intervals of any lengths, as many as one likes: as long as none has failed, the
next one is not refused for its time keeping. What is missing: updates after a failed one. -/
theorem clocksNeverComplain_partial (H : CoolSystem → ℚ) (ns : List Neigh) (ts : List ℚ) (u : HTree) (h : ClocksAt 0 u) :
    ¬ Refused (thermalRounds H ns ts u).1 ∧ ∀ T, (thermalRounds H ns ts u).1 = .ok T → ClocksAt 0 (thermalRounds H ns ts u).2 := by
  induction ts generalizing u with
  | nil =>
    rw [thermalRounds]
    exact ⟨(by rintro (h | h) <;> cases h), fun _ _ => h⟩
  | cons t ts ih =>
    obtain ⟨a, b⟩ := thermalRound_clocks H ns t u h
    rw [thermalRounds]
    rcases hk : thermalRound H ns t u with ⟨o, u'⟩
    rw [hk] at a b
    rcases o with T | e | w
    · exact ih u' (b T rfl)
    · exact ⟨a, fun _ h => (by cases h)⟩
    · exact ⟨a, fun _ h => (by cases h)⟩

/-- Two cells, the first of them much too hot to be updated. -/
def hotFirst : HTree :=
  .module { A := 1, k := 1, time := 0 } (CoolSystem.make 10 1)
    [.cell { T := 332, A := 1, C := 100, Qgen := 10000, time := 0 }, .cell { T := 290, A := 1, C := 100, Qgen := 0, time := 0 }]

/-- The first update fails because the first cell would get too hot; the second one fails because of the clock of the second
cell, which has not been reached by the first one. -/
theorem clock_cascade : ClocksAt 0 hotFirst ∧ (thermalRound (fun _ => 1) [] 10 hotFirst).1 = .throw 9 ∧
    (thermalRound (fun _ => 1) [] 10 (thermalRound (fun _ => 1) [] 10 hotFirst).2).1 = .throw 8 :=
  ⟨by simp [hotFirst, ClocksAt, ClocksAts], by decide +kernel, by decide +kernel⟩

/-- **C127 is false of the code.** -/
theorem not_clocksNeverComplain : ¬ ClocksNeverComplain := fun h =>
  (h (fun _ => 1) [] 10 10 hotFirst clock_cascade.1).2 (.inl clock_cascade.2.2)

/-- Non-vacuity: three updates of a module with two cells. -/
example : ClocksAt 0 (elapse (-1) quietCells) ∧
    (thermalRounds (fun _ => 1) [] [1, 2, 1] (elapse (-1) quietCells)).1.bind (fun _ => .ok ()) = .ok () := by
  refine ⟨?_, by decide +kernel⟩
  have := clocksAt_elapse 1 (-1) quietCells (by simp [quietCells, ClocksAt, ClocksAts])
  rwa [show (1 : ℚ) + -1 = 0 by norm_num] at this

end Slide

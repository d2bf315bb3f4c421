import Verif.Spec.UseCase
import Verif.Props.CycleNumbers

/-!
The use-case ageing (C83).
-/

namespace Slide
open Spec Cyc

variable {U : Type} [StorageUnit U]

theorem rest_meter (fuel : ℕ) (c : Cyc U) (tlim dt : ℚ) (ndt : ℤ) (th : Thr) :
    c.rest fuel tlim dt ndt th = ((c.rest fuel tlim dt ndt Thr.zero).1, (c.rest fuel tlim dt ndt Thr.zero).2.1,
      th.add (c.rest fuel tlim dt ndt Thr.zero).2.2) := by
  unfold Cyc.rest
  dsimp only
  generalize restLoop tlim ndt (if decide (0 < ndt) = true then min 10 ndt.toNat else 10) fuel
    { dti := dt, ttot := 0, idat := 0, nOnce := 1, ninc := true } (storeIf (decide (0 < ndt)) c) = r
  rcases r with ⟨o, c1⟩
  rcases o with x | e | w
  · rcases x with st | v
    · dsimp only; rw [Thr.add_zero']
    · dsimp only
      split
      · generalize StorageUnit.setCurrent c1.su 0 false = r
        rcases r with ⟨o2, u⟩
        rcases o2 with st | e | w
        · dsimp only
          congr 2
          simp [Thr.add, Thr.zero]
        · dsimp only; rw [Thr.add_zero']
        · dsimp only; rw [Thr.add_zero']
      · dsimp only; rw [Thr.add_zero']
  · dsimp only; rw [Thr.add_zero']
  · dsimp only; rw [Thr.add_zero']

theorem rest_done [Clocked U] {fuel : ℕ} {c c' : Cyc U} {tlim dt : ℚ} {ndt : ℤ} {th' : Thr}
    (h : c.rest fuel tlim dt ndt Thr.zero = (.ok .ReachedTimeLimit, c', th')) (ht : 0 ≤ tlim) (hd : 0 < dt) :
    th' = ⟨tlim, 0, 0⟩ ∧ Clocked.clocks c'.su = (Clocked.clocks c.su).map fun t => t + tlim := by
  unfold Cyc.rest at h
  dsimp only at h
  rcases hl : restLoop tlim ndt (if decide (0 < ndt) = true then min 10 ndt.toNat else 10) fuel
    { dti := dt, ttot := 0, idat := 0, nOnce := 1, ninc := true } (storeIf (decide (0 < ndt)) c) with ⟨o, c1⟩
  rw [hl] at h
  match o, hl, h with
  | .throw e, _, h => cases h
  | .ub e, _, h => cases h
  | .ok (.inl st), hl, h =>
    have hb := restLoop_inl fuel hl
    simp only [Prod.mk.injEq, Outcome.ok.injEq] at h
    rw [h.1] at hb
    cases hb
  | .ok (.inr v), hl, h =>
    obtain ⟨r1, r2⟩ := restLoop_inr_clocks fuel hl ht hd (le_refl 1) (nMax_pos 10 (by norm_num))
    dsimp only at h
    rw [r1, if_pos ⟨le_refl _, by norm_num⟩] at h
    have h2 := Clocked.set_clocks c1.su 0 false
    generalize StorageUnit.setCurrent c1.su 0 false = r at *
    obtain ⟨o2, u⟩ := r
    cases o2 with
    | throw e => cases h
    | ub e => cases h
    | ok st =>
      simp only [Prod.mk.injEq, true_and] at h
      obtain ⟨rfl, rfl⟩ := h
      refine ⟨by simp [Thr.zero], ?_⟩
      simp only [storeIf_su, withSU_su]
      rw [h2, r2, storeIf_su]
      simp

namespace Age

/-- What a completed rest statement does. -/
theorem useStep_rest [Clocked U] {fuel : ℕ} {ndata : ℤ} {a a' : Age U} {hours : ℚ} (hh : 0 ≤ hours)
    (h : a.useStep fuel ndata (.rest hours) = (.ok true, a')) :
    ∃ m, Rested fuel ndata hours a.cyc a'.cyc m ∧ a'.th = a.th.add m ∧ a'.mem = a.mem ++ [a.th.add m]
      ∧ a'.file = a.file ∧ a'.ups = a.ups := by
  unfold Age.useStep at h
  dsimp only at h
  rw [rest_meter] at h
  rcases hr : a.cyc.rest fuel (hours * 3600) 1 ndata Thr.zero with ⟨o, c, m⟩
  rw [hr] at h
  rcases o with st | e | w
  · dsimp only at h
    obtain ⟨h1, h2⟩ := Prod.mk.inj h
    have hst : st = .ReachedTimeLimit := of_decide_eq_true (Outcome.ok.inj h1)
    subst hst
    subst h2
    obtain ⟨hm, hcl⟩ := rest_done hr (by positivity) (by norm_num)
    exact ⟨m, ⟨hr, hm, hcl⟩, rfl, rfl, rfl, rfl⟩
  · cases h
  · cases h

/-- What a completed constant-current statement does. -/
theorem useStep_cc {fuel : ℕ} {ndata : ℤ} {a a' : Age U} {C : ℚ} {upper checked : Bool}
    (h : a.useStep fuel ndata (.cc C upper checked) = (.ok true, a')) :
    ∃ st m, a.cyc.CC fuel (C * StorageUnit.Cap a.cyc.su)
        (if upper then (StorageUnit.lim a.cyc.su).Vmax else (StorageUnit.lim a.cyc.su).Vmin) TIME_INF 1 ndata ⟨0, 0, 0⟩
        = (.ok st, a'.cyc, m)
      ∧ (checked = true → st = .ReachedVoltageLimit)
      ∧ a'.th = a.th.add m ∧ a'.mem = a.mem ++ [a.th.add m] ∧ a'.file = a.file ∧ a'.ups = a.ups := by
  unfold Age.useStep at h
  dsimp only at h
  rw [CC_meter] at h
  rcases hr : a.cyc.CC fuel (C * StorageUnit.Cap a.cyc.su)
        (if upper then (StorageUnit.lim a.cyc.su).Vmax else (StorageUnit.lim a.cyc.su).Vmin) TIME_INF 1 ndata Thr.zero
    with ⟨o, c, m⟩
  rw [hr] at h
  rcases o with st | e | w
  · dsimp only at h
    obtain ⟨h1, h2⟩ := Prod.mk.inj h
    subst h2
    refine ⟨st, m, hr, ?_, rfl, rfl, rfl, rfl⟩
    intro hc
    have := Outcome.ok.inj h1
    simpa [hc] using this
  · cases h
  · cases h

theorem useSteps_cons {fuel : ℕ} {ndata : ℤ} {s : UseStep} {l : List UseStep} {a a' : Age U}
    (h : useSteps fuel ndata (s :: l) a = (.ok true, a')) :
    ∃ a1, a.useStep fuel ndata s = (.ok true, a1) ∧ useSteps fuel ndata l a1 = (.ok true, a') := by
  rw [useSteps] at h
  rcases hs : a.useStep fuel ndata s with ⟨o, a1⟩
  rw [hs] at h
  rcases o with b | e | w
  · rcases b
    · cases h
    · exact ⟨a1, rfl, h⟩
  · cases h
  · cases h

/-- The body of the loop. -/
theorem day_done [Clocked U] {fuel : ℕ} {ndata : ℤ} {a a' : Age U}
    (h : useSteps fuel ndata useDay a = (.ok true, a')) :
    ∃ st2 st4 st6 ms, Day fuel ndata a.cyc a'.cyc st2 st4 st6 .ReachedVoltageLimit ms
      ∧ a'.th = ms.foldl Thr.add a.th ∧ a'.mem = a.mem ++ totals a.th ms ∧ a'.file = a.file ∧ a'.ups = a.ups := by
  unfold useDay at h
  obtain ⟨a1, h1, h⟩ := useSteps_cons h
  obtain ⟨a2, h2, h⟩ := useSteps_cons h
  obtain ⟨a3, h3, h⟩ := useSteps_cons h
  obtain ⟨a4, h4, h⟩ := useSteps_cons h
  obtain ⟨a5, h5, h⟩ := useSteps_cons h
  obtain ⟨a6, h6, h⟩ := useSteps_cons h
  obtain ⟨a7, h7, h⟩ := useSteps_cons h
  obtain ⟨a8, h8, h⟩ := useSteps_cons h
  obtain ⟨a9, h9, h⟩ := useSteps_cons h
  rw [useSteps] at h
  cases h
  obtain ⟨m1, r1, t1, e1, f1, u1⟩ := useStep_rest (by norm_num) h1
  obtain ⟨st2, m2, r2, -, t2, e2, f2, u2⟩ := useStep_cc h2
  obtain ⟨m3, r3, t3, e3, f3, u3⟩ := useStep_rest (by norm_num) h3
  obtain ⟨st4, m4, r4, -, t4, e4, f4, u4⟩ := useStep_cc h4
  obtain ⟨m5, r5, t5, e5, f5, u5⟩ := useStep_rest (by norm_num) h5
  obtain ⟨st6, m6, r6, -, t6, e6, f6, u6⟩ := useStep_cc h6
  obtain ⟨m7, r7, t7, e7, f7, u7⟩ := useStep_rest (by norm_num) h7
  obtain ⟨st8, m8, r8, c8, t8, e8, f8, u8⟩ := useStep_cc h8
  obtain ⟨m9, r9, t9, e9, f9, u9⟩ := useStep_rest (by norm_num) h9
  have hc8 := c8 rfl
  subst hc8
  refine ⟨st2, st4, st6, [m1, m2, m3, m4, m5, m6, m7, m8, m9],
    ⟨a1.cyc, a2.cyc, a3.cyc, a4.cyc, a5.cyc, a6.cyc, a7.cyc, a8.cyc, m1, m2, m3, m4, m5, m6, m7, m8, m9,
      r1, ?_, r3, r4, r5, ?_, r7, r8, r9, rfl⟩, ?_, ?_, ?_, ?_⟩
  · unfold Charged
    rw [show -(1 * StorageUnit.Cap a1.cyc.su) = -1 * StorageUnit.Cap a1.cyc.su by ring]
    exact r2
  · unfold Charged
    rw [show -(1/2 * StorageUnit.Cap a5.cyc.su) = -1/2 * StorageUnit.Cap a5.cyc.su by ring]
    exact r6
  · rw [t9, t8, t7, t6, t5, t4, t3, t2, t1]; rfl
  · rw [e9, e8, e7, e6, e5, e4, e3, e2, e1, t8, t7, t6, t5, t4, t3, t2, t1]
    simp only [List.append_assoc]; rfl
  · rw [f9, f8, f7, f6, f5, f4, f3, f2, f1]
  · rw [u9, u8, u7, u6, u5, u4, u3, u2, u1]

/-- A rest that can be done is done. -/
theorem useSteps_rest [Clocked U] {fuel : ℕ} {ndata : ℤ} (l : List UseStep) (a : Age U) (hr : ℚ) (c c1 : Cyc U) (m : Thr)
    (h : Rested fuel ndata hr c c1 m) (hc : a.cyc = c) :
    ∃ a1, useSteps fuel ndata (.rest hr :: l) a = useSteps fuel ndata l a1 ∧ a1.cyc = c1 := by
  subst hc
  rw [useSteps]
  unfold Age.useStep
  dsimp only
  rw [rest_meter, show a.cyc.rest fuel (hr * 3600) 1 ndata Thr.zero = _ from h.1]
  exact ⟨_, rfl, rfl⟩

/-- A charge or discharge. -/
theorem useSteps_cc {fuel : ℕ} {ndata : ℤ} (l : List UseStep) (a : Age U) (C : ℚ) (up ck : Bool) (c c1 : Cyc U)
    (st : Status) (m : Thr)
    (h : c.CC fuel (C * StorageUnit.Cap c.su) (if up then (StorageUnit.lim c.su).Vmax else (StorageUnit.lim c.su).Vmin)
        TIME_INF 1 ndata ⟨0, 0, 0⟩ = (.ok st, c1, m)) (hc : a.cyc = c) :
    ∃ a1, a1.cyc = c1 ∧ useSteps fuel ndata (.cc C up ck :: l) a
      = if ck = true → st = .ReachedVoltageLimit then useSteps fuel ndata l a1 else (.ok false, a1) := by
  subst hc
  rw [useSteps]
  unfold Age.useStep
  dsimp only
  rw [CC_meter, show a.cyc.CC fuel _ _ _ _ _ Thr.zero = _ from h]
  dsimp only
  by_cases hst : ck = true → st = .ReachedVoltageLimit
  · have : (!ck || decide (st = .ReachedVoltageLimit)) = true := by
      rcases ck
      · rfl
      · simp [hst rfl]
    rw [this]
    exact ⟨_, rfl, by rw [if_pos hst]⟩
  · have : (!ck || decide (st = .ReachedVoltageLimit)) = false := by
      rcases ck
      · exact absurd (fun h => by cases h) hst
      · simpa using hst
    rw [this]
    exact ⟨_, rfl, by rw [if_neg hst]⟩

/-- A day that can be done is done. -/
theorem day_performed [Clocked U] {fuel : ℕ} {ndata : ℤ} {a : Age U} {c' : Cyc U} {st2 st4 st6 : Status} {ms : List Thr}
    (h : Day fuel ndata a.cyc c' st2 st4 st6 .ReachedVoltageLimit ms) :
    ∃ a', useSteps fuel ndata useDay a = (.ok true, a') ∧ a'.cyc = c' := by
  obtain ⟨c1, c2, c3, c4, c5, c6, c7, c8, m1, m2, m3, m4, m5, m6, m7, m8, m9, h1, h2, h3, h4, h5, h6, h7, h8, h9, -⟩ := h
  have hrest := fun l a hr c c1 m => useSteps_rest (U := U) (fuel := fuel) (ndata := ndata) l a hr c c1 m
  have hcc : ∀ (l : List UseStep) (a : Age U) (C vlim : ℚ) (up ck : Bool) (c c1 : Cyc U) (st : Status) (m : Thr),
      c.CC fuel (C * StorageUnit.Cap c.su) (if up then (StorageUnit.lim c.su).Vmax else (StorageUnit.lim c.su).Vmin)
        TIME_INF 1 ndata ⟨0, 0, 0⟩ = (.ok st, c1, m) → a.cyc = c → (ck = true → st = .ReachedVoltageLimit) →
      ∃ a1, useSteps fuel ndata (.cc C up ck :: l) a = useSteps fuel ndata l a1 ∧ a1.cyc = c1 := by
    intro l a C vlim up ck c c1 st m h hc hst
    obtain ⟨a1, h1, h2⟩ := useSteps_cc l a C up ck c c1 st m h hc
    exact ⟨a1, by rw [h2, if_pos hst], h1⟩
  unfold useDay
  obtain ⟨a1, e1, g1⟩ := hrest _ a 4 _ c1 m1 h1 rfl
  obtain ⟨a2, e2, g2⟩ := hcc [.rest 1, .cc 1 false false, .rest 4, .cc (-1/2) true false, .rest 4,
   .cc (1/2) false true, .rest 5] a1 (-1) 0 true false c1 c2 st2 m2 (by
    have := h2; unfold Charged at this
    rw [show -(1 * StorageUnit.Cap c1.su) = -1 * StorageUnit.Cap c1.su by ring] at this
    exact this) g1 (fun h => by cases h)
  obtain ⟨a3, e3, g3⟩ := hrest [.cc 1 false false, .rest 4, .cc (-1/2) true false, .rest 4,
   .cc (1/2) false true, .rest 5] a2 1 _ c3 m3 h3 g2
  obtain ⟨a4, e4, g4⟩ := hcc [.rest 4, .cc (-1/2) true false, .rest 4,
   .cc (1/2) false true, .rest 5] a3 1 0 false false c3 c4 st4 m4 h4 g3 (fun h => by cases h)
  obtain ⟨a5, e5, g5⟩ := hrest [.cc (-1/2) true false, .rest 4, .cc (1/2) false true, .rest 5] a4 4 _ c5 m5 h5 g4
  obtain ⟨a6, e6, g6⟩ := hcc [.rest 4, .cc (1/2) false true, .rest 5] a5 (-1/2) 0 true false c5 c6 st6 m6 (by
    have := h6; unfold Charged at this
    rw [show -(1/2 * StorageUnit.Cap c5.su) = -1/2 * StorageUnit.Cap c5.su by ring] at this
    exact this) g5 (fun h => by cases h)
  obtain ⟨a7, e7, g7⟩ := hrest [.cc (1/2) false true, .rest 5] a6 4 _ c7 m7 h7 g6
  obtain ⟨a8, e8, g8⟩ := hcc [.rest 5] a7 (1/2) 0 false true c7 c8 _ m8 h8 g7 (fun _ => rfl)
  obtain ⟨a9, e9, g9⟩ := hrest [] a8 5 _ c' m9 h9 g8
  exact ⟨a9, by rw [e1, e2, e3, e4, e5, e6, e7, e8, e9, useSteps], g9⟩

theorem rest_Ah (fuel : ℕ) (c : Cyc U) (tlim dt : ℚ) (ndt : ℤ) (th : Thr) :
    (c.rest fuel tlim dt ndt th).2.2.Ah = th.Ah := by
  unfold Cyc.rest
  dsimp only
  split
  · rfl
  · split
    · split <;> rfl
    · rfl
  · rfl
  · rfl

/-- Every statement: the throughput does not fall and at most one row is put on record. -/
theorem useStep_rows (fuel : ℕ) (ndata : ℤ) (a : Age U) (s : UseStep) :
    a.th.Ah ≤ (a.useStep fuel ndata s).2.th.Ah ∧ (a.useStep fuel ndata s).2.file = a.file
      ∧ (a.useStep fuel ndata s).2.ups = a.ups
      ∧ ∃ ms, ms.length ≤ 1 ∧ (a.useStep fuel ndata s).2.mem = a.mem ++ totals a.th ms
        ∧ ∀ b, (a.useStep fuel ndata s).1 = .ok b → (a.useStep fuel ndata s).2.th = ms.foldl Thr.add a.th := by
  cases s with
  | rest hours =>
    unfold Age.useStep
    dsimp only
    have h := rest_Ah fuel a.cyc (hours * 3600) 1 ndata a.th
    have hm := rest_meter fuel a.cyc (hours * 3600) 1 ndata a.th
    rcases hr : a.cyc.rest fuel (hours * 3600) 1 ndata a.th with ⟨o, c, th⟩
    rw [hr] at h hm
    have h' : th.Ah = a.th.Ah := h
    rcases o with st | e | w
    · refine ⟨h'.ge, rfl, rfl, [(a.cyc.rest fuel (hours * 3600) 1 ndata Thr.zero).2.2], le_refl _, ?_, fun b _ => ?_⟩
      · show a.mem ++ [th] = a.mem ++ [a.th.add _]
        rw [(Prod.mk.inj (Prod.mk.inj hm).2).2]
      · exact (Prod.mk.inj (Prod.mk.inj hm).2).2
    · exact ⟨h'.ge, rfl, rfl, [], by simp, by simp [totals], fun b hb => by cases hb⟩
    · exact ⟨h'.ge, rfl, rfl, [], by simp, by simp [totals], fun b hb => by cases hb⟩
  | cc C up ck =>
    unfold Age.useStep
    dsimp only
    generalize C * StorageUnit.Cap a.cyc.su = I
    generalize (if up = true then (StorageUnit.lim a.cyc.su).Vmax else (StorageUnit.lim a.cyc.su).Vmin) = vlim
    have h := CC_mono fuel a.cyc I vlim TIME_INF 1 ndata a.th (by norm_num)
    have hm := CC_meter fuel a.cyc I vlim TIME_INF 1 ndata a.th
    rcases hr : a.cyc.CC fuel I vlim TIME_INF 1 ndata a.th with ⟨o, c, th⟩
    rw [hr] at h hm
    have h' : a.th.Ah ≤ th.Ah := h
    rcases o with st | e | w
    · refine ⟨h', rfl, rfl, [(a.cyc.CC fuel I vlim TIME_INF 1 ndata Thr.zero).2.2], le_refl _, ?_, fun b _ => ?_⟩
      · show a.mem ++ [th] = a.mem ++ [a.th.add _]
        rw [(Prod.mk.inj (Prod.mk.inj hm).2).2]
      · exact (Prod.mk.inj (Prod.mk.inj hm).2).2
    · exact ⟨h', rfl, rfl, [], by simp, by simp [totals], fun b hb => by cases hb⟩
    · exact ⟨h', rfl, rfl, [], by simp, by simp [totals], fun b hb => by cases hb⟩

theorem useSteps_rows (fuel : ℕ) (ndata : ℤ) (l : List UseStep) : ∀ (a : Age U),
    a.th.Ah ≤ (useSteps fuel ndata l a).2.th.Ah ∧ (useSteps fuel ndata l a).2.file = a.file
      ∧ (useSteps fuel ndata l a).2.ups = a.ups
      ∧ ∃ ms, ms.length ≤ l.length ∧ (useSteps fuel ndata l a).2.mem = a.mem ++ totals a.th ms := by
  induction l with
  | nil => intro a; exact ⟨le_refl _, rfl, rfl, [], le_refl _, by simp [useSteps, totals]⟩
  | cons s l ih =>
    intro a
    rw [useSteps]
    obtain ⟨h1, h2, h3, ms, h4, h5, h6⟩ := useStep_rows fuel ndata a s
    rcases hs : a.useStep fuel ndata s with ⟨o, a1⟩
    rw [hs] at h1 h2 h3 h5 h6
    dsimp only at h1 h2 h3 h5 h6
    have hone : a.th.Ah ≤ a1.th.Ah ∧ a1.file = a.file ∧ a1.ups = a.ups
        ∧ ∃ ms, ms.length ≤ (s :: l).length ∧ a1.mem = a.mem ++ totals a.th ms :=
      ⟨h1, h2, h3, ms, by simp; omega, h5⟩
    rcases o with b | e | w
    · rcases b
      · exact hone
      · obtain ⟨g1, g2, g3, ns, g4, g5⟩ := ih a1
        refine ⟨h1.trans g1, g2.trans h2, g3.trans h3, ms ++ ns, by simp; omega, ?_⟩
        show (useSteps fuel ndata l a1).2.mem = _
        rw [g5, h5, totals_append, ← h6 true rfl, List.append_assoc]
    · exact hone
    · exact hone

/-- What happens between two days. -/
theorem between_days {k : Checks U} {balance : Bool} {i : ℕ} {a a' : Age U}
    (h : a.balanceCheckup k (balance && decide (i % 7 = 0)) (decide (i % 10 = 0)) a.th.Ah i = (.ok (), a')) :
    BetweenDays k balance i a.cyc a'.cyc ∧ a'.th = a.th
      ∧ (a.th.Ah ≠ 0 → a'.rows = a.rows)
      ∧ a'.ups = a.ups ++ (if i % 10 = 0 then [(a.th.Ah, (i : ℤ))] else []) := by
  have hu := balanceCheckup_ups h
  let p : AgeParams := ⟨0, 10, 7, false, 1, 1, 0, 0, balance, 0⟩
  have hw : when p i = .ok (balance && decide (i % 7 = 0), decide (i % 10 = 0)) := by
    have e7 : ((i : ℤ) % 7 = 0) ↔ i % 7 = 0 := by omega
    have e10 : ((i : ℤ) % 10 = 0) ↔ i % 10 = 0 := by omega
    unfold when everyNth
    rcases balance
    · simp [p, e10]
    · simp [p, e7, e10]
  obtain ⟨hb, hth, -, hrows, -⟩ := balanceCheckup_ok hw h
  refine ⟨?_, hth, fun h0 => by rw [hrows, if_neg (fun hh => h0 hh.2)], ?_⟩
  · obtain ⟨u1, h1, u2, h2, h3⟩ := hb
    have e7 : ((i : ℤ) % 7 = 0) ↔ 7 ∣ i := by omega
    have e10 : ((i : ℤ) % 10 = 0) ↔ 10 ∣ i := by omega
    refine ⟨u1, ?_, u2, ?_, h3⟩
    · simpa only [p, e7] using h1
    · simpa only [p, e10] using h2
  · rw [hu]
    by_cases hi : i % 10 = 0 <;> simp [hi]

/-- What the loop has done when it ends. -/
theorem useLoop_ended [Clocked U] (fuel : ℕ) (k : Checks U) (balance : Bool) (ndata : ℤ) (left : ℕ) :
    ∀ (i : ℕ) (a a' : Age U) (n : ℕ), useLoop fuel k balance ndata left i a = (.ok n, a') →
      ∃ (c1 : Cyc U) (ms ms' : List Thr) (new : List (ℚ × ℤ)), i ≤ n ∧ n ≤ i + left
        ∧ Days fuel k balance ndata i (n - i) a.cyc c1 ms
        ∧ (n = i + left ∧ ms' = [] ∨ n < i + left ∧ ms'.length ≤ 9 ∧ ∃ c0, BetweenDays k balance n c1 c0 ∧
            ∀ c' st2 st4 st6 ms, ¬ Day fuel ndata c0 c' st2 st4 st6 .ReachedVoltageLimit ms)
        ∧ a.th.Ah ≤ a'.th.Ah
        ∧ (0 < a.th.Ah → a'.rows = a.rows ++ totals a.th (ms ++ ms'))
        ∧ a'.ups = a.ups ++ new ∧ new.map Prod.snd = due 10 i (min left (n - i + 1)) := by
  induction left with
  | zero =>
    intro i a a' n h
    rw [useLoop] at h
    cases h
    exact ⟨a.cyc, [], [], [], le_refl _, by omega, by rw [Nat.sub_self]; exact .zero _ _, Or.inl ⟨rfl, rfl⟩, le_refl _,
      fun _ => by simp [totals], by simp, by simp [due]⟩
  | succ left ih =>
    intro i a a' n h
    rw [useLoop] at h
    rcases hbc : a.balanceCheckup k (balance && decide (i % 7 = 0)) (decide (i % 10 = 0)) a.th.Ah i with ⟨o, a1⟩
    rw [hbc] at h
    rcases o with _ | e | w
    swap
    · cases h
    swap
    · cases h
    obtain ⟨hbet, hth, hrows, hups⟩ := between_days hbc
    dsimp only at h
    obtain ⟨g1, g2, g3, ns, g4, g5⟩ := useSteps_rows fuel ndata useDay a1
    have hdue : (if i % 10 = 0 then [(a.th.Ah, (i : ℤ))] else []).map Prod.snd
        = if (i : ℤ) % 10 = 0 then [(i : ℤ)] else [] := by
      by_cases hi : i % 10 = 0
      · rw [if_pos hi, if_pos (by omega)]; rfl
      · rw [if_neg hi, if_neg (by omega)]; rfl
    rcases hd : useSteps fuel ndata useDay a1 with ⟨o, a2⟩
    rw [hd] at h g1 g2 g3 g5
    dsimp only at g1 g2 g3 g5
    rcases o with b | e | w
    swap
    · cases h
    swap
    · cases h
    rcases b
    · dsimp only at h
      cases h
      refine ⟨a.cyc, [], ns, _, le_refl _, by omega, by rw [Nat.sub_self]; exact .zero _ _,
        Or.inr ⟨by omega, g4, a1.cyc, hbet, ?_⟩, by rw [← hth]; exact g1, ?_, by rw [g3, hups], ?_⟩
      · intro c' st2 st4 st6 ms hday
        obtain ⟨a9, h9, -⟩ := day_performed hday
        rw [h9] at hd
        cases hd
      · intro h0
        rw [← hrows (by linarith)]
        simp only [Age.rows, List.nil_append]
        rw [g2, g5, hth, List.append_assoc]
      · rw [hdue, show min (left + 1) (i - i + 1) = 0 + 1 by omega, due_succ]
        simp [due]
    · dsimp only at h
      obtain ⟨st2, st4, st6, ms, hday, d1, d2, d3, d4⟩ := day_done hd
      obtain ⟨c1, ms1, ms', new, i1, i2, i3, i4, i5, i6, i7, i8⟩ := ih (i + 1) a2 a' n h
      refine ⟨c1, ms ++ ms1, ms', (if i % 10 = 0 then [(a.th.Ah, (i : ℤ))] else []) ++ new, by omega, by omega,
        ?_, ?_, ?_, ?_, ?_, ?_⟩
      rotate_left 4
      · rw [i7, d4, hups, List.append_assoc]
      · rw [List.map_append, hdue, i8, show min (left + 1) (n - i + 1) = min left (n - (i + 1) + 1) + 1 by omega, due_succ]
      · rw [show n - i = (n - (i + 1)) + 1 by omega]
        exact .succ i _ a.cyc a1.cyc a2.cyc c1 st2 st4 st6 ms ms1 hbet hday i3
      · rcases i4 with ⟨e1, e2⟩ | ⟨e1, e2⟩
        · exact Or.inl ⟨by omega, e2⟩
        · exact Or.inr ⟨by omega, e2⟩
      · rw [hth] at g1; exact g1.trans i5
      · intro h0
        rw [hth] at g1
        rw [i6 (by linarith), ← hrows (by linarith)]
        simp only [Age.rows]
        rw [d3, d2, d1, hth, List.append_assoc ms, totals_append a.th ms, List.append_assoc, List.append_assoc,
          List.append_assoc]

end Age

/-- **C83 (partial).** A use-case run: a C/2 discharge to the minimum voltage, then `n` days each consisting of the
documented phases – the unit rests for exactly 4, 1, 4, 4 and 5 hours, and in between is charged at 1C, discharged at
1C, charged at C/2 and discharged at C/2 – with balancing every seventh and a check-up every tenth day, and `n` is 20
unless the next day cannot be done.  If the first discharge moved charge, the file gets one row per phase of the days
done, as running totals, below what it held before.  Check-ups are done before the days 0, 10 begun and at the end.
Missing: the first charge, first discharge and second charge of a day need not reach their voltage limit
(`not_everyPhaseReaches`), and the file still holds the rows of earlier runs (`not_ownRowsOnly`). -/
theorem useCase_days_partial [Clocked U] (fuel : ℕ) (k : Checks U) (balance : Bool) (ndata : ℤ) (u : U)
    (mem file : List Thr) (n : ℕ) (a : Age U) (h : useCaseAge fuel k balance ndata u mem file = (.ok n, a)) :
    ∃ (st : Status) (c0 c1 : Cyc U) (m0 : Thr) (ms ms' : List Thr) (before : List (ℚ × ℤ)) (Ah : ℚ),
      Discharged fuel ndata (1/2) { su := u, diagnostic := true } c0 st m0
      ∧ Days fuel k balance ndata 0 n c0 c1 ms
      ∧ (n = 20 ∧ ms' = [] ∨ n < 20 ∧ ms'.length ≤ 9 ∧ ∃ c2, BetweenDays k balance n c1 c2 ∧
            ∀ c' st2 st4 st6 ms, ¬ Day fuel ndata c2 c' st2 st4 st6 .ReachedVoltageLimit ms)
      ∧ (0 < m0.Ah → a.file = file ++ mem ++ totals m0 (ms ++ ms') ∧ a.mem = [])
      ∧ a.ups = before ++ [(Ah, 20)] ∧ before.map Prod.snd = due 10 0 (min 20 (n + 1)) := by
  unfold useCaseAge at h
  dsimp only at h
  rcases hc : ({ su := u, diagnostic := true } : Cyc U).CC fuel (StorageUnit.Cap u / 2) (StorageUnit.lim u).Vmin TIME_INF
    1 ndata Thr.zero with ⟨o, c0, m0⟩
  rw [hc] at h
  rcases o with st | e | w
  swap
  · cases h
  swap
  · cases h
  dsimp only at h
  rcases hl : Age.useLoop fuel k balance ndata 20 0 { cyc := c0, th := m0, mem := mem, file := file } with ⟨o, a1⟩
  rw [hl] at h
  rcases o with n' | e | w
  swap
  · cases h
  swap
  · cases h
  dsimp only at h
  rcases hf : (a1.writeThroughput a1.th.Ah).checkUp k a1.th.Ah 20 with ⟨o2, a2⟩
  rw [hf] at h
  rcases o2 with _ | e | w
  swap
  · cases h
  swap
  · cases h
  dsimp only at h
  cases h
  obtain ⟨c1, ms, ms', new, -, -, h3, h4, h5, h6, h7, h8⟩ := Age.useLoop_ended fuel k balance ndata 20 0 _ a1 n hl
  unfold Age.checkUp at hf
  have hfin := (Age.onUnit_ok hf).2
  refine ⟨st, c0, c1, m0, ms, ms', new, a1.th.Ah, ?_, by simpa using h3, by simpa using h4, ?_, ?_, by simpa using h8⟩
  · unfold Discharged
    rw [show 1/2 * StorageUnit.Cap ({ su := u, diagnostic := true } : Cyc U).su = StorageUnit.Cap u / 2 by ring]
    exact hc
  · intro h0
    have h6' := h6 h0
    have h5' : m0.Ah ≤ a1.th.Ah := h5
    rw [hfin]
    refine ⟨?_, rfl⟩
    show (if a1.th.Ah = 0 then [] else a1.file) ++ a1.mem = _
    rw [if_neg (by intro h0'; linarith)]
    exact h6'
  · rw [hfin]
    show a1.ups ++ _ = _
    rw [h7]; rfl

/-! ### Resting a cell without RC branches -/

/-- The cell `base` at rest at some time. -/
def Idle (base : ECM 0) (u : ECM 0) : Prop := ∃ t, u = { base with st := { base.st with I := 0, time := t } }

theorem idle_step1 (base : ECM 0) (t dt : ℚ) :
    ({ base with st := { base.st with I := 0, time := t } } : ECM 0).step1 dt
      = { base with st := { base.st with I := 0, time := t + dt } } := by
  unfold ECM.step1
  simp only [zero_mul, zero_div, sub_zero, abs_zero, add_zero]
  congr 2
  exact funext fun i => i.elim0

theorem idle_steps (base : ECM 0) (dt : ℚ) (k : ℕ) : ∀ t,
    ({ base with st := { base.st with I := 0, time := t } } : ECM 0).steps dt k
      = { base with st := { base.st with I := 0, time := t + k * dt } } := by
  induction k with
  | zero => intro t; simp [ECM.steps]
  | succ k ih =>
    intro t
    rw [ECM.steps, idle_step1, ih]
    congr 2
    push_cast; ring

theorem idle_restable (base : ECM 0) : Restable (Idle base) where
  set u h := by
    refine ⟨.Success, ?_, isBad_success⟩
    show Outcome.ok (u.setCurrent 0 false).1 = _
    rw [ECM.setCurrent_unchecked]
  set_P u h := by
    obtain ⟨t, rfl⟩ := h
    refine ⟨t, ?_⟩
    show (ECM.setCurrent _ 0 false).2 = _
    rw [ECM.setCurrent_unchecked]
    rfl
  step u dt k h hdt := by
    show (ECM.timeStep u dt k).1 = _
    unfold ECM.timeStep
    rw [if_neg (not_lt.mpr hdt)]
  step_P u dt k h hdt := by
    obtain ⟨t, rfl⟩ := h
    refine ⟨t + k * dt, ?_⟩
    show (ECM.timeStep _ dt k).2 = _
    unfold ECM.timeStep
    rw [if_neg (not_lt.mpr hdt)]
    exact idle_steps base dt k t

/-- The clock of a cell. -/
instance ecmClocked {n : ℕ} : Clocked (ECM n) where
  clocks c := [c.st.time]
  set_clocks u i b := by
    show [(u.setCurrent i b).2.st.time] = _
    unfold ECM.setCurrent
    dsimp only
    split <;> rfl
  step_clocks u dt k h := by
    have hdt : ¬ dt < 0 := by
      intro hneg
      change (ECM.timeStep u dt k).1 = _ at h
      unfold ECM.timeStep at h
      rw [if_pos hneg] at h
      cases h
    show [(ECM.timeStep u dt k).2.st.time] = _
    unfold ECM.timeStep
    rw [if_neg hdt]
    have : ∀ (k : ℕ) (u : ECM n), (u.steps dt k).st.time = u.st.time + k * dt := by
      intro k
      induction k with
      | zero => intro u; simp [ECM.steps]
      | succ k ih =>
        intro u
        rw [ECM.steps, ih]
        show u.st.time + dt + _ = _
        push_cast; ring
    simp [this k u]

/-- The first thing a rest does is to set the current to zero. -/
theorem rest_from (fuel : ℕ) (c : Cyc (ECM 0)) (tlim dt : ℚ) (th : Thr) :
    c.rest fuel tlim dt 0 th = (c.withSU (c.su.withI 0)).rest fuel tlim dt 0 th ∨ tlim ≤ 0 ∨ fuel = 0 := by
  by_cases ht : tlim ≤ 0
  · exact Or.inr (Or.inl ht)
  rcases fuel with _ | fuel
  · exact Or.inr (Or.inr rfl)
  left
  unfold Cyc.rest
  dsimp only
  have hs : ∀ c : Cyc (ECM 0), storeIf (decide ((0 : ℤ) < 0)) c = c := fun c => by
    unfold storeIf; rw [if_neg (by decide)]
  have hb : ∀ v n, restBody tlim 0 n v c = restBody tlim 0 n v (c.withSU (c.su.withI 0)) := by
    intro v n
    unfold restBody
    have h1 : StorageUnit.setCurrent c.su 0 false = (.ok .Success, c.su.withI 0) := by
      show (Outcome.ok (c.su.setCurrent 0 false).1, (c.su.setCurrent 0 false).2) = _
      rw [ECM.setCurrent_unchecked]
    have h2 : StorageUnit.setCurrent (c.withSU (c.su.withI 0)).su 0 false = (.ok .Success, c.su.withI 0) := by
      show (Outcome.ok ((c.su.withI 0).setCurrent 0 false).1, ((c.su.withI 0).setCurrent 0 false).2) = _
      rw [ECM.setCurrent_unchecked]
      rfl
    rw [h1, h2]
    rfl
  have hl : ∀ n v, v.ttot < tlim → restLoop tlim 0 n (fuel + 1) v c
      = restLoop tlim 0 n (fuel + 1) v (c.withSU (c.su.withI 0)) := by
    intro n v hv
    rw [restLoop, restLoop, if_pos hv, if_pos hv, hb]
  rw [hs, hs, hl _ _ (by simpa using ht)]

/-- A rest that stores nothing changes nothing of the cycler but its unit. -/
theorem restLoop_quiet {tlim : ℚ} {nMax : ℕ} (fuel : ℕ) : ∀ (v : RestVars) (c : Cyc U),
    (restLoop tlim 0 nMax fuel v c).2 = c.withSU (restLoop tlim 0 nMax fuel v c).2.su := by
  have hb : ∀ (v : RestVars) (c : Cyc U), (restBody tlim 0 nMax v c).2 = c.withSU (restBody tlim 0 nMax v c).2.su := by
    intro v c
    unfold restBody
    rcases StorageUnit.setCurrent c.su 0 false with ⟨o, u1⟩
    rcases o with st | e | w
    · dsimp only
      split
      · rfl
      · generalize StorageUnit.timeStep u1 _ _ = r
        rcases r with ⟨o, u2⟩
        rcases o with _ | e | w
        · dsimp only
          have hs : ∀ (b : Bool) (c : Cyc U), storeIf (decide ((0 : ℤ) < 0) && b) c = c := fun b c => by
            unfold storeIf; rw [if_neg (by simp)]
          rw [hs]
          rfl
        · rfl
        · rfl
    · rfl
    · rfl
  induction fuel with
  | zero => intro v c; rw [restLoop]; split <;> rfl
  | succ fuel ih =>
    intro v c
    rw [restLoop]
    split
    · have h := hb v c
      rcases hr : restBody tlim 0 nMax v c with ⟨o, c1⟩
      rw [hr] at h
      rcases o with x | e | w
      · rcases x with st | v'
        · exact h
        · dsimp only at h ⊢
          rw [ih v' c1]
          generalize (restLoop tlim 0 nMax fuel v' c1).2.su = u
          rw [h]; rfl
      · exact h
      · exact h
    · rfl

/-- Resting a cell without RC branches: nothing changes but the current and the clock. -/
theorem rest_ecm0 (fuel : ℕ) (c : Cyc (ECM 0)) (tlim dt : ℚ) (ht : 0 < tlim) (hd : 0 < dt) (hf : tlim ≤ fuel * dt) :
    c.rest fuel tlim dt 0 Thr.zero = (.ok .ReachedTimeLimit,
      c.withSU { c.su with st := { c.su.st with I := 0, time := c.su.st.time + tlim } }, ⟨tlim, 0, 0⟩) := by
  have hfuel : fuel ≠ 0 := by rintro rfl; simp at hf; linarith
  rcases rest_from fuel c tlim dt Thr.zero with h | h | h
  swap
  · exact absurd ht (not_lt.mpr h)
  swap
  · exact absurd h hfuel
  rw [h]
  obtain ⟨v, c1, h1, h2, t, h3⟩ := restLoop_total (idle_restable c.su) (tlim := tlim) (ndt := 0) (nMax := 10) fuel
    (v := { dti := dt, ttot := 0, idat := 0, nOnce := 1, ninc := true }) (c := c.withSU (c.su.withI 0))
    ⟨c.su.st.time, rfl⟩ ht.le hd (le_refl 1) (by norm_num) (by simpa using hf)
  have h4 := restLoop_quiet (tlim := tlim) (nMax := 10) fuel
    { dti := dt, ttot := 0, idat := 0, nOnce := 1, ninc := true } (c.withSU (c.su.withI 0))
  rw [h1] at h4
  dsimp only at h4
  have hr : (c.withSU (c.su.withI 0)).rest fuel tlim dt 0 Thr.zero
      = (.ok .ReachedTimeLimit, c.withSU { c.su with st := { c.su.st with I := 0, time := t } }, ⟨tlim, 0, 0⟩) := by
    unfold Cyc.rest
    dsimp only
    have hs : ∀ c : Cyc (ECM 0), storeIf (decide ((0 : ℤ) < 0)) c = c := fun c => by
      unfold storeIf; rw [if_neg (by decide)]
    have hn : (if decide ((0 : ℤ) < 0) = true then min 10 (0 : ℤ).toNat else 10) = 10 := by decide
    rw [hs, hn, h1]
    dsimp only
    rw [h2, if_pos ⟨le_refl _, by norm_num⟩]
    have h5 : StorageUnit.setCurrent c1.su 0 false = (.ok .Success, c1.su.withI 0) := by
      show (Outcome.ok (c1.su.setCurrent 0 false).1, (c1.su.setCurrent 0 false).2) = _
      rw [ECM.setCurrent_unchecked]
    rw [h5]
    dsimp only
    rw [hs, h4, h3]
    simp only [Thr.zero, zero_add]
    rfl
  rw [hr]
  obtain ⟨_, h6⟩ := rest_done hr ht.le hd
  have h7 : t = c.su.st.time + tlim := by
    have : [t] = [c.su.st.time + tlim] := h6
    simpa using this
  rw [h7]

/-! ### More fuel does not change a finished run -/

theorem ccLoop_fuel {I vlim tlim : ℚ} {ndt : ℤ} {nMax : ℕ} (k fuel : ℕ) : ∀ {v : CCVars} {c c' : Cyc U} {th th' : Thr}
    {x : Status ⊕ (CCVars × Bool)}, ccLoop I vlim tlim ndt nMax fuel v c th = (.ok x, c', th') →
    ccLoop I vlim tlim ndt nMax (fuel + k) v c th = (.ok x, c', th') := by
  induction fuel with
  | zero =>
    intro v c c' th th' x h
    rw [ccLoop] at h
    split at h
    · cases h
    · rename_i hv
      rcases k with _ | k
      · rw [Nat.add_zero, ccLoop, if_neg hv]; exact h
      · rw [Nat.zero_add, ccLoop, if_neg hv]; exact h
  | succ fuel ih =>
    intro v c c' th th' x h
    rw [Nat.succ_add, ccLoop]
    rw [ccLoop] at h
    split at h
    · rename_i hv
      rw [if_pos hv]
      rcases hb : ccBody I vlim tlim ndt nMax v c th with ⟨o, c1, th1⟩
      rw [hb] at h
      rcases o with y | e | w
      · rcases y with st | v' | v'
        · exact h
        · exact h
        · exact ih h
      · exact h
      · exact h
    · rename_i hv
      rw [if_neg hv]; exact h

theorem CC_fuel {I vlim tlim dt : ℚ} {ndt : ℤ} (k fuel : ℕ) {c c' : Cyc U} {th th' : Thr} {st : Status}
    (h : c.CC fuel I vlim tlim dt ndt th = (.ok st, c', th')) :
    c.CC (fuel + k) I vlim tlim dt ndt th = (.ok st, c', th') := by
  unfold Cyc.CC at h ⊢
  dsimp only at h ⊢
  rcases hs : (storeIf (decide (0 < ndt)) c).setCurrent I vlim with ⟨o, c1⟩
  rw [hs] at h
  rcases o with s | e | w
  · dsimp only at h ⊢
    split at h
    · rename_i h1; rw [if_pos h1]; exact h
    · rename_i h1
      rw [if_neg h1]
      split at h
      · rename_i h2; rw [if_pos h2]; exact h
      · rename_i h2
        rw [if_neg h2]
        rcases hl : ccLoop I vlim tlim ndt (if decide (0 < ndt) = true then min 2 ndt.toNat else 2) fuel
          { dti := dt, ttot := 0, idat := 0, nOnce := 1, vo := StorageUnit.V c1.su, vi := StorageUnit.V c1.su, allowUp := true } c1 th
          with ⟨o, c2, th2⟩
        rw [hl] at h
        rcases o with x | e | w
        · rw [ccLoop_fuel k fuel hl]; exact h
        · cases h
        · cases h
  · cases h
  · cases h

/-! ### A completed day without its first charge -/

/-- The full claim about a completed day: all its charges and discharges reach their voltage limits. -/
def EveryPhaseReaches : Prop :=
  ∀ (fuel : ℕ) (ndata : ℤ) (a a' : Age (ECM 0)), Age.useSteps fuel ndata useDay a = (.ok true, a') →
    ∃ ms, Day fuel ndata a.cyc a'.cyc .ReachedVoltageLimit .ReachedVoltageLimit .ReachedVoltageLimit
      .ReachedVoltageLimit ms

/-- A cell of 1 Ah and 17/20 Ω whose voltage rises steeply with its charge. -/
def steep : ECM 0 :=
  ⟨⟨1, 17/20, fun _ => 0, fun _ => 0, fun s => some (7/2 + 20 * (s - 1/2))⟩, ⟨293, 1/2, 0, fun _ => 0, 0, 0, 0⟩⟩

namespace Steep

/-- A cell after `h` hours of rest (`rest_ecm0`). -/
def rested (h : ℚ) (c : Cyc (ECM 0)) : Cyc (ECM 0) :=
  c.withSU { c.su with st := { c.su.st with I := 0, time := c.su.st.time + h * 3600 } }

/-- A charge or discharge. -/
def cc (C : ℚ) (vlim : ℚ) (c : Cyc (ECM 0)) : Outcome Status × Cyc (ECM 0) × Thr :=
  c.CC 300 C vlim TIME_INF 1 0 ⟨0, 0, 0⟩

def d0 : Cyc (ECM 0) := { su := steep, diagnostic := true }
def d1 := rested 4 d0
def d2 := (cc (-(1 * StorageUnit.Cap d1.su)) (StorageUnit.lim d1.su).Vmax d1).2.1
def d3 := rested 1 d2
def d4 := (cc (1 * StorageUnit.Cap d3.su) (StorageUnit.lim d3.su).Vmin d3).2.1
def d5 := rested 4 d4
def d6 := (cc (-(1/2 * StorageUnit.Cap d5.su)) (StorageUnit.lim d5.su).Vmax d5).2.1
def d7 := rested 4 d6
def d8 := (cc (1/2 * StorageUnit.Cap d7.su) (StorageUnit.lim d7.su).Vmin d7).2.1

theorem rested_spec (h : ℚ) (h0 : 0 < h) (h5 : h ≤ 5) (c : Cyc (ECM 0)) :
    Rested 18000 0 h c (rested h c) ⟨h * 3600, 0, 0⟩ := by
  refine ⟨rest_ecm0 18000 c (h * 3600) 1 (by positivity) (by norm_num) (by push_cast; linarith), rfl, rfl⟩

theorem cc_spec {C vlim : ℚ} {c : Cyc (ECM 0)} {st : Status} (h : (cc C vlim c).1 = .ok st) :
    c.CC 18000 C vlim TIME_INF 1 0 ⟨0, 0, 0⟩ = (.ok st, (cc C vlim c).2.1, (cc C vlim c).2.2) :=
  CC_fuel 17700 300 (Prod.ext h rfl)

theorem charge1 : (cc (-(1 * StorageUnit.Cap d1.su)) (StorageUnit.lim d1.su).Vmax d1).1 = .ok .VMAX_violation := by
  decide +kernel
theorem discharge1 : (cc (1 * StorageUnit.Cap d3.su) (StorageUnit.lim d3.su).Vmin d3).1 = .ok .Vmin_violation := by
  decide +kernel
theorem charge2 : (cc (-(1/2 * StorageUnit.Cap d5.su)) (StorageUnit.lim d5.su).Vmax d5).1
    = .ok .ReachedVoltageLimit := by
  decide +kernel
theorem discharge2 : (cc (1/2 * StorageUnit.Cap d7.su) (StorageUnit.lim d7.su).Vmin d7).1
    = .ok .ReachedVoltageLimit := by
  decide +kernel

theorem day : ∃ ms, Day 18000 0 d0 (rested 5 d8) .VMAX_violation .Vmin_violation .ReachedVoltageLimit
    .ReachedVoltageLimit ms :=
  ⟨_, d1, d2, d3, d4, d5, d6, d7, d8, _, _, _, _, _, _, _, _, _, rested_spec 4 (by norm_num) (by norm_num) d0,
    cc_spec charge1, rested_spec 1 (by norm_num) (by norm_num) d2, cc_spec discharge1,
    rested_spec 4 (by norm_num) (by norm_num) d4, cc_spec charge2, rested_spec 4 (by norm_num) (by norm_num) d6,
    cc_spec discharge2, rested_spec 5 (by norm_num) (by norm_num) d8, rfl⟩

end Steep

/-- **C83 (false of the code).** A day is completed although its 1C charge and its 1C discharge were refused. -/
theorem not_everyPhaseReaches : ¬ EveryPhaseReaches := by
  intro h
  obtain ⟨_, hd⟩ := Steep.day
  obtain ⟨a', h1, -⟩ := Age.day_performed (a := { cyc := Steep.d0, th := Thr.zero, mem := [], file := [] }) hd
  obtain ⟨ms, c1, c2, -, -, -, -, -, -, m1, m2, -, -, -, -, -, -, -, hr, hc, -⟩ := h 18000 0 _ a' h1
  have hr2 := (Steep.rested_spec 4 (by norm_num) (by norm_num) Steep.d0).1
  have hc1 : c1 = Steep.d1 := by
    have := hr.1.symm.trans hr2
    exact (Prod.mk.inj (Prod.mk.inj this).2).1
  subst hc1
  have := hc.symm.trans (Steep.cc_spec Steep.charge1)
  cases (Prod.mk.inj this).1

/-! ### A run that ends on its first day -/

/-- The full claim about the file: after a run it contains the rows of this run only, at most nine for each day
begun. -/
def OwnRowsOnly : Prop :=
  ∀ (fuel : ℕ) (k : Checks (ECM 0)) (u : ECM 0) (file : List Thr) (n : ℕ) (a : Age (ECM 0)),
    useCaseAge fuel k false 0 u [] file = (.ok n, a) →
      ∃ (st : Status) (c0 : Cyc (ECM 0)) (m0 : Thr) (ms : List Thr),
        Discharged fuel 0 (1/2) { su := u, diagnostic := true } c0 st m0 ∧ a.file = totals m0 ms
          ∧ ms.length ≤ 9 * (n + 1)

/-- A cell of 1 Ah and 2 Ω that is nearly empty. -/
def weary : ECM 0 :=
  ⟨⟨1, 2, fun _ => 0, fun _ => 0, fun s => some (374/100 + 216 * (s - 1/2))⟩, ⟨293, 1/2, 0, fun _ => 0, 0, 0, 0⟩⟩

namespace Weary
open Steep

def w0 : Outcome Status × Cyc (ECM 0) × Thr := cc (StorageUnit.Cap weary / 2) (StorageUnit.lim weary).Vmin
  { su := weary, diagnostic := true }
def w1 := rested 4 w0.2.1
def w2 := (cc (-1 * StorageUnit.Cap w1.su) (StorageUnit.lim w1.su).Vmax w1).2.1
def w3 := rested 1 w2
def w4 := (cc (1 * StorageUnit.Cap w3.su) (StorageUnit.lim w3.su).Vmin w3).2.1
def w5 := rested 4 w4
def w6 := (cc (-1/2 * StorageUnit.Cap w5.su) (StorageUnit.lim w5.su).Vmax w5).2.1
def w7 := rested 4 w6

theorem start : w0.1 = .ok .Vmin_violation := by decide +kernel
theorem start_Ah : w0.2.2.Ah = 1/7200 := by decide +kernel
theorem charge1 : (cc (-1 * StorageUnit.Cap w1.su) (StorageUnit.lim w1.su).Vmax w1).1 = .ok .VMAX_violation := by
  decide +kernel
theorem discharge1 : (cc (1 * StorageUnit.Cap w3.su) (StorageUnit.lim w3.su).Vmin w3).1 = .ok .VMIN_violation := by
  decide +kernel
theorem charge2 : (cc (-1/2 * StorageUnit.Cap w5.su) (StorageUnit.lim w5.su).Vmax w5).1 = .ok .VMAX_violation := by
  decide +kernel
theorem discharge2 : (cc (1/2 * StorageUnit.Cap w7.su) (StorageUnit.lim w7.su).Vmin w7).1 = .ok .Vmin_violation := by
  decide +kernel

theorem day (a : Age (ECM 0)) (ha : a.cyc = w0.2.1) : ∃ a', Age.useSteps 18000 0 useDay a = (.ok false, a') := by
  unfold useDay
  obtain ⟨a1, e1, g1⟩ := Age.useSteps_rest [.cc (-1) true false, .rest 1, .cc 1 false false, .rest 4,
    .cc (-1/2) true false, .rest 4, .cc (1/2) false true, .rest 5] a 4 _ _ _
    (rested_spec 4 (by norm_num) (by norm_num) w0.2.1) ha
  obtain ⟨a2, g2, e2⟩ := Age.useSteps_cc [.rest 1, .cc 1 false false, .rest 4,
    .cc (-1/2) true false, .rest 4, .cc (1/2) false true, .rest 5] a1 (-1) true false w1 w2 _ _ (cc_spec charge1) g1
  obtain ⟨a3, e3, g3⟩ := Age.useSteps_rest [.cc 1 false false, .rest 4,
    .cc (-1/2) true false, .rest 4, .cc (1/2) false true, .rest 5] a2 1 _ _ _
    (rested_spec 1 (by norm_num) (by norm_num) w2) g2
  obtain ⟨a4, g4, e4⟩ := Age.useSteps_cc [.rest 4,
    .cc (-1/2) true false, .rest 4, .cc (1/2) false true, .rest 5] a3 1 false false w3 w4 _ _ (cc_spec discharge1) g3
  obtain ⟨a5, e5, g5⟩ := Age.useSteps_rest [.cc (-1/2) true false, .rest 4, .cc (1/2) false true, .rest 5] a4 4 _ _ _
    (rested_spec 4 (by norm_num) (by norm_num) w4) g4
  obtain ⟨a6, g6, e6⟩ := Age.useSteps_cc [.rest 4, .cc (1/2) false true, .rest 5] a5 (-1/2) true false w5 w6 _ _
    (cc_spec charge2) g5
  obtain ⟨a7, e7, g7⟩ := Age.useSteps_rest [.cc (1/2) false true, .rest 5] a6 4 _ _ _
    (rested_spec 4 (by norm_num) (by norm_num) w6) g6
  obtain ⟨a8, g8, e8⟩ := Age.useSteps_cc [.rest 5] a7 (1/2) false true w7 _ _ _ (cc_spec discharge2) g7
  refine ⟨a8, ?_⟩
  rw [e1, e2, if_pos (fun h => by cases h), e3, e4, if_pos (fun h => by cases h), e5, e6, if_pos (fun h => by cases h), e7,
    e8, if_neg (fun h => by cases h rfl)]

theorem run' (F : ℕ) (file : List Thr)
    (h0 : ({ su := weary, diagnostic := true } : Cyc (ECM 0)).CC F (StorageUnit.Cap weary / 2)
      (StorageUnit.lim weary).Vmin TIME_INF 1 0 Thr.zero = (.ok .Vmin_violation, w0.2.1, w0.2.2))
    (day : ∀ a : Age (ECM 0), a.cyc = w0.2.1 → ∃ a', Age.useSteps F 0 useDay a = (.ok false, a')) :
    ∃ a, useCaseAge F quietChecks false 0 weary [] file = (.ok 0, a) := by
  unfold useCaseAge
  dsimp only
  rw [h0]
  dsimp only
  rw [Age.useLoop]
  have hb : (({ cyc := w0.2.1, th := w0.2.2, mem := [], file := file } : Age (ECM 0)).balanceCheckup quietChecks
      (false && decide (0 % 7 = 0)) (decide (0 % 10 = 0)) w0.2.2.Ah ((0 : ℕ) : ℤ)).1 = .ok () := rfl
  have hc : (({ cyc := w0.2.1, th := w0.2.2, mem := [], file := file } : Age (ECM 0)).balanceCheckup quietChecks
      (false && decide (0 % 7 = 0)) (decide (0 % 10 = 0)) w0.2.2.Ah ((0 : ℕ) : ℤ)).2.cyc = w0.2.1 := rfl
  revert hb hc
  generalize ({ cyc := w0.2.1, th := w0.2.2, mem := [], file := file } : Age (ECM 0)).balanceCheckup quietChecks
      (false && decide (0 % 7 = 0)) (decide (0 % 10 = 0)) w0.2.2.Ah ((0 : ℕ) : ℤ) = r
  rcases r with ⟨o, a1⟩
  intro hb hc
  dsimp only at hb hc
  subst hb
  obtain ⟨a2, h2⟩ := day a1 hc
  dsimp only
  rw [h2]
  exact ⟨_, rfl⟩

theorem run (file : List Thr) : ∃ a, useCaseAge 18000 quietChecks false 0 weary [] file = (.ok 0, a) :=
  run' 18000 file (cc_spec start) day

end Weary

/-- **C83 (false of the code).** A run on the cell `weary` leaves the row of an earlier run in the file: charge has been
moved before the first check-up. -/
theorem not_ownRowsOnly : ¬ OwnRowsOnly := by
  intro h
  obtain ⟨a, ha⟩ := Weary.run (List.replicate 10 ⟨1, 5, 1⟩)
  obtain ⟨st, c0, m0, ms, h1, h2, h3⟩ := h 18000 quietChecks weary _ 0 a ha
  obtain ⟨st', c0', c1', m0', ms1, ms2, -, -, g1, -, -, g2, -, -⟩ := useCase_days_partial _ _ _ _ _ _ _ _ _ ha
  have hs : Discharged 18000 0 (1/2) { su := weary, diagnostic := true } Weary.w0.2.1 .Vmin_violation Weary.w0.2.2 := by
    unfold Discharged
    rw [show 1/2 * StorageUnit.Cap ({ su := weary, diagnostic := true } : Cyc (ECM 0)).su = StorageUnit.Cap weary / 2 by ring]
    exact Steep.cc_spec Weary.start
  have e1 : m0 = Weary.w0.2.2 := (Prod.mk.inj (Prod.mk.inj (h1.symm.trans hs)).2).2
  have e2 : m0' = Weary.w0.2.2 := (Prod.mk.inj (Prod.mk.inj (g1.symm.trans hs)).2).2
  subst e1 e2
  have g3 := (g2 (by rw [Weary.start_Ah]; norm_num)).1
  have hlen : ∀ (ms : List Thr) (t : Thr), (totals t ms).length = ms.length := by
    intro ms
    induction ms with
    | nil => intro t; rfl
    | cons m ms ih => intro t; rw [totals, List.length_cons, ih, List.length_cons]
  have g4 := congrArg List.length (h2.symm.trans g3)
  rw [List.length_append, hlen, List.append_nil, List.length_replicate] at g4
  omega

end Slide

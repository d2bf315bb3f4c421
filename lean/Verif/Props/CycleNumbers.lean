import Verif.Props.Procedure

/-!
What the check-ups of cycle ageing are told: charge throughput and number of cycles so far (C82).
-/

namespace Slide
open Spec

variable {U : Type} [StorageUnit U] [VoltageUnit U]

namespace Spec

/-- The numbers `j` with `i ≤ j < i + m` that are multiples of `n`. -/
def due (n : ℤ) (i m : ℕ) : List ℤ := ((List.range' i m).map Int.ofNat).filter fun j => j % n = 0

/-- Charge on the meters of some phases. -/
def charge (ms : List Thr) : ℚ := (ms.map Thr.Ah).sum

end Spec

namespace Age

theorem foldl_charge (ms : List Thr) (t : Thr) : (ms.foldl Thr.add t).Ah = t.Ah + charge ms := by
  induction ms generalizing t with
  | nil => simp [charge]
  | cons m ms ih =>
    rw [List.foldl_cons, ih]
    simp only [Thr.add, charge, List.map_cons, List.sum_cons]
    ring

theorem cc_ups (fuel : ℕ) (p : AgeParams) (I vlim : ℚ) (a : Age U) : (a.cc fuel p I vlim).2.ups = a.ups := by
  unfold Age.cc; rfl

theorem cv_ups (p : AgeParams) (Vset : ℚ) (a : Age U) : (a.cv p Vset).2.ups = a.ups := by
  unfold Age.cv
  split
  · split
    · split <;> rfl
    · rfl
    · rfl
  · rfl

theorem discharge_ups (fuel : ℕ) (p : AgeParams) (Idis : ℚ) (a : Age U) :
    (a.discharge fuel p Idis).2.ups = a.ups := by
  unfold Age.discharge
  have h := cc_ups fuel p Idis p.Vmin a
  revert h
  generalize a.cc fuel p Idis p.Vmin = r
  rcases r with ⟨o, a1⟩
  intro h
  rcases o with st | e | w
  · dsimp only
    split
    · rw [cv_ups]; exact h
    · exact h
  · exact h
  · exact h

theorem cycle_ups (fuel : ℕ) (p : AgeParams) (Icha Idis : ℚ) (a : Age U) :
    (a.cycle fuel p Icha Idis).2.ups = a.ups := by
  unfold Age.cycle
  have h := cc_ups fuel p Icha p.Vmax a
  revert h
  generalize a.cc fuel p Icha p.Vmax = r
  rcases r with ⟨o, a1⟩
  intro h
  rcases o with st | e | w
  · dsimp only
    split
    · exact h
    · split
      · exact h
      · have h2 := cv_ups p p.Vmax a1.storeThroughput
        revert h2
        generalize a1.storeThroughput.cv p p.Vmax = r2
        rcases r2 with ⟨o2, a3⟩
        intro h2
        have h3 : a3.ups = a.ups := h2.trans h
        rcases o2 with b | e | w
        · rcases b
          · exact h3
          · dsimp only; rw [discharge_ups]; exact h3
        · exact h3
        · exact h3
  · exact h
  · exact h

omit [StorageUnit U] [VoltageUnit U] in
theorem balanceCheckup_ups {k : Checks U} {a a' : Age U} {b c : Bool} {Ah : ℚ} {nr : ℤ}
    (h : a.balanceCheckup k b c Ah nr = (.ok (), a')) :
    a'.ups = a.ups ++ (if c then [(Ah, nr)] else []) := by
  unfold Age.balanceCheckup at h
  have h1 : (if b = true then a.onUnit k.rebalance else (.ok (), a)).2.ups = a.ups := by
    split
    · unfold Age.onUnit; rfl
    · rfl
  revert h1 h
  generalize (if b = true then a.onUnit k.rebalance else (.ok (), a)) = r
  rcases r with ⟨o, a1⟩
  intro h h1
  have h1' : a1.ups = a.ups := h1
  rcases o with _ | e | w
  · dsimp only at h
    rcases c
    · rw [if_neg (by decide)] at h
      cases h
      simp [h1']
    · rw [if_pos rfl] at h
      unfold Age.checkUp at h
      rw [(onUnit_ok h).2]
      show (a1.writeThroughput Ah).ups ++ [(Ah, nr)] = _
      rw [show (a1.writeThroughput Ah).ups = a1.ups from rfl, h1']
      rfl
  · cases h
  · cases h

theorem due_succ (n : ℤ) (i m : ℕ) :
    due n i (m + 1) = (if (i : ℤ) % n = 0 then [(i : ℤ)] else []) ++ due n (i + 1) m := by
  unfold due
  rw [List.range'_succ, List.map_cons, List.filter_cons]
  by_cases h : (i : ℤ) % n = 0
  · simp [h]
  · simp [h]

/-- The check-ups of the loop: one before each due cycle, told its number and the throughput of the cycles before. -/
theorem loop_ups (fuel : ℕ) (k : Checks U) (p : AgeParams) (Icha Idis : ℚ) (left : ℕ) :
    ∀ (i : ℕ) (a a' : Age U) (n : ℕ), loop fuel k p Icha Idis left i a = (.ok n, a') →
      ∃ new : List (ℚ × ℤ), a'.ups = a.ups ++ new
        ∧ i ≤ n ∧ new.map Prod.snd = due p.Ncheck i (min left (n - i + 1))
        ∧ ∀ e ∈ new, ∃ j c ms, e.2 = ((i + j : ℕ) : ℤ) ∧ i + j ≤ n ∧ Cycles fuel k p Icha Idis i j a.cyc c ms
            ∧ e.1 = a.th.Ah + charge ms := by
  induction left with
  | zero =>
    intro i a a' n h
    rw [loop] at h
    cases h
    exact ⟨[], by simp, le_refl _, by simp [due], fun e he => by cases he⟩
  | succ left ih =>
    intro i a a' n h
    rw [loop] at h
    rcases hw : when p i with ⟨b, c⟩ | e | w
    · rw [hw] at h
      dsimp only at h
      rcases hbc : a.balanceCheckup k b c a.th.Ah i with ⟨o, a1⟩
      rw [hbc] at h
      rcases o with _ | e | w
      · obtain ⟨hbet, hth, hc, -, -⟩ := balanceCheckup_ok hw hbc
        have hu1 := balanceCheckup_ups hbc
        dsimp only at h
        have hcu := cycle_ups fuel p Icha Idis a1
        rcases hcy : a1.cycle fuel p Icha Idis with ⟨o2, a2⟩
        rw [hcy] at h hcu
        have hcu' : a2.ups = a1.ups := hcu
        have hfirst : ∀ e ∈ (if c then [(a.th.Ah, (i : ℤ))] else []), ∃ j c ms, e.2 = ((i + j : ℕ) : ℤ) ∧ i + j ≤ i ∧
            Cycles fuel k p Icha Idis i j a.cyc c ms ∧ e.1 = a.th.Ah + charge ms := by
          intro e he
          rcases c
          · rw [if_neg (by decide)] at he; cases he
          · rw [if_pos rfl, List.mem_singleton] at he
            subst he
            exact ⟨0, a.cyc, [], by simp, by simp, .zero _ _, by simp [charge]⟩
        have hcd : (if c then [(a.th.Ah, (i : ℤ))] else []).map Prod.snd
            = if (i : ℤ) % p.Ncheck = 0 then [(i : ℤ)] else [] := by
          rcases c
          · rw [if_neg (by decide), if_neg (fun hh => absurd (hc.mpr hh) (by decide))]; rfl
          · rw [if_pos rfl, if_pos (hc.mp rfl)]; rfl
        rcases o2 with bb | e | w
        · rcases cycle_cases fuel p Icha Idis a1 a2 bb hcy with ⟨rfl, ms, hfull, mv⟩ | ⟨rfl, ms, hstop, -⟩
          · dsimp only at h
            obtain ⟨new, hn, hle, hmap, hall⟩ := ih (i + 1) a2 a' n h
            refine ⟨(if c then [(a.th.Ah, (i : ℤ))] else []) ++ new, ?_, by omega, ?_, ?_⟩
            · rw [hn, hcu', hu1, List.append_assoc]
            · rw [List.map_append, hcd, hmap, show min (left + 1) (n - i + 1) = min left (n - (i + 1) + 1) + 1 by omega,
                due_succ]
            · intro e he
              rcases List.mem_append.mp he with he | he
              · obtain ⟨j, c', ms', h1, h2, h3⟩ := hfirst e he
                exact ⟨j, c', ms', h1, by omega, h3⟩
              · obtain ⟨j, c', ms', h1, h2, h3, h4⟩ := hall e he
                refine ⟨j + 1, c', ms ++ ms', by rw [h1]; push_cast; ring, by omega,
                  .succ i j a.cyc a1.cyc a2.cyc c' ms ms' hbet hfull h3, ?_⟩
                rw [h4, mv.th, foldl_charge, hth]
                simp only [charge, List.map_append, List.sum_append]
                ring
          · dsimp only at h
            cases h
            refine ⟨_, by rw [hcu', hu1], le_refl _, ?_, hfirst⟩
            rw [hcd, show min (left + 1) (i - i + 1) = 0 + 1 by omega, due_succ]
            simp [due]
        · cases h
        · cases h
      · cases h
      · cases h
    · rw [hw] at h; cases h
    · rw [hw] at h; cases h

/-- When all cycles are done, the meter shows their charge. -/
theorem loop_all (fuel : ℕ) (k : Checks U) (p : AgeParams) (Icha Idis : ℚ) (left : ℕ) :
    ∀ (i : ℕ) (a a' : Age U) (n : ℕ), n = i + left → loop fuel k p Icha Idis left i a = (.ok n, a') →
      ∃ c ms, Cycles fuel k p Icha Idis i (n - i) a.cyc c ms ∧ a'.th.Ah = a.th.Ah + charge ms := by
  induction left with
  | zero =>
    intro i a a' n hn h
    rw [loop] at h
    cases h
    exact ⟨a.cyc, [], by rw [Nat.sub_self]; exact .zero _ _, by simp [charge]⟩
  | succ left ih =>
    intro i a a' n hn h
    rw [loop] at h
    rcases hw : when p i with ⟨b, c⟩ | e | w
    · rw [hw] at h
      dsimp only at h
      rcases hbc : a.balanceCheckup k b c a.th.Ah i with ⟨o, a1⟩
      rw [hbc] at h
      rcases o with _ | e | w
      · obtain ⟨hbet, hth, -, -, -⟩ := balanceCheckup_ok hw hbc
        dsimp only at h
        rcases hcy : a1.cycle fuel p Icha Idis with ⟨o2, a2⟩
        rw [hcy] at h
        rcases o2 with bb | e | w
        · rcases cycle_cases fuel p Icha Idis a1 a2 bb hcy with ⟨rfl, ms, hfull, mv⟩ | ⟨rfl, ms, hstop, -⟩
          · dsimp only at h
            obtain ⟨c', ms', h3, h4⟩ := ih (i + 1) a2 a' n (by omega) h
            refine ⟨c', ms ++ ms', ?_, ?_⟩
            · rw [show n - i = (n - (i + 1)) + 1 by omega]
              exact .succ i _ a.cyc a1.cyc a2.cyc c' ms ms' hbet hfull h3
            · rw [h4, mv.th, foldl_charge, hth]
              simp only [charge, List.map_append, List.sum_append]
              ring
          · dsimp only at h
            cases h
            omega
        · cases h
        · cases h
      · cases h
      · cases h
    · rw [hw] at h; cases h
    · rw [hw] at h; cases h

end Age

/-- The full claim: every check-up of a run is told the number of cycles that have been completed before it. -/
def CheckUpsNumbered : Prop :=
  ∀ (fuel : ℕ) (k : Checks (ECM 0)) (p : AgeParams) (u : ECM 0) (n : ℕ) (a : Age (ECM 0)),
    cycleAge fuel k p u [] [] = (.ok n, a) → ∀ e ∈ a.ups, ∃ (j : ℕ) (c : Cyc (ECM 0)) (ms : List Thr), e.2 = j ∧ j ≤ n ∧
      Cycles fuel k p (chargeI p u) (dischargeI p u) 0 j (startCyc u) c ms

/-- **C82 (partial).** The check-ups of a run that completes `n` cycles: before each cycle whose number is a multiple of
the interval (of all cycles begun) one check-up, told the number of complete cycles done so far and exactly the charge
they transferred; and one at the end.  Missing: the last one is told the number of cycles asked for
(`not_checkUpsNumbered`), which is right if all of them were done. -/
theorem checkUps_numbered_partial (fuel : ℕ) (k : Checks U) (p : AgeParams) (u : U) (mem file : List Thr) (n : ℕ)
    (a : Age U) (h : cycleAge fuel k p u mem file = (.ok n, a)) :
    ∃ (before : List (ℚ × ℤ)) (Ah : ℚ), a.ups = before ++ [(Ah, p.Ncycle)]
      ∧ before.map Prod.snd = due p.Ncheck 0 (min p.Ncycle.toNat (n + 1))
      ∧ (∀ e ∈ before, ∃ (j : ℕ) (c : Cyc U) (ms : List Thr), e = (charge ms, (j : ℤ)) ∧ j ≤ n ∧
          Cycles fuel k p (chargeI p u) (dischargeI p u) 0 j (startCyc u) c ms)
      ∧ (n = p.Ncycle.toNat → ∃ c ms, Cycles fuel k p (chargeI p u) (dischargeI p u) 0 n (startCyc u) c ms
          ∧ Ah = charge ms) := by
  have h' := h
  unfold cycleAge at h
  dsimp only at h
  rcases hl : Age.loop fuel k p (-p.Ccha * StorageUnit.Cap u) (p.Cdis * StorageUnit.Cap u) p.Ncycle.toNat 0
    { cyc := { su := u, diagnostic := true }, th := Thr.zero, mem := mem, file := file } with ⟨o, a1⟩
  rw [hl] at h
  rcases o with n' | e | w
  · dsimp only at h
    rcases hf : (a1.writeThroughput a1.th.Ah).checkUp k a1.th.Ah p.Ncycle with ⟨o2, a2⟩
    rw [hf] at h
    rcases o2 with _ | e | w
    · dsimp only at h
      cases h
      obtain ⟨new, hn, -, hmap, hall⟩ := Age.loop_ups fuel k p _ _ _ 0 _ a1 n hl
      have hn' : a1.ups = new := by simpa using hn
      refine ⟨new, a1.th.Ah, ?_, by simpa using hmap, ?_, ?_⟩
      · unfold Age.checkUp at hf
        rw [(Age.onUnit_ok hf).2]
        show a1.ups ++ _ = _
        rw [hn']
      · intro e he
        obtain ⟨j, c, ms, h1, h2, h3, h4⟩ := hall e he
        refine ⟨j, c, ms, Prod.ext ?_ (by simpa using h1), by omega, h3⟩
        rw [h4]; simp [Thr.zero]
      · intro hne
        obtain ⟨c1, ms, hcyc, hah⟩ := Age.loop_all fuel k p _ _ _ 0 _ a1 n (by omega) hl
        exact ⟨c1, ms, hcyc, by rw [hah]; simp [Thr.zero]⟩
    · cases h
    · cases h
  · cases h
  · cases h

/-- A run of two cycles asked for of which none can be done: the unit is already above the charging limit. -/
def stuck : AgeParams := { oneCycle with Ncycle := 2, Vmax := 3 }

/-- **C82 (false of the code).** No cycle was completed, and the last check-up reports two. -/
theorem not_checkUpsNumbered : ¬ CheckUpsNumbered := by
  intro h
  obtain ⟨j, -, -, h1, h2, -⟩ := h 10 quietChecks stuck smallCell 0 (cycleAge 10 quietChecks stuck smallCell [] []).2
    (Prod.ext (by decide +kernel) rfl) (0, 2) (by decide +kernel)
  have h3 : (2 : ℤ) = j := h1
  omega

/-- Check-ups before cycles 0 and 2 and at the end of four cycles. -/
example : (cycleAge 10 quietChecks { oneCycle with Ncycle := 4, Ncheck := 2 } smallCell [] []).2.ups.map Prod.snd
    = [0, 2, 4] := by decide +kernel

end Slide

import Verif.Lemmas.Guarded
import Verif.Props.SpmAged

/-!
C138: with the individual checks switched on, a constant-current phase never drives a cell beyond its operating window
without saying so.
-/

namespace Slide
open StorageUnit Spec Cyc CellLaws

/-- C138, full statement: whenever a constant-current phase with individual checks reports that it reached its limit, no
cell of the unit is being driven beyond its operating window. -/
def CCGuards (C : Type) [StorageUnit C] [VoltageUnit C] : Prop :=
  ∀ (d fuel : ℕ) (c c' : Cyc (Tree C d)) (I vlim tlim dt : ℚ) (ndt : ℤ) (th th' : Thr) (st : Status),
    c.diagnostic = true → 0 < dt → 0 < tlim → c.CC fuel I vlim tlim dt ndt th = (.ok st, c', th') →
    st = .ReachedVoltageLimit ∨ st = .ReachedTimeLimit → AllGuarded d c'.su

/-- A string of a charged and a nearly empty cell. -/
def weakString (strong weak : ℚ) : Tree (ECM 0) 1 :=
  Node.series { T := 288, kids := [⟨0, bucket strong 0⟩, ⟨0, bucket weak 0⟩] }

/-- A cycler with (or without) individual checks, connected to such a string. -/
def weakCycler (diag : Bool) (strong weak : ℚ) : Cyc (Tree (ECM 0) 1) := { su := weakString strong weak, diagnostic := diag }

/-- C138 is false of the code: the string at 5.61 V, asked to be discharged with 1 A down to 5.608 V, is reported to have
reached its limit at once; the current stays on, and the weak cell (2.458 V) is being discharged below its window, although
the individual checks are switched on. -/
theorem cc_not_guarded : ¬ CCGuards (ECM 0) := by
  intro hall
  have h1 : ((weakCycler true (1/2) (1/5)).CC 5 1 (5608/1000) 3600 1 0 Thr.zero).1 = .ok .ReachedVoltageLimit := by
    decide +kernel
  have h2 : (cells 1 ((weakCycler true (1/2) (1/5)).CC 5 1 (5608/1000) 3600 1 0 Thr.zero).2.1.su).map
      (fun c => (V c, StorageUnit.I c)) = [(3148/1000, 1), (2458/1000, 1)] := by decide +kernel
  rcases hr : (weakCycler true (1/2) (1/5)).CC 5 1 (5608/1000) 3600 1 0 Thr.zero with ⟨o, c', th'⟩
  rw [hr] at h1 h2
  have h3 := hall 1 5 _ c' 1 (5608/1000) 3600 1 0 Thr.zero th' .ReachedVoltageLimit rfl (by norm_num) (by norm_num)
    (by rw [hr]; exact congrArg (·, c', th') h1) (.inl rfl)
  dsimp only at h2
  have h4 : ((2458/1000 : ℚ), (1 : ℚ)) ∈ (cells 1 c'.su).map (fun c => (V c, StorageUnit.I c)) := by
    rw [h2]; simp
  obtain ⟨c, hc, he⟩ := List.mem_map.mp h4
  have h5 := (h3 c hc).low
  have e1 : V c = 2458/1000 := congrArg Prod.fst he
  have e2 : StorageUnit.I c = 1 := congrArg Prod.snd he
  rw [e1, e2] at h5
  have := h5 (by norm_num)
  norm_num at this

variable {C : Type} [StorageUnit C] [VoltageUnit C] [CellLaws C] [CellChecks C]

/-- C138, the part that holds (any tree of equivalent-circuit or single-particle cells): if any time was simulated at all, a
phase that reports that it reached its limit leaves no cell driven beyond its window. -/
theorem cc_guards_partial (d fuel : ℕ) (c c' : Cyc (Tree C d)) (I vlim tlim dt : ℚ) (ndt : ℤ) (th th' : Thr) (st : Status)
    (hdg : c.diagnostic = true) (h : c.CC fuel I vlim tlim dt ndt th = (.ok st, c', th'))
    (hst : st = .ReachedVoltageLimit ∨ st = .ReachedTimeLimit) (hsim : th'.time ≠ th.time) : AllGuarded d c'.su := by
  have neg : st.code < 0 := by rcases hst with e | e <;> rw [e] <;> decide
  unfold Cyc.CC at h
  dsimp only at h
  have hdiag : ((storeIf (decide (0 < ndt)) c).setCurrent I vlim).2.diagnostic = true := by
    rw [cycSet_diag, storeIf_diag]; exact hdg
  generalize (storeIf (decide (0 < ndt)) c).setCurrent I vlim = r at h hdiag
  obtain ⟨o1, c1⟩ := r
  cases o1 with
  | throw e => cases h
  | ub e => cases h
  | ok st1 =>
    dsimp only at h hdiag
    by_cases hs : (!st1.isSuccessful) = true
    · rw [if_pos hs] at h
      cases h
      exact absurd rfl hsim
    · rw [if_neg hs] at h
      by_cases hl : (I < 0 ∧ V c1.su > vlim) ∨ (I > 0 ∧ V c1.su < vlim)
      · rw [if_pos hl] at h
        cases h
        exact absurd rfl hsim
      · rw [if_neg hl] at h
        generalize (if decide (0 < ndt) = true then min 2 ndt.toNat else 2) = nMax at h
        generalize hv0 : (⟨dt, 0, 0, 1, V c1.su, V c1.su, true⟩ : CCVars) = v0 at h
        have ht0 : v0.ttot = 0 := by rw [← hv0]
        rcases hk : ccLoop I vlim tlim ndt nMax fuel v0 c1 th with ⟨o2, c2, th2⟩
        rw [hk] at h
        have hth : v0.ttot < tlim ∨ th2 = th := by
          by_cases hlt : v0.ttot < tlim
          · exact .inl hlt
          · right
            cases fuel with
            | zero => unfold ccLoop at hk; rw [if_neg hlt] at hk; cases hk; rfl
            | succ k => unfold ccLoop at hk; rw [if_neg hlt] at hk; cases hk; rfl
        match o2, hk, h with
        | .throw e, _, h => cases h
        | .ub e, _, h => cases h
        | .ok (.inl s2), hk, h =>
          cases h
          have := ccLoop_ret_code d fuel hk
          omega
        | .ok (.inr (v, vtot)), hk, h =>
          dsimp only at h
          have key : ∀ c3 : Cyc (Tree C d), c3.su = c2.su → th2.time ≠ th.time → AllGuarded d c3.su := by
            intro c3 e3 hne
            rcases hth with hth | hth
            · rw [e3]
              exact guarded_of_success d _ ((ccLoop_checked fuel hdiag (.inl hth) hk).1 ⟨_, rfl⟩)
            · rw [hth] at hne; exact absurd rfl hne
          by_cases ha : v.ttot ≥ tlim
          · rw [if_pos ha] at h
            cases h
            exact key _ (storeIf_su _ _) hsim
          · rw [if_neg ha] at h
            cases vtot with
            | false => cases h
            | true => cases h; exact key _ (storeIf_su _ _) hsim

/-- C138, what is recorded: whatever the outcome of the phase, in all data points except the one taken before the current
is set no cell is driven beyond its window. -/
theorem cc_records_guarded (d fuel : ℕ) (c c' : Cyc (Tree C d)) (I vlim tlim dt : ℚ) (ndt : ℤ) (th th' : Thr)
    (o : Outcome Status) (hdg : c.diagnostic = true) (ht : 0 < tlim) (h : c.CC fuel I vlim tlim dt ndt th = (o, c', th')) :
    ∃ l, RecordsBetween c c' ((if 0 < ndt then [c.su] else []) ++ l) ∧ ∀ u ∈ l, AllGuarded d u := by
  unfold Cyc.CC at h
  dsimp only at h
  have hdiag : ((storeIf (decide (0 < ndt)) c).setCurrent I vlim).2.diagnostic = true := by
    rw [cycSet_diag, storeIf_diag]; exact hdg
  have hrec : RecordsBetween c ((storeIf (decide (0 < ndt)) c).setCurrent I vlim).2 (if 0 < ndt then [c.su] else []) := by
    have h1 : RecordsBetween c (storeIf (decide (0 < ndt)) c) (if 0 < ndt then [c.su] else []) := by
      by_cases hn : 0 < ndt
      · rw [if_pos hn, decide_eq_true hn]
        have := storeIf_records c
        rwa [storeIf_su] at this
      · rw [if_neg hn, decide_eq_false hn]
        exact records_of_eq rfl
    have h2 := records_trans h1 (records_of_eq (cycSet_log (storeIf (decide (0 < ndt)) c) I vlim).1)
    rwa [List.append_nil] at h2
  generalize (storeIf (decide (0 < ndt)) c).setCurrent I vlim = r at h hdiag hrec
  obtain ⟨o1, c1⟩ := r
  dsimp only at hdiag hrec
  have start : ∃ l, RecordsBetween c c1 ((if 0 < ndt then [c.su] else []) ++ l) ∧ ∀ u ∈ l, AllGuarded d u :=
    ⟨[], by rw [List.append_nil]; exact hrec, by simp⟩
  cases o1 with
  | throw e => cases h; exact start
  | ub e => cases h; exact start
  | ok st1 =>
    dsimp only at h
    by_cases hs : (!st1.isSuccessful) = true
    · rw [if_pos hs] at h
      cases h; exact start
    · rw [if_neg hs] at h
      by_cases hl : (I < 0 ∧ V c1.su > vlim) ∨ (I > 0 ∧ V c1.su < vlim)
      · rw [if_pos hl] at h
        cases h; exact start
      · rw [if_neg hl] at h
        generalize (if decide (0 < ndt) = true then min 2 ndt.toNat else 2) = nMax at h
        generalize hv0 : (⟨dt, 0, 0, 1, V c1.su, V c1.su, true⟩ : CCVars) = v0 at h
        have ht0 : v0.ttot = 0 := by rw [← hv0]
        rcases hk : ccLoop I vlim tlim ndt nMax fuel v0 c1 th with ⟨o2, c2, th2⟩
        rw [hk] at h
        obtain ⟨k1, l, k2, k3⟩ := ccLoop_checked fuel hdiag (.inl (by rw [ht0]; exact ht)) hk
        have loop : ∃ l, RecordsBetween c c2 ((if 0 < ndt then [c.su] else []) ++ l) ∧ ∀ u ∈ l, AllGuarded d u :=
          ⟨l, records_trans hrec k2, fun u hu => guarded_of_success d u (k3 u hu)⟩
        match o2, k1, h with
        | .throw e, _, h => cases h; exact loop
        | .ub e, _, h => cases h; exact loop
        | .ok (.inl s2), _, h => cases h; exact loop
        | .ok (.inr (v, vtot)), k1, h =>
          dsimp only at h
          have last : ∃ l, RecordsBetween c (storeIf (decide (0 < ndt)) c2) ((if 0 < ndt then [c.su] else []) ++ l) ∧
              ∀ u ∈ l, AllGuarded d u := by
            by_cases hn : 0 < ndt
            · rw [decide_eq_true hn]
              refine ⟨l ++ [(storeIf true c2).su], ?_, ?_⟩
              · rw [← List.append_assoc]
                exact records_trans (records_trans hrec k2) (storeIf_records c2)
              · intro u hu
                rcases List.mem_append.mp hu with hu | hu
                · exact guarded_of_success d u (k3 u hu)
                · rw [List.mem_singleton.mp hu, storeIf_su]
                  exact guarded_of_success d _ (k1 ⟨_, rfl⟩)
            · rw [decide_eq_false hn]
              exact loop
          by_cases ha : v.ttot ≥ tlim
          · rw [if_pos ha] at h
            cases h; exact last
          · rw [if_neg ha] at h
            cases vtot with
            | false => cases h; exact loop
            | true => cases h; exact last

example : (weakCycler true (9/10) (2/5)).diagnostic = true ∧
    ((weakCycler true (9/10) (2/5)).CC 5 16 5 20 10 1 Thr.zero).1 = .ok .ReachedTimeLimit ∧
    ((weakCycler true (9/10) (2/5)).CC 5 16 5 20 10 1 Thr.zero).2.2.time = 20 := by
  refine ⟨rfl, ?_, ?_⟩ <;> decide +kernel

/-- C138, the checks are needed: without them the string is discharged for 24 minutes and the phase ends normally at its
time limit, with the weak cell - 2.92 V at the beginning - below its safety limit of 2 V. -/
theorem cc_unchecked_overdrives :
    AllGuarded 1 (weakString (9/10) (2/5)) ∧
    ((weakCycler false (9/10) (2/5)).CC 5 16 4 1440 720 0 Thr.zero).1 = .ok .ReachedTimeLimit ∧
    (cells 1 ((weakCycler false (9/10) (2/5)).CC 5 16 4 1440 720 0 Thr.zero).2.1.su).map
      (fun c => (V c, StorageUnit.I c)) = [(3118/1000, 16), (1968/1000, 16)] := by
  refine ⟨?_, ?_, ?_⟩
  · refine guarded_of_success 1 _ ?_
    decide +kernel
  · decide +kernel
  · decide +kernel

/-- C138, with the checks the same phase is stopped as soon as a step ends with the weak cell below its window, and says
so. -/
theorem cc_checked_stops :
    ((weakCycler true (9/10) (2/5)).CC 5 16 4 1440 720 0 Thr.zero).1 = .ok .Vmin_violation := by
  decide +kernel

end Slide

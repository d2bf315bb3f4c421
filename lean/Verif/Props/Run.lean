import Verif.Model.Run
import Verif.Spec.Run
import Verif.Tac
import Mathlib.Data.List.Count
import Mathlib.Data.List.Perm.Basic

/-!
C20: parallel execution runs every task exactly once.
-/

namespace Slide
open Spec Run

theorem taskPar_spec (n k : ℕ) (hk : 0 < k) (hn : n + k ≤ 2 ^ 31) (i : ℕ) :
    ∃ l, taskPar n k i = .ok l ∧ l.Nodup ∧ ∀ j, j ∈ l ↔ (i ≤ j ∧ j < n ∧ j % k = i % k) := by
  replace hn : n + k ≤ INT_MAX + 1 := by unfold INT_MAX; omega
  induction h : n - i using Nat.strong_induction_on generalizing i with
  | _ m ih =>
    unfold taskPar
    by_cases hi : i < n
    · rw [dif_pos hi, dif_neg (by omega), if_neg (by omega)]
      obtain ⟨l, h1, h2, h3⟩ := ih (n - (i + k)) (by omega) (i + k) rfl
      rw [h1]
      refine ⟨i :: l, rfl, ?_, ?_⟩
      · refine List.nodup_cons.mpr ⟨?_, h2⟩
        intro hc
        have := (h3 i).mp hc
        omega
      · intro j
        rw [List.mem_cons, h3 j]
        constructor
        · rintro (rfl | ⟨a, b, c⟩)
          · exact ⟨le_refl _, hi, rfl⟩
          · rw [Nat.add_mod_right] at c
            exact ⟨by omega, b, c⟩
        · rintro ⟨a, b, c⟩
          rcases Nat.lt_or_ge j (i + k) with hj | hj
          · left
            have e : j = i + (j - i) := by omega
            have hd : (j - i) % k = 0 := by
              have h1 : (j - i) % k = 0 := Nat.sub_mod_eq_zero_of_mod_eq c
              exact h1
            rw [Nat.mod_eq_of_lt (by omega)] at hd
            omega
          · right
            exact ⟨hj, b, by rw [Nat.add_mod_right]; exact c⟩
    · rw [dif_neg hi]
      refine ⟨[], rfl, List.nodup_nil, ?_⟩
      intro j
      constructor
      · intro hj; cases hj
      · rintro ⟨a, b, _⟩; omega

theorem threads_spec (n nth : ℕ) (hn : n + nth ≤ 2 ^ 31) (k : ℕ) (hk : k ≤ nth) :
    ∃ ts, threads n nth k = .ok ts ∧ ts.length = k ∧
      ∀ j, ts.flatten.count j = if j < n ∧ j % nth < k then 1 else 0 := by
  induction k with
  | zero => exact ⟨[], rfl, rfl, by simp⟩
  | succ k ih =>
    obtain ⟨ts, h1, h2, h3⟩ := ih (by omega)
    obtain ⟨l, g1, g2, g3⟩ := taskPar_spec n nth (by omega) hn k
    refine ⟨ts ++ [l], ?_, by simp [h2], ?_⟩
    · unfold threads
      rw [h1]
      simp only [Outcome.ok_bind]
      rw [g1]
      rfl
    · intro j
      rw [List.flatten_append, List.count_append, h3 j]
      simp only [List.flatten_cons, List.flatten_nil, List.append_nil]
      have hc : l.count j = if j ∈ l then 1 else 0 := by
        by_cases hm : j ∈ l
        · rw [if_pos hm, List.count_eq_one_of_mem g2 hm]
        · rw [if_neg hm, List.count_eq_zero_of_not_mem hm]
      rw [hc]
      have hkm : k % nth = k := Nat.mod_eq_of_lt (by omega)
      by_cases hj : j < n
      · rcases lt_trichotomy (j % nth) k with h | h | h
        · rw [if_pos ⟨hj, h⟩, if_neg, if_pos ⟨hj, by omega⟩]
          rw [g3]; rintro ⟨_, _, c⟩; omega
        · have hkj : k ≤ j := by rw [← h]; exact Nat.mod_le _ _
          rw [if_neg (by omega), if_pos ((g3 j).mpr ⟨hkj, hj, by omega⟩), if_pos ⟨hj, by omega⟩]
        · rw [if_neg (by omega), if_neg, if_neg (by omega)]
          rw [g3]; rintro ⟨_, _, c⟩; omega
      · rw [if_neg (by omega), if_neg, if_neg (by omega)]
        rw [g3]; omega

/-- C20 as stated: for every machine. -/
def RunsEveryTaskOnce : Prop :=
  ∀ n numMax hw : ℕ, n + hw ≤ 2 ^ 31 → 0 < n →
    ∃ ts, run n numMax hw = .ok ts ∧ ts.flatten.Perm (List.range n)

/-- C20 is false of the code on a machine on which `hardware_concurrency()` is not computable (the standard allows 0):
then nothing is run at all. -/
theorem run_unknown_hardware (n numMax : ℕ) (h : numMax ≠ 1) : run n numMax 0 = .ok [] := by
  unfold run
  rw [if_neg h]
  dsimp only
  rw [Nat.min_zero]
  rfl

theorem not_runsEveryTaskOnce : ¬ RunsEveryTaskOnce := by
  intro h
  obtain ⟨ts, h1, h2⟩ := h 3 32 0 (by decide) (by norm_num)
  rw [run_unknown_hardware 3 32 (by norm_num)] at h1
  cases h1
  simpa using h2.length_eq

/-- C20: on every machine with known concurrency (or with one worker requested), and every number of requested workers,
each index `0 .. n-1` is run exactly once, by at most `hw` threads. -/
theorem run_each_once_partial (n numMax hw : ℕ) (hn : n + hw ≤ 2 ^ 31) (hw0 : 0 < hw) :
    ∃ ts, run n numMax hw = .ok ts ∧ ts.flatten.Perm (List.range n) ∧ ts.length ≤ hw ∧
      (numMax ≠ 0 → ts.length ≤ numMax) := by
  unfold run
  have range_count : ∀ j, (List.range n).count j = if j < n then 1 else 0 := by
    intro j
    by_cases hj : j < n
    · rw [if_pos hj, List.count_eq_one_of_mem List.nodup_range (List.mem_range.mpr hj)]
    · rw [if_neg hj, List.count_eq_zero_of_not_mem (by simpa using hj)]
  by_cases h1 : numMax = 1
  · rw [if_pos h1]
    obtain ⟨l, g1, g2, g3⟩ := taskPar_spec n 1 (by omega) (by omega) 0
    rw [g1]
    refine ⟨[l], rfl, ?_, by simp; omega, by simp [h1]⟩
    rw [List.perm_iff_count]
    intro j
    rw [range_count]
    simp only [List.flatten_cons, List.flatten_nil, List.append_nil]
    by_cases hj : j < n
    · rw [if_pos hj, List.count_eq_one_of_mem g2 ((g3 j).mpr ⟨by omega, hj, by omega⟩)]
    · rw [if_neg hj, List.count_eq_zero_of_not_mem (fun hc => by have := (g3 j).mp hc; omega)]
  · rw [if_neg h1]
    dsimp only
    have hm : 0 < min (if numMax < 1 then hw else numMax) hw := by
      split_ifs <;> omega
    obtain ⟨ts, g1, g2, g3⟩ := threads_spec n (min (if numMax < 1 then hw else numMax) hw) (by omega) _ (le_refl _)
    refine ⟨ts, g1, ?_, ?_, ?_⟩
    · rw [List.perm_iff_count]
      intro j
      rw [range_count, g3 j]
      have := Nat.mod_lt j hm
      simp only [this, and_true]
    · rw [g2]; omega
    · intro h0
      rw [g2, if_neg (by omega)]
      omega

example : run 7 3 8 = .ok [[0, 3, 6], [1, 4], [2, 5]] := by decide +kernel

/-! #### Interleavings -/

section
variable {σ : Type}

/-- The data of task `j` after running steps depends only on the steps of task `j`. -/
theorem runSteps_proj (l : List (TStep σ)) (d : ℕ → σ) (j : ℕ) :
    runSteps l d j = ((l.filter (·.task = j)).map TStep.act).foldl (fun x f => f x) (d j) := by
  induction l generalizing d with
  | nil => rfl
  | cons s l ih =>
    show runSteps l (s.run d) j = _
    rw [ih]
    by_cases h : s.task = j
    · rw [List.filter_cons_of_pos (by simpa using h)]
      simp only [List.map_cons, List.foldl_cons]
      congr 1
      unfold TStep.run
      subst h
      rw [Function.update_self]
    · rw [List.filter_cons_of_neg (by simpa using h)]
      congr 1
      unfold TStep.run
      rw [Function.update_of_ne (fun hc => h hc.symm)]

theorem flatten_singleton {α : Type} {ts : List (List α)} (h : ∀ t ∈ ts, t = []) : ts.flatten = [] := by
  induction ts with
  | nil => rfl
  | cons t ts ih =>
    rw [List.flatten_cons, h t (List.mem_cons_self), ih (fun t ht => h t (List.mem_cons_of_mem _ ht))]
    rfl

/-- In every interleaving the steps of a task that belongs to only one thread occur in that thread's order. -/
theorem interleaving_filter {ts : List (List (TStep σ))} {l : List (TStep σ)} (h : Interleaving ts l) (j : ℕ)
    (h1 : ∀ a b, a < ts.length → b < ts.length → (∃ s ∈ (ts[a]?.getD []), s.task = j) →
      (∃ s ∈ (ts[b]?.getD []), s.task = j) → a = b) :
    l.filter (·.task = j) = (ts.flatten).filter (·.task = j) := by
  induction h with
  | done ts h => rw [flatten_singleton h]
  | step pre a t post l hl ih =>
    have ih' := ih (by
      intro x y hx hy ⟨s, hs, hsj⟩ ⟨s', hs', hsj'⟩
      have len : (pre ++ t :: post).length = (pre ++ (a :: t) :: post).length := by simp
      have sub : ∀ (z : ℕ), ∀ s ∈ ((pre ++ t :: post)[z]?.getD []), s ∈ ((pre ++ (a :: t) :: post)[z]?.getD []) := by
        intro z s hs
        rcases lt_trichotomy z pre.length with hz | hz | hz
        · rw [List.getElem?_append_left hz] at hs ⊢; exact hs
        · rw [List.getElem?_append_right (by omega)] at hs ⊢
          have : z - pre.length = 0 := by omega
          rw [this] at hs ⊢
          simp only [List.getElem?_cons_zero, Option.getD_some] at hs ⊢
          exact List.mem_cons_of_mem _ hs
        · rw [List.getElem?_append_right (by omega)] at hs ⊢
          obtain ⟨w, hw⟩ : ∃ w, z - pre.length = w + 1 := ⟨z - pre.length - 1, by omega⟩
          rw [hw] at hs ⊢
          simpa using hs
      exact h1 x y (by omega) (by omega) ⟨s, sub x s hs, hsj⟩ ⟨s', sub y s' hs', hsj'⟩)
    simp only [List.flatten_append, List.flatten_cons, List.filter_append] at ih' ⊢
    by_cases ha : a.task = j
    · rw [List.filter_cons_of_pos (by simpa using ha), ih', List.filter_cons_of_pos (by simpa using ha)]
      -- no earlier thread contains a step of task j
      have hpre : pre.flatten.filter (·.task = j) = [] := by
        rw [List.filter_eq_nil_iff]
        intro s hs hsj
        obtain ⟨u, hu, hsu⟩ := List.mem_flatten.mp hs
        obtain ⟨x, hx, hxu⟩ := List.mem_iff_getElem.mp hu
        have := h1 x pre.length (by simp; omega) (by simp) ⟨s, ?_, by simpa using hsj⟩ ⟨a, ?_, ha⟩
        · omega
        · rw [List.getElem?_append_left hx, List.getElem?_eq_getElem hx, hxu]; exact hsu
        · rw [List.getElem?_append_right (le_refl _)]; simp
      rw [hpre]
      simp
    · rw [List.filter_cons_of_neg (by simpa using ha), ih', List.filter_cons_of_neg (by simpa using ha)]

/-- C20, second half: tasks whose atomic steps only touch their own data give, in every interleaving of the threads
started by `run`, the result of the sequential loop over all tasks. -/
theorem run_deterministic (n numMax hw : ℕ) (hn : n + hw ≤ 2 ^ 31) (hw0 : 0 < hw) (body : ℕ → List (σ → σ))
    (d : ℕ → σ) :
    ∃ ts, run n numMax hw = .ok ts ∧
      ∀ l, Interleaving (ts.map fun t => (t.map (stepsOf body)).flatten) l →
        runSteps l d = runSteps (((List.range n).map (stepsOf body)).flatten) d := by
  obtain ⟨ts, h1, h2, -⟩ := run_each_once_partial n numMax hw hn hw0
  refine ⟨ts, h1, ?_⟩
  intro l hl
  funext j
  rw [runSteps_proj, runSteps_proj]
  have hnd : ts.flatten.Nodup := h2.nodup_iff.mpr List.nodup_range
  -- steps of task j inside a list of tasks
  have filt : ∀ is : List ℕ, is.Nodup →
      ((is.map (stepsOf body)).flatten).filter (·.task = j) = if j ∈ is then stepsOf body j else [] := by
    intro is
    induction is with
    | nil => intro _; simp
    | cons i is ih =>
      intro hnd
      rw [List.nodup_cons] at hnd
      rw [List.map_cons, List.flatten_cons, List.filter_append, ih hnd.2]
      by_cases hij : i = j
      · subst hij
        rw [if_neg hnd.1, if_pos (List.mem_cons_self), List.append_nil, List.filter_eq_self.mpr]
        intro s hs
        obtain ⟨f, _, rfl⟩ := List.mem_map.mp hs
        simp
      · have : (stepsOf body i).filter (·.task = j) = [] := by
          rw [List.filter_eq_nil_iff]
          intro s hs
          obtain ⟨f, _, rfl⟩ := List.mem_map.mp hs
          simpa using hij
        rw [this, List.nil_append]
        congr 1
        simp [List.mem_cons, Ne.symm hij]
  have mem_task : ∀ (a : ℕ) s, s ∈ ((ts.map fun t => (t.map (stepsOf body)).flatten)[a]?.getD []) →
      ∃ t, ts[a]? = some t ∧ s.task ∈ t := by
    intro a s hs
    rw [List.getElem?_map] at hs
    cases hta : ts[a]? with
    | none => rw [hta] at hs; simp at hs
    | some t =>
      rw [hta] at hs
      simp only [Option.map_some, Option.getD_some] at hs
      obtain ⟨u, hu, hsu⟩ := List.mem_flatten.mp hs
      obtain ⟨i, hi, rfl⟩ := List.mem_map.mp hu
      obtain ⟨f, _, rfl⟩ := List.mem_map.mp hsu
      exact ⟨t, rfl, hi⟩
  rw [interleaving_filter hl j]
  · -- compare the flattened programs
    have e : (ts.map fun t => (t.map (stepsOf body)).flatten).flatten = (ts.flatten.map (stepsOf body)).flatten := by
      clear h1 h2 hl hnd mem_task
      induction ts with
      | nil => rfl
      | cons t ts ih => simp only [List.map_cons, List.flatten_cons, List.map_append, List.flatten_append, ih]
    rw [e, filt _ hnd, filt _ List.nodup_range]
    have : j ∈ ts.flatten ↔ j ∈ List.range n := h2.mem_iff
    by_cases hj : j ∈ ts.flatten
    · rw [if_pos hj, if_pos (this.mp hj)]
    · rw [if_neg hj, if_neg (fun hc => hj (this.mpr hc))]
  · intro a b ha hb ⟨s, hs, hsj⟩ ⟨s', hs', hsj'⟩
    obtain ⟨t, ht, hst⟩ := mem_task a s hs
    obtain ⟨t', ht', hst'⟩ := mem_task b s' hs'
    rw [hsj] at hst
    rw [hsj'] at hst'
    by_contra hab
    -- j would occur twice
    have hpair := (List.nodup_flatten.mp hnd).2
    obtain ⟨ha', hta⟩ := List.getElem?_eq_some_iff.mp ht
    obtain ⟨hb', htb⟩ := List.getElem?_eq_some_iff.mp ht'
    rw [List.pairwise_iff_getElem] at hpair
    rcases Nat.lt_or_ge a b with h | h
    · have := hpair a b ha' hb' h
      rw [hta, htb] at this
      exact this hst hst'
    · have := hpair b a hb' ha' (by omega)
      rw [hta, htb] at this
      exact this hst' hst

/-- Non-vacuity: three tasks of two steps each on two threads really have a non-sequential interleaving. -/
example (f g : ℕ → ℕ → ℕ) : ∃ l : List (TStep ℕ),
    Interleaving (([[0, 2], [1]] : List (List ℕ)).map fun t => (t.map (stepsOf fun i => [f i, g i])).flatten) l ∧
      l.map TStep.task = [0, 1, 0, 2, 1, 2] := by
  refine ⟨[⟨0, f 0⟩, ⟨1, f 1⟩, ⟨0, g 0⟩, ⟨2, f 2⟩, ⟨1, g 1⟩, ⟨2, g 2⟩], ?_, rfl⟩
  refine Interleaving.step (α := TStep ℕ) [] _ [⟨0, g 0⟩, ⟨2, f 2⟩, ⟨2, g 2⟩] [[⟨1, f 1⟩, ⟨1, g 1⟩]] _ ?_
  refine Interleaving.step (α := TStep ℕ) [[⟨0, g 0⟩, ⟨2, f 2⟩, ⟨2, g 2⟩]] _ [⟨1, g 1⟩] [] _ ?_
  refine Interleaving.step (α := TStep ℕ) [] _ [⟨2, f 2⟩, ⟨2, g 2⟩] [[⟨1, g 1⟩]] _ ?_
  refine Interleaving.step (α := TStep ℕ) [] _ [⟨2, g 2⟩] [[⟨1, g 1⟩]] _ ?_
  refine Interleaving.step (α := TStep ℕ) [[⟨2, g 2⟩]] _ [] [] _ ?_
  refine Interleaving.step (α := TStep ℕ) [] _ [] [[]] _ ?_
  refine .done _ ?_
  simp

end
end Slide

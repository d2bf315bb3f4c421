import Verif.Spec.ModuleData
import Verif.Props.Cached

/-!
# C100 The recorded data of a module
-/

namespace Slide
open Spec CachedS

theorem fmt6_zero : fmt6 0 = 0 := by unfold fmt6; rw [if_pos rfl]

/-- A text without `States:` lines. -/
def NoStates (ts : List Tok) : Prop := Tok.states ∉ ts

theorem numbers_plain_append (a b : List Tok) (h : NoStates a) : numbers false (a ++ b) = numbers false a ++ numbers false b := by
  induction a with
  | nil => rfl
  | cons x a ih =>
    have ih := ih fun hm => h (List.mem_cons_of_mem _ hm)
    cases x with
    | num y => simp only [List.cons_append, numbers, ih]
    | comma => simp only [List.cons_append, numbers, ih]
    | nl => simp only [List.cons_append, numbers, ih]
    | states => exact absurd List.mem_cons_self h

theorem writeLoop_plain (N i : ℕ) (xs : List ℚ) : NoStates (writeLoop N i xs) := by
  induction xs generalizing i with
  | nil => simp [NoStates, writeLoop]
  | cons x xs ih =>
    have := ih (i + 1)
    unfold NoStates at *
    unfold writeLoop
    split_ifs <;> simpa using this

theorem writeLoop_nums (N i : ℕ) (xs : List ℚ) : numbers false (writeLoop N i xs) = xs.map fmt6 := by
  induction xs generalizing i with
  | nil => rfl
  | cons x xs ih =>
    unfold writeLoop
    split_ifs <;> simp [numbers, ih]

/-- **C100 (part that holds).** Every call to store data gives exactly one data point in the file or, until it is written,
in memory, in order, with the current, voltage and temperature of the module at that moment; the first three numbers
(charge, energy and time) are always 0. -/
theorem moduleTimeRecorded_partial (U : Type) [StorageUnit U] (u : U) (ops : List ModOp) :
    modNumbers (runMod { unit := u } ops) = ((snapshots u 0 ops).map fun x =>
      [0, 0, 0, StorageUnit.I x.1, StorageUnit.V x.1, StorageUnit.T x.1].map fmt6).flatten := by
  have key : ∀ (ops : List ModOp) (r : ModRec U) (t : ℚ), r.stAh = 0 → r.stWh = 0 → r.stTime = 0 → NoStates r.file →
      modNumbers (runMod r ops) = modNumbers r ++ ((snapshots r.unit t ops).map fun x =>
        [0, 0, 0, StorageUnit.I x.1, StorageUnit.V x.1, StorageUnit.T x.1].map fmt6).flatten := by
    intro ops
    induction ops with
    | nil => intro r t _ _ _ _; simp [runMod, snapshots]
    | cons o ops ih =>
      intro r t h1 h2 h3 h4
      show modNumbers (runMod (o.run r) ops) = _
      cases o with
      | current i b => exact ih _ t h1 h2 h3 h4
      | step dt n => exact ih (ModOp.run r (.step dt n)) _ h1 h2 h3 h4
      | store =>
        rw [ih (ModOp.run r .store) t h1 h2 h3 h4]
        show modNumbers r.store ++ _ = modNumbers r ++ (((r.unit, t) :: snapshots r.unit t ops).map _).flatten
        unfold modNumbers ModRec.store
        dsimp only
        rw [h1, h2, h3]
        simp only [List.map_append, List.map_cons, List.flatten_cons, List.append_assoc]
        rfl
      | write b =>
        cases b
        · exact ih r t h1 h2 h3 h4
        · have hp : NoStates (r.file ++ writeLoop 6 0 r.data) := by
            have := writeLoop_plain 6 0 r.data
            unfold NoStates at *
            simp [h4, this]
          rw [ih (ModOp.run r (.write true)) t h1 h2 h3 hp]
          congr 1
          show numbers false (r.file ++ writeLoop 6 0 r.data) ++ [].map fmt6 = numbers false r.file ++ r.data.map fmt6
          rw [numbers_plain_append _ _ h4, writeLoop_nums]
          simp
  rw [key ops { unit := u } 0 rfl rfl rfl (by simp [NoStates])]
  rfl

theorem notGlued_sep (s : Tok) (hs : ∀ x, s ≠ .num x) (ts : List Tok) : NotGlued (s :: ts) ↔ NotGlued ts := by
  cases s with
  | num x => exact absurd rfl (hs x)
  | comma => rfl
  | nl => rfl
  | states => rfl

theorem writeLoop_notGlued (N : ℕ) (xs : List ℚ) :
    ∀ i, NotGlued (writeLoop N i xs) ∧ (0 < i → ∀ y, NotGlued (Tok.num y :: writeLoop N i xs)) := by
  induction xs with
  | nil => intro i; exact ⟨trivial, fun _ _ => trivial⟩
  | cons x xs ih =>
    intro i
    have h := (ih (i + 1)).2 (by omega) (fmt6 x)
    unfold writeLoop
    by_cases h1 : i % N = 0
    · by_cases h2 : i = 0
      · subst h2
        rw [if_pos h1, if_neg (by simp)]
        exact ⟨h, fun h0 => absurd h0 (lt_irrefl _)⟩
      · rw [if_pos h1, if_pos h2]
        exact ⟨h, fun _ y => h⟩
    · rw [if_neg h1]
      exact ⟨h, fun _ y => h⟩

/-- **C100 (part that holds).** A file written once can be read back. -/
theorem moduleFileReadable_partial (U : Type) [StorageUnit U] (r : ModRec U) (h : r.file = []) :
    ∃ r', r.write true = (.ok (), r') ∧ NotGlued r'.file ∧ r'.data = [] := by
  refine ⟨_, rfl, ?_, rfl⟩
  show NotGlued (r.file ++ writeLoop 6 0 r.data)
  rw [h]
  exact (writeLoop_notGlued 6 r.data 0).1

/-- C100: if the file cannot be opened the call throws 11, and the data are kept for the next attempt. -/
theorem moduleFile_refused (U : Type) [StorageUnit U] (r : ModRec U) : r.write false = (.throw 11, r) := rfl

private def decNotGlued : (ts : List Tok) → Decidable (NotGlued ts)
  | [] => .isTrue trivial
  | [.num _] => .isTrue trivial
  | .num _ :: .num _ :: _ => .isFalse id
  | .num _ :: .comma :: ts => decNotGlued (.comma :: ts)
  | .num _ :: .nl :: ts => decNotGlued (.nl :: ts)
  | .num _ :: .states :: ts => decNotGlued (.states :: ts)
  | .comma :: ts => decNotGlued ts
  | .nl :: ts => decNotGlued ts
  | .states :: ts => decNotGlued ts

private instance (ts : List Tok) : Decidable (NotGlued ts) := decNotGlued ts

private def ops100 : List ModOp := [.current 1 true, .step 1 60, .store, .write true, .step 1 60, .store, .write true]

/-- A string of two cells, two minutes, two data points. -/
example : (snapshots pair 0 ops100).map (fun x => (StorageUnit.I x.1, x.2)) = [(1, 60), (1, 120)] := by decide +kernel

/-- **C100 is false of the code**: the time column stays 0. -/
theorem not_moduleTimeRecorded : ¬ ModuleTimeRecorded := by
  intro h
  obtain ⟨rows, hl, e⟩ := h (ModuleS (ECM 1)) pair [.step 1 60, .store]
  have hs : snapshots pair 0 [.step 1 60, .store] = [((StorageUnit.timeStep pair 1 60).2, 60)] := by
    have h1 : (StorageUnit.timeStep pair 1 60).1 = .ok () := by decide +kernel
    simp only [snapshots, h1]
    norm_num
  rw [hs] at hl e
  obtain ⟨x, rfl⟩ := List.length_eq_one_iff.mp hl
  have e1 := congrArg (fun l : List ℚ => l[2]?) e
  have e2 : (modNumbers (runMod { unit := pair } [.step 1 60, .store]))[2]? = some 0 := by decide +kernel
  rw [e2] at e1
  have e3 : fmt6 60 = 60 := by decide +kernel
  simp [e3] at e1

/-- **C100 is false of the code**: the second export continues the last row of the first, gluing two numbers. -/
theorem not_moduleFileReadable : ¬ ModuleFileReadable := by
  intro h
  exact absurd (h (ModuleS (ECM 1)) pair ops100) (by decide +kernel)

end Slide

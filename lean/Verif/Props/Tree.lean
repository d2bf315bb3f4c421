import Verif.Lemmas.States
import Verif.Spec.Tree
import Verif.Props.Series

/-!
Properties of whole trees of modules and cells, for every depth: C05/C06 (states), C12/C13 (time steps), C16
(worst status), C44 (extreme voltages).
-/

namespace Slide
open StorageUnit Spec

variable {n : ℕ}

/-! ### C06 -/

theorem same_of_sameStructure (d : ℕ) (a b : Tree (ECM n) d) (h : SameStructure d a b) : Same a b := by
  induction d with
  | zero => exact h
  | succ d ih =>
    cases a <;> cases b <;> first
      | exact h.elim
      | exact h
      | exact List.Forall₂.imp (fun _ _ h => ⟨h.1, ih _ _ h.2⟩) h

theorem sameStructure_of_same (d : ℕ) (a b : Tree (ECM n) d) (h : Same a b) : SameStructure d a b := by
  induction d with
  | zero => exact h
  | succ d ih =>
    cases a <;> cases b <;> first
      | exact h.elim
      | exact h
      | exact List.Forall₂.imp (fun _ _ h => ⟨h.1, ih _ _ h.2⟩) h

theorem valid_of_validStates (d : ℕ) (a : Tree (ECM n) d) (h : ValidStates d a) : Valid a := by
  induction d with
  | zero => exact h
  | succ d ih =>
    cases a with
    | cell c => exact h
    | series m => exact ⟨h.1, fun k hk => ih _ (h.2 k hk)⟩
    | parallel m => exact ⟨h.1, fun k hk => ih _ (h.2 k hk)⟩

/-- C06: for any tree of modules and cells: writing back the saved states of `u` into any tree `w` of the same
structure succeeds, consumes exactly the saved entries and makes `w` equal to `u` – every state of every cell and
module. -/
theorem tree_states_roundtrip (d : ℕ) (u w : Tree (ECM n) d) (rest : List ℚ) (hs : SameStructure d u w)
    (hv : ValidStates d u) :
    StorageUnit.setStates w (StorageUnit.getStates u ++ rest) false = (.ok (.Success, rest), u) :=
  LawfulStates.roundtrip u w rest (same_of_sameStructure d u w hs) (valid_of_validStates d u hv)

/-- C06: every call of the interface – accepted, rejected, throwing or undefined – keeps the structure. -/
theorem tree_calls_keep_structure (d : ℕ) (u : Tree (ECM n) d) (calls : List Call) :
    SameStructure d u (calls.foldl call u) := by
  apply sameStructure_of_same
  induction calls using List.reverseRecOn with
  | nil => exact LawfulStates.refl _
  | append_singleton cs c ih =>
    rw [List.foldl_append, List.foldl_cons, List.foldl_nil]
    refine LawfulStates.trans ih ?_
    cases c with
    | setCurrent i b => exact LawfulStates.setCurrent_same _ i b
    | timeStep dt n => exact LawfulStates.timeStep_same _ dt n
    | setStates s b => exact LawfulStates.setStates_same _ s b

/-- C06: saving, doing anything, and restoring gives back exactly the original unit. -/
theorem tree_save_restore (d : ℕ) (u : Tree (ECM n) d) (calls : List Call) (hv : ValidStates d u) :
    StorageUnit.setStates (calls.foldl call u) (StorageUnit.getStates u) false = (.ok (.Success, []), u) := by
  have h := tree_states_roundtrip d u (calls.foldl call u) [] (tree_calls_keep_structure d u calls) hv
  rwa [List.append_nil] at h

/-- A battery pack: two strings in parallel. -/
def examplePack : Tree (ECM 1) 2 :=
  Node.parallel { T := 290, kids := [
    ⟨1/1000, Node.series { T := 289, kids := [⟨1/1000, exampleCell⟩, ⟨2/1000, exampleCell⟩] }⟩,
    ⟨0, Node.series { T := 288, kids := [⟨0, exampleCell⟩, ⟨0, exampleCell⟩] }⟩] }

/-- The hypothesis holds for a two-level pack. -/
example : ValidStates 2 examplePack := by
  have h : ValidStates 0 exampleCell := by
    show (0:ℚ) ≤ 1/2 ∧ (1/2:ℚ) ≤ 1 ∧ (273:ℚ) ≤ 288 ∧ (288:ℚ) ≤ 333
    norm_num
  have h1 : ∀ (T a b : ℚ), 273 ≤ T → ValidStates 1 (Node.series { T := T, kids := [⟨a, exampleCell⟩, ⟨b, exampleCell⟩] }) := by
    intro T a b hT
    exact ⟨hT, List.forall_mem_cons.mpr ⟨h, List.forall_mem_singleton.mpr h⟩⟩
  exact ⟨by norm_num, List.forall_mem_cons.mpr ⟨h1 _ _ _ (by norm_num),
    List.forall_mem_singleton.mpr (h1 _ _ _ (by norm_num))⟩⟩

/-! ### C05 -/

/-- Full statement of C05 for a module of cells: a rejected state vector changes nothing. -/
def ModuleSetStatesAtomic (n : ℕ) : Prop :=
  ∀ (m : ModuleS (ECM n)) (s rest : List ℚ) (check : Bool) (st : Status),
    ValidStates 1 (Node.series m) → (m.setStates s check).1 = .ok (st, rest) → st.isBad = true →
    (m.setStates s check).2 = m

/-- Writing the states of `c` to a cell `d` with other parameters. -/
theorem ecm_setStates_valid (c d : ECM n) (rest : List ℚ) (hv : c.validStates = true) :
    d.setStates (c.getStates ++ rest) false = (.ok (.Success, rest), { d with st := c.st }) := by
  have h := ecm_states_roundtrip { d with st := c.st } d rest rfl (by
    rw [ecm_validStates_iff] at hv ⊢; exact hv)
  exact h

theorem ecm_setStates_invalid (c d : ECM n) (rest : List ℚ) (b : Bool) (hv : c.validStates = false) :
    d.setStates (c.getStates ++ rest) b = (.ok (.Invalid_states, rest), d) := by
  unfold ECM.setStates
  rw [ECM.decode_getStates]
  have hd : (c.getStates ++ rest).drop (6 + n) = rest := by
    rw [← ECM.getStates_length c]; simp
  have hc : ECM.validStates { d with st := c.st } = false := by
    rw [Bool.eq_false_iff, Ne, ecm_validStates_iff] at hv ⊢; exact hv
  simp [hd, hc, Status.isBad, Status.isOK, Status.code, Status.Critical]

theorem badString_valid : ValidStates 1 (Node.series badString : Tree (ECM 0) 1) := by
  have h : ∀ x : ℚ, 0 ≤ x → x ≤ 1 → ValidStates 0 (bucket x 0 : Tree (ECM 0) 0) := by
    intro x h0 h1
    exact ⟨h0, h1, by show (273:ℚ) ≤ 288; norm_num, by show (288:ℚ) ≤ 333; norm_num⟩
  exact ⟨by norm_num [badString], List.forall_mem_cons.mpr ⟨h _ (by norm_num [half]) (by norm_num [half]),
    List.forall_mem_singleton.mpr (h _ (by norm_num) (by norm_num))⟩⟩

/-- C05 is false of the code: the roll-back loop writes to `SUs[i]` instead of `SUs[j]`, so children before the
failing one keep the new states.  Witness: a two-cell string, new SOCs 30 % and 200 %: the vector is rejected
but the first cell now has 30 %. -/
theorem module_setStates_not_atomic : ¬ ModuleSetStatesAtomic 0 := by
  intro h
  have hh : half = 1/2 := rfl
  have e1 : StorageUnit.setStates (bucket half 0)
      ((bucket (3/10) 0).getStates ++ ((bucket 2 0).getStates ++ [288])) false =
      (.ok (.Success, (bucket 2 0).getStates ++ [288]), bucket (3/10) 0) :=
    ecm_setStates_valid _ _ _ (by rw [ecm_validStates_iff]; norm_num [bucket])
  have e2 : StorageUnit.setStates (bucket 0 0) ((bucket 2 0).getStates ++ [288]) false =
      (.ok (.Invalid_states, [288]), bucket 0 0) :=
    ecm_setStates_invalid _ _ _ _ (by rw [Bool.eq_false_iff, Ne, ecm_validStates_iff]; norm_num [bucket])
  have e3 : StorageUnit.setStates (bucket 0 0)
      ((bucket half 0).getStates ++ ((bucket 0 0).getStates ++ [288])) false =
      (.ok (.Success, (bucket 0 0).getStates ++ [288]), bucket half 0) :=
    ecm_setStates_valid _ _ _ (by rw [ecm_validStates_iff]; norm_num [bucket, half])
  have e4 : StorageUnit.setStates (bucket half 0) ((bucket 0 0).getStates ++ [288]) false =
      (.ok (.Success, [288]), bucket 0 0) :=
    ecm_setStates_valid _ _ _ (by rw [ecm_validStates_iff]; norm_num [bucket])
  have b1 : Status.Invalid_states.isBad = true := by decide
  have horig : modGetStates badString.T badString.kids =
      (bucket half 0).getStates ++ ((bucket 0 0).getStates ++ [288]) := by
    simp only [modGetStates, badString, List.map_cons, List.map_nil, List.flatten_cons, List.flatten_nil,
      List.append_nil, List.append_assoc]
    rfl
  have hr : badString.setStates ((bucket (3/10) 0).getStates ++ ((bucket 2 0).getStates ++ [288])) false =
      (.ok (.Invalid_states, [288]),
        { T := 288, kids := [⟨0, bucket (3/10) 0⟩, ⟨0, bucket 0 0⟩] }) := by
    unfold ModuleS.setStates modSetStates
    rw [horig]
    simp only [badString]
    unfold setStatesLoop
    rw [e1]
    simp only [isBad_success, Bool.false_eq_true, if_false]
    unfold setStatesLoop
    rw [e2]
    simp only [b1, if_true]
    unfold rollback
    rw [e3]
    dsimp only
    unfold rollback
    rw [e4]
    dsimp only
    unfold rollback
    rfl
  have hv : ValidStates 1 (Node.series badString) := badString_valid
  have := h badString _ [288] false .Invalid_states hv (by rw [hr]) b1
  rw [hr] at this
  have h1 := congrArg (fun m : ModuleS (ECM 0) => m.kids.map fun k => k.su.st.SOC) this
  simp [badString, bucket, half] at h1
  norm_num at h1

theorem rollback_ecm (l : List (Kid (ECM n))) (k : Kid (ECM n)) (su : ECM n) (rest : List ℚ)
    (hl : ∀ j ∈ l, j.su.validStates = true) (hk : k.su.validStates = true) :
    rollback su (((l ++ [k]).map fun k => StorageUnit.getStates k.su).flatten ++ rest) (l.length + 1) =
      (.ok (), { su with st := k.su.st }) := by
  induction l generalizing su with
  | nil =>
    have h := ecm_setStates_valid k.su su rest hk
    simp only [List.nil_append, List.map_cons, List.map_nil, List.flatten_cons, List.flatten_nil,
      List.append_nil, List.length_nil]
    unfold rollback
    have h' : StorageUnit.setStates su (StorageUnit.getStates k.su ++ rest) false = _ := h
    rw [h']
    rfl
  | cons j l ih =>
    have h := ecm_setStates_valid j.su su
      (((l ++ [k]).map fun k => StorageUnit.getStates k.su).flatten ++ rest) (hl j (by simp))
    simp only [List.cons_append, List.map_cons, List.flatten_cons, List.append_assoc, List.length_cons]
    unfold rollback
    have h' : StorageUnit.setStates su (StorageUnit.getStates j.su ++
      (((l ++ [k]).map fun k => StorageUnit.getStates k.su).flatten ++ rest)) false = _ := h
    rw [h']
    dsimp only
    rw [ih _ (fun j hj => hl j (by simp [hj]))]

theorem setStatesLoop_rejected (T : ℚ) (check : Bool) (pre ks : List (Kid (ECM n))) (s rest : List ℚ) (st : Status)
    (hv : ∀ k ∈ pre ++ ks, k.su.validStates = true)
    (h : (setStatesLoop (modGetStates T (pre ++ ks)) check pre.length ks s).1 = .ok (st, true, rest)) :
    st.isBad = true ∧ ∃ acc : List (Kid (ECM n)), acc.length < ks.length ∧
      (setStatesLoop (modGetStates T (pre ++ ks)) check pre.length ks s).2 = acc ++ ks.drop acc.length ∧
      (acc.map fun k => k.su.getStates).flatten = s.take (acc.length * (6 + n)) := by
  induction ks generalizing pre s with
  | nil => simp [setStatesLoop] at h
  | cons k ks ih =>
    by_cases hlen : 6 + n ≤ s.length
    · obtain ⟨st1, h1, h2⟩ := ecm_setStates_atomic k.su s check hlen
      have hp : StorageUnit.setStates k.su s check = (.ok (st1, s.drop (6 + n)), (k.su.setStates s check).2) := by
        show k.su.setStates s check = _
        rw [← h1]
      unfold setStatesLoop at h ⊢
      rw [hp] at h ⊢
      dsimp only at h ⊢
      rcases h2 with ⟨hb, hu⟩ | ⟨hb, hpar, hst⟩
      · rw [hb] at h ⊢
        simp only [if_true] at h ⊢
        have hg : modGetStates T (pre ++ k :: ks) =
            ((pre ++ [k]).map fun k => StorageUnit.getStates k.su).flatten ++
              ((ks.map fun k => StorageUnit.getStates k.su).flatten ++ [T]) := by
          simp [modGetStates]
        have hrb := rollback_ecm pre k (k.su.setStates s check).2
          ((ks.map fun k => StorageUnit.getStates k.su).flatten ++ [T])
          (fun j hj => hv j (by simp [hj])) (hv k (by simp))
        rw [hg, hrb] at h ⊢
        simp only [Outcome.ok.injEq, Prod.mk.injEq] at h
        refine ⟨h.1 ▸ hb, [], by simp, ?_, by simp⟩
        rw [hu]
        rfl
      · rw [hb] at h ⊢
        simp only [Bool.false_eq_true, if_false] at h ⊢
        have hpre : pre ++ k :: ks = (pre ++ [k]) ++ ks := by simp
        have hl : pre.length + 1 = (pre ++ [k]).length := by simp
        rw [hpre, hl] at h ⊢
        obtain ⟨hbad, acc, a1, a2, a3⟩ := ih (pre ++ [k]) (s.drop (6 + n)) (by rw [← hpre]; exact hv) h
        refine ⟨hbad, { k with su := (k.su.setStates s check).2 } :: acc, by simp; omega, ?_, ?_⟩
        · rw [a2]; simp
        · simp only [List.map_cons, List.flatten_cons, List.length_cons]
          rw [hst, a3, ← List.take_add]
          congr 1; ring
    · exfalso
      have hub := ecm_setStates_short_ub k.su s check (by omega)
      have hp : StorageUnit.setStates k.su s check = (.ub "state span too short", (k.su.setStates s check).2) := by
        show k.su.setStates s check = _
        rw [← hub]
      unfold setStatesLoop at h
      rw [hp] at h
      simp at h

/-- C05, what does hold, as an exact description for a string of cells with valid states: when the vector is rejected,
the temperature and all children from the rejecting one on are as before; the children before it (if any) carry the
corresponding slices of the new vector. -/
theorem module_setStates_rejected_partial (m : ModuleS (ECM n)) (s rest : List ℚ) (check : Bool) (st : Status)
    (hv : ValidStates 1 (Node.series m)) (h : (m.setStates s check).1 = .ok (st, rest)) (hb : st.isBad = true) :
    (m.setStates s check).2.T = m.T ∧
    ∃ acc : List (Kid (ECM n)), acc.length < m.kids.length ∧
      (m.setStates s check).2.kids = acc ++ m.kids.drop acc.length ∧
      (acc.map fun k => k.su.getStates).flatten = s.take (acc.length * (6 + n)) := by
  have hloop := setStatesLoop_rejected m.T check [] m.kids s rest st (by
    intro k hk
    rw [ecm_validStates_iff]
    exact hv.2 k hk)
  simp only [List.nil_append, List.length_nil] at hloop
  unfold ModuleS.setStates modSetStates at h ⊢
  dsimp only at h ⊢
  generalize hr : setStatesLoop (modGetStates m.T m.kids) check 0 m.kids s = r at *
  obtain ⟨o, ks'⟩ := r
  cases o with
  | throw c => simp at h
  | ub c => simp at h
  | ok a =>
    obtain ⟨st', b, s'⟩ := a
    cases b
    · exfalso
      cases s' with
      | nil => simp at h
      | cons t s' =>
        dsimp only at h
        split_ifs at h
        simp only [Outcome.ok.injEq, Prod.mk.injEq] at h
        rw [← h.1] at hb
        exact absurd hb (by decide)
    · simp only [Outcome.ok.injEq, Prod.mk.injEq] at h
      obtain ⟨rfl, rfl⟩ := h
      obtain ⟨_, acc, a1, a2, a3⟩ := hloop rfl
      exact ⟨rfl, acc, a1, a2, a3⟩

example : ValidStates 1 (Node.series badString : Tree (ECM 0) 1) := badString_valid

/-! ### C12, C13 -/

/-- C13: a negative time step on any tree throws 10 and changes nothing. -/
theorem tree_timeStep_negative (d : ℕ) (t : Tree (ECM n) d) (dt : ℚ) (k : ℕ) (h : dt < 0) :
    StorageUnit.timeStep t dt k = (.throw 10, t) := by
  cases d with
  | zero => exact ecm_timeStep_negative t dt k h
  | succ d =>
    cases t with
    | cell c =>
      have := ecm_timeStep_negative c dt k h
      show (((ECM.timeStep c dt k).1, Node.cell (ECM.timeStep c dt k).2) : _ × Node (ECM n) (Tree (ECM n) d)) = _
      rw [this]
      rfl
    | series m =>
      show (((ModuleS.timeStep m dt k).1, Node.series (ModuleS.timeStep m dt k).2) : _ × Node (ECM n) _) = _
      simp [ModuleS.timeStep, h]
      rfl
    | parallel m =>
      show (((ModuleP.timeStep m dt k).1, Node.parallel (ModuleP.timeStep m dt k).2) : _ × Node (ECM n) _) = _
      simp [ModuleP.timeStep, h]
      rfl

theorem stepKids_of_ok {U : Type} [StorageUnit U] (dt : ℚ) (k : ℕ) (ks : List (Kid U))
    (h : ∀ j ∈ ks, (StorageUnit.timeStep j.su dt k).1 = .ok ()) :
    stepKids dt k ks = (.ok (), ks.map fun j => { j with su := (StorageUnit.timeStep j.su dt k).2 }) := by
  induction ks with
  | nil => rfl
  | cons j ks ih =>
    unfold stepKids
    have hp : StorageUnit.timeStep j.su dt k = (.ok (), (StorageUnit.timeStep j.su dt k).2) := by
      rw [← h j (by simp)]
    rw [hp, ih (fun j hj => h j (by simp [hj]))]
    simp

/-- C12 for any kind of cells that obeys it. -/
theorem lawful_tree_batch {C : Type} [StorageUnit C] [LawfulStep C] (d : ℕ) (t : Tree C d) (hp : NoParallel d t) (dt : ℚ) (a b : ℕ) (h : 0 ≤ dt) :
    (StorageUnit.timeStep t dt a).1 = .ok () ∧ NoParallel d (StorageUnit.timeStep t dt a).2 ∧
    (StorageUnit.timeStep t dt (a + b)).2 = (StorageUnit.timeStep (StorageUnit.timeStep t dt a).2 dt b).2 := by
  induction d generalizing a b with
  | zero =>
    exact ⟨LawfulStep.returns (U := C) t dt a h, trivial, LawfulStep.batch (U := C) t dt a b h⟩
  | succ d ih =>
    cases t with
    | cell c =>
      refine ⟨LawfulStep.returns (U := C) c dt a h, trivial, ?_⟩
      exact congrArg Node.cell (LawfulStep.batch (U := C) c dt a b h)
    | parallel m => exact hp.elim
    | series m =>
      have hk : ∀ q, stepKids dt q m.kids =
          (.ok (), m.kids.map fun j => { j with su := (StorageUnit.timeStep j.su dt q).2 }) := fun q =>
        stepKids_of_ok dt q m.kids fun j hj => (ih j.su (hp j hj) q 0).1
      have hm : ∀ q, ModuleS.timeStep m dt q =
          (.ok (), { m with kids := m.kids.map fun j => { j with su := (StorageUnit.timeStep j.su dt q).2 } }) := by
        intro q
        rw [ModuleS.timeStep, if_neg (not_lt.mpr h), hk q]
      have hn : NoParallel (d+1) (Node.series (ModuleS.timeStep m dt a).2 : Tree C (d+1)) := by
        rw [hm a]
        intro j hj
        simp only [List.mem_map] at hj
        obtain ⟨i, hi, rfl⟩ := hj
        exact (ih i.su (hp i hi) a 0).2.1
      refine ⟨?_, hn, ?_⟩
      · show (ModuleS.timeStep m dt a).1 = _
        rw [hm a]
      · show (Node.series (ModuleS.timeStep m dt (a+b)).2 : Node C (Tree C d)) =
          Node.series (ModuleS.timeStep (ModuleS.timeStep m dt a).2 dt b).2
        congr 1
        rw [hm (a+b)]
        have hn' := hn
        rw [hm a] at hn' ⊢
        rw [ModuleS.timeStep, if_neg (not_lt.mpr h), stepKids_of_ok dt b _ (fun j hj => (ih j.su (hn' j hj) b 0).1)]
        simp only [List.map_map]
        congr 1
        apply List.map_congr_left
        intro j hj
        simp only [Function.comp]
        rw [(ih j.su (hp j hj) a b).2.2]

/-- C12: on any tree without parallel modules, of any depth, a batch of `a + b` steps returns normally and gives
exactly the same tree as `a` steps followed by `b` steps. -/
theorem tree_timeStep_batch (d : ℕ) (t : Tree (ECM n) d) (hp : NoParallel d t) (dt : ℚ) (a b : ℕ) (h : 0 ≤ dt) :
    (StorageUnit.timeStep t dt a).1 = .ok () ∧ NoParallel d (StorageUnit.timeStep t dt a).2 ∧
    (StorageUnit.timeStep t dt (a + b)).2 = (StorageUnit.timeStep (StorageUnit.timeStep t dt a).2 dt b).2 :=
  lawful_tree_batch d t hp dt a b h

example : NoParallel 2 (Node.series { T := 289, kids := [
    ⟨0, Node.series { T := 289, kids := [⟨0, exampleCell⟩, ⟨0, exampleCell⟩] }⟩,
    ⟨0, Node.cell exampleCell⟩] } : Tree (ECM 1) 2) := by
  simp [NoParallel]

/-! ### C16 -/

section worst
variable {C : Type} [StorageUnit C]

theorem modCheckVoltage_spec {U : Type} [StorageUnit U] (ks : List (Kid U)) :
    (modCheckVoltage ks = .Success ∨ ∃ k ∈ ks, StorageUnit.checkVoltage k.su = modCheckVoltage ks) ∧
    0 ≤ (modCheckVoltage ks).code ∧
    (∀ k ∈ ks, (StorageUnit.checkVoltage k.su).code ≤ (modCheckVoltage ks).code) := by
  have h := status_worst_fold_ok (ks.map fun k => StorageUnit.checkVoltage k.su) .Success
  rw [List.foldl_map] at h
  obtain ⟨_, h2, h3, h4⟩ := h
  refine ⟨?_, h3, ?_⟩
  · rcases h2 with h2 | h2
    · exact Or.inl h2
    · right
      obtain ⟨k, hk, he⟩ := List.mem_map.mp h2
      exact ⟨k, hk, he⟩
  · intro k hk
    exact h4 _ (List.mem_map_of_mem hk)

/-- C16: for any tree, the reported status is at least as severe as that of every cell, and it is the status of one
of the cells (or `Success`). -/
theorem tree_status_worst (d : ℕ) (t : Tree C d) :
    (∀ c ∈ cells d t, (StorageUnit.checkVoltage c).code ≤ (StorageUnit.checkVoltage t).code) ∧
    (StorageUnit.checkVoltage t = .Success ∨
      ∃ c ∈ cells d t, StorageUnit.checkVoltage c = StorageUnit.checkVoltage t) := by
  have key : ∀ (d : ℕ) (ks : List (Kid (Tree C d))),
      (∀ t : Tree C d, (∀ c ∈ cells d t, (StorageUnit.checkVoltage c).code ≤ (StorageUnit.checkVoltage t).code) ∧
        (StorageUnit.checkVoltage t = .Success ∨
          ∃ c ∈ cells d t, StorageUnit.checkVoltage c = StorageUnit.checkVoltage t)) →
      (∀ c ∈ ks.flatMap (fun k => cells d k.su), (StorageUnit.checkVoltage c).code ≤ (modCheckVoltage ks).code) ∧
      (modCheckVoltage ks = .Success ∨
        ∃ c ∈ ks.flatMap (fun k => cells d k.su), StorageUnit.checkVoltage c = modCheckVoltage ks) := by
    intro d ks ih
    obtain ⟨h1, h2, h3⟩ := modCheckVoltage_spec ks
    refine ⟨?_, ?_⟩
    · intro c hc
      obtain ⟨k, hk, hc⟩ := List.mem_flatMap.mp hc
      exact le_trans ((ih k.su).1 c hc) (h3 k hk)
    · rcases h1 with h1 | ⟨k, hk, he⟩
      · exact Or.inl h1
      · rcases (ih k.su).2 with h | ⟨c, hc, h⟩
        · left; rw [← he, h]
        · right; exact ⟨c, List.mem_flatMap.mpr ⟨k, hk, hc⟩, h.trans he⟩
  induction d with
  | zero => exact ⟨by intro c hc; rw [List.mem_singleton.mp hc]; exact le_refl _, Or.inr ⟨t, List.mem_singleton_self (α := C) t, rfl⟩⟩
  | succ d ih =>
    cases t with
    | cell c => exact ⟨by intro c' hc; rw [List.mem_singleton.mp hc]; exact le_refl _, Or.inr ⟨c, by simp [cells], rfl⟩⟩
    | series m => exact key d m.kids ih
    | parallel m => exact key d m.kids ih

/-- C16: a tree is acceptable exactly when every cell is. -/
theorem tree_status_ok_iff (d : ℕ) (t : Tree C d) :
    (StorageUnit.checkVoltage t).isOK = true ↔ ∀ c ∈ cells d t, (StorageUnit.checkVoltage c).isOK = true := by
  have h1 : ∀ s : Status, s.isOK = true ↔ s.code < 3 := by intro s; cases s <;> decide
  obtain ⟨h2, h3⟩ := tree_status_worst d t
  constructor
  · intro h c hc
    rw [h1] at h ⊢
    have := h2 c hc
    omega
  · intro h
    rcases h3 with h3 | ⟨c, hc, h3⟩
    · rw [h3]; decide
    · rw [← h3]; exact h c hc

/-- C16: for trees of ECM cells with at least one cell the reported status *is* the status of one of its cells. -/
theorem tree_status_attained (d : ℕ) (t : Tree (ECM n) d) (hne : cells d t ≠ []) :
    ∃ c ∈ cells d t, StorageUnit.checkVoltage c = StorageUnit.checkVoltage t := by
  obtain ⟨h2, h3⟩ := tree_status_worst d t
  rcases h3 with h3 | h3
  · obtain ⟨c, l, hl⟩ := List.exists_cons_of_ne_nil hne
    have hc : c ∈ cells d t := by rw [hl]; simp
    refine ⟨c, hc, ?_⟩
    have h4 := h2 c hc
    rw [h3] at h4 ⊢
    have h5 : 0 ≤ (StorageUnit.checkVoltage c).code := by
      show 0 ≤ (ECM.checkV c).code
      unfold ECM.checkV checkVoltage
      dsimp only
      split_ifs <;> decide
    have h6 : (StorageUnit.checkVoltage c).code = 0 := le_antisymm h4 h5
    revert h6
    cases StorageUnit.checkVoltage c <;> simp [Status.code]
  · exact h3

example : cells 2 examplePack ≠ [] := by simp [examplePack, cells]

end worst

/-! ### C44 -/

/-- Full statement of C44 for one module of cells: the reported highest and lowest voltages are voltages of actual
cells and bound them all. -/
def ExtremeVoltagesAttained (n : ℕ) : Prop :=
  ∀ (d : ℕ) (t : Tree (ECM n) d), cells d t ≠ [] →
    (∃ c ∈ cells d t, c.V = StorageUnit.Vhigh t) ∧ (∃ c ∈ cells d t, c.V = StorageUnit.Vlow t) ∧
    ∀ c ∈ cells d t, StorageUnit.Vlow t ≤ c.V ∧ c.V ≤ StorageUnit.Vhigh t

/-- C44 is false of the code: the search for the highest voltage starts at the minimum voltage *of the module*, which for a
string is the sum of the cell minima (5.4 V for two cells) and exceeds every cell voltage. -/
theorem vhigh_not_attained : ¬ ExtremeVoltagesAttained 0 := by
  intro h
  have hcells : cells 1 (Node.series badString : Tree (ECM 0) 1) = [bucket half 0, bucket 0 0] := rfl
  obtain ⟨⟨c, hc, hv⟩, -, -⟩ := h 1 (Node.series badString) (by rw [hcells]; simp)
  have h5 : (54/10 : ℚ) ≤ StorageUnit.Vhigh (Node.series badString : Tree (ECM 0) 1) := by
    show 54/10 ≤ modVhigh badString.lim.Vmin badString.kids
    have hl : badString.lim.Vmin = 54/10 := by
      simp [ModuleS.lim, tsum, badString, StorageUnit.lim, cellLimits]; norm_num
    rw [hl]
    simp only [modVhigh, badString, List.foldl_cons, List.foldl_nil]
    exact le_trans (le_max_left _ _) (le_max_left _ _)
  have hc' : c = bucket half 0 ∨ c = bucket 0 0 := by rw [hcells] at hc; simpa using hc
  have h6 : (54/10 : ℚ) ≤ c.V := by rw [hv]; exact h5
  rcases hc' with rfl | rfl
  · rw [bucket_V _ _ (by norm_num [half])] at h6
    norm_num [half] at h6
  · rw [bucket_V _ _ (by norm_num)] at h6
    norm_num at h6

theorem foldl_max_spec {α : Type} (f : α → ℚ) (l : List α) (a : ℚ) :
    a ≤ l.foldl (fun m k => max m (f k)) a ∧ (∀ k ∈ l, f k ≤ l.foldl (fun m k => max m (f k)) a) ∧
    (l.foldl (fun m k => max m (f k)) a = a ∨ ∃ k ∈ l, f k = l.foldl (fun m k => max m (f k)) a) := by
  induction l generalizing a with
  | nil => simp
  | cons x l ih =>
    obtain ⟨h1, h2, h3⟩ := ih (max a (f x))
    simp only [List.foldl_cons, List.mem_cons]
    refine ⟨le_trans (le_max_left _ _) h1, ?_, ?_⟩
    · rintro k (rfl | hk)
      · exact le_trans (le_max_right _ _) h1
      · exact h2 k hk
    · rcases h3 with h3 | ⟨k, hk, h3⟩
      · rcases max_choice a (f x) with hm | hm
        · left; rw [h3, hm]
        · right; exact ⟨x, Or.inl rfl, by rw [h3, hm]⟩
      · right; exact ⟨k, Or.inr hk, h3⟩

theorem foldl_min_spec {α : Type} (f : α → ℚ) (l : List α) (a : ℚ) :
    l.foldl (fun m k => min m (f k)) a ≤ a ∧ (∀ k ∈ l, l.foldl (fun m k => min m (f k)) a ≤ f k) ∧
    (l.foldl (fun m k => min m (f k)) a = a ∨ ∃ k ∈ l, f k = l.foldl (fun m k => min m (f k)) a) := by
  induction l generalizing a with
  | nil => simp
  | cons x l ih =>
    obtain ⟨h1, h2, h3⟩ := ih (min a (f x))
    simp only [List.foldl_cons, List.mem_cons]
    refine ⟨le_trans h1 (min_le_left _ _), ?_, ?_⟩
    · rintro k (rfl | hk)
      · exact le_trans h1 (min_le_right _ _)
      · exact h2 k hk
    · rcases h3 with h3 | ⟨k, hk, h3⟩
      · rcases min_choice a (f x) with hm | hm
        · left; rw [h3, hm]
        · right; exact ⟨x, Or.inl rfl, by rw [h3, hm]⟩
      · right; exact ⟨k, Or.inr hk, h3⟩

/-- C44, bounds (hold for every tree): no cell is above `getVhigh` or below `getVlow`. -/
theorem extreme_voltages_bound_partial (d : ℕ) (t : Tree (ECM n) d) :
    ∀ c ∈ cells d t, StorageUnit.Vlow t ≤ c.V ∧ c.V ≤ StorageUnit.Vhigh t := by
  have key : ∀ (d : ℕ) (ks : List (Kid (Tree (ECM n) d))) (a b : ℚ),
      (∀ t : Tree (ECM n) d, ∀ c ∈ cells d t, StorageUnit.Vlow t ≤ c.V ∧ c.V ≤ StorageUnit.Vhigh t) →
      ∀ c ∈ ks.flatMap (fun k => cells d k.su), modVlow a ks ≤ c.V ∧ c.V ≤ modVhigh b ks := by
    intro d ks a b ih c hc
    obtain ⟨k, hk, hc⟩ := List.mem_flatMap.mp hc
    have h := ih k.su c hc
    exact ⟨le_trans ((foldl_min_spec (fun k : Kid (Tree (ECM n) d) => StorageUnit.Vlow k.su) ks a).2.1 k hk) h.1,
      le_trans h.2 ((foldl_max_spec (fun k : Kid (Tree (ECM n) d) => StorageUnit.Vhigh k.su) ks b).2.1 k hk)⟩
  induction d with
  | zero => intro c hc; rw [List.mem_singleton.mp hc]; exact ⟨le_refl _, le_refl _⟩
  | succ d ih =>
    cases t with
    | cell c => intro c' hc; rw [List.mem_singleton.mp hc]; exact ⟨le_refl _, le_refl _⟩
    | series m => exact key d m.kids _ _ ih
    | parallel m => exact key d m.kids _ _ ih

theorem noEmpty_cells (d : ℕ) (t : Tree C d) (h : NoEmpty d t) : cells d t ≠ [] := by
  induction d with
  | zero => simp [cells]
  | succ d ih =>
    have key : ∀ ks : List (Kid (Tree C d)), ks ≠ [] → (∀ k ∈ ks, NoEmpty d k.su) →
        ks.flatMap (fun k => cells d k.su) ≠ [] := by
      intro ks h1 h2
      obtain ⟨k, l, rfl⟩ := List.exists_cons_of_ne_nil h1
      have := ih k.su (h2 k (by simp))
      simp [this]
    cases t with
    | cell c => simp [cells]
    | series m => exact key m.kids h.1 h.2
    | parallel m => exact key m.kids h.1 h.2

/-- The upper operating limit of a tree without empty modules is at least that of one cell. -/
theorem tree_Vmax_ge (d : ℕ) (t : Tree (ECM n) d) (h : NoEmpty d t) :
    42/10 ≤ (StorageUnit.lim t).Vmax := by
  induction d with
  | zero => exact le_refl _
  | succ d ih =>
    cases t with
    | cell c => exact le_refl _
    | series m =>
      show 42/10 ≤ (m.kids.map fun k => (StorageUnit.lim k.su).Vmax).sum
      have : ∀ ks : List (Kid (Tree (ECM n) d)), (∀ k ∈ ks, NoEmpty d k.su) →
          0 ≤ (ks.map fun k => (StorageUnit.lim k.su).Vmax).sum := by
        intro ks hks
        induction ks with
        | nil => simp
        | cons k ks ihk =>
          have h1 := ih k.su (hks k (by simp))
          have h2 := ihk (fun j hj => hks j (by simp [hj]))
          simp; linarith
      obtain ⟨h1, h2⟩ := h
      cases hk : m.kids with
      | nil => exact absurd hk h1
      | cons k ks =>
        rw [hk] at h2
        have e1 := ih k.su (h2 k (by simp))
        have e2 := this ks (fun j hj => h2 j (by simp [hj]))
        simp; linarith
    | parallel m =>
      show 42/10 ≤ tmin (fun u => (StorageUnit.lim u).Vmax) m.kids
      obtain ⟨h1, h2⟩ := h
      cases hk : m.kids with
      | nil => exact absurd hk h1
      | cons k ks =>
        rw [hk] at h2
        simp only [tmin]
        rcases (foldl_min_spec (fun j : Kid (Tree (ECM n) d) => (StorageUnit.lim j.su).Vmax) ks
          (StorageUnit.lim k.su).Vmax).2.2 with e | ⟨j, hj, e⟩
        · rw [e]; exact ih k.su (h2 k (by simp))
        · rw [← e]; exact ih j.su (h2 j (by simp [hj]))

/-- C44, `getVlow`: for every tree without empty modules whose cells are not above their upper operating limit, the lowest
voltage is attained by a cell. -/
theorem vlow_attained_partial (d : ℕ) (t : Tree (ECM n) d) (hne : NoEmpty d t)
    (hv : ∀ c ∈ cells d t, c.V ≤ 42/10) : ∃ c ∈ cells d t, c.V = StorageUnit.Vlow t := by
  have key : ∀ (d : ℕ) (ks : List (Kid (Tree (ECM n) d))) (a : ℚ), 42/10 ≤ a →
      (∀ t : Tree (ECM n) d, NoEmpty d t → (∀ c ∈ cells d t, c.V ≤ 42/10) →
        ∃ c ∈ cells d t, c.V = StorageUnit.Vlow t) →
      ks ≠ [] → (∀ k ∈ ks, NoEmpty d k.su) → (∀ c ∈ ks.flatMap (fun k => cells d k.su), c.V ≤ 42/10) →
      ∃ c ∈ ks.flatMap (fun k => cells d k.su), c.V = modVlow a ks := by
    intro d ks a ha ih h1 h2 h3
    have ih' : ∀ k ∈ ks, ∃ c ∈ cells d k.su, c.V = StorageUnit.Vlow k.su := fun k hk =>
      ih k.su (h2 k hk) (fun c hc => h3 c (List.mem_flatMap.mpr ⟨k, hk, hc⟩))
    obtain ⟨f1, f2, f3⟩ := foldl_min_spec (fun k : Kid (Tree (ECM n) d) => StorageUnit.Vlow k.su) ks a
    rcases f3 with f3 | ⟨k, hk, f3⟩
    · obtain ⟨k, l, hkl⟩ := List.exists_cons_of_ne_nil h1
      have hk : k ∈ ks := by rw [hkl]; simp
      obtain ⟨c, hc, hcv⟩ := ih' k hk
      refine ⟨c, List.mem_flatMap.mpr ⟨k, hk, hc⟩, ?_⟩
      have h4 := h3 c (List.mem_flatMap.mpr ⟨k, hk, hc⟩)
      have h5 := f2 k hk
      unfold modVlow
      rw [f3] at h5 ⊢
      rw [← hcv] at h5
      linarith
    · obtain ⟨c, hc, hcv⟩ := ih' k hk
      exact ⟨c, List.mem_flatMap.mpr ⟨k, hk, hc⟩, hcv.trans f3⟩
  induction d with
  | zero => exact ⟨t, List.mem_singleton_self (α := ECM n) t, rfl⟩
  | succ d ih =>
    cases t with
    | cell c => exact ⟨c, by simp [cells], rfl⟩
    | series m => exact key d m.kids _ (tree_Vmax_ge (d+1) (Node.series m) hne) ih hne.1 hne.2 hv
    | parallel m => exact key d m.kids _ (tree_Vmax_ge (d+1) (Node.parallel m) hne) ih hne.1 hne.2 hv

/-- The lower operating limit of a tree without series modules is that of one cell. -/
theorem tree_Vmin_eq (d : ℕ) (t : Tree (ECM n) d) (h : NoEmpty d t) (hs : NoSeries d t) :
    (StorageUnit.lim t).Vmin = 27/10 := by
  induction d with
  | zero => rfl
  | succ d ih =>
    cases t with
    | cell c => rfl
    | series m => exact hs.elim
    | parallel m =>
      show tmax (fun u => (StorageUnit.lim u).Vmin) m.kids = 27/10
      obtain ⟨h1, h2⟩ := h
      have hs' : ∀ k ∈ m.kids, NoSeries d k.su := hs
      cases hk : m.kids with
      | nil => exact absurd hk h1
      | cons k ks =>
        rw [hk] at h2 hs'
        simp only [tmax]
        rcases (foldl_max_spec (fun j : Kid (Tree (ECM n) d) => (StorageUnit.lim j.su).Vmin) ks
          (StorageUnit.lim k.su).Vmin).2.2 with e | ⟨j, hj, e⟩
        · rw [e]; exact ih k.su (h2 k (by simp)) (hs' k (by simp))
        · rw [← e]; exact ih j.su (h2 j (by simp [hj])) (hs' j (by simp [hj]))

/-- C44, `getVhigh`: attained for trees without series modules whose cells are not below their lower operating
limit. -/
theorem vhigh_attained_partial (d : ℕ) (t : Tree (ECM n) d) (hne : NoEmpty d t) (hs : NoSeries d t)
    (hv : ∀ c ∈ cells d t, 27/10 ≤ c.V) : ∃ c ∈ cells d t, c.V = StorageUnit.Vhigh t := by
  induction d with
  | zero => exact ⟨t, List.mem_singleton_self (α := ECM n) t, rfl⟩
  | succ d ih =>
    cases t with
    | cell c => exact ⟨c, by simp [cells], rfl⟩
    | series m => exact hs.elim
    | parallel m =>
      have hs' : ∀ k ∈ m.kids, NoSeries d k.su := hs
      have ih' : ∀ k ∈ m.kids, ∃ c ∈ cells d k.su, c.V = StorageUnit.Vhigh k.su := fun k hk =>
        ih k.su (hne.2 k hk) (hs' k hk) (fun c hc => hv c (List.mem_flatMap.mpr ⟨k, hk, hc⟩))
      have hmin := tree_Vmin_eq (d+1) (Node.parallel m : Tree (ECM n) (d+1)) hne hs
      have hmin' : m.lim.Vmin = 27/10 := hmin
      show ∃ c ∈ m.kids.flatMap (fun k => cells d k.su), c.V = modVhigh m.lim.Vmin m.kids
      rw [hmin']
      obtain ⟨f1, f2, f3⟩ := foldl_max_spec (fun k : Kid (Tree (ECM n) d) => StorageUnit.Vhigh k.su) m.kids (27/10)
      rcases f3 with f3 | ⟨k, hk, f3⟩
      · obtain ⟨k, l, hkl⟩ := List.exists_cons_of_ne_nil hne.1
        have hk : k ∈ m.kids := by rw [hkl]; simp
        obtain ⟨c, hc, hcv⟩ := ih' k hk
        refine ⟨c, List.mem_flatMap.mpr ⟨k, hk, hc⟩, ?_⟩
        have h4 := hv c (List.mem_flatMap.mpr ⟨k, hk, hc⟩)
        have h5 := f2 k hk
        unfold modVhigh
        rw [f3] at h5 ⊢
        rw [← hcv] at h5
        linarith
      · obtain ⟨c, hc, hcv⟩ := ih' k hk
        exact ⟨c, List.mem_flatMap.mpr ⟨k, hk, hc⟩, hcv.trans f3⟩

example : NoEmpty 2 examplePack := by simp [examplePack, NoEmpty]

end Slide

import Verif.Spec.SafeCalls
import Verif.Props.Phases
import Verif.Props.Tree

/-!
# C162: no call on a pack is undefined
-/

namespace Slide
open Spec

variable {n : ℕ}

/-! ## Helper lemmas -/

theorem narrow_same (d : ℕ) : ∀ {u v : Tree (ECM n) d}, SameStructure d u v → NarrowTree d u → NarrowTree d v := by
  induction d with
  | zero => intro u v _ _; trivial
  | succ d ih =>
    have key : ∀ {x y : List (Kid (Tree (ECM n) d))},
        List.Forall₂ (fun a b => Kid.rc a = Kid.rc b ∧ SameStructure d (Kid.su a) (Kid.su b)) x y →
        (∀ k ∈ x, NarrowTree d k.su) → ∀ k ∈ y, NarrowTree d k.su := by
      intro x y h
      induction h with
      | nil => intro _ k hk; cases hk
      | cons h0 _ ih2 =>
        intro hx k hk
        rcases List.mem_cons.mp hk with rfl | hk
        · exact ih h0.2 (hx _ List.mem_cons_self)
        · exact ih2 (fun k hk => hx k (List.mem_cons_of_mem _ hk)) k hk
    intro u v h hu
    cases u with
    | cell a => cases v with
      | cell b => trivial
      | series b => exact h.elim
      | parallel b => exact h.elim
    | series a => cases v with
      | series b => exact ⟨by have := List.Forall₂.length_eq h; have := hu.1; omega, key h hu.2⟩
      | cell b => exact h.elim
      | parallel b => exact h.elim
    | parallel a => cases v with
      | parallel b => exact ⟨by have := List.Forall₂.length_eq h; have := hu.1; omega, key h hu.2⟩
      | cell b => exact h.elim
      | series b => exact h.elim

theorem same_symm (d : ℕ) : ∀ {u v : Tree (ECM n) d}, SameStructure d u v → SameStructure d v u := by
  induction d with
  | zero => intro u v h; exact Eq.symm h
  | succ d ih =>
    intro u v h
    cases u with
    | cell a => cases v with
      | cell b => exact Eq.symm h
      | series b => exact h.elim
      | parallel b => exact h.elim
    | series a => cases v with
      | series b => exact List.Forall₂.flip (List.Forall₂.imp (fun x y h => ⟨h.1.symm, ih h.2⟩) h)
      | cell b => exact h.elim
      | parallel b => exact h.elim
    | parallel a => cases v with
      | parallel b => exact List.Forall₂.flip (List.Forall₂.imp (fun x y h => ⟨h.1.symm, ih h.2⟩) h)
      | cell b => exact h.elim
      | series b => exact h.elim

theorem same_trans (d : ℕ) {u v w : Tree (ECM n) d} (h1 : SameStructure d u v) (h2 : SameStructure d v w) :
    SameStructure d u w :=
  sameStructure_of_same d _ _ (LawfulStates.trans (same_of_sameStructure d _ _ h1) (same_of_sameStructure d _ _ h2))

theorem equal_same (d : ℕ) : ∀ {u v : Tree (ECM n) d}, SameStructure d u v → EqualBranches d u → EqualBranches d v := by
  induction d with
  | zero => intro u v _ _; trivial
  | succ d ih =>
    have key : ∀ {x y : List (Kid (Tree (ECM n) d))},
        List.Forall₂ (fun a b => Kid.rc a = Kid.rc b ∧ SameStructure d (Kid.su a) (Kid.su b)) x y →
        ∀ b ∈ y, ∃ a ∈ x, SameStructure d (Kid.su a) (Kid.su b) := by
      intro x y h
      induction h with
      | nil => intro b hb; cases hb
      | cons h0 _ ih2 =>
        intro b hb
        rcases List.mem_cons.mp hb with rfl | hb
        · exact ⟨_, List.mem_cons_self, h0.2⟩
        · obtain ⟨a, ha, e⟩ := ih2 b hb
          exact ⟨a, List.mem_cons_of_mem _ ha, e⟩
    have key2 : ∀ {x y : List (Kid (Tree (ECM n) d))},
        List.Forall₂ (fun a b => Kid.rc a = Kid.rc b ∧ SameStructure d (Kid.su a) (Kid.su b)) x y →
        ((∀ a ∈ x, ∀ b ∈ x, SameStructure d a.su b.su) ∧ ∀ k ∈ x, EqualBranches d k.su) →
        ((∀ a ∈ y, ∀ b ∈ y, SameStructure d a.su b.su) ∧ ∀ k ∈ y, EqualBranches d k.su) := by
      intro x y h hx
      refine ⟨fun a ha b hb => ?_, fun b hb => ?_⟩
      · obtain ⟨a', ha', e1⟩ := key h a ha
        obtain ⟨b', hb', e2⟩ := key h b hb
        exact same_trans d (same_symm d e1) (same_trans d (hx.1 _ ha' _ hb') e2)
      · obtain ⟨b', hb', e2⟩ := key h b hb
        exact ih e2 (hx.2 _ hb')
    intro u v h hu
    cases u with
    | cell a => cases v with
      | cell b => trivial
      | series b => exact h.elim
      | parallel b => exact h.elim
    | series a => cases v with
      | series b => exact key2 h hu
      | cell b => exact h.elim
      | parallel b => exact h.elim
    | parallel a => cases v with
      | parallel b => exact key2 h hu
      | cell b => exact h.elim
      | series b => exact h.elim

/-- A cell given enough numbers takes exactly its own. -/
theorem ecm_setStates_enough (c : ECM n) (s : List ℚ) (b : Bool) (h : 6 + n ≤ s.length) :
    ∃ st, (c.setStates s b).1 = .ok (st, s.drop (6 + n)) := by
  unfold ECM.setStates ECM.decode
  rw [dif_pos h]
  dsimp only
  split_ifs <;> exact ⟨_, rfl⟩

theorem rollback_defined (cnt : ℕ) : ∀ (c : ECM n) (s : List ℚ), cnt * (6 + n) ≤ s.length → (rollback c s cnt).1.Defined := by
  induction cnt with
  | zero => intro c s _; exact trivial
  | succ cnt ih =>
    intro c s h
    rw [rollback]
    have h1 : 6 + n ≤ s.length := by nlinarith
    obtain ⟨st, e⟩ := ecm_setStates_enough c s false h1
    change (StorageUnit.setStates c s false).1 = _ at e
    generalize StorageUnit.setStates c s false = r at e ⊢
    obtain ⟨o, c1⟩ := r
    dsimp only at e
    subst e
    exact ih c1 _ (by rw [List.length_drop]; have : (cnt + 1) * (6 + n) = cnt * (6 + n) + (6 + n) := by ring
                      omega)

theorem statesLoop_defined (orig : List ℚ) (b : Bool) (ks : List (Kid (ECM n))) : ∀ (i : ℕ) (s : List ℚ),
    (i + ks.length) * (6 + n) ≤ orig.length → ks.length * (6 + n) ≤ s.length →
    (setStatesLoop orig b i ks s).1.Defined ∧
      ∀ st s', (setStatesLoop orig b i ks s).1 = .ok (st, false, s') → s' = s.drop (ks.length * (6 + n)) := by
  induction ks with
  | nil =>
    intro i s _ _
    rw [setStatesLoop]
    refine ⟨trivial, fun st s' h => ?_⟩
    simp only [Outcome.ok.injEq, Prod.mk.injEq, true_and] at h
    simp [h.2]
  | cons k ks ih =>
    intro i s ho hs
    rw [setStatesLoop]
    simp only [List.length_cons] at ho hs ⊢
    have e1 : (ks.length + 1) * (6 + n) = ks.length * (6 + n) + (6 + n) := by ring
    have e2 : (i + (ks.length + 1)) * (6 + n) = (i + 1 + ks.length) * (6 + n) := by ring
    have e3 : (i + 1 + ks.length) * (6 + n) = (i + 1) * (6 + n) + ks.length * (6 + n) := by ring
    obtain ⟨st, e⟩ := ecm_setStates_enough k.su s b (by omega)
    change (StorageUnit.setStates k.su s b).1 = _ at e
    generalize StorageUnit.setStates k.su s b = r at e ⊢
    obtain ⟨o, c1⟩ := r
    dsimp only at e
    subst e
    dsimp only
    by_cases hb : st.isBad
    · rw [if_pos hb]
      have hr := rollback_defined (i + 1) c1 orig (by omega)
      generalize rollback c1 orig (i + 1) = r at hr ⊢
      obtain ⟨o, c2⟩ := r
      cases o with
      | ok x => exact ⟨trivial, fun st s' h => by simp at h⟩
      | throw x => exact ⟨trivial, fun st s' h => by simp at h⟩
      | ub x => exact hr.elim
    · rw [if_neg hb]
      obtain ⟨h1, h2⟩ := ih (i + 1) (s.drop (6 + n)) (by omega) (by rw [List.length_drop]; omega)
      refine ⟨h1, fun st s' h => ?_⟩
      rw [h2 st s' h, List.drop_drop, e1, Nat.add_comm]

theorem states_length (ks : List (Kid (ECM n))) :
    (ks.map fun k => StorageUnit.getStates k.su).flatten.length = ks.length * (6 + n) := by
  induction ks with
  | nil => simp
  | cons k ks ih =>
    simp only [List.map_cons, List.flatten_cons, List.length_append, ih, List.length_cons]
    have : (StorageUnit.getStates k.su).length = 6 + n := by
      show (ECM.getStates k.su).length = 6 + n
      simp [ECM.getStates]; omega
    rw [this]; ring

/-- Writing states to a module of cells is defined. -/
theorem modSetStates_defined (T T' : ℚ) (ks ws : List (Kid (ECM n))) (b : Bool) (hl : ks.length = ws.length) (hT : 273 ≤ T') :
    (modSetStates T ks (modGetStates T' ws) b).1.Defined := by
  have hlen : ∀ (T : ℚ) (l : List (Kid (ECM n))), (modGetStates T l).length = l.length * (6 + n) + 1 := by
    intro T l
    unfold modGetStates
    rw [List.length_append, states_length]
    rfl
  unfold modSetStates
  obtain ⟨h1, h2⟩ := statesLoop_defined (modGetStates T ks) b ks 0 (modGetStates T' ws)
    (by rw [hlen]; simp) (by rw [hlen, hl]; omega)
  have hd : (modGetStates T' ws).drop (ks.length * (6 + n)) = [T'] := by
    unfold modGetStates
    rw [hl, ← states_length ws, List.drop_left]
  rw [hd] at h2
  dsimp only
  generalize setStatesLoop (modGetStates T ks) b 0 ks (modGetStates T' ws) = r at h1 h2 ⊢
  obtain ⟨o, ks'⟩ := r
  rcases o with ⟨st, bb, s'⟩ | e | w
  · cases bb with
    | true => exact trivial
    | false =>
      rw [h2 st s' rfl]
      dsimp only
      rw [if_neg (not_lt.mpr hT)]
      exact trivial
  · exact trivial
  · exact h1.elim

/-- Giving a unit the valid states of units like it, one after the other, is defined. -/
theorem rollback_equal {U : Type} [StorageUnit U] [LawfulStates U] (l : List (Kid U)) : ∀ (su : U) (rest : List ℚ),
    (∀ k ∈ l, Valid k.su) → (∀ k ∈ l, Same k.su su) → (∀ a ∈ l, ∀ b ∈ l, Same a.su b.su) →
    (rollback su ((l.map fun k => StorageUnit.getStates k.su).flatten ++ rest) l.length).1 = .ok () := by
  induction l with
  | nil => intro su rest _ _ _; rfl
  | cons k l ih =>
    intro su rest hv hs hp
    rw [List.length_cons, rollback, List.map_cons, List.flatten_cons, List.append_assoc,
      LawfulStates.roundtrip k.su su _ (hs k List.mem_cons_self) (hv k List.mem_cons_self)]
    exact ih k.su rest (fun a h => hv a (List.mem_cons_of_mem _ h))
      (fun a h => hp a (List.mem_cons_of_mem _ h) k List.mem_cons_self)
      (fun a h b h' => hp a (List.mem_cons_of_mem _ h) b (List.mem_cons_of_mem _ h'))

/-- Writing the states of `w` to `u` is defined, and takes exactly these states if they are accepted. -/
def Writable {U : Type} [StorageUnit U] (u w : U) : Prop :=
  ∀ (rest : List ℚ) (b : Bool), ∃ st s', (StorageUnit.setStates u (StorageUnit.getStates w ++ rest) b).1 = .ok (st, s') ∧
    (st.isBad = false → s' = rest)

theorem statesLoop_equal {U : Type} [StorageUnit U] [LawfulStates U] (b : Bool) (tail : List ℚ) {ks ws : List (Kid U)}
    (h : List.Forall₂ (fun x y => Writable (Kid.su x) (Kid.su y)) ks ws) : ∀ (pre : List (Kid U)) (rest : List ℚ),
    (∀ k ∈ pre ++ ks, Valid k.su) → (∀ x ∈ pre ++ ks, ∀ y ∈ pre ++ ks, Same x.su y.su) →
    ∃ st e s', (setStatesLoop (((pre ++ ks).map fun k => StorageUnit.getStates k.su).flatten ++ tail) b pre.length ks
      ((ws.map fun k => StorageUnit.getStates k.su).flatten ++ rest)).1 = .ok (st, e, s') ∧
      (e = true → st.isBad = true) ∧ (e = false → s' = rest) := by
  induction h with
  | nil => intro pre rest _ _; exact ⟨_, _, _, rfl, by simp, by simp⟩
  | @cons k w ks ws h0 _ ih =>
    intro pre rest hv hs
    rw [setStatesLoop, List.map_cons (l := ws), List.flatten_cons, List.append_assoc]
    obtain ⟨st, s', e, hb⟩ := h0 ((ws.map fun k => StorageUnit.getStates k.su).flatten ++ rest) b
    have hsame := LawfulStates.setStates_same k.su
      (StorageUnit.getStates w.su ++ ((ws.map fun k => StorageUnit.getStates k.su).flatten ++ rest)) b
    generalize StorageUnit.setStates k.su
      (StorageUnit.getStates w.su ++ ((ws.map fun k => StorageUnit.getStates k.su).flatten ++ rest)) b = r at e hsame ⊢
    obtain ⟨o, su'⟩ := r
    dsimp only at e hsame
    subst e
    dsimp only
    have eq : pre ++ k :: ks = (pre ++ [k]) ++ ks := by simp
    by_cases hbad : st.isBad
    · rw [if_pos hbad]
      have hr := rollback_equal (pre ++ [k]) su' ((ks.map fun k => StorageUnit.getStates k.su).flatten ++ tail)
        (fun a ha => hv a (by rw [eq]; exact List.mem_append_left _ ha))
        (fun a ha => LawfulStates.trans (hs a (by rw [eq]; exact List.mem_append_left _ ha) k (by simp)) hsame)
        (fun a ha c hc => hs a (by rw [eq]; exact List.mem_append_left _ ha) c (by rw [eq]; exact List.mem_append_left _ hc))
      rw [← List.append_assoc, ← List.flatten_append, ← List.map_append, ← eq, List.length_append, List.length_singleton] at hr
      generalize rollback su' (((pre ++ k :: ks).map fun k => StorageUnit.getStates k.su).flatten ++ tail) (pre.length + 1) = r at hr ⊢
      obtain ⟨o, c2⟩ := r
      dsimp only at hr
      subst hr
      exact ⟨_, _, _, rfl, fun _ => hbad, by simp⟩
    · rw [if_neg hbad, hb (by simpa using hbad)]
      have := ih (pre ++ [k]) rest (by rw [← eq]; exact hv) (by rw [← eq]; exact hs)
      rw [← eq, List.length_append, List.length_singleton] at this
      exact this

theorem modWritable {U : Type} [StorageUnit U] [LawfulStates U] {T T' : ℚ} {ks ws : List (Kid U)} (hT : 273 ≤ T')
    (h : List.Forall₂ (fun x y => Writable (Kid.su x) (Kid.su y)) ks ws)
    (hv : ∀ k ∈ ks, Valid k.su) (hs : ∀ x ∈ ks, ∀ y ∈ ks, Same x.su y.su) (rest : List ℚ) (b : Bool) :
    ∃ st s', (modSetStates T ks (modGetStates T' ws ++ rest) b).1 = .ok (st, s') ∧ (st.isBad = false → s' = rest) := by
  unfold modSetStates modGetStates
  obtain ⟨st, e, s', h1, h2, h3⟩ := statesLoop_equal b [T] h [] (T' :: rest) hv hs
  rw [List.append_assoc]
  change (setStatesLoop ((ks.map fun k => StorageUnit.getStates k.su).flatten ++ [T]) b 0 ks
    ((ws.map fun k => StorageUnit.getStates k.su).flatten ++ ([T'] ++ rest))).1 = _ at h1
  dsimp only
  generalize setStatesLoop ((ks.map fun k => StorageUnit.getStates k.su).flatten ++ [T]) b 0 ks
    ((ws.map fun k => StorageUnit.getStates k.su).flatten ++ ([T'] ++ rest)) = r at h1 ⊢
  obtain ⟨o, ks'⟩ := r
  dsimp only at h1
  subst h1
  cases e with
  | true => exact ⟨_, _, rfl, fun h => by rw [h2 rfl] at h; cases h⟩
  | false =>
    rw [h3 rfl]
    dsimp only
    rw [if_neg (not_lt.mpr hT)]
    exact ⟨_, _, rfl, fun _ => rfl⟩

theorem ecm_writable (v w : ECM n) : Writable v w := by
  intro rest b
  have hl : w.getStates.length = 6 + n := by simp [ECM.getStates]; omega
  obtain ⟨st, e⟩ := ecm_setStates_enough v (w.getStates ++ rest) b (by rw [List.length_append]; omega)
  exact ⟨st, _, e, fun _ => by rw [← hl, List.drop_left]⟩

theorem tree_writable (d : ℕ) : ∀ (v w : Tree (ECM n) d), SameStructure d v w → WarmModules d w → ValidStates d v →
    EqualBranches d v → Writable v w := by
  induction d with
  | zero => intro v w _ _ _ _; exact ecm_writable (n := n) v w
  | succ d ih =>
    have key : ∀ {x y : List (Kid (Tree (ECM n) d))},
        List.Forall₂ (fun a b => Kid.rc a = Kid.rc b ∧ SameStructure d (Kid.su a) (Kid.su b)) x y →
        (∀ k ∈ y, WarmModules d k.su) → (∀ k ∈ x, ValidStates d k.su) → (∀ k ∈ x, EqualBranches d k.su) →
        List.Forall₂ (fun a b => Writable (Kid.su a) (Kid.su b)) x y := by
      intro x y h
      induction h with
      | nil => intro _ _ _; exact .nil
      | cons h0 _ ih2 =>
        intro h1 h2 h3
        exact .cons (ih _ _ h0.2 (h1 _ List.mem_cons_self) (h2 _ List.mem_cons_self) (h3 _ List.mem_cons_self))
          (ih2 (fun k hk => h1 k (List.mem_cons_of_mem _ hk)) (fun k hk => h2 k (List.mem_cons_of_mem _ hk))
            (fun k hk => h3 k (List.mem_cons_of_mem _ hk)))
    intro v w hs hT hv he
    cases v with
    | cell v => cases w with
      | cell w => exact fun rest b => ecm_writable v w rest b
      | series w => exact hs.elim
      | parallel w => exact hs.elim
    | series v => cases w with
      | series w =>
        intro rest b
        exact modWritable (T := v.T) hT.1 (key hs hT.2 hv.2 he.2) (fun k hk => valid_of_validStates d _ (hv.2 k hk))
          (fun x hx y hy => same_of_sameStructure d _ _ (he.1 x hx y hy)) rest b
      | cell w => exact hs.elim
      | parallel w => exact hs.elim
    | parallel v => cases w with
      | parallel w =>
        intro rest b
        exact modWritable (T := v.T) hT.1 (key hs hT.2 hv.2 he.2) (fun k hk => valid_of_validStates d _ (hv.2 k hk))
          (fun x hx y hy => same_of_sameStructure d _ _ (he.1 x hx y hy)) rest b
      | cell w => exact hs.elim
      | series w => exact hs.elim

/-! ## C162 -/

/-- **C162, the part that holds**: setting a current and taking time steps are defined on every pack with at most 100 units in
each module, after any calls; writing states is defined for cells and modules of cells, and for any pack if the states are
valid and not checked against the voltage limits. -/
theorem calls_defined_partial (d : ℕ) (u : Tree (ECM n) d) (hu : NarrowTree d u) (calls : List Call) :
    (∀ i b, CallDefined (calls.foldl call u) (.setCurrent i b)) ∧ (∀ dt k, CallDefined (calls.foldl call u) (.timeStep dt k)) ∧
    (∀ w : Tree (ECM n) d, SameStructure d u w → ValidStates d w →
      CallDefined (calls.foldl call u) (.setStates (StorageUnit.getStates w) false)) := by
  have hs := tree_calls_keep_structure d u calls
  have hn := narrow_same d hs hu
  refine ⟨fun i b => (narrow_safe d).defd _ i b hn, fun dt k => narrow_step_defined d _ dt k hn, ?_⟩
  intro w hw hv
  have h := LawfulStates.roundtrip w (calls.foldl call u) []
    (LawfulStates.trans (same_of_sameStructure d w u (same_symm d hw)) (same_of_sameStructure d _ _ hs)) (valid_of_validStates d w hv)
  rw [List.append_nil] at h
  show (StorageUnit.setStates _ _ _).1.Defined
  rw [h]
  exact trivial

/-- **C162, the part that holds**, for a single cell or a module of cells: writing any states, checked or not, is defined. -/
theorem states_defined_partial (u : Tree (ECM n) 1) (calls : List Call) (s : List ℚ) (b : Bool)
    (hf : StatesFit 1 u (.setStates s b)) : CallDefined (calls.foldl call u) (.setStates s b) := by
  have hs := tree_calls_keep_structure 1 u calls
  obtain ⟨w, hw, hT, rfl⟩ := hf
  generalize calls.foldl call u = v at hs
  show (StorageUnit.setStates v (StorageUnit.getStates w) b).1.Defined
  cases u with
  | cell a =>
    cases v with
    | cell v =>
      cases w with
      | cell w =>
        obtain ⟨st, e⟩ := ecm_setStates_enough v w.getStates b (by simp [ECM.getStates]; omega)
        show (v.setStates w.getStates b).1.Defined
        rw [e]; exact trivial
      | series w => exact hw.elim
      | parallel w => exact hw.elim
    | series v => exact hs.elim
    | parallel v => exact hs.elim
  | series a =>
    cases v with
    | series v =>
      cases w with
      | series w =>
        have h := modSetStates_defined v.T w.T v.kids w.kids b
          ((List.Forall₂.length_eq hs).symm.trans (List.Forall₂.length_eq hw)) hT.1
        exact h
      | cell w => exact hw.elim
      | parallel w => exact hw.elim
    | cell v => exact hs.elim
    | parallel v => exact hs.elim
  | parallel a =>
    cases v with
    | parallel v =>
      cases w with
      | parallel w =>
        have h := modSetStates_defined v.T w.T v.kids w.kids b
          ((List.Forall₂.length_eq hs).symm.trans (List.Forall₂.length_eq hw)) hT.1
        exact h
      | cell w => exact hw.elim
      | series w => exact hw.elim
    | cell v => exact hs.elim
    | series v => exact hs.elim

/-- **C162, the part that holds**, for a pack of any depth in which the units of each module have the same build: as long as
the pack holds valid states, writing any states, checked or not, is defined. -/
theorem equal_states_defined_partial (d : ℕ) (u : Tree (ECM n) d) (calls : List Call) (s : List ℚ) (b : Bool)
    (hv : ValidStates d (calls.foldl call u)) (he : EqualBranches d u)
    (hf : StatesFit d u (.setStates s b)) : CallDefined (calls.foldl call u) (.setStates s b) := by
  have hs := tree_calls_keep_structure d u calls
  obtain ⟨w, hw, hT, rfl⟩ := hf
  have hvw : SameStructure d (calls.foldl call u) w := same_trans d (same_symm d hs) hw
  obtain ⟨st, s', e, _⟩ := tree_writable d _ w hvw hT hv (equal_same d hs he) [] b
  rw [List.append_nil] at e
  show (StorageUnit.setStates _ _ _).1.Defined
  rw [e]
  exact trivial

/-- A cell in series with a string of a string of one cell; the latter has the state of charge `z`. -/
def unevenString (z : ℚ) : Tree (ECM 0) 3 :=
  .series ⟨290, [⟨0, .cell (bucket (1/2) 0)⟩, ⟨0, .series ⟨290, [⟨0, .series ⟨290, [⟨0, bucket z 0⟩]⟩⟩]⟩⟩]⟩

/-- Two strings of two cells in series; the last cell has the state of charge `z`. -/
def evenString (z : ℚ) : Tree (ECM 0) 2 :=
  .series ⟨290, [⟨0, .series ⟨290, [⟨0, bucket (1/2) 0⟩, ⟨0, bucket (1/2) 0⟩]⟩⟩,
    ⟨0, .series ⟨290, [⟨0, bucket (1/2) 0⟩, ⟨0, bucket z 0⟩]⟩⟩]⟩

/-- A case that meets the hypotheses: states with a cell charged to 200 % are refused, after other states were written. -/
example : NarrowTree 2 (evenString (1/2)) ∧ EqualBranches 2 (evenString (1/2)) ∧
    ValidStates 2 ([Call.setStates (StorageUnit.getStates (evenString (3/4))) false].foldl call (evenString (1/2))) ∧
    StatesFit 2 (evenString (1/2)) (.setStates (StorageUnit.getStates (evenString 2)) true) ∧
    ((StorageUnit.setStates ([Call.setStates (StorageUnit.getStates (evenString (3/4))) false].foldl call (evenString (1/2)))
      (StorageUnit.getStates (evenString 2)) true).1 matches .ok (.Success, _)) = false := by
  refine ⟨by simp [evenString, NarrowTree], by simp [evenString, EqualBranches, SameStructure, bucket], ?_,
    ⟨evenString 2, by simp [evenString, SameStructure, bucket], by simp [evenString, WarmModules]; norm_num, rfl⟩,
    by decide +kernel⟩
  have e : [Call.setStates (StorageUnit.getStates (evenString (3/4))) false].foldl call (evenString (1/2)) = evenString (3/4) := by
    have h := tree_states_roundtrip 2 (evenString (3/4)) (evenString (1/2)) [] (by simp [evenString, SameStructure, bucket])
      (by simp [evenString, ValidStates, bucket]; norm_num)
    rw [List.append_nil] at h
    show (StorageUnit.setStates _ _ _).2 = _
    rw [h]
  rw [e]
  simp [evenString, ValidStates, bucket]
  norm_num

/-- **C162 is false of the code**: when states are refused, the children are given back the saved states of the wrong
children (the index in the loop is not the one counted); in a pack with unequal children the state of charge of a cell
becomes the temperature of a module, which an assertion forbids. -/
theorem not_callsDefined : ¬ CallsDefined 0 := by
  intro h
  have h := h 3 (unevenString (1/2)) (by simp [unevenString, NarrowTree]) [] (.setStates (StorageUnit.getStates (unevenString 2)) true)
    ⟨unevenString 2, by simp [unevenString, SameStructure, bucket], by simp [unevenString, WarmModules]; norm_num, rfl⟩
  have e : (StorageUnit.setStates (unevenString (1/2)) (StorageUnit.getStates (unevenString 2)) true).1 =
      .ub "assert(s[0] >= Kelvin)" := by decide +kernel
  change (StorageUnit.setStates (unevenString (1/2)) (StorageUnit.getStates (unevenString 2)) true).1.Defined at h
  rw [e] at h
  exact h

end Slide

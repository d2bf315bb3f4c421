import Verif.Lemmas.Frame
import Verif.Spec.Frame

/-!
Trees whose cells obey a few laws (`CellLaws`): setting currents and voltages of a tree changes nothing but cell
currents, and a time step of a tree steps every cell.  Both cell models are instances.
-/

namespace Slide
open StorageUnit Spec

/-- Cells with a clock, a charge counter and a state of charge. -/
class CellLaws (C : Type) [StorageUnit C] [VoltageUnit C] where
  /-- The second cell is the first one, except (possibly) for its current. -/
  Only : C → C → Prop
  time : C → ℚ
  Ah : C → ℚ
  SOC : C → ℚ
  only_refl : ∀ a, Only a a
  only_trans : ∀ {a b c}, Only a b → Only b c → Only a c
  only_set : ∀ c i b, Only c (setCurrent c i b).2
  only_setVoltage : ∀ c v, Only c (VoltageUnit.setVoltage c v).2
  only_meters : ∀ {a b}, Only a b → time b = time a ∧ Ah b = Ah a ∧ SOC b = SOC a ∧ Cap b = Cap a
  set_unchecked : ∀ (c : C) i, (setCurrent c i false).1 = .ok .Success ∧ I (setCurrent c i false).2 = i
  step_throws : ∀ (c : C) dt k, dt < 0 → (timeStep c dt k).1 = .throw 10 ∧ Only c (timeStep c dt k).2
  step_I : ∀ (c : C) dt k, (timeStep c dt k).1 = .ok () → I (timeStep c dt k).2 = I c
  step_meters : ∀ (c : C) dt (k : ℕ), (timeStep c dt k).1 = .ok () → time (timeStep c dt k).2 = time c + k * dt ∧
    Ah (timeStep c dt k).2 = Ah c + |I c| * (k * dt) / 3600 ∧
    SOC (timeStep c dt k).2 = SOC c - I c * (k * dt) / 3600 / Cap c ∧ Cap (timeStep c dt k).2 = Cap c
  check_code : ∀ c : C, 0 ≤ (StorageUnit.checkVoltage c).code

open CellLaws

/-- Cells that accept every time step that is not negative. -/
class CellTotal (C : Type) [StorageUnit C] : Prop where
  step_ok : ∀ (c : C) dt k, 0 ≤ dt → (timeStep c dt k).1 = .ok ()

open CellTotal

variable {C : Type}

theorem cellWise_trans {P Q R : C → C → Prop} (h : ∀ a b c, P a b → Q b c → R a c) (d : ℕ)
    {a b c : Tree C d} (h1 : CellWise P d a b) (h2 : CellWise Q d b c) : CellWise R d a c := by
  induction d with
  | zero => exact h _ _ _ h1 h2
  | succ d ih =>
    have key : ∀ {x y z : List (Kid (Tree C d))},
        List.Forall₂ (fun x y => x.rc = y.rc ∧ CellWise P d x.su y.su) x y →
        List.Forall₂ (fun x y => x.rc = y.rc ∧ CellWise Q d x.su y.su) y z →
        List.Forall₂ (fun x y => x.rc = y.rc ∧ CellWise R d x.su y.su) x z := by
      intro x y z e1 e2
      induction e1 generalizing z with
      | nil => cases e2; exact .nil
      | cons p _ ihl =>
        cases e2 with
        | cons q t => exact .cons ⟨p.1.trans q.1, ih p.2 q.2⟩ (ihl t)
    cases a with
    | cell a =>
      cases b with
      | cell b =>
        cases c with
        | cell c => exact h _ _ _ h1 h2
        | series c => exact h2.elim
        | parallel c => exact h2.elim
      | series b => exact h1.elim
      | parallel b => exact h1.elim
    | series a =>
      cases b with
      | series b =>
        cases c with
        | series c => exact ⟨h1.1.trans h2.1, key h1.2 h2.2⟩
        | cell c => exact h2.elim
        | parallel c => exact h2.elim
      | cell b => exact h1.elim
      | parallel b => exact h1.elim
    | parallel a =>
      cases b with
      | parallel b =>
        cases c with
        | parallel c => exact ⟨h1.1.trans h2.1, key h1.2 h2.2⟩
        | cell c => exact h2.elim
        | series c => exact h2.elim
      | cell b => exact h1.elim
      | series b => exact h1.elim

theorem cellWise_refl {Q : C → C → Prop} (h : ∀ a, Q a a) (d : ℕ) (a : Tree C d) : CellWise Q d a a := by
  induction d with
  | zero => exact h _
  | succ d ih =>
    cases a with
    | cell a => exact h _
    | series a => exact ⟨rfl, List.forall₂_same.mpr fun _ _ => ⟨rfl, ih _⟩⟩
    | parallel a => exact ⟨rfl, List.forall₂_same.mpr fun _ _ => ⟨rfl, ih _⟩⟩

theorem cellWise_cells {Q : C → C → Prop} (d : ℕ) {a b : Tree C d} (h : CellWise Q d a b) :
    List.Forall₂ Q (cells d a) (cells d b) := by
  induction d with
  | zero => exact .cons h .nil
  | succ d ih =>
    have key : ∀ {x y : List (Kid (Tree C d))},
        List.Forall₂ (fun x y => x.rc = y.rc ∧ CellWise Q d x.su y.su) x y →
        List.Forall₂ Q (x.flatMap fun k => cells d k.su) (y.flatMap fun k => cells d k.su) := by
      intro x y e
      induction e with
      | nil => exact .nil
      | cons p _ ihl => exact List.rel_append (ih p.2) ihl
    cases a <;> cases b <;> first
      | exact .cons h .nil
      | exact key h.2
      | exact h.elim

theorem moduleP_setCurrent_T {U : Type} [StorageUnit U] (m : ModuleP U) (i : ℚ) (b : Bool) :
    (m.setCurrent i b).2.T = m.T := by
  unfold ModuleP.setCurrent
  split_ifs
  · rfl
  · rfl
  · dsimp only
    generalize ModuleP.initLoop (U := U) _ _ _ = r
    obtain ⟨o, bs'⟩ := r
    cases o with
    | ok st =>
      obtain ⟨st, early⟩ := st
      cases early
      · dsimp only
        generalize ModuleP.eqLoop (U := U) _ _ bs' = r2
        obtain ⟨o, bs''⟩ := r2
        cases o <;> rfl
      · rfl
    | throw c => rfl
    | ub c => rfl

theorem moduleP_redistribute_T {U : Type} [StorageUnit U] (m : ModuleP U) : m.redistribute.2.T = m.T := by
  unfold ModuleP.redistribute
  split_ifs
  · rfl
  · rfl
  · dsimp only
    generalize ModuleP.eqLoop (U := U) _ _ _ = r2
    obtain ⟨o, bs''⟩ := r2
    cases o <;> rfl

theorem stepKids_ok {U : Type} [StorageUnit U] {R : U → U → Prop} (dt : ℚ) (k : ℕ)
    (hR : ∀ u, (timeStep u dt k).1 = .ok () → R u (timeStep u dt k).2) (ks : List (Kid U))
    (h : (stepKids dt k ks).1 = .ok ()) : KidsRel R ks (stepKids dt k ks).2 := by
  induction ks with
  | nil => exact .nil
  | cons a ks ih =>
    unfold stepKids at h ⊢
    have ha := hR a.su
    generalize timeStep a.su dt k = r at *
    obtain ⟨o, su'⟩ := r
    cases o with
    | ok _ => exact KidsRel.cons (ha rfl) (ih h)
    | throw c => simp at h
    | ub c => simp at h

theorem seriesString_cellWise {Q : C → C → Prop} (d : ℕ) {a b : Tree C d} (h : CellWise Q d a b)
    (ha : SeriesString d a) : SeriesString d b := by
  induction d with
  | zero => trivial
  | succ d ih =>
    have key : ∀ {x y : List (Kid (Tree C d))},
        List.Forall₂ (fun x y => x.rc = y.rc ∧ CellWise Q d x.su y.su) x y →
        (∀ k ∈ x, SeriesString d k.su) → ∀ k ∈ y, SeriesString d k.su := by
      intro x y e
      induction e with
      | nil => intro _ k hk; cases hk
      | cons p _ ihl =>
        intro hx k hk
        rcases List.mem_cons.mp hk with rfl | hk
        · exact ih p.2 (hx _ (List.mem_cons_self))
        · exact ihl (fun k hk => hx k (List.mem_cons_of_mem _ hk)) k hk
    cases a with
    | cell a => cases b <;> trivial
    | series a =>
      cases b with
      | series b => exact ⟨by have := h.2.length_eq; have := ha.1; omega, key h.2 ha.2⟩
      | cell b => exact h.elim
      | parallel b => exact h.elim
    | parallel a => exact ha.elim

theorem setLoop_unchecked {U : Type} [StorageUnit U] (i : ℚ) (ks : List (Kid U)) (done : List (ℚ × Kid U))
    (hl : done.length + ks.length ≤ 100) (h : ∀ k ∈ ks, (setCurrent k.su i false).1 = .ok .Success) :
    ModuleS.setLoop i false done ks =
      (.ok .Success, done.map Prod.snd ++ ks.map fun k => { k with su := (setCurrent k.su i false).2 }) := by
  induction ks generalizing done with
  | nil => simp [ModuleS.setLoop]
  | cons k ks ih =>
    unfold ModuleS.setLoop
    simp only [List.length_cons] at hl
    rw [if_neg (by unfold NSUs_MAX; omega)]
    have hk := h k (List.mem_cons_self)
    rw [List.map_cons]
    have ih' := ih (done ++ [(StorageUnit.I k.su, { k with su := (setCurrent k.su i false).2 })])
      (by simp only [List.length_append, List.length_singleton]; omega) (fun j hj => h j (List.mem_cons_of_mem _ hj))
    generalize setCurrent k.su i false = r at *
    obtain ⟨o, u⟩ := r
    cases hk
    dsimp only
    rw [isBad_success]
    simpa using ih'

theorem stepKids_ok' {U : Type} [StorageUnit U] (dt : ℚ) (k : ℕ) (ks : List (Kid U))
    (h : ∀ j ∈ ks, (timeStep j.su dt k).1 = .ok ()) : (stepKids dt k ks).1 = .ok () := by
  induction ks with
  | nil => rfl
  | cons a ks ih =>
    unfold stepKids
    have ha := h a (List.mem_cons_self)
    have ih' := ih fun j hj => h j (List.mem_cons_of_mem _ hj)
    generalize timeStep a.su dt k = r at *
    obtain ⟨o, u⟩ := r
    cases ha
    exact ih'

variable [StorageUnit C] [VoltageUnit C] [CellLaws C]

/-- The second cell is what the first one becomes when it alone is stepped, except (possibly) for its current. -/
def CellStepped (dt : ℚ) (k : ℕ) (a b : C) : Prop := (timeStep a dt k).1 = .ok () ∧ Only (timeStep a dt k).2 b

/-- setting the current of any tree – checked or not, accepted, rejected, throwing or undefined – changes
nothing but cell currents: shape, contact resistances, temperatures, SOC, RC currents and all counters stay. -/
theorem cells_setCurrent_only (d : ℕ) (t : Tree C d) (i : ℚ) (b : Bool) :
    CellWise Only d t (setCurrent t i b).2 := by
  induction d generalizing i b with
  | zero => exact only_set _ _ _
  | succ d ih =>
    have hR : CurRel (CellWise (C := C) Only d) :=
      ⟨cellWise_refl (Q := Only) only_refl d, cellWise_trans (P := Only) (Q := Only) (R := Only) (fun _ _ _ => only_trans) d, fun u i b => ih u i b⟩
    cases t with
    | cell c => exact only_set _ _ _
    | series m => exact ⟨rfl, setLoop_rel hR i b m.kids []⟩
    | parallel m => exact ⟨(moduleP_setCurrent_T m i b).symm, ModuleP.setCurrent_rel hR m i b⟩

theorem curRel_tree (d : ℕ) : CurRel (CellWise (C := C) Only d) :=
  ⟨cellWise_refl (Q := Only) only_refl d, cellWise_trans (P := Only) (Q := Only) (R := Only) (fun _ _ _ => only_trans) d, cells_setCurrent_only d⟩

theorem series_setVoltage_eq (d : ℕ) (m : ModuleS (Tree C d)) (v : ℚ) (fuel : ℕ) (ia : ℚ) :
    CellWise (C := C) Only (d + 1) (.series m) (.series (iterLoop v fuel ia m).2) := by
  have hR : CurRel (fun a b : ModuleS (Tree C d) =>
      CellWise (C := C) Only (d + 1) (.series a) (.series b)) :=
    ⟨fun a => cellWise_refl (Q := Only) only_refl (d + 1) (.series a),
     fun {a b c} h1 h2 => cellWise_trans (P := Only) (Q := Only) (R := Only) (fun _ _ _ => only_trans) (d + 1) (a := .series a) (b := .series b) (c := .series c) h1 h2,
     fun a i b => cells_setCurrent_only (d + 1) (.series a) i b⟩
  exact iterLoop_rel hR v fuel ia m

/-- setting the voltage of any tree changes nothing but cell currents. -/
theorem cells_setVoltage_only (d : ℕ) (t : Tree C d) (v : ℚ) :
    CellWise Only d t (VoltageUnit.setVoltage t v).2 := by
  cases d with
  | zero => exact only_setVoltage _ _
  | succ d =>
    cases t with
    | cell c => exact only_setVoltage _ _
    | series m => exact series_setVoltage_eq d m v 50 _
    | parallel m =>
      refine ⟨?_, ModuleP.setVoltage_rel (curRel_tree d) m v⟩
      show m.T = (m.setVoltage v).2.T
      unfold ModuleP.setVoltage
      split_ifs <;> rfl

/-- re-equalising the branches of a parallel module changes nothing but cell currents. -/
theorem cells_redistribute_only (d : ℕ) (m : ModuleP (Tree C d)) :
    CellWise (C := C) Only (d + 1) (.parallel m) (.parallel m.redistribute.2) :=
  ⟨(moduleP_redistribute_T m).symm, ModuleP.redistribute_rel (curRel_tree d) m⟩

/-- An accepted time step of any tree steps every cell exactly once, at the current it had before the call;
the later re-equalisation of parallel modules only changes currents. -/
theorem cells_timeStep_steps (d : ℕ) (t : Tree C d) (dt : ℚ) (k : ℕ) (h : (timeStep t dt k).1 = .ok ()) :
    CellWise (CellStepped dt k) d t (timeStep t dt k).2 := by
  induction d with
  | zero => exact ⟨h, only_refl _⟩
  | succ d ih =>
    cases t with
    | cell c => exact ⟨h, only_refl _⟩
    | series m =>
      change (ModuleS.timeStep m dt k).1 = _ at h
      show CellWise (C := C) (CellStepped dt k) (d + 1) (.series m) (.series (ModuleS.timeStep m dt k).2)
      unfold ModuleS.timeStep at h ⊢
      by_cases hdt : dt < 0
      · rw [if_pos hdt] at h; cases h
      · rw [if_neg hdt] at h ⊢
        exact ⟨rfl, stepKids_ok dt k ih m.kids h⟩
    | parallel m =>
      change (ModuleP.timeStep m dt k).1 = _ at h
      show CellWise (C := C) (CellStepped dt k) (d + 1) (.parallel m) (.parallel (ModuleP.timeStep m dt k).2)
      unfold ModuleP.timeStep at h ⊢
      by_cases hdt : dt < 0
      · rw [if_pos hdt] at h; cases h
      · rw [if_neg hdt] at h ⊢
        have hk := stepKids_ok dt k ih m.kids
        generalize stepKids dt k m.kids = r0 at h hk ⊢
        obtain ⟨o, ks⟩ := r0
        cases o with
        | throw c => cases h
        | ub c => cases h
        | ok _ =>
          have hk := hk rfl
          have hr := cells_redistribute_only d ({ m with kids := ks } : ModuleP (Tree C d))
          dsimp only at h ⊢
          generalize ModuleP.redistribute ({ m with kids := ks } : ModuleP (Tree C d)) = r at *
          obtain ⟨o2, m'⟩ := r
          cases o2 with
          | throw c => cases h
          | ub c => cases h
          | ok st =>
            dsimp only at h ⊢
            by_cases hst : st ≠ .Success
            · rw [if_pos hst] at h
              generalize ModuleP.redistribute m' = r3 at h
              obtain ⟨o3, m''⟩ := r3
              cases o3 <;> cases h
            · rw [if_neg hst]
              exact cellWise_trans (P := CellStepped dt k) (Q := Only) (R := CellStepped dt k)
                (fun _ _ _ h1 h2 => ⟨h1.1, only_trans h1.2 h2⟩) (d + 1) (a := .parallel m)
                (b := .parallel { m with kids := ks }) (c := .parallel m') ⟨rfl, hk⟩ hr


/-- An unchecked current is accepted by a series string and reaches every cell. -/
theorem seriesString_set (d : ℕ) (t : Tree C d) (i : ℚ) (h : SeriesString d t) :
    (setCurrent t i false).1 = .ok .Success ∧ ∀ c ∈ cells d (setCurrent t i false).2, I c = i := by
  induction d with
  | zero => exact ⟨(set_unchecked (C := C) t i).1, fun c hc => by rw [List.mem_singleton.mp hc]; exact (set_unchecked (C := C) t i).2⟩
  | succ d ih =>
    cases t with
    | cell t => exact ⟨(set_unchecked t i).1, fun c hc => by rw [List.mem_singleton.mp hc]; exact (set_unchecked t i).2⟩
    | parallel m => exact h.elim
    | series m =>
      have e := setLoop_unchecked i m.kids [] (by simpa using h.1) (fun k hk => (ih k.su (h.2 k hk)).1)
      refine ⟨?_, ?_⟩
      · show (ModuleS.setLoop i false [] m.kids).1 = _
        rw [e]
      · intro c hc
        change c ∈ (ModuleS.setLoop i false [] m.kids).2.flatMap fun k => cells d k.su at hc
        rw [e] at hc
        simp only [List.map_nil, List.nil_append, List.mem_flatMap, List.mem_map] at hc
        obtain ⟨_, ⟨k, hk, rfl⟩, hc⟩ := hc
        exact (ih k.su (h.2 k hk)).2 c hc

theorem seriesString_set_keeps (d : ℕ) (t : Tree C d) (i : ℚ) (b : Bool) (h : SeriesString d t) :
    SeriesString d (setCurrent t i b).2 :=
  seriesString_cellWise d (cells_setCurrent_only d t i b) h

omit [VoltageUnit C] [CellLaws C] in
/-- A non-negative time step is accepted by a series string of cells that accept it. -/
theorem seriesString_step [CellTotal C] (d : ℕ) (t : Tree C d) (dt : ℚ) (k : ℕ) (h : SeriesString d t) (hdt : 0 ≤ dt) :
    (timeStep t dt k).1 = .ok () := by
  induction d with
  | zero => exact step_ok (C := C) t dt k hdt
  | succ d ih =>
    cases t with
    | cell t => exact step_ok t dt k hdt
    | parallel m => exact h.elim
    | series m =>
      show (ModuleS.timeStep m dt k).1 = _
      unfold ModuleS.timeStep
      rw [if_neg (not_lt.mpr hdt)]
      exact stepKids_ok' dt k m.kids fun j hj => ih j.su (h.2 j hj)

theorem stepKids_rel {U : Type} [StorageUnit U] {R : U → U → Prop} (dt : ℚ) (k : ℕ) (hr : ∀ u, R u u)
    (hR : ∀ u, R u (timeStep u dt k).2) (ks : List (Kid U)) : KidsRel R ks (stepKids dt k ks).2 := by
  induction ks with
  | nil => exact .nil
  | cons a ks ih =>
    unfold stepKids
    have ha := hR a.su
    generalize timeStep a.su dt k = r at *
    obtain ⟨o, su'⟩ := r
    cases o with
    | ok _ => exact KidsRel.cons ha ih
    | throw c => exact KidsRel.cons ha (List.forall₂_same.mpr fun _ _ => ⟨rfl, hr _⟩)
    | ub c => exact KidsRel.cons ha (List.forall₂_same.mpr fun _ _ => ⟨rfl, hr _⟩)

/-- A relation between cells that holds for every change of the current and for every time step – accepted or not –
holds cell by cell for every time step of a tree, accepted or not. -/
theorem cells_timeStep_rel {R : C → C → Prop} (hrefl : ∀ a, R a a) (htrans : ∀ {a b c}, R a b → R b c → R a c)
    (honly : ∀ {a b}, Only a b → R a b) (dt : ℚ) (k : ℕ) (hstep : ∀ c : C, R c (timeStep c dt k).2)
    (d : ℕ) (t : Tree C d) : CellWise R d t (timeStep t dt k).2 := by
  induction d with
  | zero => exact hstep _
  | succ d ih =>
    cases t with
    | cell c => exact hstep _
    | series m =>
      show CellWise (C := C) R (d + 1) (.series m) (.series (ModuleS.timeStep m dt k).2)
      unfold ModuleS.timeStep
      by_cases hdt : dt < 0
      · rw [if_pos hdt]; exact cellWise_refl hrefl _ _
      · rw [if_neg hdt]
        exact ⟨rfl, stepKids_rel dt k (cellWise_refl hrefl d) ih m.kids⟩
    | parallel m =>
      show CellWise (C := C) R (d + 1) (.parallel m) (.parallel (ModuleP.timeStep m dt k).2)
      unfold ModuleP.timeStep
      by_cases hdt : dt < 0
      · rw [if_pos hdt]; exact cellWise_refl hrefl _ _
      · rw [if_neg hdt]
        have hk := stepKids_rel dt k (cellWise_refl hrefl d) ih m.kids
        generalize stepKids dt k m.kids = r0 at hk ⊢
        obtain ⟨o, ks⟩ := r0
        have hred : ∀ a b : ModuleP (Tree C d), CellWise (C := C) R (d + 1) (.parallel a) (.parallel b) →
            CellWise (C := C) R (d + 1) (.parallel a) (.parallel b.redistribute.2) := fun a b hab =>
          cellWise_trans (P := R) (Q := Only) (R := R) (fun _ _ _ h1 h2 => htrans h1 (honly h2)) (d + 1)
            (a := .parallel a) (b := .parallel b) (c := .parallel b.redistribute.2) hab (cells_redistribute_only d b)
        have hm : CellWise (C := C) R (d + 1) (.parallel m) (.parallel { m with kids := ks }) := ⟨rfl, hk⟩
        cases o with
        | throw c => exact hm
        | ub c => exact hm
        | ok _ =>
          have h1 := hred _ _ hm
          dsimp only
          generalize ModuleP.redistribute ({ m with kids := ks } : ModuleP (Tree C d)) = r at *
          obtain ⟨o2, m'⟩ := r
          cases o2 with
          | throw c => exact h1
          | ub c => exact h1
          | ok st =>
            dsimp only
            by_cases hst : st ≠ .Success
            · rw [if_pos hst]
              have h2 := hred _ _ h1
              dsimp only at h2
              generalize ModuleP.redistribute m' = r3 at h2 ⊢
              obtain ⟨o3, m''⟩ := r3
              cases o3 <;> exact h2
            · rw [if_neg hst]
              exact h1

theorem seriesString_step_keeps (d : ℕ) (t : Tree C d) (dt : ℚ) (k : ℕ) (h : SeriesString d t) :
    SeriesString d (timeStep t dt k).2 :=
  seriesString_cellWise (Q := fun _ _ => True) d
    (cells_timeStep_rel (R := fun _ _ => True) (fun _ => trivial) (fun _ _ => trivial) (fun _ => trivial) dt k
      (fun _ => trivial) d t) h

end Slide

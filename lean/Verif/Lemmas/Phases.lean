import Verif.Spec.Phases
import Verif.Lemmas.CellLaws
import Verif.Lemmas.CyclerLoops
import Verif.Lemmas.Modules
import Verif.Props.Parallel

/-! Lemmas for C157: no call on a tree of narrow modules has undefined behaviour, and the loops of the cycler end. -/

namespace Slide
open StorageUnit Spec

section units
variable {U : Type} [StorageUnit U] {P : U → Prop}

/-- A property of units that is kept by every `setCurrent` and under which `setCurrent` is defined. -/
structure SetSafe (P : U → Prop) : Prop where
  keeps : ∀ u i b, P u → P (setCurrent u i b).2
  defd : ∀ u i b, P u → (setCurrent u i b).1.Defined

theorem setLoop_defined (hP : SetSafe P) (i : ℚ) (b : Bool) (ks : List (Kid U)) : ∀ done : List (ℚ × Kid U),
    done.length + ks.length ≤ 100 → (∀ k ∈ ks, P k.su) → (ModuleS.setLoop i b done ks).1.Defined := by
  induction ks with
  | nil => intro done _ _; exact trivial
  | cons k ks ih =>
    intro done hl hk
    simp only [List.length_cons] at hl
    unfold ModuleS.setLoop
    rw [if_neg (by unfold NSUs_MAX; omega)]
    have hd := hP.defd k.su i b (hk k List.mem_cons_self)
    dsimp only
    generalize StorageUnit.setCurrent k.su i b = r at hd ⊢
    obtain ⟨st | e | w, su'⟩ := r
    · dsimp only
      split
      · exact trivial
      · exact ih _ (by simp; omega) fun x hx => hk x (List.mem_cons_of_mem _ hx)
    · exact trivial
    · exact hd.elim

open ModuleP in
theorem initLoop_defined (hP : SetSafe P) (dI : ℚ) (bs : List (Branch U)) : ∀ last : Status, (∀ b ∈ bs, P b.kid.su) →
    (initLoop dI last bs).1.Defined ∧ (∀ b ∈ (initLoop dI last bs).2, P b.kid.su) ∧
      (initLoop dI last bs).2.length = bs.length := by
  induction bs with
  | nil => intro last h; exact ⟨trivial, h, rfl⟩
  | cons b bs ih =>
    intro last h
    unfold initLoop
    have hd := hP.defd b.kid.su (b.ia + dI) true (h b List.mem_cons_self)
    have hk := hP.keeps b.kid.su (b.ia + dI) true (h b List.mem_cons_self)
    have ht : ∀ x ∈ bs, P x.kid.su := fun x hx => h x (List.mem_cons_of_mem _ hx)
    dsimp only
    generalize StorageUnit.setCurrent b.kid.su (b.ia + dI) true = r at hd hk ⊢
    obtain ⟨st | e | w, su'⟩ := r
    · dsimp only
      split
      · exact ⟨trivial, by intro x hx; rcases List.mem_cons.mp hx with rfl | hx; exacts [hk, ht x hx], rfl⟩
      · obtain ⟨h1, h2, h3⟩ := ih st ht
        exact ⟨h1, by intro x hx; rcases List.mem_cons.mp hx with rfl | hx; exacts [hk, h2 x hx], by simp [h3]⟩
    · exact ⟨trivial, by intro x hx; rcases List.mem_cons.mp hx with rfl | hx; exacts [hk, ht x hx], rfl⟩
    · exact hd.elim

open ModuleP in
theorem sweep_defined (hP : SetSafe P) (vm : ℚ) (bs : List (Branch U)) : ∀ va : List ℚ, bs.length ≤ va.length →
    (∀ b ∈ bs, P b.kid.su) →
    (sweep vm bs va).1.Defined ∧ (∀ b ∈ (sweep vm bs va).2, P b.kid.su) ∧ (sweep vm bs va).2.length = bs.length := by
  induction bs with
  | nil => intro va _ h; exact ⟨trivial, h, rfl⟩
  | cons b bs ih =>
    intro va hl h
    cases va with
    | nil => simp at hl
    | cons v va =>
      unfold sweep
      have hd := hP.defd b.kid.su (b.ia - (vm - v) * Cap b.kid.su) true (h b List.mem_cons_self)
      have hk := hP.keeps b.kid.su (b.ia - (vm - v) * Cap b.kid.su) true (h b List.mem_cons_self)
      have ht : ∀ x ∈ bs, P x.kid.su := fun x hx => h x (List.mem_cons_of_mem _ hx)
      dsimp only
      generalize StorageUnit.setCurrent b.kid.su (b.ia - (vm - v) * Cap b.kid.su) true = r at hd hk ⊢
      obtain ⟨st | e | w, su'⟩ := r
      · obtain ⟨h1, h2, h3⟩ := ih va (by simpa using hl) ht
        exact ⟨h1, by intro x hx; rcases List.mem_cons.mp hx with rfl | hx; exacts [hk, h2 x hx], by simp [h3]⟩
      · exact ⟨trivial, by intro x hx; rcases List.mem_cons.mp hx with rfl | hx; exacts [hk, ht x hx], rfl⟩
      · exact hd.elim

open ModuleP in
theorem eqLoop_defined (hP : SetSafe P) (tol : ℚ) (fuel : ℕ) : ∀ bs : List (Branch U), (∀ b ∈ bs, P b.kid.su) →
    (eqLoop tol fuel bs).1.Defined := by
  induction fuel with
  | zero => intro bs _; exact trivial
  | succ fuel ih =>
    intro bs h
    unfold eqLoop
    dsimp only
    split
    · exact trivial
    · have hs := sweep_defined hP (mean (vallLoop (kidsOf bs)).1) bs (vallLoop (kidsOf bs)).1
        (by rw [vallLoop_length]; simp [kidsOf]) h
      generalize sweep (mean (vallLoop (kidsOf bs)).1) bs (vallLoop (kidsOf bs)).1 = r at hs ⊢
      obtain ⟨st | e | w, bs'⟩ := r
      · exact ih bs' hs.2.1
      · exact trivial
      · exact hs.1.elim

theorem moduleP_set_defined (hP : SetSafe P) (m : ModuleP U) (i : ℚ) (b : Bool) (hl : m.kids.length ≤ 100)
    (hk : ∀ k ∈ m.kids, P k.su) : (m.setCurrent i b).1.Defined := by
  unfold ModuleP.setCurrent
  split
  · exact trivial
  · rw [if_neg (by unfold NSUs_MAX; omega)]
    dsimp only
    have hi := initLoop_defined hP ((i - tsum StorageUnit.I m.kids) / m.kids.length)
      (m.kids.map fun k => ({ kid := k, ia := StorageUnit.I k.su } : ModuleP.Branch U)) .Success (by
        intro x hx
        obtain ⟨k, hk', rfl⟩ := List.mem_map.mp hx
        exact hk k hk')
    generalize ModuleP.initLoop ((i - tsum StorageUnit.I m.kids) / m.kids.length) .Success
      (m.kids.map fun k => ({ kid := k, ia := StorageUnit.I k.su } : ModuleP.Branch U)) = r at hi ⊢
    obtain ⟨⟨st, _ | _⟩ | e | w, bs'⟩ := r
    · have he := eqLoop_defined hP (1/1000000000) 10550 bs' hi.2.1
      dsimp only
      generalize ModuleP.eqLoop (1/1000000000) 10550 bs' = r2 at he ⊢
      obtain ⟨c | e | w, bs''⟩ := r2
      · exact trivial
      · exact trivial
      · exact he.elim
    · exact trivial
    · exact trivial
    · exact hi.1.elim

theorem redistribute_defined (hP : SetSafe P) (m : ModuleP U) (hk : ∀ k ∈ m.kids, P k.su) :
    m.redistribute.1.Defined := by
  unfold ModuleP.redistribute
  split
  · exact trivial
  · split
    · exact trivial
    · dsimp only
      have he := eqLoop_defined hP (1/10000000000) 2500
        (m.kids.map fun k => ({ kid := k, ia := StorageUnit.I k.su } : ModuleP.Branch U)) (by
        intro x hx
        obtain ⟨k, hk', rfl⟩ := List.mem_map.mp hx
        exact hk k hk')
      generalize ModuleP.eqLoop (1/10000000000) 2500
        (m.kids.map fun k => ({ kid := k, ia := StorageUnit.I k.su } : ModuleP.Branch U)) = r2 at he ⊢
      obtain ⟨c | e | w, bs''⟩ := r2
      · exact trivial
      · exact trivial
      · exact he.elim

theorem stepKids_defined (dt : ℚ) (n : ℕ) (ks : List (Kid U)) (h : ∀ k ∈ ks, (timeStep k.su dt n).1.Defined) :
    (stepKids dt n ks).1.Defined := by
  induction ks with
  | nil => exact trivial
  | cons k ks ih =>
    unfold stepKids
    have hd := h k List.mem_cons_self
    generalize timeStep k.su dt n = r at hd ⊢
    obtain ⟨st | e | w, su'⟩ := r
    · exact ih fun x hx => h x (List.mem_cons_of_mem _ hx)
    · exact trivial
    · exact hd.elim

end units

section trees
variable {C : Type}

theorem narrow_cellWise {Q : C → C → Prop} (d : ℕ) {a b : Tree C d} (h : CellWise Q d a b)
    (ha : NarrowTree d a) : NarrowTree d b := by
  induction d with
  | zero => trivial
  | succ d ih =>
    have key : ∀ {x y : List (Kid (Tree C d))},
        List.Forall₂ (fun x y => x.rc = y.rc ∧ CellWise Q d x.su y.su) x y →
        (∀ k ∈ x, NarrowTree d k.su) → ∀ k ∈ y, NarrowTree d k.su := by
      intro x y e
      induction e with
      | nil => intro _ k hk; cases hk
      | cons p _ ihl =>
        intro hx k hk
        rcases List.mem_cons.mp hk with rfl | hk
        · exact ih p.2 (hx _ (List.mem_cons_self))
        · exact ihl (fun k hk => hx k (List.mem_cons_of_mem _ hk)) k hk
    cases a with
    | cell a => cases b <;> trivial
    | series a =>
      cases b with
      | series b => exact ⟨by have := h.2.length_eq; have := ha.1; omega, key h.2 ha.2⟩
      | cell b => exact h.elim
      | parallel b => exact h.elim
    | parallel a =>
      cases b with
      | parallel b => exact ⟨by have := h.2.length_eq; have := ha.1; omega, key h.2 ha.2⟩
      | cell b => exact h.elim
      | series b => exact h.elim

variable [StorageUnit C] [VoltageUnit C] [CellLaws C]

theorem narrow_set (d : ℕ) (t : Tree C d) (i : ℚ) (b : Bool) (h : NarrowTree d t) :
    NarrowTree d (setCurrent t i b).2 := narrow_cellWise d (cells_setCurrent_only d t i b) h

theorem narrow_step (d : ℕ) (t : Tree C d) (dt : ℚ) (k : ℕ) (h : NarrowTree d t) :
    NarrowTree d (timeStep t dt k).2 :=
  narrow_cellWise (Q := fun _ _ => True) d
    (cells_timeStep_rel (R := fun _ _ => True) (fun _ => trivial) (fun _ _ => trivial) (fun _ => trivial) dt k
      (fun _ => trivial) d t) h

variable [LawfulCurrent C] [CellTotal C]

omit [CellTotal C] in
theorem narrow_safe (d : ℕ) : SetSafe (NarrowTree (C := C) d) := by
  induction d with
  | zero =>
    refine ⟨fun u i b h => narrow_set 0 u i b h, fun u i b _ => ?_⟩
    obtain ⟨st, e⟩ := LawfulCurrent.returns (U := C) u i b
    show ((setCurrent (U := C) u i b).1).Defined
    rw [e]; exact trivial
  | succ d ih =>
    refine ⟨fun u i b h => narrow_set (d + 1) u i b h, fun u i b h => ?_⟩
    cases u with
    | cell c =>
      obtain ⟨st, e⟩ := LawfulCurrent.returns (U := C) c i b
      show ((setCurrent (U := C) c i b).1).Defined
      rw [e]; exact trivial
    | series m => exact setLoop_defined ih i b m.kids [] (by simpa using h.1) h.2
    | parallel m => exact moduleP_set_defined ih m i b h.1 h.2

omit [LawfulCurrent C] in
theorem cell_step_defined (c : C) (dt : ℚ) (k : ℕ) : (timeStep c dt k).1.Defined := by
  by_cases h : dt < 0
  · rw [(CellLaws.step_throws c dt k h).1]; exact trivial
  · rw [CellTotal.step_ok c dt k (not_lt.mp h)]; exact trivial

theorem narrow_step_defined (d : ℕ) (t : Tree C d) (dt : ℚ) (k : ℕ) (h : NarrowTree d t) :
    (timeStep t dt k).1.Defined := by
  induction d with
  | zero => exact cell_step_defined (C := C) t dt k
  | succ d ih =>
    cases t with
    | cell c => exact cell_step_defined (C := C) c dt k
    | series m =>
      show (ModuleS.timeStep m dt k).1.Defined
      unfold ModuleS.timeStep
      split
      · exact trivial
      · exact stepKids_defined dt k m.kids fun x hx => ih x.su (h.2 x hx)
    | parallel m =>
      show (ModuleP.timeStep m dt k).1.Defined
      unfold ModuleP.timeStep
      split
      · exact trivial
      · have hd := stepKids_defined dt k m.kids fun x hx => ih x.su (h.2 x hx)
        have hk := stepKids_rel (R := CellWise (C := C) (fun _ _ => True) d) dt k (cellWise_refl (fun _ => trivial) d)
          (fun t => cells_timeStep_rel (R := fun _ _ => True) (fun _ => trivial) (fun _ _ => trivial)
            (fun _ => trivial) dt k (fun _ => trivial) d t) m.kids
        generalize stepKids dt k m.kids = r at hd hk ⊢
        obtain ⟨st | e | w, ks⟩ := r
        · have hn : NarrowTree (C := C) (d + 1) (.parallel { m with kids := ks }) :=
            narrow_cellWise (C := C) (Q := fun _ _ => True) (d + 1) (a := .parallel m)
              (b := .parallel { m with kids := ks }) ⟨rfl, hk⟩ h
          have h1 := redistribute_defined (narrow_safe (C := C) d) ({ m with kids := ks } : ModuleP (Tree C d)) hn.2
          have h2 : NarrowTree (C := C) (d + 1) (.parallel (ModuleP.redistribute ({ m with kids := ks } : ModuleP (Tree C d))).2) :=
            narrow_cellWise (C := C) (Q := CellLaws.Only) (d + 1) (cells_redistribute_only d _) hn
          dsimp only
          generalize ModuleP.redistribute ({ m with kids := ks } : ModuleP (Tree C d)) = r1 at h1 h2 ⊢
          obtain ⟨st | e | w, m'⟩ := r1
          · dsimp only
            split
            · have h3 := redistribute_defined (narrow_safe (C := C) d) m' h2.2
              generalize ModuleP.redistribute m' = r2 at h3 ⊢
              obtain ⟨st | e | w, m''⟩ := r2
              · exact trivial
              · exact trivial
              · exact h3.elim
            · exact trivial
          · exact trivial
          · exact h1.elim
        · exact trivial
        · exact hd.elim

omit [LawfulCurrent C] [CellTotal C] in
/-- A negative step is refused by every tree. -/
theorem tree_step_throws (d : ℕ) (t : Tree C d) (dt : ℚ) (k : ℕ) (h : dt < 0) : (timeStep t dt k).1 = .throw 10 := by
  cases d with
  | zero => exact (CellLaws.step_throws (C := C) t dt k h).1
  | succ d =>
    cases t with
    | cell c => exact (CellLaws.step_throws (C := C) c dt k h).1
    | series m =>
      show (ModuleS.timeStep m dt k).1 = _
      unfold ModuleS.timeStep
      rw [if_pos h]
    | parallel m =>
      show (ModuleP.timeStep m dt k).1 = _
      unfold ModuleP.timeStep
      rw [if_pos h]

end trees

namespace Cyc
variable {U : Type} [StorageUnit U] {P : U → Prop}

/-- A property of units kept by the two calls of the cycler and under which both are defined. -/
structure CallSafe (P : U → Prop) : Prop extends SetSafe P where
  stepKeeps : ∀ u dt n, P u → P (timeStep u dt n).2
  stepDefd : ∀ u dt n, P u → (timeStep u dt n).1.Defined

/-- Enough fuel is enough for `CC` too. -/
theorem ccLoop_more {I vlim tlim : ℚ} {ndt : ℤ} {nMax : ℕ} (fuel k : ℕ) {v : CCVars} {c : Cyc U} {th : Thr}
    (hd : 0 < v.dti) (hn : 1 ≤ v.nOnce) (hm : 1 ≤ nMax) (hf : tlim ≤ v.ttot + fuel * v.dti) :
    ccLoop I vlim tlim ndt nMax (fuel + k) v c th = ccLoop I vlim tlim ndt nMax fuel v c th := by
  induction fuel generalizing v c th with
  | zero =>
    have hlt : ¬ v.ttot < tlim := by simp at hf; linarith
    cases k with
    | zero => rfl
    | succ k =>
      rw [Nat.zero_add]
      unfold ccLoop
      rw [if_neg hlt, if_neg hlt]
  | succ fuel ih =>
    rw [Nat.succ_add]
    unfold ccLoop
    by_cases hlt : v.ttot < tlim
    · rw [if_pos hlt, if_pos hlt]
      rcases hb : ccBody I vlim tlim ndt nMax v c th with ⟨o, c1, th1⟩
      match o, hb with
      | .throw e, _ => rfl
      | .ub e, _ => rfl
      | .ok (.ret st1), _ => rfl
      | .ok (.brk v1), _ => rfl
      | .ok (.cont v1), hb =>
        obtain ⟨dti, j, h1, h2, h3, h4, h5, h6, h7, h8, -⟩ := ccBody_next hb (Or.inr rfl) hlt hd hn hm
        refine ih (by rw [h3]; exact h1) h8 ?_
        rcases eq_or_lt_of_le h5 with e | e
        · rw [e, h3]; have : (0:ℚ) ≤ fuel * dti := by positivity
          linarith
        · rw [h3, h6 e]
          rcases h7 with e7 | e7
          · exact absurd e7 (ne_of_lt e)
          · push_cast at hf
            linarith
    · rw [if_neg hlt, if_neg hlt]

theorem cycSet_defined (hP : SetSafe P) (c : Cyc U) (I vlim : ℚ) (h : P c.su) : (c.setCurrent I vlim).1.Defined := by
  unfold Cyc.setCurrent
  have h1 := hP.defd c.su I c.diagnostic h
  have h2 := hP.keeps c.su I c.diagnostic h
  dsimp only
  generalize StorageUnit.setCurrent c.su I c.diagnostic = r at h1 h2 ⊢
  obtain ⟨st | e | w, u1⟩ := r
  · dsimp only
    split
    · have h3 := hP.defd u1 (StorageUnit.I c.su) false h2
      generalize StorageUnit.setCurrent u1 (StorageUnit.I c.su) false = r2 at h3 ⊢
      obtain ⟨st | e | w, u2⟩ := r2
      · exact trivial
      · exact trivial
      · exact h3.elim
    · split
      · exact trivial
      · split <;> exact trivial
  · exact trivial
  · exact h1.elim

theorem ccBody_defined (hP : CallSafe P) {I vlim tlim : ℚ} {ndt : ℤ} {nMax : ℕ} (v : CCVars) (c : Cyc U) (th : Thr)
    (h : P c.su) : (ccBody I vlim tlim ndt nMax v c th).1.Defined ∧ P (ccBody I vlim tlim ndt nMax v c th).2.1.su := by
  unfold ccBody
  have h1 := cycSet_defined hP.toSetSafe c I vlim h
  have h2 := cycSet_su (P := P) hP.keeps c I vlim h
  generalize c.setCurrent I vlim = r at h1 h2 ⊢
  obtain ⟨st | e | w, c1⟩ := r
  · dsimp only
    generalize (if (v.nOnce : ℚ) * v.dti > tlim - v.ttot then 1 else v.nOnce) = n1
    generalize (if v.dti > tlim - v.ttot then tlim - v.ttot else v.dti) = d1
    have h3 := hP.stepDefd c1.su d1 n1 h2
    have h4 := hP.stepKeeps c1.su d1 n1 h2
    generalize StorageUnit.timeStep c1.su d1 n1 = r2 at h3 h4 ⊢
    obtain ⟨⟨⟩ | e | w, u2⟩ := r2
    · dsimp only
      split
      · exact ⟨trivial, h4⟩
      ·
        split
        · exact ⟨trivial, by rw [storeIf_su]; exact h4⟩
        · exact ⟨trivial, by rw [storeIf_su]; exact h4⟩
    · exact ⟨trivial, h4⟩
    · exact h3.elim
  · exact ⟨trivial, h2⟩
  · exact h1.elim

theorem ccLoop_defined (hP : CallSafe P) {I vlim tlim : ℚ} {ndt : ℤ} {nMax : ℕ} (fuel : ℕ) {v : CCVars} {c : Cyc U}
    {th : Thr} (h : P c.su) (hd : 0 < v.dti) (hn : 1 ≤ v.nOnce) (hm : 1 ≤ nMax) (hf : tlim ≤ v.ttot + fuel * v.dti) :
    (ccLoop I vlim tlim ndt nMax fuel v c th).1.Defined := by
  induction fuel generalizing v c th with
  | zero =>
    have hlt : ¬ v.ttot < tlim := by simp at hf; linarith
    unfold ccLoop
    rw [if_neg hlt]; exact trivial
  | succ fuel ih =>
    unfold ccLoop
    by_cases hlt : v.ttot < tlim
    · rw [if_pos hlt]
      have hb' := ccBody_defined hP (I := I) (vlim := vlim) (tlim := tlim) (ndt := ndt) (nMax := nMax) v c th h
      rcases hb : ccBody I vlim tlim ndt nMax v c th with ⟨o, c1, th1⟩
      rw [hb] at hb'
      match o, hb, hb' with
      | .throw e, _, _ => exact trivial
      | .ub e, _, hb' => exact hb'.1.elim
      | .ok (.ret st1), _, _ => exact trivial
      | .ok (.brk v1), _, _ => exact trivial
      | .ok (.cont v1), hb, hb' =>
        obtain ⟨dti, j, h1, h2, h3, h4, h5, h6, h7, h8, -⟩ := ccBody_next hb (Or.inr rfl) hlt hd hn hm
        refine ih hb'.2 (by rw [h3]; exact h1) h8 ?_
        rcases eq_or_lt_of_le h5 with e | e
        · rw [e, h3]; have : (0:ℚ) ≤ fuel * dti := by positivity
          linarith
        · rw [h3, h6 e]
          rcases h7 with e7 | e7
          · exact absurd e7 (ne_of_lt e)
          · push_cast at hf
            linarith
    · rw [if_neg hlt]; exact trivial

theorem restBody_defined (hP : CallSafe P) {tlim : ℚ} {ndt : ℤ} {nMax : ℕ} (v : RestVars) (c : Cyc U)
    (h : P c.su) : (restBody tlim ndt nMax v c).1.Defined ∧ P (restBody tlim ndt nMax v c).2.su := by
  unfold restBody
  have h1 := hP.defd c.su 0 false h
  have h2 := hP.keeps c.su 0 false h
  generalize StorageUnit.setCurrent c.su 0 false = r at h1 h2 ⊢
  obtain ⟨st | e | w, u1⟩ := r
  · dsimp only
    split
    · exact ⟨trivial, h2⟩
    ·
      generalize (if (v.nOnce : ℚ) * v.dti > tlim - v.ttot then 1 else v.nOnce) = n1
      generalize (if v.dti > tlim - v.ttot then tlim - v.ttot else v.dti) = d1
      have h3 := hP.stepDefd u1 d1 n1 h2
      have h4 := hP.stepKeeps u1 d1 n1 h2
      generalize StorageUnit.timeStep u1 d1 n1 = r2 at h3 h4 ⊢
      obtain ⟨⟨⟩ | e | w, u2⟩ := r2
      · exact ⟨trivial, by dsimp only; rw [storeIf_su]; exact h4⟩
      · exact ⟨trivial, h4⟩
      · exact h3.elim
  · exact ⟨trivial, h2⟩
  · exact h1.elim

theorem restLoop_defined (hP : CallSafe P) {tlim : ℚ} {ndt : ℤ} {nMax : ℕ} (fuel : ℕ) {v : RestVars} {c : Cyc U}
    (h : P c.su) (hd : 0 < v.dti) (hn : 1 ≤ v.nOnce) (hm : 1 ≤ nMax) (hf : tlim ≤ v.ttot + fuel * v.dti) :
    (restLoop tlim ndt nMax fuel v c).1.Defined ∧ P (restLoop tlim ndt nMax fuel v c).2.su := by
  induction fuel generalizing v c with
  | zero =>
    have hlt : ¬ v.ttot < tlim := by simp at hf; linarith
    unfold restLoop
    rw [if_neg hlt]; exact ⟨trivial, h⟩
  | succ fuel ih =>
    unfold restLoop
    by_cases hlt : v.ttot < tlim
    · rw [if_pos hlt]
      have hb' := restBody_defined hP (tlim := tlim) (ndt := ndt) (nMax := nMax) v c h
      rcases hb : restBody tlim ndt nMax v c with ⟨o, c1⟩
      rw [hb] at hb'
      match o, hb, hb' with
      | .throw e, _, hb' => exact ⟨trivial, hb'.2⟩
      | .ub e, _, hb' => exact hb'.1.elim
      | .ok (.inl st1), _, hb' => exact ⟨trivial, hb'.2⟩
      | .ok (.inr v1), hb, hb' =>
        obtain ⟨dti, j, h1, h2, h3, h4, h5, h6, h7, h8, -⟩ := restBody_inr hb hlt hd hn hm
        refine ih hb'.2 (by rw [h3]; exact h1) h8 ?_
        rcases eq_or_lt_of_le h5 with e | e
        · rw [e, h3]; have : (0:ℚ) ≤ fuel * dti := by positivity
          linarith
        · rw [h3, h6 e]
          rcases h7 with e7 | e7
          · exact absurd e7 (ne_of_lt e)
          · push_cast at hf
            linarith
    · rw [if_neg hlt]; exact ⟨trivial, h⟩

end Cyc
end Slide

import Verif.Model.SetVoltage
import Verif.Lemmas.Modules
import Verif.Spec.Tree

/-!
Lifting of a relation that `setCurrent` of the children preserves to the current- and voltage-setting functions of the
modules.
-/

namespace Slide
open StorageUnit

/-- A preorder that `setCurrent` stays inside. -/
structure CurRel {U : Type} [StorageUnit U] (R : U → U → Prop) : Prop where
  refl : ∀ u, R u u
  trans : ∀ {a b c}, R a b → R b c → R a c
  set : ∀ (u : U) i b, R u (setCurrent u i b).2

variable {U : Type} [StorageUnit U] {R : U → U → Prop}

/-- Children lists related child by child, with the same contact resistances. -/
def KidsRel (R : U → U → Prop) (a b : List (Kid U)) : Prop := List.Forall₂ (fun x y => x.rc = y.rc ∧ R x.su y.su) a b

theorem KidsRel.refl (h : CurRel R) (a : List (Kid U)) : KidsRel R a a :=
  List.forall₂_same.mpr fun _ _ => ⟨rfl, h.refl _⟩

theorem KidsRel.trans (h : CurRel R) {a b c : List (Kid U)} (h1 : KidsRel R a b) (h2 : KidsRel R b c) : KidsRel R a c := by
  unfold KidsRel at *
  induction h1 generalizing c with
  | nil => cases h2; exact .nil
  | cons h' _ ih =>
    cases h2 with
    | cons h'' t' => exact .cons ⟨h'.1.trans h''.1, h.trans h'.2 h''.2⟩ (ih t')

omit [StorageUnit U] in
theorem KidsRel.append {a b c d : List (Kid U)} (h1 : KidsRel R a b) (h2 : KidsRel R c d) :
    KidsRel R (a ++ c) (b ++ d) := List.rel_append h1 h2

omit [StorageUnit U] in
theorem KidsRel.cons {k : Kid U} {su : U} {a b : List (Kid U)} (h : R k.su su) (h2 : KidsRel R a b) :
    KidsRel R (k :: a) ({ k with su := su } :: b) := List.Forall₂.cons ⟨rfl, h⟩ h2

theorem restore_rel (h : CurRel R) (l : List (ℚ × Kid U)) : KidsRel R (l.map Prod.snd) (ModuleS.restore l) := by
  cases l with
  | nil => exact .nil
  | cons p ps =>
    refine List.Forall₂.cons ⟨rfl, h.refl _⟩ ?_
    induction ps with
    | nil => exact .nil
    | cons q qs ih => exact List.Forall₂.cons ⟨rfl, h.set _ _ _⟩ ih

theorem setLoop_rel (h : CurRel R) (i : ℚ) (b : Bool) (ks : List (Kid U)) (done : List (ℚ × Kid U)) :
    KidsRel R (done.map Prod.snd ++ ks) (ModuleS.setLoop i b done ks).2 := by
  induction ks generalizing done with
  | nil => simpa [ModuleS.setLoop] using KidsRel.refl h _
  | cons k ks ih =>
    have hk : R k.su (setCurrent k.su i b).2 := h.set _ _ _
    have h1 : KidsRel R (done.map Prod.snd ++ k :: ks)
        ((done ++ [(StorageUnit.I k.su, { k with su := (setCurrent k.su i b).2 })]).map Prod.snd ++ ks) := by
      simp only [List.map_append, List.map_cons, List.map_nil, List.append_assoc, List.singleton_append]
      exact (KidsRel.refl h _).append (KidsRel.cons hk (KidsRel.refl h _))
    unfold ModuleS.setLoop
    split_ifs with hl
    · exact KidsRel.refl h _
    · generalize hr : setCurrent k.su i b = r at *
      obtain ⟨o, su'⟩ := r
      cases o with
      | ok st =>
        dsimp only
        split_ifs
        · exact h1.trans h ((restore_rel h _).append (KidsRel.refl h _))
        · exact h1.trans h (ih _)
      | throw c => exact (KidsRel.refl h _).append (KidsRel.cons hk (KidsRel.refl h _))
      | ub c => exact (KidsRel.refl h _).append (KidsRel.cons hk (KidsRel.refl h _))

namespace ModuleP

theorem initLoop_rel (h : CurRel R) (dI : ℚ) (st : Status) (bs : List (Branch U)) :
    KidsRel R (kidsOf bs) (kidsOf (initLoop dI st bs).2) := by
  induction bs generalizing st with
  | nil => exact .nil
  | cons b bs ih =>
    have hk : R b.kid.su (StorageUnit.setCurrent b.kid.su (b.ia + dI) true).2 := h.set _ _ _
    unfold initLoop
    dsimp only
    generalize hr : StorageUnit.setCurrent b.kid.su (b.ia + dI) true = r at *
    obtain ⟨o, su'⟩ := r
    cases o with
    | ok st =>
      dsimp only
      split_ifs
      · exact KidsRel.cons hk (KidsRel.refl h _)
      · exact KidsRel.cons hk (ih _)
    | throw c => exact KidsRel.cons hk (KidsRel.refl h _)
    | ub c => exact KidsRel.cons hk (KidsRel.refl h _)

theorem sweep_rel (h : CurRel R) (v : ℚ) (bs : List (Branch U)) (vs : List ℚ) :
    KidsRel R (kidsOf bs) (kidsOf (sweep v bs vs).2) := by
  induction bs generalizing vs with
  | nil => cases vs <;> exact .nil
  | cons b bs ih =>
    cases vs with
    | nil => exact KidsRel.refl h _
    | cons va vas =>
      have hk : R b.kid.su
          (StorageUnit.setCurrent b.kid.su (b.ia - (v - va) * StorageUnit.Cap b.kid.su) true).2 := h.set _ _ _
      unfold sweep
      dsimp only
      generalize hr : StorageUnit.setCurrent b.kid.su (b.ia - (v - va) * StorageUnit.Cap b.kid.su) true = r at *
      obtain ⟨o, su'⟩ := r
      cases o with
      | ok st => exact KidsRel.cons hk (ih _)
      | throw c => exact KidsRel.cons hk (KidsRel.refl h _)
      | ub c => exact KidsRel.cons hk (KidsRel.refl h _)

theorem eqLoop_rel (h : CurRel R) (tol : ℚ) (fuel : ℕ) (bs : List (Branch U)) :
    KidsRel R (kidsOf bs) (kidsOf (eqLoop tol fuel bs).2) := by
  induction fuel generalizing bs with
  | zero => exact KidsRel.refl h _
  | succ fuel ih =>
    unfold eqLoop
    dsimp only
    split_ifs
    · exact KidsRel.refl h _
    · have h' := sweep_rel h (mean (vallLoop (kidsOf bs)).1) bs (vallLoop (kidsOf bs)).1
      generalize hr : sweep (mean (vallLoop (kidsOf bs)).1) bs (vallLoop (kidsOf bs)).1 = r at *
      obtain ⟨o, bs'⟩ := r
      cases o with
      | ok st => exact h'.trans h (ih _)
      | throw c => exact h'
      | ub c => exact h'

theorem vSweep_rel (h : CurRel R) (v : ℚ) (bs : List (Branch U)) (vs : List ℚ) :
    KidsRel R (kidsOf bs) (kidsOf (vSweep v bs vs).2) := by
  induction bs generalizing vs with
  | nil => cases vs <;> exact .nil
  | cons b bs ih =>
    cases vs with
    | nil => exact KidsRel.refl h _
    | cons va vas =>
      have hk : R b.kid.su
          (StorageUnit.setCurrent b.kid.su (b.ia + (-(2/10)) * (v - va) / (1/1000)) true).2 := h.set _ _ _
      unfold vSweep
      dsimp only
      generalize hr : StorageUnit.setCurrent b.kid.su (b.ia + (-(2/10)) * (v - va) / (1/1000)) true = r at *
      obtain ⟨o, su'⟩ := r
      cases o with
      | ok st => exact KidsRel.cons hk (ih _)
      | throw c => exact KidsRel.cons hk (KidsRel.refl h _)
      | ub c => exact KidsRel.cons hk (KidsRel.refl h _)

theorem vLoopP_rel (h : CurRel R) (v : ℚ) (fuel : ℕ) (bs : List (Branch U)) :
    KidsRel R (kidsOf bs) (kidsOf (vLoopP v fuel bs).2) := by
  induction fuel generalizing bs with
  | zero => exact KidsRel.refl h _
  | succ fuel ih =>
    unfold vLoopP
    dsimp only
    split_ifs
    · exact KidsRel.refl h _
    · have h' := vSweep_rel h v bs (vallLoop (kidsOf bs)).1
      generalize hr : vSweep v bs (vallLoop (kidsOf bs)).1 = r at *
      obtain ⟨o, bs'⟩ := r
      cases o with
      | ok st => exact h'.trans h (ih _)
      | throw c => exact h'
      | ub c => exact h'

theorem kidsOf_init (ks : List (Kid U)) :
    kidsOf (ks.map fun k => ({ kid := k, ia := StorageUnit.I k.su } : Branch U)) = ks := by
  simp [kidsOf, Function.comp_def]

theorem setCurrent_rel (h : CurRel R) (m : ModuleP U) (i : ℚ) (b : Bool) :
    KidsRel R m.kids (m.setCurrent i b).2.kids := by
  unfold setCurrent
  split_ifs
  · exact KidsRel.refl h _
  · exact KidsRel.refl h _
  · dsimp only
    have h1 := initLoop_rel h ((i - tsum StorageUnit.I m.kids) / m.kids.length) .Success
      (m.kids.map fun k => ({ kid := k, ia := StorageUnit.I k.su } : Branch U))
    rw [kidsOf_init] at h1
    generalize initLoop ((i - tsum StorageUnit.I m.kids) / m.kids.length) .Success
      (m.kids.map fun k => ({ kid := k, ia := StorageUnit.I k.su } : Branch U)) = r at *
    obtain ⟨o, bs'⟩ := r
    cases o with
    | ok st =>
      obtain ⟨st, early⟩ := st
      cases early
      · dsimp only
        have h2 := eqLoop_rel h (1/1000000000) 10550 bs'
        generalize eqLoop (1/1000000000) 10550 bs' = r2 at *
        obtain ⟨o, bs''⟩ := r2
        cases o <;> exact h1.trans h h2
      · exact h1
    | throw c => exact h1
    | ub c => exact h1

theorem redistribute_rel (h : CurRel R) (m : ModuleP U) : KidsRel R m.kids m.redistribute.2.kids := by
  unfold redistribute
  split_ifs
  · exact KidsRel.refl h _
  · exact KidsRel.refl h _
  · dsimp only
    have h2 := eqLoop_rel h (1/10000000000) 2500
      (m.kids.map fun k => ({ kid := k, ia := StorageUnit.I k.su } : Branch U))
    rw [kidsOf_init] at h2
    generalize eqLoop (1/10000000000) 2500
      (m.kids.map fun k => ({ kid := k, ia := StorageUnit.I k.su } : Branch U)) = r2 at *
    obtain ⟨o, bs''⟩ := r2
    cases o <;> exact h2

theorem setVoltage_rel (h : CurRel R) (m : ModuleP U) (v : ℚ) : KidsRel R m.kids (m.setVoltage v).2.kids := by
  unfold setVoltage
  split_ifs
  · exact KidsRel.refl h _
  · have h2 := vLoopP_rel h v 50 (m.kids.map fun k => ({ kid := k, ia := StorageUnit.I k.su } : Branch U))
    rw [kidsOf_init] at h2
    exact h2

end ModuleP

/-- `setVoltage_iterative` only calls `setCurrent`. -/
theorem iterLoop_rel (h : CurRel R) (v : ℚ) (fuel : ℕ) (ia : ℚ) (u : U) : R u (iterLoop v fuel ia u).2 := by
  induction fuel generalizing ia u with
  | zero => exact h.refl _
  | succ fuel ih =>
    unfold iterLoop
    by_cases h1 : |v - V u| < 1/1000000
    · simp only [h1, if_true]; exact h.refl _
    · simp only [h1, if_false]
      generalize (if v > V u then ia - 1/100 * Cap u else ia + 1/100 * Cap u) = ib
      have hk : R u (setCurrent u ib true).2 := h.set _ _ _
      generalize hr : setCurrent u ib true = r at *
      obtain ⟨o, u1⟩ := r
      cases o with
      | throw c => exact hk
      | ub c => exact hk
      | ok st =>
        dsimp only
        split_ifs
        · exact hk
        · generalize (ib - (V u1 - v) * ((ia - ib) / (V u - V u1))) = ia'
          have hk2 : R u1 (setCurrent u1 ia' true).2 := h.set _ _ _
          generalize hr2 : setCurrent u1 ia' true = r2 at *
          obtain ⟨o, u2⟩ := r2
          cases o with
          | throw c => exact h.trans hk hk2
          | ub c => exact h.trans hk hk2
          | ok st => exact h.trans (h.trans hk hk2) (ih _ _)

end Slide

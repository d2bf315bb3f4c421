import Verif.Lemmas.Modules

/-!
Lifting of "same structure" and of the state round trip from children to modules.
-/

namespace Slide
open StorageUnit

/-- A structure relation that every call preserves. -/
class LawfulStates (U : Type) [StorageUnit U] where
  Same : U → U → Prop
  Valid : U → Prop
  refl : ∀ u, Same u u
  trans : ∀ {a b c}, Same a b → Same b c → Same a c
  setCurrent_same : ∀ (u : U) i b, Same u (setCurrent u i b).2
  timeStep_same : ∀ (u : U) dt n, Same u (timeStep u dt n).2
  setStates_same : ∀ (u : U) s b, Same u (setStates u s b).2
  roundtrip : ∀ (u w : U) rest, Same u w → Valid u →
    setStates w (getStates u ++ rest) false = (.ok (.Success, rest), u)

export LawfulStates (Same Valid)

variable {U : Type} [StorageUnit U] [LawfulStates U]

/-- Children lists with the same structure. -/
def SameKids (a b : List (Kid U)) : Prop := List.Forall₂ (fun x y => x.rc = y.rc ∧ Same x.su y.su) a b

theorem SameKids.refl (a : List (Kid U)) : SameKids a a :=
  List.forall₂_same.mpr fun _ _ => ⟨rfl, LawfulStates.refl _⟩

theorem SameKids.trans {a b c : List (Kid U)} (h1 : SameKids a b) (h2 : SameKids b c) : SameKids a c := by
  unfold SameKids at *
  induction h1 generalizing c with
  | nil => cases h2; exact .nil
  | cons h _ ih =>
    cases h2 with
    | cons h' t' => exact .cons ⟨h.1.trans h'.1, LawfulStates.trans h.2 h'.2⟩ (ih t')

theorem SameKids.append {a b c d : List (Kid U)} (h1 : SameKids a b) (h2 : SameKids c d) :
    SameKids (a ++ c) (b ++ d) := List.rel_append h1 h2

theorem SameKids.cons {k : Kid U} {su : U} {a b : List (Kid U)} (h : Same k.su su) (h2 : SameKids a b) :
    SameKids (k :: a) ({ k with su := su } :: b) := List.Forall₂.cons ⟨rfl, h⟩ h2

theorem SameKids.length {a b : List (Kid U)} (h : SameKids a b) : a.length = b.length :=
  List.Forall₂.length_eq h

theorem restore_same (l : List (ℚ × Kid U)) : SameKids (l.map Prod.snd) (ModuleS.restore l) := by
  cases l with
  | nil => exact .nil
  | cons p ps =>
    refine List.Forall₂.cons ⟨rfl, LawfulStates.refl _⟩ ?_
    induction ps with
    | nil => exact .nil
    | cons q qs ih => exact List.Forall₂.cons ⟨rfl, LawfulStates.setCurrent_same _ _ _⟩ ih

theorem setLoop_same (i : ℚ) (b : Bool) (ks : List (Kid U)) (done : List (ℚ × Kid U)) :
    SameKids (done.map Prod.snd ++ ks) (ModuleS.setLoop i b done ks).2 := by
  induction ks generalizing done with
  | nil => simpa [ModuleS.setLoop] using SameKids.refl _
  | cons k ks ih =>
    have hk : Same k.su (setCurrent k.su i b).2 := LawfulStates.setCurrent_same _ _ _
    have h1 : SameKids (done.map Prod.snd ++ k :: ks)
        ((done ++ [(StorageUnit.I k.su, { k with su := (setCurrent k.su i b).2 })]).map Prod.snd ++ ks) := by
      simp only [List.map_append, List.map_cons, List.map_nil, List.append_assoc, List.singleton_append]
      exact (SameKids.refl _).append (SameKids.cons hk (SameKids.refl _))
    unfold ModuleS.setLoop
    split_ifs with hl
    · exact SameKids.refl _
    · generalize hr : setCurrent k.su i b = r at *
      obtain ⟨o, su'⟩ := r
      cases o with
      | ok st =>
        dsimp only
        split_ifs
        · exact h1.trans ((restore_same _).append (SameKids.refl _))
        · exact h1.trans (ih _)
      | throw c => exact (SameKids.refl _).append (SameKids.cons hk (SameKids.refl _))
      | ub c => exact (SameKids.refl _).append (SameKids.cons hk (SameKids.refl _))

theorem stepKids_same (dt : ℚ) (n : ℕ) (ks : List (Kid U)) : SameKids ks (stepKids dt n ks).2 := by
  induction ks with
  | nil => exact .nil
  | cons k ks ih =>
    have hk : Same k.su (timeStep k.su dt n).2 := LawfulStates.timeStep_same _ _ _
    unfold stepKids
    generalize hr : timeStep k.su dt n = r at *
    obtain ⟨o, su'⟩ := r
    cases o with
    | ok st => exact SameKids.cons hk ih
    | throw c => exact SameKids.cons hk (SameKids.refl _)
    | ub c => exact SameKids.cons hk (SameKids.refl _)

theorem rollback_same (cnt : ℕ) (su : U) (s : List ℚ) : Same su (rollback su s cnt).2 := by
  induction cnt generalizing su s with
  | zero => exact LawfulStates.refl _
  | succ cnt ih =>
    have hk : Same su (setStates su s false).2 := LawfulStates.setStates_same _ _ _
    unfold rollback
    generalize hr : setStates su s false = r at *
    obtain ⟨o, su'⟩ := r
    cases o with
    | ok st => exact LawfulStates.trans hk (ih _ _)
    | throw c => exact hk
    | ub c => exact hk

theorem setStatesLoop_same (orig : List ℚ) (b : Bool) (i : ℕ) (ks : List (Kid U)) (s : List ℚ) :
    SameKids ks (setStatesLoop orig b i ks s).2 := by
  induction ks generalizing i s with
  | nil => exact .nil
  | cons k ks ih =>
    have hk : Same k.su (setStates k.su s b).2 := LawfulStates.setStates_same _ _ _
    unfold setStatesLoop
    generalize hr : setStates k.su s b = r at *
    obtain ⟨o, su'⟩ := r
    cases o with
    | ok st =>
      obtain ⟨st, s'⟩ := st
      dsimp only
      split_ifs
      · have h2 := rollback_same (i+1) su' orig
        generalize hq : rollback su' orig (i+1) = q at *
        obtain ⟨o, su''⟩ := q
        cases o <;> exact SameKids.cons (LawfulStates.trans hk h2) (SameKids.refl _)
      · exact SameKids.cons hk (ih _ _)
    | throw c => exact SameKids.cons hk (SameKids.refl _)
    | ub c => exact SameKids.cons hk (SameKids.refl _)

theorem modSetStates_same (T : ℚ) (ks : List (Kid U)) (s : List ℚ) (b : Bool) :
    SameKids ks (modSetStates T ks s b).2.2 := by
  have h := setStatesLoop_same (modGetStates T ks) b 0 ks s
  unfold modSetStates
  generalize hr : setStatesLoop (modGetStates T ks) b 0 ks s = r at *
  obtain ⟨o, ks'⟩ := r
  dsimp only at h ⊢
  split <;> simp_all
  split_ifs <;> exact h

theorem setStatesLoop_roundtrip (orig : List ℚ) (i : ℕ) (us ws : List (Kid U)) (rest : List ℚ)
    (hs : SameKids us ws) (hv : ∀ k ∈ us, Valid k.su) :
    setStatesLoop orig false i ws ((us.map fun k => getStates k.su).flatten ++ rest) =
      (.ok (.Success, false, rest), us) := by
  unfold SameKids at hs
  induction hs generalizing i with
  | nil => simp [setStatesLoop]
  | @cons x y us ws h _ ih =>
    have hrt := LawfulStates.roundtrip x.su y.su ((us.map fun k => getStates k.su).flatten ++ rest) h.2
      (hv x (by simp))
    unfold setStatesLoop
    simp only [List.map_cons, List.flatten_cons, List.append_assoc]
    rw [hrt]
    dsimp only
    rw [if_neg (by decide), ih (i+1) (fun k hk => hv k (by simp [hk]))]
    obtain ⟨r, su⟩ := x
    obtain ⟨r', su'⟩ := y
    simp only at h
    simp [h.1]

theorem modSetStates_roundtrip (T T' : ℚ) (us ws : List (Kid U)) (rest : List ℚ)
    (hs : SameKids us ws) (hv : ∀ k ∈ us, Valid k.su) (hT : 273 ≤ T) :
    modSetStates T' ws (modGetStates T us ++ rest) false = (.ok (.Success, rest), T, us) := by
  unfold modSetStates
  dsimp only
  have : modGetStates T us ++ rest = (us.map fun k => getStates k.su).flatten ++ (T :: rest) := by
    simp [modGetStates]
  rw [this, setStatesLoop_roundtrip _ _ _ _ _ hs hv]
  simp [not_lt.mpr hT]

namespace ModuleP

theorem initLoop_same (dI : ℚ) (st : Status) (bs : List (Branch U)) :
    SameKids (kidsOf bs) (kidsOf (initLoop dI st bs).2) := by
  induction bs generalizing st with
  | nil => exact .nil
  | cons b bs ih =>
    have hk : Same b.kid.su (StorageUnit.setCurrent b.kid.su (b.ia + dI) true).2 :=
      LawfulStates.setCurrent_same _ _ _
    unfold initLoop
    dsimp only
    generalize hr : StorageUnit.setCurrent b.kid.su (b.ia + dI) true = r at *
    obtain ⟨o, su'⟩ := r
    cases o with
    | ok st =>
      dsimp only
      split_ifs
      · exact SameKids.cons hk (SameKids.refl _)
      · exact SameKids.cons hk (ih _)
    | throw c => exact SameKids.cons hk (SameKids.refl _)
    | ub c => exact SameKids.cons hk (SameKids.refl _)

theorem sweep_same (v : ℚ) (bs : List (Branch U)) (vs : List ℚ) :
    SameKids (kidsOf bs) (kidsOf (sweep v bs vs).2) := by
  induction bs generalizing vs with
  | nil => cases vs <;> exact .nil
  | cons b bs ih =>
    cases vs with
    | nil => exact SameKids.refl _
    | cons va vas =>
      have hk : Same b.kid.su
          (StorageUnit.setCurrent b.kid.su (b.ia - (v - va) * StorageUnit.Cap b.kid.su) true).2 :=
        LawfulStates.setCurrent_same _ _ _
      unfold sweep
      dsimp only
      generalize hr : StorageUnit.setCurrent b.kid.su (b.ia - (v - va) * StorageUnit.Cap b.kid.su) true = r at *
      obtain ⟨o, su'⟩ := r
      cases o with
      | ok st => exact SameKids.cons hk (ih _)
      | throw c => exact SameKids.cons hk (SameKids.refl _)
      | ub c => exact SameKids.cons hk (SameKids.refl _)

theorem eqLoop_same (tol : ℚ) (fuel : ℕ) (bs : List (Branch U)) :
    SameKids (kidsOf bs) (kidsOf (eqLoop tol fuel bs).2) := by
  induction fuel generalizing bs with
  | zero => exact SameKids.refl _
  | succ fuel ih =>
    unfold eqLoop
    dsimp only
    split_ifs
    · exact SameKids.refl _
    · have h := sweep_same (mean (vallLoop (kidsOf bs)).1) bs (vallLoop (kidsOf bs)).1
      generalize hr : sweep (mean (vallLoop (kidsOf bs)).1) bs (vallLoop (kidsOf bs)).1 = r at *
      obtain ⟨o, bs'⟩ := r
      cases o with
      | ok st => exact h.trans (ih _)
      | throw c => exact h
      | ub c => exact h

omit [LawfulStates U] in
theorem kidsOf_start (ks : List (Kid U)) :
    kidsOf (ks.map fun k => ({ kid := k, ia := StorageUnit.I k.su } : Branch U)) = ks := by
  simp [kidsOf, Function.comp_def]

theorem setCurrent_same (m : ModuleP U) (i : ℚ) (b : Bool) : SameKids m.kids (m.setCurrent i b).2.kids := by
  unfold setCurrent
  split_ifs
  · exact SameKids.refl _
  · exact SameKids.refl _
  · dsimp only
    have h1 := initLoop_same ((i - tsum StorageUnit.I m.kids) / m.kids.length) .Success
      (m.kids.map fun k => ({ kid := k, ia := StorageUnit.I k.su } : Branch U))
    rw [kidsOf_start] at h1
    generalize initLoop ((i - tsum StorageUnit.I m.kids) / m.kids.length) .Success
      (m.kids.map fun k => ({ kid := k, ia := StorageUnit.I k.su } : Branch U)) = r at *
    obtain ⟨o, bs'⟩ := r
    cases o with
    | ok st =>
      obtain ⟨st, early⟩ := st
      cases early
      · dsimp only
        have h2 := eqLoop_same (1/1000000000) 10550 bs'
        generalize eqLoop (1/1000000000) 10550 bs' = r2 at *
        obtain ⟨o, bs''⟩ := r2
        cases o <;> exact h1.trans h2
      · exact h1
    | throw c => exact h1
    | ub c => exact h1

theorem redistribute_same (m : ModuleP U) : SameKids m.kids m.redistribute.2.kids := by
  unfold redistribute
  split_ifs
  · exact SameKids.refl _
  · exact SameKids.refl _
  · dsimp only
    have h2 := eqLoop_same (1/10000000000) 2500
      (m.kids.map fun k => ({ kid := k, ia := StorageUnit.I k.su } : Branch U))
    rw [kidsOf_start] at h2
    generalize eqLoop (1/10000000000) 2500
      (m.kids.map fun k => ({ kid := k, ia := StorageUnit.I k.su } : Branch U)) = r2 at *
    obtain ⟨o, bs''⟩ := r2
    cases o <;> exact h2

theorem timeStep_same (m : ModuleP U) (dt : ℚ) (n : ℕ) : SameKids m.kids (m.timeStep dt n).2.kids := by
  unfold timeStep
  split_ifs
  · exact SameKids.refl _
  · have h1 := stepKids_same dt n m.kids
    generalize stepKids dt n m.kids = r at *
    obtain ⟨o, ks⟩ := r
    cases o with
    | ok u =>
      dsimp only
      have h2 := redistribute_same { m with kids := ks }
      generalize redistribute { m with kids := ks } = r2 at *
      obtain ⟨o, m'⟩ := r2
      cases o with
      | ok st =>
        dsimp only
        split_ifs
        · have h3 := redistribute_same m'
          generalize redistribute m' = r3 at *
          obtain ⟨o, m''⟩ := r3
          cases o <;> exact h1.trans (h2.trans h3)
        · exact h1.trans h2
      | throw c => exact h1.trans h2
      | ub c => exact h1.trans h2
    | throw c => exact h1
    | ub c => exact h1

end ModuleP

instance : LawfulStates (ModuleS U) where
  Same a b := SameKids a.kids b.kids
  Valid m := 273 ≤ m.T ∧ ∀ k ∈ m.kids, Valid k.su
  refl m := SameKids.refl _
  trans := SameKids.trans
  setCurrent_same m i b := setLoop_same i b m.kids []
  timeStep_same m dt n := by
    show SameKids m.kids (ModuleS.timeStep m dt n).2.kids
    unfold ModuleS.timeStep
    split_ifs
    · exact SameKids.refl _
    · exact stepKids_same dt n m.kids
  setStates_same m s b := modSetStates_same m.T m.kids s b
  roundtrip u w rest hs hv := by
    show ModuleS.setStates w (modGetStates u.T u.kids ++ rest) false = _
    unfold ModuleS.setStates
    rw [modSetStates_roundtrip u.T w.T u.kids w.kids rest hs hv.2 hv.1]

instance : LawfulStates (ModuleP U) where
  Same a b := SameKids a.kids b.kids
  Valid m := 273 ≤ m.T ∧ ∀ k ∈ m.kids, Valid k.su
  refl m := SameKids.refl _
  trans := SameKids.trans
  setCurrent_same m i b := ModuleP.setCurrent_same m i b
  timeStep_same m dt n := ModuleP.timeStep_same m dt n
  setStates_same m s b := modSetStates_same m.T m.kids s b
  roundtrip u w rest hs hv := by
    show ModuleP.setStates w (modGetStates u.T u.kids ++ rest) false = _
    unfold ModuleP.setStates
    rw [modSetStates_roundtrip u.T w.T u.kids w.kids rest hs hv.2 hv.1]

theorem ecm_validStates_iff {n : ℕ} (c : ECM n) : c.validStates = true ↔
    (0 ≤ c.st.SOC ∧ c.st.SOC ≤ 1 ∧ 273 ≤ c.st.T ∧ c.st.T ≤ 333) := by
  simp only [ECM.validStates, checkSOC, Bool.and_eq_true, decide_eq_true_eq, Bool.not_eq_true',
    Bool.or_eq_false_iff, decide_eq_false_iff_not, not_lt, gt_iff_lt]
  simp only [ECM.Tmin, ECM.Tmax]
  tauto

instance {n : ℕ} : LawfulStates (ECM n) where
  Same a b := a.par = b.par
  Valid c := 0 ≤ c.st.SOC ∧ c.st.SOC ≤ 1 ∧ 273 ≤ c.st.T ∧ c.st.T ≤ 333
  refl _ := rfl
  trans := Eq.trans
  setCurrent_same c i b := by
    show c.par = (ECM.setCurrent c i b).2.par
    rcases ECM.setCurrent_snd c i b with h | h <;> rw [h] <;> rfl
  timeStep_same c dt n := by
    show c.par = (ECM.timeStep c dt n).2.par
    unfold ECM.timeStep; split_ifs <;> simp
  setStates_same c s b := by
    show c.par = (ECM.setStates c s b).2.par
    unfold ECM.setStates
    cases ECM.decode _ s with
    | none => rfl
    | some st => dsimp only; split_ifs <;> rfl
  roundtrip c w rest hs hv := ecm_states_roundtrip c w rest hs.symm ((ecm_validStates_iff c).mpr hv)

instance {C : Type} [StorageUnit C] [LawfulStates C] : LawfulStates (Node C U) where
  Same
    | .cell a, .cell b => Same a b
    | .series a, .series b => Same a b
    | .parallel a, .parallel b => Same a b
    | _, _ => False
  Valid
    | .cell a => Valid a
    | .series a => Valid a
    | .parallel a => Valid a
  refl u := by cases u <;> exact LawfulStates.refl _
  trans {a b c} h1 h2 := by
    cases a <;> cases b <;> cases c <;> first | exact h1.elim | exact h2.elim | exact LawfulStates.trans h1 h2
  setCurrent_same u i b := by cases u <;> exact LawfulStates.setCurrent_same _ i b
  timeStep_same u dt n := by cases u <;> exact LawfulStates.timeStep_same _ dt n
  setStates_same u s b := by cases u <;> exact LawfulStates.setStates_same _ s b
  roundtrip u w rest hs hv := by
    cases u <;> cases w <;> first
      | exact hs.elim
      | (have h := LawfulStates.roundtrip _ _ rest hs hv
         simp only [StorageUnit.setStates, StorageUnit.getStates] at h ⊢
         rw [h])

instance instLawfulStatesTree {C : Type} [StorageUnit C] [LawfulStates C] : (d : ℕ) → LawfulStates (Tree C d)
  | 0 => inferInstanceAs (LawfulStates C)
  | d + 1 => @instLawfulStatesNode (Tree C d) (instTree d) (instLawfulStatesTree d) C _ _

end Slide

import Verif.Model.Modules
import Verif.Lemmas.ECM
import Verif.Props.ECM
import Verif.Tac

namespace Slide
open StorageUnit

/-- What a well-behaved child guarantees about `setCurrent`: it always returns, is all-or-nothing, and an
unchecked call can always undo it.  Proved for `Cell_ECM` below. -/
class LawfulCurrent (U : Type) [StorageUnit U] : Prop where
  returns : ∀ (u : U) i b, ∃ st, (setCurrent u i b).1 = .ok st
  sets : ∀ (u : U) i b st, (setCurrent u i b).1 = .ok st → st.isBad = false → StorageUnit.I (setCurrent u i b).2 = i
  rejects : ∀ (u : U) i b st, (setCurrent u i b).1 = .ok st → st.isBad = true → (setCurrent u i b).2 = u
  undo : ∀ (u : U) i b, (setCurrent (setCurrent u i b).2 (StorageUnit.I u) false).2 = u
  unchecked : ∀ (u : U) i, (setCurrent u i false).1 = .ok .Success

/-- What a well-behaved child guarantees about `timeStep_CC`. -/
class LawfulStep (U : Type) [StorageUnit U] : Prop where
  returns : ∀ (u : U) dt n, 0 ≤ dt → (timeStep u dt n).1 = .ok ()
  negative : ∀ (u : U) dt n, dt < 0 → timeStep u dt n = (.throw 10, u)
  keepsI : ∀ (u : U) dt n, StorageUnit.I (timeStep u dt n).2 = StorageUnit.I u
  batch : ∀ (u : U) dt a b, 0 ≤ dt → (timeStep u dt (a + b)).2 = (timeStep (timeStep u dt a).2 dt b).2

theorem isBad_success : Status.Success.isBad = false := by decide

instance {n : ℕ} : LawfulCurrent (ECM n) where
  returns u i b := ⟨_, rfl⟩
  sets u i b st h hb := by
    have hst : st = (ECM.setCurrent u i b).1 := by cases h; rfl
    rcases ecm_setCurrent_atomic u i b with ⟨_, h2⟩ | ⟨h1, _⟩
    · show (ECM.setCurrent u i b).2.st.I = i
      rw [h2]
    · rw [hst, h1] at hb; cases hb
  rejects u i b st h hb := by
    have hst : st = (ECM.setCurrent u i b).1 := by cases h; rfl
    rcases ecm_setCurrent_atomic u i b with ⟨h1, _⟩ | ⟨_, h2⟩
    · rw [hst, h1] at hb; cases hb
    · exact h2
  undo u i b := by
    show (ECM.setCurrent (ECM.setCurrent u i b).2 u.st.I false).2 = u
    rw [ECM.setCurrent_unchecked]
    rcases ECM.setCurrent_snd u i b with h | h <;> rw [h] <;> rfl
  unchecked u i := by
    show Outcome.ok (ECM.setCurrent u i false).1 = _
    rw [ECM.setCurrent_unchecked]

instance {n : ℕ} : LawfulStep (ECM n) where
  returns u dt n h := (ecm_timeStep_nonneg u dt n h).1
  negative u dt n h := ecm_timeStep_negative u dt n h
  keepsI u dt n := by
    rcases lt_or_ge dt 0 with h | h
    · show (ECM.timeStep u dt n).2.st.I = _
      rw [ecm_timeStep_negative u dt n h]; rfl
    · exact (ecm_timeStep_nonneg u dt n h).2.1
  batch u dt a b _ := by
    show (ECM.timeStep u dt (a+b)).2 = _
    rw [ecm_timeStep_batch]; rfl

variable {U : Type} [StorageUnit U]

/-- The child after a call to `setCurrent`. -/
def Kid.set (k : Kid U) (i : ℚ) (b : Bool) : Kid U := { k with su := (setCurrent k.su i b).2 }

theorem vLoop_pos (ks : List (Kid U)) (acc : ℚ) (h : ∀ k ∈ ks, 0 < StorageUnit.V k.su) :
    ModuleS.vLoop acc ks = acc + (ks.map fun k => StorageUnit.V k.su - k.rc * StorageUnit.I k.su).sum := by
  induction ks generalizing acc with
  | nil => simp [ModuleS.vLoop]
  | cons k ks ih =>
    have hk := h k (by simp)
    rw [ModuleS.vLoop, if_neg (by linarith), ih _ (fun j hj => h j (by simp [hj]))]
    simp; ring

theorem vLoop_nonpos (ks : List (Kid U)) (acc : ℚ) (h : ∃ k ∈ ks, StorageUnit.V k.su ≤ 0) :
    ModuleS.vLoop acc ks = 0 := by
  induction ks generalizing acc with
  | nil => obtain ⟨k, hk, _⟩ := h; simp at hk
  | cons k ks ih =>
    unfold ModuleS.vLoop
    split_ifs with hk
    · rfl
    · apply ih
      obtain ⟨j, hj, hv⟩ := h
      rcases List.mem_cons.mp hj with rfl | hj
      · exact absurd hv hk
      · exact ⟨j, hj, hv⟩

theorem rtot_fold (ks : List (Kid U)) (acc : ℚ) :
    ks.foldl (fun r k => r + (StorageUnit.Rtot k.su + k.rc)) acc =
      acc + (ks.map fun k => StorageUnit.Rtot k.su).sum + (ks.map Kid.rc).sum := by
  induction ks generalizing acc with
  | nil => simp
  | cons k ks ih => simp [ih]; ring

/-- Complete description of the loop of `Module_s::setCurrent`. -/
theorem setLoop_spec [LawfulCurrent U] (Inew : ℚ) (b : Bool) (pre ks : List (Kid U))
    (hlen : (pre ++ ks).length ≤ 100)
    (hpre : ∀ k ∈ pre, ∃ st, (setCurrent k.su Inew b).1 = .ok st ∧ st.isBad = false) :
    (∃ st, (ModuleS.setLoop Inew b (pre.map fun k => (StorageUnit.I k.su, k.set Inew b)) ks).1 = .ok st ∧
      ((st = .Success ∧
          (∀ k ∈ pre ++ ks, ∃ s, (setCurrent k.su Inew b).1 = .ok s ∧ s.isBad = false) ∧
          (ModuleS.setLoop Inew b (pre.map fun k => (StorageUnit.I k.su, k.set Inew b)) ks).2 =
            (pre ++ ks).map fun k => k.set Inew b) ∨
       (st.isBad = true ∧
          (∃ k ∈ ks, (setCurrent k.su Inew b).1 = .ok st) ∧
          (ModuleS.setLoop Inew b (pre.map fun k => (StorageUnit.I k.su, k.set Inew b)) ks).2 =
            match pre ++ ks with
            | [] => []
            | k0 :: rest => k0.set Inew b :: rest))) := by
  induction ks generalizing pre with
  | nil =>
    refine ⟨.Success, by simp [ModuleS.setLoop], Or.inl ⟨rfl, by simpa using hpre, ?_⟩⟩
    simp [ModuleS.setLoop, Function.comp_def]
  | cons k ks ih =>
    have hl : ¬ NSUs_MAX ≤ pre.length := by
      simp only [NSUs_MAX]; simp at hlen; omega
    obtain ⟨st, hst⟩ := LawfulCurrent.returns k.su Inew b
    have hpair : setCurrent k.su Inew b = (.ok st, (setCurrent k.su Inew b).2) := by
      rw [← hst]
    cases hb : st.isBad
    · -- accepted
      have hstep : ModuleS.setLoop Inew b (pre.map fun k => (StorageUnit.I k.su, k.set Inew b)) (k :: ks) =
          ModuleS.setLoop Inew b ((pre ++ [k]).map fun k => (StorageUnit.I k.su, k.set Inew b)) ks := by
        conv_lhs => unfold ModuleS.setLoop
        simp only [List.length_map]
        rw [if_neg hl, hpair]
        simp [hb, Kid.set]
      rw [hstep]
      have := ih (pre ++ [k]) (by simpa using hlen) (by
        intro j hj
        rcases List.mem_append.mp hj with hj | hj
        · exact hpre j hj
        · rw [List.mem_singleton] at hj; subst hj; exact ⟨st, hst, hb⟩)
      obtain ⟨s, h1, h2⟩ := this
      refine ⟨s, h1, ?_⟩
      rcases h2 with ⟨e1, e2, e3⟩ | ⟨e1, ⟨j, hj, hj2⟩, e3⟩
      · left; exact ⟨e1, by simpa using e2, by rw [e3]; simp⟩
      · right; exact ⟨e1, ⟨j, by simp [hj], hj2⟩, by rw [e3]; simp⟩
    · -- rejected
      have hrej := LawfulCurrent.rejects k.su Inew b st hst hb
      refine ⟨st, ?_, Or.inr ⟨hb, ⟨k, by simp, hst⟩, ?_⟩⟩
      · unfold ModuleS.setLoop
        simp only [List.length_map]
        rw [if_neg hl, hpair]
        simp [hb]
      · unfold ModuleS.setLoop
        simp only [List.length_map]
        rw [if_neg hl, hpair]
        simp only [hb, if_true]
        have hk : ({ k with su := (setCurrent k.su Inew b).2 } : Kid U) = k.set Inew b := rfl
        rw [hk]
        have hmap : (pre.map fun k => (StorageUnit.I k.su, k.set Inew b)) ++
            [(StorageUnit.I k.su, k.set Inew b)] =
            (pre ++ [k]).map fun k => (StorageUnit.I k.su, k.set Inew b) := by simp
        rw [hmap]
        have hundo : ∀ l : List (Kid U), (l.map fun k => (StorageUnit.I k.su, k.set Inew b)).map
            (fun q => ({ q.2 with su := (setCurrent q.2.su q.1 false).2 } : Kid U)) = l := by
          intro l
          induction l with
          | nil => rfl
          | cons a l ihl =>
            simp only [List.map_cons]
            rw [ihl]
            congr 1
            simp [Kid.set, LawfulCurrent.undo]
        cases pre with
        | nil =>
          simp [ModuleS.restore]
        | cons p ps =>
          simp only [List.cons_append, List.map_cons, ModuleS.restore]
          rw [hundo]
          simp

theorem stepKids_spec [LawfulStep U] (dt : ℚ) (n : ℕ) (h : 0 ≤ dt) (ks : List (Kid U)) :
    stepKids dt n ks = (.ok (), ks.map fun k => { k with su := (timeStep k.su dt n).2 }) := by
  induction ks with
  | nil => rfl
  | cons k ks ih =>
    unfold stepKids
    have hp : timeStep k.su dt n = (.ok (), (timeStep k.su dt n).2) := by
      rw [← LawfulStep.returns k.su dt n h]
    rw [hp, ih]
    simp

end Slide

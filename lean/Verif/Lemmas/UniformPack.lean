import Verif.Spec.UniformPack
import Verif.Lemmas.EcmLaws
import Verif.Lemmas.SpmAged
import Verif.Lemmas.SpmCycler
import Verif.Props.SpmUse
import Mathlib.Tactic.FieldSimp
import Mathlib.Tactic.Linarith

/-! Lemmas for C139: modules whose children are copies of one unit. -/

namespace Slide
open StorageUnit Spec

section
variable {U : Type} [StorageUnit U]

/-! ### Setting a current -/

theorem repS_loop {u u' : U} {i rc : ℚ} {b : Bool} {st : Status} (h : StorageUnit.setCurrent u i b = (.ok st, u'))
    (hst : st.isBad = false) (k : ℕ) (done : List (ℚ × Kid U)) (hk : done.length + k ≤ 100) :
    ModuleS.setLoop i b done (List.replicate k ⟨rc, u⟩) =
      (.ok .Success, done.map Prod.snd ++ List.replicate k ⟨rc, u'⟩) := by
  induction k generalizing done with
  | zero => simp [ModuleS.setLoop]
  | succ k ih =>
    rw [List.replicate_succ]
    unfold ModuleS.setLoop
    have hlen : ¬ NSUs_MAX ≤ done.length := by unfold NSUs_MAX; omega
    rw [if_neg hlen]
    dsimp only
    rw [h]
    dsimp only
    rw [if_neg (by rw [hst]; decide), ih _ (by simp; omega)]
    simp [List.replicate_succ]

theorem repS_set {u u' : U} {i rc : ℚ} {b : Bool} {st : Status} {N : ℕ} (m : ModuleS U) (hN : N ≤ 100)
    (hm : m.kids = List.replicate N ⟨rc, u⟩) (h : StorageUnit.setCurrent u i b = (.ok st, u')) (hst : st.isBad = false) :
    ModuleS.setCurrent m i b = (.ok .Success, { m with kids := List.replicate N ⟨rc, u'⟩ }) := by
  unfold ModuleS.setCurrent
  rw [hm, repS_loop h hst N [] (by simpa using hN)]
  rfl

theorem repS_reject {u : U} {i rc : ℚ} {b : Bool} {st : Status} {N : ℕ} (m : ModuleS U) (hN : 1 ≤ N)
    (hm : m.kids = List.replicate N ⟨rc, u⟩) (h : StorageUnit.setCurrent u i b = (.ok st, u)) (hst : st.isBad = true) :
    ModuleS.setCurrent m i b = (.ok st, m) := by
  obtain ⟨k, rfl⟩ : ∃ k, N = k + 1 := ⟨N - 1, by omega⟩
  unfold ModuleS.setCurrent
  rw [hm, List.replicate_succ]
  unfold ModuleS.setLoop
  rw [if_neg (by unfold NSUs_MAX; simp)]
  dsimp only
  rw [h]
  dsimp only
  rw [if_pos hst]
  cases m with
  | mk T kids =>
    dsimp only at hm
    subst hm
    simp [ModuleS.restore, List.replicate_succ]

theorem rep_vall {u : U} (k : ℕ) :
    (ModuleP.vallLoop (List.replicate k (⟨0, u⟩ : Kid U))).1 = List.replicate k (StorageUnit.V u) := by
  induction k with
  | zero => rfl
  | succ k ih =>
    rw [List.replicate_succ]
    unfold ModuleP.vallLoop
    dsimp only
    rw [ih]
    simp [List.replicate_succ]

theorem rep_spread (v : ℚ) (k : ℕ) : ModuleP.spread (List.replicate k v) = 0 := by
  unfold ModuleP.spread ModuleP.mean
  cases k with
  | zero => rfl
  | succ k =>
    have h : (List.replicate (k + 1) v).sum / ((List.replicate (k + 1) v).length : ℚ) = v := by
      simp only [List.sum_replicate, List.length_replicate, nsmul_eq_mul]
      have : ((k + 1 : ℕ) : ℚ) ≠ 0 := by positivity
      field_simp
    rw [h, List.map_replicate, sub_self, abs_zero]
    simp

theorem rep_eqLoop {u : U} {tol ia : ℚ} (htol : 0 < tol) (fuel k : ℕ) :
    ModuleP.eqLoop tol (fuel + 1) (List.replicate k (⟨⟨0, u⟩, ia⟩ : ModuleP.Branch U)) =
      (.ok true, List.replicate k ⟨⟨0, u⟩, ia⟩) := by
  unfold ModuleP.eqLoop
  dsimp only
  have : ModuleP.kidsOf (List.replicate k (⟨⟨0, u⟩, ia⟩ : ModuleP.Branch U)) = List.replicate k ⟨0, u⟩ := by
    unfold ModuleP.kidsOf; rw [List.map_replicate]
  rw [this, rep_vall, rep_spread, if_pos htol]

theorem repP_init {u u' : U} {ia dI : ℚ} {st last : Status} (h : StorageUnit.setCurrent u (ia + dI) true = (.ok st, u'))
    (hst : st.isBad = false) (k : ℕ) :
    ∃ last', ModuleP.initLoop dI last (List.replicate k (⟨⟨0, u⟩, ia⟩ : ModuleP.Branch U)) =
      (.ok (last', false), List.replicate k ⟨⟨0, u'⟩, ia + dI⟩) := by
  induction k generalizing last with
  | zero => exact ⟨last, rfl⟩
  | succ k ih =>
    obtain ⟨l, hl⟩ := ih (last := st)
    refine ⟨l, ?_⟩
    rw [List.replicate_succ]
    unfold ModuleP.initLoop
    dsimp only
    rw [h]
    dsimp only
    have hok : (!st.isOK) = false := hst
    rw [hok, if_neg (by decide), hl]
    rfl

theorem tsum_replicate (f : U → ℚ) (u : U) (rc : ℚ) (N : ℕ) : tsum f (List.replicate N ⟨rc, u⟩) = N * f u := by
  unfold tsum
  rw [List.map_replicate, List.sum_replicate, nsmul_eq_mul]

theorem share {N : ℕ} (hN : 1 ≤ N) (x i : ℚ) : x + (N * i - N * x) / N = i := by
  have : (N : ℚ) ≠ 0 := by positivity
  field_simp
  ring

theorem repP_set {u u' : U} {i : ℚ} {b : Bool} {st : Status} {N : ℕ} (m : ModuleP U) (hN : 1 ≤ N) (hN' : N ≤ 100)
    (hm : m.kids = List.replicate N ⟨0, u⟩) (h : StorageUnit.setCurrent u i true = (.ok st, u')) (hst : st.isBad = false) :
    ModuleP.setCurrent m (N * i) b = (.ok .Success, { m with kids := List.replicate N ⟨0, u'⟩ }) := by
  have hne : m.kids ≠ [] := by
    rw [hm]; intro e; simp at e; omega
  unfold ModuleP.setCurrent
  rw [if_neg hne, if_neg (by rw [hm]; unfold NSUs_MAX; simp; omega)]
  dsimp only
  rw [hm, tsum_replicate, List.map_replicate, List.length_replicate]
  have h' : StorageUnit.setCurrent u (StorageUnit.I u + (N * i - N * StorageUnit.I u) / N) true = (.ok st, u') := by
    rw [share hN]; exact h
  obtain ⟨l, hl⟩ := repP_init (last := .Success) h' hst N
  rw [hl]
  dsimp only
  rw [rep_eqLoop (by norm_num) 10549 N]
  simp [ModuleP.kidsOf]

theorem repP_reject {u : U} {i : ℚ} {b : Bool} {st : Status} {N : ℕ} (m : ModuleP U) (hN : 1 ≤ N) (hN' : N ≤ 100)
    (hm : m.kids = List.replicate N ⟨0, u⟩) (h : StorageUnit.setCurrent u i true = (.ok st, u)) (hst : st.isBad = true) :
    ModuleP.setCurrent m (N * i) b = (.ok st, m) := by
  have hne : m.kids ≠ [] := by
    rw [hm]; intro e; simp at e; omega
  unfold ModuleP.setCurrent
  rw [if_neg hne, if_neg (by rw [hm]; unfold NSUs_MAX; simp; omega)]
  dsimp only
  rw [hm, tsum_replicate, List.map_replicate, List.length_replicate]
  have h' : StorageUnit.setCurrent u (StorageUnit.I u + (N * i - N * StorageUnit.I u) / N) true = (.ok st, u) := by
    rw [share hN]; exact h
  obtain ⟨k, rfl⟩ : ∃ k, N = k + 1 := ⟨N - 1, by omega⟩
  rw [List.replicate_succ]
  unfold ModuleP.initLoop
  dsimp only
  rw [h']
  have hok : (!st.isOK) = true := hst
  dsimp only
  rw [hok, if_pos rfl]
  cases m with
  | mk T kids =>
    dsimp only at hm
    subst hm
    simp [ModuleP.kidsOf, List.replicate_succ]

/-! ### Time steps -/

theorem rep_steps {u u' : U} {dt rc : ℚ} {n : ℕ} (h : StorageUnit.timeStep u dt n = (.ok (), u')) (k : ℕ) :
    stepKids dt n (List.replicate k (⟨rc, u⟩ : Kid U)) = (.ok (), List.replicate k ⟨rc, u'⟩) := by
  induction k with
  | zero => rfl
  | succ k ih =>
    rw [List.replicate_succ]
    unfold stepKids
    dsimp only
    rw [h]
    dsimp only
    rw [ih]
    rfl

theorem repS_step {u u' : U} {dt rc : ℚ} {n N : ℕ} (m : ModuleS U) (hdt : 0 ≤ dt)
    (hm : m.kids = List.replicate N ⟨rc, u⟩) (h : StorageUnit.timeStep u dt n = (.ok (), u')) :
    ModuleS.timeStep m dt n = (.ok (), { m with kids := List.replicate N ⟨rc, u'⟩ }) := by
  unfold ModuleS.timeStep
  rw [if_neg (not_lt.mpr hdt)]
  dsimp only
  rw [hm, rep_steps h]

theorem repP_step {u u' : U} {dt : ℚ} {n N : ℕ} (m : ModuleP U) (hdt : 0 ≤ dt) (hN : N ≤ 100)
    (hm : m.kids = List.replicate N ⟨0, u⟩) (h : StorageUnit.timeStep u dt n = (.ok (), u')) :
    ModuleP.timeStep m dt n = (.ok (), { m with kids := List.replicate N ⟨0, u'⟩ }) := by
  unfold ModuleP.timeStep
  rw [if_neg (not_lt.mpr hdt), hm, rep_steps h]
  dsimp only
  have hr : ModuleP.redistribute { m with kids := List.replicate N (⟨0, u'⟩ : Kid U) } =
      (.ok .Success, { m with kids := List.replicate N ⟨0, u'⟩ }) := by
    unfold ModuleP.redistribute
    dsimp only
    rw [List.length_replicate]
    by_cases h1 : N ≤ 1
    · rw [if_pos h1]
    · rw [if_neg h1, if_neg (by unfold NSUs_MAX; omega), List.map_replicate, rep_eqLoop (by norm_num) 2499 N]
      simp [ModuleP.kidsOf]
  rw [hr]
  dsimp only
  rw [if_neg (by simp)]

/-! ### Readings -/

theorem rep_vLoop {u : U} (hv : 0 < StorageUnit.V u) (k : ℕ) (acc : ℚ) :
    ModuleS.vLoop acc (List.replicate k (⟨0, u⟩ : Kid U)) = acc + k * StorageUnit.V u := by
  induction k generalizing acc with
  | zero => simp [ModuleS.vLoop]
  | succ k ih =>
    rw [List.replicate_succ]
    unfold ModuleS.vLoop
    rw [if_neg (not_le.mpr hv), ih]
    push_cast; ring

theorem rep_foldl {β : Type} (g : β → Kid U → β) (x : β) (k : ℕ) (y : Kid U) (h : g x y = x) :
    (List.replicate k y).foldl g x = x := by
  induction k with
  | zero => rfl
  | succ k ih => rw [List.replicate_succ, List.foldl_cons, h, ih]

theorem tmax_replicate (f : U → ℚ) (u : U) {N : ℕ} (hN : 1 ≤ N) : tmax f (List.replicate N ⟨0, u⟩) = f u := by
  obtain ⟨k, rfl⟩ : ∃ k, N = k + 1 := ⟨N - 1, by omega⟩
  rw [List.replicate_succ]
  exact rep_foldl _ _ _ _ (max_self _)

theorem tmin_replicate (f : U → ℚ) (u : U) {N : ℕ} (hN : 1 ≤ N) : tmin f (List.replicate N ⟨0, u⟩) = f u := by
  obtain ⟨k, rfl⟩ : ∃ k, N = k + 1 := ⟨N - 1, by omega⟩
  rw [List.replicate_succ]
  exact rep_foldl _ _ _ _ (min_self _)

theorem tsumOpt_replicate (f : U → Option ℚ) (u : U) {N : ℕ} (hN : 1 ≤ N) :
    tsumOpt f (List.replicate N ⟨0, u⟩) = (f u).map fun v => (N : ℚ) * v := by
  obtain ⟨k, rfl⟩ : ∃ k, N = k + 1 := ⟨N - 1, by omega⟩
  clear hN
  induction k with
  | zero => cases h : f u <;> simp [tsumOpt, h]
  | succ k ih =>
    rw [List.replicate_succ]
    unfold tsumOpt
    dsimp only
    rw [ih]
    cases h : f u with
    | none => rfl
    | some v =>
      simp only [Option.map_some]
      congr 1
      push_cast; ring

theorem rep_check (u : U) {N : ℕ} (hN : 1 ≤ N) (h : 0 ≤ (StorageUnit.checkVoltage u).code) :
    modCheckVoltage (List.replicate N (⟨0, u⟩ : Kid U)) = StorageUnit.checkVoltage u := by
  obtain ⟨k, rfl⟩ : ∃ k, N = k + 1 := ⟨N - 1, by omega⟩
  unfold modCheckVoltage
  rw [List.replicate_succ, List.foldl_cons]
  have h1 : Status.worst .Success (StorageUnit.checkVoltage u) = StorageUnit.checkVoltage u := by
    unfold Status.worst
    by_cases h2 : Status.Success.code < (StorageUnit.checkVoltage u).code
    · rw [if_pos h2]
    · rw [if_neg h2]
      refine (Status.code_injective ?_)
      exact le_antisymm h (not_lt.mp h2)
  dsimp only
  rw [h1]
  exact rep_foldl _ _ _ _ (by unfold Status.worst; rw [if_neg (lt_irrefl _)])

theorem rep_rtotS (u : U) (N : ℕ) (a : ℚ) :
    (List.replicate N (⟨0, u⟩ : Kid U)).foldl (fun r k => r + (StorageUnit.Rtot k.su + k.rc)) a =
      a + N * StorageUnit.Rtot u := by
  induction N generalizing a with
  | zero => simp
  | succ k ih =>
    rw [List.replicate_succ, List.foldl_cons, ih]
    push_cast; ring

theorem rep_rtotP (u : U) {N : ℕ} (hN : 1 ≤ N) :
    ModuleP.rtotLoop (List.replicate N (⟨0, u⟩ : Kid U)) = StorageUnit.Rtot u / N := by
  obtain ⟨k, rfl⟩ : ∃ k, N = k + 1 := ⟨N - 1, by omega⟩
  clear hN
  induction k with
  | zero => simp [ModuleP.rtotLoop]
  | succ k ih =>
    rw [List.replicate_succ, List.replicate_succ]
    unfold ModuleP.rtotLoop
    rw [← List.replicate_succ, ih]
    dsimp only
    generalize StorageUnit.Rtot u = r
    by_cases hr : r = 0
    · simp [hr]
    · have h1 : ((k + 1 : ℕ) : ℚ) ≠ 0 := by positivity
      have h2 : ((k + 1 + 1 : ℕ) : ℚ) ≠ 0 := by positivity
      have h3 : r + r / ((k + 1 : ℕ) : ℚ) ≠ 0 := by
        have : r + r / ((k + 1 : ℕ) : ℚ) = r * (((k + 1 + 1 : ℕ) : ℚ) / ((k + 1 : ℕ) : ℚ)) := by
          field_simp
          push_cast; ring
        rw [this]
        exact mul_ne_zero hr (div_ne_zero h2 h1)
      field_simp
      push_cast; ring

end

/-! ### Cells -/

/-- Cells that answer every request for a current, keep their state when they refuse, and refuse negative time steps. -/
class Replicable (C : Type) [StorageUnit C] : Prop where
  returns : ∀ (c : C) i, ∃ st, (setCurrent c i true).1 = .ok st
  rejects : ∀ (c : C) i st, (setCurrent c i true).1 = .ok st → st.isBad = true → (setCurrent c i true).2 = c
  negative : ∀ (c : C) dt n, dt < 0 → timeStep c dt n = (.throw 10, c)

instance {C : Type} [StorageUnit C] [LawfulCurrent C] [LawfulStep C] : Replicable C where
  returns c i := LawfulCurrent.returns c i true
  rejects c i st h hb := LawfulCurrent.rejects c i true st h hb
  negative c dt n h := LawfulStep.negative c dt n h

instance {N : ℕ} : Replicable (AgedUnit N) where
  returns u i := by
    show ∃ st, (u.cell.setCurrent i true).1 = .ok st
    rw [spm_setCurrent_eq]
    have hs : SpmSound (withCurrent u.cell i) := u.sound.congr rfl rfl
    obtain ⟨v, hv⟩ := sound_V hs
    have hc : ∃ s, ((withCurrent u.cell i).checkCurrent true).1 = .ok s := by
      show ∃ s, (withCurrent u.cell i).checkV.1 = .ok s
      unfold SPM.checkV
      rcases hk : (withCurrent u.cell i).V with ⟨r | e | w, c2⟩ <;> rw [hk] at hv
      · exact ⟨_, rfl⟩
      · cases hv
      · cases hv
    obtain ⟨s, hs⟩ := hc
    rcases hk : (withCurrent u.cell i).checkCurrent true with ⟨r | e | w, c2⟩ <;> rw [hk] at hs
    · simp only; split <;> exact ⟨_, rfl⟩
    · cases hs
    · cases hs
  rejects u i st h hb := AgedUnit.ext' (spm_setCurrent_refused u.cell i true st h hb)
  negative u dt n h := by
    have e := spm_negative_step u.cell (n : ℤ) h
    have hf : (u.cell.timeStep dt n).2.finite = true := by rw [e]; exact u.sound.finite
    show (if h : (u.cell.timeStep dt n).2.finite = true then
      ((u.cell.timeStep dt n).1, (⟨_, u.sound.congr (congrArg Prod.fst (SPM.timeStep_fixed u.cell dt n))
        (h.trans u.sound.finite.symm)⟩ : AgedUnit N))
      else (.ub "state outside the domain of the model", u)) = _
    rw [dif_pos hf]
    refine Prod.ext ?_ (AgedUnit.ext' ?_)
    · show (u.cell.timeStep dt n).1 = _
      rw [e]
    show (u.cell.timeStep dt n).2 = _
    rw [e]

end Slide

import Verif.Spec.Cycler
import Verif.Tac

namespace Slide
open StorageUnit Spec Cyc

variable {U : Type} [StorageUnit U]

@[simp] theorem storeData_su (c : Cyc U) : c.storeData.su = c.su := by
  unfold storeData writeData; split_ifs <;> rfl
@[simp] theorem storeData_diag (c : Cyc U) : c.storeData.diagnostic = c.diagnostic := by
  unfold storeData writeData; split_ifs <;> rfl
@[simp] theorem storeIf_su (b : Bool) (c : Cyc U) : (storeIf b c).su = c.su := by
  unfold storeIf; split_ifs <;> simp
@[simp] theorem storeIf_diag (b : Bool) (c : Cyc U) : (storeIf b c).diagnostic = c.diagnostic := by
  unfold storeIf; split_ifs <;> simp
@[simp] theorem withSU_su (c : Cyc U) (u : U) : (c.withSU u).su = u := rfl
@[simp] theorem withSU_diag (c : Cyc U) (u : U) : (c.withSU u).diagnostic = c.diagnostic := rfl

theorem clamp1_pos (n : ℤ) (m : ℕ) (hm : 1 ≤ m) : 1 ≤ clamp1 n m := by
  unfold clamp1; split_ifs <;> omega

theorem clamp1_le (n : ℤ) (m : ℕ) (hm : 1 ≤ m) : clamp1 n m ≤ m := by
  unfold clamp1; split_ifs <;> omega

/-- The step length and count chosen in one iteration of the time loops. -/
theorem choose_step (rem dti : ℚ) (n : ℕ) (hr : 0 < rem) (hd : 0 < dti) (hn : 1 ≤ n) :
    let n' := if (n : ℚ) * dti > rem then 1 else n
    let d' := if dti > rem then rem else dti
    0 < d' ∧ 1 ≤ n' ∧ n' ≤ n ∧ d' ≤ dti ∧ d' * n' ≤ rem ∧ (d' * n' < rem → d' = dti) ∧ (d' * n' = rem ∨ dti ≤ d' * n') := by
  have hn' : (1:ℚ) ≤ n := by exact_mod_cast hn
  by_cases h1 : (n : ℚ) * dti > rem
  · by_cases h2 : dti > rem
    · simp [h1, h2, hr, le_of_lt, hn]
    · simp only [h1, h2, if_true, if_false]
      push Not at h2
      refine ⟨hd, le_refl _, hn, le_refl _, by simpa using h2, fun _ => by trivial, Or.inr (by simp)⟩
  · push Not at h1
    have h2 : ¬ dti > rem := by
      intro h2
      nlinarith
    simp only [not_lt.mpr h1, h2, if_false]
    refine ⟨hd, hn, le_refl _, le_refl _, by linarith [mul_comm dti (n:ℚ)], fun _ => by trivial, Or.inr ?_⟩
    nlinarith

/-- What one iteration of `rest` does when it does not stop early. -/
theorem restBody_inr {tlim : ℚ} {ndt : ℤ} {nMax : ℕ} {v v' : RestVars} {c c' : Cyc U}
    (h : restBody tlim ndt nMax v c = (.ok (.inr v'), c')) (ht : v.ttot < tlim) (hd : 0 < v.dti) (hn : 1 ≤ v.nOnce)
    (hm : 1 ≤ nMax) :
    ∃ (dti : ℚ) (n : ℕ), 0 < dti ∧ 1 ≤ n ∧ v'.dti = dti ∧ v'.ttot = v.ttot + dti * n ∧ v'.ttot ≤ tlim ∧
      (v'.ttot < tlim → dti = v.dti) ∧ (v'.ttot = tlim ∨ v.ttot + v.dti ≤ v'.ttot) ∧
      1 ≤ v'.nOnce ∧
      (setCurrent c.su 0 false).1.Defined ∧
      (timeStep (setCurrent c.su 0 false).2 dti n).1 = .ok () ∧
      c'.su = (timeStep (setCurrent c.su 0 false).2 dti n).2 ∧ c'.diagnostic = c.diagnostic := by
  unfold restBody at h
  have hc := choose_step (tlim - v.ttot) v.dti v.nOnce (by linarith) hd hn
  dsimp only at hc
  generalize hn1 : (if (v.nOnce : ℚ) * v.dti > tlim - v.ttot then 1 else v.nOnce) = n1 at *
  generalize hd1 : (if v.dti > tlim - v.ttot then tlim - v.ttot else v.dti) = d1 at *
  rcases hs : setCurrent c.su 0 false with ⟨o, u1⟩
  rw [hs] at h
  cases o with
  | throw e => simp at h
  | ub w => simp at h
  | ok st =>
    dsimp only at h
    by_cases hb : st.isBad = true
    · simp [hb] at h
    · rcases hstep : timeStep u1 d1 n1 with ⟨o2, u2⟩
      rw [if_neg hb, hstep] at h
      cases o2 with
      | throw e => simp at h
      | ub w => simp at h
      | ok _ =>
        simp only [Prod.mk.injEq, Outcome.ok.injEq, Sum.inr.injEq] at h
        obtain ⟨h1, h2⟩ := h
        obtain ⟨c1, c2, c3, c4, c5, c6, c7⟩ := hc
        subst h1 h2
        refine ⟨d1, n1, c1, c2, rfl, rfl, ?_, ?_, ?_, clamp1_pos _ _ hm, trivial, ?_, ?_, ?_⟩
        · show v.ttot + d1 * n1 ≤ tlim
          linarith
        · intro h
          have h : v.ttot + d1 * n1 < tlim := h
          exact c6 (by linarith)
        · rcases c7 with e | e
          · left; show v.ttot + d1 * n1 = tlim; linarith
          · right; show v.ttot + v.dti ≤ v.ttot + d1 * n1; linarith
        · simp only [hstep]
        · simp [hstep]
        · simp

end Slide

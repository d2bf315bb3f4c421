import Verif.Lemmas.Phases
import Verif.Lemmas.EcmLaws
import Verif.Lemmas.SpmCycler
import Verif.Props.Cycler
import Verif.Props.UseCase
import Verif.Props.Series
import Mathlib.Algebra.Order.Archimedean.Basic

/-! C157: the phases of a cycler come to an end. -/

namespace Slide
open StorageUnit Spec Cyc

/-! ### The number of iterations, for any unit -/

section anyUnit
variable {U : Type} [StorageUnit U]

/-- C157: a constant-current phase with a positive step needs at most `tlim / dt` iterations, whatever the unit does:
allowing more changes nothing. -/
theorem cc_terminates (fuel k : ℕ) (c : Cyc U) (I vlim tlim dt : ℚ) (ndt : ℤ) (th : Thr) (hd : 0 < dt)
    (hf : tlim ≤ fuel * dt) : c.CC (fuel + k) I vlim tlim dt ndt th = c.CC fuel I vlim tlim dt ndt th := by
  unfold CC
  dsimp only
  rcases (storeIf (decide (0 < ndt)) c).setCurrent I vlim with ⟨st | e | w, c1⟩
  · dsimp only
    rw [ccLoop_more fuel k hd (le_refl 1) (nMax_pos 2 (by norm_num)) (by simpa using hf)]
  · rfl
  · rfl

/-- C157: the same for a charge or discharge to a voltage that is then held. -/
theorem cccv_terminates [VoltageUnit U] (fuel k : ℕ) (c : Cyc U) (I Vset Ilim tlim dt : ℚ) (ndt : ℤ) (th : Thr)
    (hd : 0 < dt) (hf : tlim ≤ fuel * dt) :
    c.CCCVt (fuel + k) I Vset Ilim tlim dt ndt th = c.CCCVt fuel I Vset Ilim tlim dt ndt th := by
  unfold CCCVt
  dsimp only
  rcases StorageUnit.setCurrent c.su 0 false with ⟨st | e | w, u⟩
  · dsimp only
    rw [cc_terminates fuel k _ _ _ _ _ _ _ hd hf]
  · rfl
  · rfl

/-- C157: a capacity test takes at most 20 years of steps of one second, in each direction. -/
theorem testCapacity_terminates (fuel k : ℕ) (c : Cyc U) (Ah ttot : ℚ) (hf : TIME_INF ≤ fuel) :
    c.testCapacity (fuel + k) Ah ttot = c.testCapacity fuel Ah ttot := by
  have h1 : TIME_INF ≤ fuel * 1 := by simpa using hf
  unfold testCapacity
  dsimp only
  rw [cc_terminates fuel k _ _ _ _ _ _ _ one_pos h1]
  rcases c.CC fuel (-(1/25) * Cap c.su) (lim c.su).Vmax TIME_INF 1 0 Thr.zero with ⟨st | e | w, c1, th1⟩
  · dsimp only
    rw [cc_terminates fuel k _ _ _ _ _ _ _ one_pos h1]
  · rfl
  · rfl

/-- A constant-current phase on a unit whose calls are defined is defined. -/
theorem cc_defined {P : U → Prop} (hP : CallSafe P) (fuel : ℕ) (c : Cyc U) (I vlim tlim dt : ℚ) (ndt : ℤ) (th : Thr)
    (h : P c.su) (hd : 0 < dt) (hf : tlim ≤ fuel * dt) : (c.CC fuel I vlim tlim dt ndt th).1.Defined := by
  unfold CC
  dsimp only
  have hc : P (storeIf (decide (0 < ndt)) c).su := by rw [storeIf_su]; exact h
  have h1 := cycSet_defined hP.toSetSafe _ I vlim hc
  have h2 := cycSet_su (P := P) hP.keeps _ I vlim hc
  generalize (storeIf (decide (0 < ndt)) c).setCurrent I vlim = r at h1 h2 ⊢
  obtain ⟨st | e | w, c1⟩ := r
  · dsimp only
    split
    · exact trivial
    · split
      · exact trivial
      · have h3 := ccLoop_defined hP (I := I) (vlim := vlim) (tlim := tlim) (ndt := ndt) fuel
          (v := { dti := dt, ttot := 0, idat := 0, nOnce := 1, vo := V c1.su, vi := V c1.su, allowUp := true })
          (th := th) h2 hd (le_refl 1) (nMax_pos (ndt := ndt) 2 (by norm_num)) (by simpa using hf)
        generalize ccLoop I vlim tlim ndt (if decide (0 < ndt) = true then min 2 ndt.toNat else 2) fuel
          { dti := dt, ttot := 0, idat := 0, nOnce := 1, vo := V c1.su, vi := V c1.su, allowUp := true } c1 th = r at h3 ⊢
        obtain ⟨(st | ⟨v, b⟩) | e | w, c2, th2⟩ := r
        · exact trivial
        · dsimp only
          split
          · exact trivial
          · split <;> exact trivial
        · exact trivial
        · exact h3.elim
  · exact trivial
  · exact h1.elim

/-- A rest of a unit whose calls are defined is defined. -/
theorem rest_defined {P : U → Prop} (hP : CallSafe P) (fuel : ℕ) (c : Cyc U) (tlim dt : ℚ) (ndt : ℤ) (th : Thr)
    (h : P c.su) (hd : 0 < dt) (hf : tlim ≤ fuel * dt) : (c.rest fuel tlim dt ndt th).1.Defined := by
  unfold rest
  dsimp only
  have hc : P (storeIf (decide (0 < ndt)) c).su := by rw [storeIf_su]; exact h
  have h3 := restLoop_defined hP (tlim := tlim) (ndt := ndt) fuel
    (v := { dti := dt, ttot := 0, idat := 0, nOnce := 1, ninc := true }) hc hd (le_refl 1)
    (nMax_pos (ndt := ndt) 10 (by norm_num)) (by simpa using hf)
  generalize restLoop tlim ndt (if decide (0 < ndt) = true then min 10 ndt.toNat else 10) fuel
    { dti := dt, ttot := 0, idat := 0, nOnce := 1, ninc := true } (storeIf (decide (0 < ndt)) c) = r at h3 ⊢
  obtain ⟨(st | v) | e | w, c1⟩ := r
  · exact trivial
  · dsimp only
    split
    · have h4 := hP.defd c1.su 0 false h3.2
      generalize StorageUnit.setCurrent c1.su 0 false = r at h4 ⊢
      obtain ⟨st | e | w, u⟩ := r
      · exact trivial
      · exact trivial
      · exact h4.elim
    · exact trivial
  · exact trivial
  · exact h3.1.elim

/-- A negative step, refused by the unit, ends the phase in its first iteration. -/
theorem ccLoop_negative {P : U → Prop} (hP : SetSafe P) (ht : ∀ (u : U) dt n, dt < 0 → (timeStep u dt n).1 = .throw 10)
    {I vlim tlim : ℚ} {ndt : ℤ} {nMax : ℕ} (k : ℕ) {v : CCVars} {c : Cyc U} {th : Thr} (h : P c.su) (hv : v.dti < 0) :
    (ccLoop I vlim tlim ndt nMax 1 v c th).1.Defined ∧
      ccLoop I vlim tlim ndt nMax (1 + k) v c th = ccLoop I vlim tlim ndt nMax 1 v c th := by
  rw [Nat.add_comm]
  unfold ccLoop
  by_cases hlt : v.ttot < tlim
  · rw [if_pos hlt, if_pos hlt]
    unfold ccBody
    have h1 := cycSet_defined hP c I vlim h
    generalize c.setCurrent I vlim = r at h1 ⊢
    obtain ⟨st | e | w, c1⟩ := r
    · dsimp only
      rw [if_neg (by linarith : ¬ v.dti > tlim - v.ttot)]
      have h2 := ht c1.su v.dti (if (v.nOnce : ℚ) * v.dti > tlim - v.ttot then 1 else v.nOnce) hv
      generalize timeStep c1.su v.dti (if (v.nOnce : ℚ) * v.dti > tlim - v.ttot then 1 else v.nOnce) = r at h2 ⊢
      obtain ⟨o, u2⟩ := r
      cases h2
      exact ⟨trivial, rfl⟩
    · exact ⟨trivial, rfl⟩
    · exact h1.elim
  · rw [if_neg hlt, if_neg hlt]
    exact ⟨trivial, rfl⟩

theorem restLoop_negative {P : U → Prop} (hP : SetSafe P) (ht : ∀ (u : U) dt n, dt < 0 → (timeStep u dt n).1 = .throw 10)
    {tlim : ℚ} {ndt : ℤ} {nMax : ℕ} (k : ℕ) {v : RestVars} {c : Cyc U} (h : P c.su) (hv : v.dti < 0) :
    (∀ w, (restLoop tlim ndt nMax 1 v c).1 ≠ .ub w) ∧
      (∀ v', (restLoop tlim ndt nMax 1 v c).1 = .ok (.inr v') → P (restLoop tlim ndt nMax 1 v c).2.su) ∧
      restLoop tlim ndt nMax (1 + k) v c = restLoop tlim ndt nMax 1 v c := by
  rw [Nat.add_comm]
  unfold restLoop
  by_cases hlt : v.ttot < tlim
  · rw [if_pos hlt, if_pos hlt]
    unfold restBody
    have h1 := hP.defd c.su 0 false h
    generalize StorageUnit.setCurrent c.su 0 false = r at h1 ⊢
    obtain ⟨st | e | w, u1⟩ := r
    · dsimp only
      rw [if_neg (by linarith : ¬ v.dti > tlim - v.ttot)]
      have h2 := ht u1 v.dti (if (v.nOnce : ℚ) * v.dti > tlim - v.ttot then 1 else v.nOnce) hv
      generalize timeStep u1 v.dti (if (v.nOnce : ℚ) * v.dti > tlim - v.ttot then 1 else v.nOnce) = r at h2 ⊢
      obtain ⟨o, u2⟩ := r
      cases h2
      by_cases hb : st.isBad = true
      · rw [if_pos hb]; exact ⟨fun w h => (by cases h), fun v' h => (by cases h), rfl⟩
      · rw [if_neg hb]; exact ⟨fun w h => (by cases h), fun v' h => (by cases h), rfl⟩
    · exact ⟨fun w h => (by cases h), fun v' h => (by cases h), rfl⟩
    · exact h1.elim
  · rw [if_neg hlt, if_neg hlt]
    exact ⟨fun w h => (by cases h), fun _ _ => h, rfl⟩

theorem cc_negative {P : U → Prop} (hP : SetSafe P) (ht : ∀ (u : U) dt n, dt < 0 → (timeStep u dt n).1 = .throw 10)
    (c : Cyc U) (I vlim tlim dt : ℚ) (ndt : ℤ) (th : Thr) (h : P c.su) (hd : dt < 0) :
    ComesToEnd fun fuel => c.CC fuel I vlim tlim dt ndt th := by
  refine ⟨1, ?_⟩
  unfold CC
  dsimp only
  have hc : P (storeIf (decide (0 < ndt)) c).su := by rw [storeIf_su]; exact h
  have h1 := cycSet_defined hP _ I vlim hc
  have h2 := cycSet_su (P := P) hP.keeps _ I vlim hc
  generalize (storeIf (decide (0 < ndt)) c).setCurrent I vlim = r at h1 h2 ⊢
  obtain ⟨st | e | w, c1⟩ := r
  · dsimp only
    generalize hv : ({ dti := dt, ttot := 0, idat := 0, nOnce := 1, vo := V c1.su, vi := V c1.su, allowUp := true } : CCVars) = v
    have hv' : v.dti < 0 := by rw [← hv]; exact hd
    have h3 := fun k => ccLoop_negative hP ht (I := I) (vlim := vlim) (tlim := tlim) (ndt := ndt)
      (nMax := if decide (0 < ndt) = true then min 2 ndt.toNat else 2) k (v := v) (c := c1) (th := th) h2 hv'
    refine ⟨?_, fun j => by rw [(h3 j).2]⟩
    split
    · exact trivial
    · split
      · exact trivial
      · have h4 := (h3 0).1
        generalize ccLoop I vlim tlim ndt (if decide (0 < ndt) = true then min 2 ndt.toNat else 2) 1 v c1 th = r at h4 ⊢
        obtain ⟨(st | ⟨v, b⟩) | e | w, c2, th2⟩ := r
        · exact trivial
        · dsimp only
          split
          · exact trivial
          · split <;> exact trivial
        · exact trivial
        · exact h4.elim
  · exact ⟨trivial, fun _ => rfl⟩
  · exact h1.elim

theorem rest_negative {P : U → Prop} (hP : SetSafe P) (ht : ∀ (u : U) dt n, dt < 0 → (timeStep u dt n).1 = .throw 10)
    (c : Cyc U) (tlim dt : ℚ) (ndt : ℤ) (th : Thr) (h : P c.su) (hd : dt < 0) :
    ComesToEnd fun fuel => c.rest fuel tlim dt ndt th := by
  refine ⟨1, ?_⟩
  unfold rest
  dsimp only
  have hc : P (storeIf (decide (0 < ndt)) c).su := by rw [storeIf_su]; exact h
  have h3 := fun k => restLoop_negative hP ht (tlim := tlim) (ndt := ndt)
    (nMax := if decide (0 < ndt) = true then min 10 ndt.toNat else 10) k
    (v := { dti := dt, ttot := 0, idat := 0, nOnce := 1, ninc := true }) hc hd
  refine ⟨?_, fun j => by rw [(h3 j).2.2]⟩
  obtain ⟨h4, h5, -⟩ := h3 0
  generalize restLoop tlim ndt (if decide (0 < ndt) = true then min 10 ndt.toNat else 10) 1
    { dti := dt, ttot := 0, idat := 0, nOnce := 1, ninc := true } (storeIf (decide (0 < ndt)) c) = r at h4 h5 ⊢
  obtain ⟨(st | v) | e | w, c1⟩ := r
  · exact trivial
  · dsimp only
    split
    · have h6 := hP.defd c1.su 0 false (h5 v rfl)
      generalize StorageUnit.setCurrent c1.su 0 false = r at h6 ⊢
      obtain ⟨st | e | w, u⟩ := r
      · exact trivial
      · exact trivial
      · exact h6.elim
    · exact trivial
  · exact trivial
  · exact (h4 w rfl).elim

end anyUnit

/-! ### Trees of cells -/

section trees
variable {C : Type} [StorageUnit C] [VoltageUnit C] [CellLaws C] [LawfulCurrent C] [CellTotal C]

theorem narrow_calls (d : ℕ) : CallSafe (NarrowTree (C := C) d) :=
  { narrow_safe d with
    stepKeeps := fun u dt n h => narrow_step d u dt n h
    stepDefd := fun u dt n h => narrow_step_defined d u dt n h }

/-- C157, with the bound: on any tree of modules with at most 100 children each, a rest and a constant-current phase
with a positive step end after at most `tlim / dt` iterations with a status or an exception. -/
theorem phases_end_within (d : ℕ) (c : Cyc (Tree C d)) (h : NarrowTree d c.su) (tlim dt : ℚ) (ndt : ℤ) (th : Thr)
    (hd : 0 < dt) (k : ℕ) (hk : tlim ≤ k * dt) :
    ((c.rest k tlim dt ndt th).1.Defined ∧ ∀ j, c.rest (k + j) tlim dt ndt th = c.rest k tlim dt ndt th) ∧
    ∀ I vlim : ℚ, (c.CC k I vlim tlim dt ndt th).1.Defined ∧
      ∀ j, c.CC (k + j) I vlim tlim dt ndt th = c.CC k I vlim tlim dt ndt th :=
  ⟨⟨rest_defined (narrow_calls d) k c tlim dt ndt th h hd hk, fun j => rest_terminates k j c tlim dt ndt th hd hk⟩,
    fun I vlim => ⟨cc_defined (narrow_calls d) k c I vlim tlim dt ndt th h hd hk,
      fun j => cc_terminates k j c I vlim tlim dt ndt th hd hk⟩⟩

/-- C157, except for a step of zero: a rest and a constant-current phase come to an end.  What is missing is `dt = 0`,
where the loop never ends (`not_phasesEnd`). -/
theorem phases_end_partial (d : ℕ) (c : Cyc (Tree C d)) (h : NarrowTree d c.su) (tlim dt : ℚ) (ndt : ℤ) (th : Thr)
    (hd : dt ≠ 0) :
    ComesToEnd (fun fuel => c.rest fuel tlim dt ndt th) ∧
    ∀ I vlim : ℚ, ComesToEnd fun fuel => c.CC fuel I vlim tlim dt ndt th := by
  rcases lt_or_gt_of_ne hd with hn | hp
  · exact ⟨rest_negative (narrow_safe d) (tree_step_throws d) c tlim dt ndt th h hn,
      fun I vlim => cc_negative (narrow_safe d) (tree_step_throws d) c I vlim tlim dt ndt th h hn⟩
  · obtain ⟨k, hk⟩ := exists_nat_gt (tlim / dt)
    have hk' : tlim ≤ k * dt := by rw [div_lt_iff₀ hp] at hk; exact hk.le
    obtain ⟨h1, h2⟩ := phases_end_within d c h tlim dt ndt th hp k hk'
    exact ⟨⟨k, h1⟩, fun I vlim => ⟨k, h2 I vlim⟩⟩

end trees

/-- The theorem holds for packs of equivalent-circuit cells and for packs of single-particle cells. -/
example {n : ℕ} (d : ℕ) (c : Cyc (Tree (ECM n) d)) (h : NarrowTree d c.su) (I vlim tlim : ℚ) (ndt : ℤ) (th : Thr) :
    ComesToEnd fun fuel => c.CC fuel I vlim tlim 2 ndt th :=
  (phases_end_partial d c h tlim 2 ndt th (by norm_num)).2 I vlim

example {N : ℕ} (d : ℕ) (c : Cyc (Tree (SpmUnit N) d)) (h : NarrowTree d c.su) (I vlim tlim : ℚ) (ndt : ℤ) (th : Thr) :
    ComesToEnd fun fuel => c.CC fuel I vlim tlim 2 ndt th :=
  (phases_end_partial d c h tlim 2 ndt th (by norm_num)).2 I vlim

/-! ### A step of zero -/

/-- With a step of zero a rest never ends. -/
theorem rest_zero_step_endless {n : ℕ} (c : Cyc (ECM n)) (tlim : ℚ) (th : Thr) (ht : 0 < tlim) :
    ¬ ComesToEnd fun fuel => c.rest fuel tlim 0 0 th := by
  rintro ⟨k, hk, -⟩
  rw [rest_zero_step_diverges k c tlim th ht] at hk
  exact hk

/-- A step of zero seconds changes nothing in a cell. -/
theorem ecm_zero_steps {n : ℕ} (c : ECM n) (k : ℕ) : c.steps 0 k = c := by
  have h1 : c.step1 0 = c := by
    rcases c with ⟨p, T, soc, I, Ir, t, ah, wh⟩
    simp [ECM.step1]
  induction k with
  | zero => rfl
  | succ k ih => rw [ECM.steps, h1, ih]

/-- With a step of zero a constant-current discharge of a half-full cell never ends either. -/
theorem cc_zero_step_endless (tlim : ℚ) (th : Thr) (ht : 0 < tlim) :
    ¬ ComesToEnd fun fuel => (⟨bucket (1/2) 1, 0, false, []⟩ : Cyc (ECM 0)).CC fuel 1 3 tlim 0 0 th := by
  have hV : V (bucket (1/2) 1) = 787/250 := by decide +kernel
  have hset : Cyc.setCurrent (⟨bucket (1/2) 1, 0, false, []⟩ : Cyc (ECM 0)) 1 3 =
      (.ok .Success, ⟨bucket (1/2) 1, 0, false, []⟩) := by
    have h1 : StorageUnit.setCurrent (bucket (1/2) 1) 1 false = (.ok .Success, bucket (1/2) 1) := by
      show ((.ok ((bucket (1/2) 1).setCurrent 1 false).1, ((bucket (1/2) 1).setCurrent 1 false).2) :
        Outcome Status × ECM 0) = _
      rw [ECM.setCurrent_unchecked]
      rfl
    unfold Cyc.setCurrent
    simp only [h1, hV]
    rw [if_neg (by decide), if_neg (by norm_num), if_neg (by norm_num)]
    rfl
  have hstep : ∀ k, StorageUnit.timeStep (bucket (1/2) 1) 0 k = (.ok (), bucket (1/2) 1) := by
    intro k
    show ECM.timeStep _ 0 k = _
    unfold ECM.timeStep
    rw [if_neg (lt_irrefl _), ecm_zero_steps]
  have key : ∀ (fuel : ℕ) (v : CCVars) (th : Thr), v.dti = 0 → v.ttot = 0 →
      (ccLoop 1 3 tlim 0 2 fuel v (⟨bucket (1/2) 1, 0, false, []⟩ : Cyc (ECM 0)) th).1 = .ub "out of fuel" := by
    intro fuel
    induction fuel with
    | zero => intro v th h1 h2; unfold ccLoop; rw [h2, if_pos ht]
    | succ fuel ih =>
      intro v th h1 h2
      unfold ccLoop ccBody
      rw [h2, if_pos ht, hset]
      dsimp only
      rw [h1, if_neg (by linarith : ¬ (0:ℚ) > tlim - 0), hstep]
      have hv : ccVoltage ((⟨bucket (1/2) 1, 0, false, []⟩ : Cyc (ECM 0)).withSU (bucket (1/2) 1)) = .inr (787/250) := by
        unfold ccVoltage withSU
        simp only [Bool.false_eq_true, if_false, hV]
        rw [if_neg (by norm_num)]
      dsimp only
      rw [hv]
      dsimp only
      rw [if_neg (by norm_num)]
      exact ih _ _ rfl (by simp)
  rintro ⟨k, hk, -⟩
  revert hk
  unfold CC
  simp only [lt_irrefl, decide_false, storeIf, Bool.false_eq_true, if_false, hset]
  rw [if_neg (by decide), hV, if_neg (by norm_num)]
  have h := key k { dti := 0, ttot := 0, idat := 0, nOnce := 1, vo := 787/250, vi := 787/250, allowUp := true } th rfl rfl
  generalize ccLoop (U := ECM 0) 1 3 tlim 0 2 k _ _ th = r at h ⊢
  obtain ⟨o, c1⟩ := r
  cases h
  exact id
/-- C157: the full statement is false, because of a step of zero. -/
theorem not_phasesEnd : ¬ PhasesEnd (ECM 0) := fun h =>
  rest_zero_step_endless (n := 0) ⟨bucket (1/2) 0, 0, false, []⟩ 1 Thr.zero one_pos
    (h 0 ⟨bucket (1/2) 0, 0, false, []⟩ trivial 1 0 0 Thr.zero).1

/-- Non-vacuity of C157: a parallel module of a string and a cell is narrow, and its rest of one hour in steps of two
seconds is over after 1800 iterations. -/
example : NarrowTree (C := ECM 0) 2 (.parallel ⟨293, [⟨1/100, .series ⟨293, [⟨0, bucket (1/2) 0⟩, ⟨0, bucket (1/3) 0⟩]⟩⟩,
    ⟨0, .cell (bucket (1/2) 0)⟩]⟩) ∧ (3600 : ℚ) ≤ (1800 : ℕ) * 2 := by
  refine ⟨⟨by decide, ?_⟩, by norm_num⟩
  intro k hk
  simp only [List.mem_cons, List.not_mem_nil, or_false] at hk
  rcases hk with rfl | rfl
  · refine ⟨by decide, ?_⟩
    intro k _
    trivial
  · trivial

end Slide

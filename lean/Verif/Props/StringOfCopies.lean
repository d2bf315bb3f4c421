import Verif.Spec.StringOfCopies
import Verif.Lemmas.UniformPack
import Verif.Lemmas.Cycler
import Verif.Props.Series
import Verif.Props.Cycler

/-!
C140: cycling a string of identical cells is cycling one of its cells.
-/

namespace Slide
open StorageUnit Spec Cyc

section
variable {U : Type} (N : ℕ) (T : ℚ)

theorem cycString_withSU (c : Cyc U) (u : U) : (cycString N T c).withSU (stringOf N T u) = cycString N T (c.withSU u) := rfl

theorem cycString_storeData (c : Cyc U) : (cycString N T c).storeData = cycString N T c.storeData := by
  unfold storeData writeData cycString
  dsimp only
  by_cases h : CELL_NDATA_MAX ≤ c.index
  · simp only [if_pos h, List.map_append]
    rfl
  · simp only [if_neg h, List.map_append]
    rfl

theorem cycString_storeIf (b : Bool) (c : Cyc U) : storeIf b (cycString N T c) = cycString N T (storeIf b c) := by
  cases b
  · rfl
  · exact cycString_storeData N T c

end

section
variable {U : Type} [StorageUnit U] {N : ℕ} {T : ℚ}

/-- Voltage of a string of copies. -/
theorem stringOf_V (hN : 1 ≤ N) (u : U) : V (stringOf N T u) = if V u ≤ 0 then 0 else N * V u := by
  show ModuleS.vLoop 0 (List.replicate N ⟨0, u⟩) = _
  by_cases h : V u ≤ 0
  · obtain ⟨k, rfl⟩ : ∃ k, N = k + 1 := ⟨N - 1, by omega⟩
    rw [if_pos h, List.replicate_succ]
    unfold ModuleS.vLoop
    rw [if_pos h]
  · rw [if_neg h, rep_vLoop (not_le.mp h), zero_add]

theorem stringOf_Vlow (hN : 1 ≤ N) (u : U) (x : ℚ) (hx : x ≤ (lim u).Vmax) (h0 : 0 ≤ (lim u).Vmax) :
    Vlow (stringOf N T u) < x ↔ Vlow u < x := by
  show (List.replicate N (⟨0, u⟩ : Kid U)).foldl (fun m k => min m (Vlow k.su)) (tsum (fun u => (lim u).Vmax) (List.replicate N ⟨0, u⟩)) < x ↔ _
  rw [tsum_replicate]
  have hbig : x ≤ N * (lim u).Vmax := by
    have : (1 : ℚ) ≤ N := by exact_mod_cast hN
    nlinarith
  obtain ⟨k, rfl⟩ : ∃ k, N = k + 1 := ⟨N - 1, by omega⟩
  rw [List.replicate_succ, List.foldl_cons, rep_foldl _ _ _ _ (by rw [min_assoc, min_self])]
  rw [min_lt_iff]
  exact ⟨fun h => h.resolve_left (not_lt.mpr hbig), .inr⟩

theorem stringOf_I (hN : 1 ≤ N) (u : U) : StorageUnit.I (stringOf N T u) = StorageUnit.I u := by
  obtain ⟨k, rfl⟩ : ∃ k, N = k + 1 := ⟨N - 1, by omega⟩
  rfl

theorem stringOf_set [LawfulCurrent U] (hN' : N ≤ 100) (u : U) (i : ℚ) :
    setCurrent (stringOf N T u) i false = (.ok .Success, stringOf N T (setCurrent u i false).2) := by
  have h : setCurrent u i false = (.ok .Success, (setCurrent u i false).2) := by
    rw [← LawfulCurrent.unchecked u i]
  exact repS_set (stringOf N T u) hN' rfl h rfl

theorem stringOf_step [LawfulStep U] (u : U) (dt : ℚ) (n : ℕ) :
    timeStep (stringOf N T u) dt n = ((timeStep u dt n).1, stringOf N T (timeStep u dt n).2) := by
  by_cases hdt : dt < 0
  · rw [LawfulStep.negative u dt n hdt]
    show ModuleS.timeStep _ _ _ = _
    unfold ModuleS.timeStep
    rw [if_pos hdt]
  · have h : timeStep u dt n = (.ok (), (timeStep u dt n).2) := by
      rw [← LawfulStep.returns u dt n (not_lt.mp hdt)]
    rw [show (timeStep u dt n).1 = .ok () from LawfulStep.returns u dt n (not_lt.mp hdt)]
    exact repS_step (stringOf N T u) (not_lt.mp hdt) rfl h

/-! ### The phases of the cycler -/

variable [LawfulCurrent U] [LawfulStep U]

omit [LawfulCurrent U] [LawfulStep U] in
theorem stringOf_V_compare (hN : 1 ≤ N) (u : U) {x : ℚ} (hx : 0 < x) :
    (V (stringOf N T u) ≤ N * x ↔ V u ≤ x) ∧ (V (stringOf N T u) > N * x ↔ V u > x) ∧
    (V (stringOf N T u) ≥ N * x ↔ V u ≥ x) ∧ (V (stringOf N T u) < N * x ↔ V u < x) := by
  have hp : (0 : ℚ) < N := by exact_mod_cast hN
  have hpx : 0 < N * x := mul_pos hp hx
  rw [stringOf_V hN]
  by_cases h : V u ≤ 0
  · rw [if_pos h]
    refine ⟨⟨fun _ => by linarith, fun _ => hpx.le⟩, ⟨fun h1 => by linarith, fun h1 => by linarith⟩,
      ⟨fun h1 => by linarith, fun h1 => by linarith⟩, ⟨fun _ => by linarith, fun _ => hpx⟩⟩
  · rw [if_neg h]
    exact ⟨mul_le_mul_iff_right₀ hp, mul_lt_mul_iff_right₀ hp, mul_le_mul_iff_right₀ hp, mul_lt_mul_iff_right₀ hp⟩

omit [LawfulStep U] in
theorem cycString_set (hN : 1 ≤ N) (hN' : N ≤ 100) (c : Cyc U) (hd : c.diagnostic = false) (I : ℚ) {vlim : ℚ} (hv : 0 < vlim) :
    (cycString N T c).setCurrent I (N * vlim) = ((c.setCurrent I vlim).1, cycString N T (c.setCurrent I vlim).2) := by
  have hu : setCurrent c.su I false = (.ok .Success, (setCurrent c.su I false).2) := by
    rw [← LawfulCurrent.unchecked c.su I]
  unfold Cyc.setCurrent
  dsimp only
  rw [hd, show (cycString N T c).diagnostic = false from hd, show (cycString N T c).su = stringOf N T c.su from rfl,
    stringOf_set hN' c.su I, hu]
  dsimp only
  simp only [show Status.Success.isVoltageLimitsViolated = false from rfl, Bool.false_eq_true, if_false]
  obtain ⟨a1, a2, a3, a4⟩ := stringOf_V_compare (T := T) hN c.su hv
  obtain ⟨b1, b2, b3, b4⟩ := stringOf_V_compare (T := T) hN (setCurrent c.su I false).2 hv
  simp only [a1, a3, b2, b4]
  by_cases h1 : I < 0 ∧ V c.su ≤ vlim ∧ V (setCurrent c.su I false).2 > vlim
  · rw [if_pos h1, if_pos h1]; rfl
  · rw [if_neg h1, if_neg h1]
    by_cases h2 : V c.su ≥ vlim ∧ V (setCurrent c.su I false).2 < vlim
    · rw [if_pos h2, if_pos h2]; rfl
    · rw [if_neg h2, if_neg h2]; rfl

/-- The variables of the loop for the string. -/
def varsString (N : ℕ) (v : CCVars) : CCVars := { v with vo := N * v.vo, vi := N * v.vi }

theorem ccAdapt_scale (hN : 1 ≤ N) (I vlim vo vi a b : ℚ) (nMax nOnce : ℕ) (up : Bool) (h1 : a < 31/10 ↔ b < 31/10)
    (h2 : a < 3 ↔ b < 3) :
    ccAdapt I (N * vlim) (N * vo) (N * vi) a nMax nOnce up = ccAdapt I vlim vo vi b nMax nOnce up := by
  have hp : (0 : ℚ) < N := by exact_mod_cast hN
  have e1 : (N * vi - N * vo < (N * vlim - N * vi) / 10) ↔ (vi - vo < (vlim - vi) / 10) := by
    rw [show (N : ℚ) * vi - N * vo = N * (vi - vo) by ring,
      show (N * vlim - N * vi) / 10 = N * ((vlim - vi) / 10) by ring]
    exact mul_lt_mul_iff_right₀ hp
  have e2 : (N * vi - N * vo ≥ N * vlim - N * vi) ↔ (vi - vo ≥ vlim - vi) := by
    rw [show (N : ℚ) * vi - N * vo = N * (vi - vo) by ring, show N * vlim - N * vi = N * (vlim - vi) by ring]
    exact mul_le_mul_iff_right₀ hp
  have e3 : (N * vo - N * vi < (N * vi - N * vlim) / 10) ↔ (vo - vi < (vi - vlim) / 10) := by
    rw [show (N : ℚ) * vo - N * vi = N * (vo - vi) by ring,
      show (N * vi - N * vlim) / 10 = N * ((vi - vlim) / 10) by ring]
    exact mul_lt_mul_iff_right₀ hp
  have e4 : (N * vo - N * vi ≥ (N * vi - N * vlim) * 2) ↔ (vo - vi ≥ (vi - vlim) * 2) := by
    rw [show (N : ℚ) * vo - N * vi = N * (vo - vi) by ring,
      show (N * vi - N * vlim) * 2 = N * ((vi - vlim) * 2) by ring]
    exact mul_le_mul_iff_right₀ hp
  unfold ccAdapt
  simp only [e1, e2, e3, e4, h1, h2]

/-- The result of one iteration for the string. -/
def nextString (N : ℕ) : CCNext → CCNext
  | .ret st => .ret st
  | .brk v => .brk (varsString N v)
  | .cont v => .cont (varsString N v)

/-- The limits of the unit allow the switch of the number of steps at 3.1 V. -/
def HighLimits (U : Type) [StorageUnit U] : Prop := ∀ u : U, 31/10 ≤ (lim u).Vmax

theorem cycString_ccBody (hN : 1 ≤ N) (hN' : N ≤ 100) (hl : HighLimits U) (I : ℚ) {vlim : ℚ} (hv : 0 < vlim) (tlim : ℚ)
    (ndt : ℤ) (nMax : ℕ) (v : CCVars) (c : Cyc U) (hd : c.diagnostic = false) (th : Thr) :
    ccBody I (N * vlim) tlim ndt nMax (varsString N v) (cycString N T c) (thrString N th) =
      let r := ccBody I vlim tlim ndt nMax v c th
      (match r.1 with | .ok x => .ok (nextString N x) | .throw e => .throw e | .ub w => .ub w,
        cycString N T r.2.1, thrString N r.2.2) := by
  have hp : (0 : ℚ) < N := by exact_mod_cast hN
  have hdiag := cycSet_diag c I vlim
  unfold ccBody
  rw [cycString_set hN hN' c hd I hv]
  generalize c.setCurrent I vlim = r0 at hdiag ⊢
  obtain ⟨o | e | w, c1⟩ := r0
  · dsimp only
    dsimp only at hdiag
    have hs : (cycString N T c1).su = stringOf N T c1.su := rfl
    rw [show (varsString N v).nOnce = v.nOnce from rfl, show (varsString N v).dti = v.dti from rfl,
      show (varsString N v).ttot = v.ttot from rfl, show (varsString N v).idat = v.idat from rfl,
      show (varsString N v).allowUp = v.allowUp from rfl, hs, stringOf_step]
    generalize (if v.nOnce * v.dti > tlim - v.ttot then 1 else v.nOnce) = n1
    generalize (if v.dti > tlim - v.ttot then tlim - v.ttot else v.dti) = d1
    rcases timeStep c1.su d1 n1 with ⟨o2 | e | w, u2⟩
    · dsimp only
      rw [cycString_withSU]
      have hcc : ccVoltage (cycString N T (c1.withSU u2)) =
          match ccVoltage (c1.withSU u2) with | .inl st => .inl st | .inr x => .inr (N * x) := by
        unfold ccVoltage
        rw [show (cycString N T (c1.withSU u2)).diagnostic = false from hdiag.trans hd,
          show (c1.withSU u2).diagnostic = false from hdiag.trans hd]
        simp only [Bool.false_eq_true, if_false]
        have hV : V (cycString N T (c1.withSU u2)).su = if V u2 ≤ 0 then 0 else N * V u2 := stringOf_V hN u2
        rw [hV, withSU_su]
        by_cases h0 : V u2 ≤ 0
        · rw [if_pos h0, if_pos h0, if_pos (le_refl _)]
        · have : ¬ N * V u2 ≤ 0 := not_le.mpr (mul_pos hp (not_le.mp h0))
          rw [if_neg h0, if_neg h0, if_neg this]
      rw [hcc]
      rcases ccVoltage (c1.withSU u2) with st | vi
      · rfl
      · dsimp only
        rw [cycString_storeIf]
        have e1 : (N * vi > N * vlim) ↔ vi > vlim := mul_lt_mul_iff_right₀ hp
        have e2 : (N * vi < N * vlim) ↔ vi < vlim := mul_lt_mul_iff_right₀ hp
        generalize hb : (decide (0 < ndt) && decide (ndt ≤ ((v.idat + n1 : ℕ) : ℤ))) = b
        have hth : (⟨(thrString N th).time + d1 * n1, (thrString N th).Ah + |I| * (d1 * n1) / 3600,
            (thrString N th).Wh + |I| * (d1 * n1) / 3600 * (N * vi)⟩ : Thr) =
          thrString N ⟨th.time + d1 * n1, th.Ah + |I| * (d1 * n1) / 3600, th.Wh + |I| * (d1 * n1) / 3600 * vi⟩ := by
          unfold thrString
          dsimp only
          rw [Thr.mk.injEq]
          exact ⟨rfl, rfl, by ring⟩
        have hcc : ((I < 0 ∧ N * vi > N * vlim) ∨ (I > 0 ∧ N * vi < N * vlim)) ↔
            ((I < 0 ∧ vi > vlim) ∨ (I > 0 ∧ vi < vlim)) := by rw [e1, e2]
        by_cases hc : (I < 0 ∧ vi > vlim) ∨ (I > 0 ∧ vi < vlim)
        · rw [if_pos (hcc.mpr hc), if_pos hc]
          exact Prod.ext rfl (Prod.ext rfl hth)
        · rw [if_neg (fun h => hc (hcc.mp h)), if_neg hc]
          have hlow : ∀ x ≤ (31/10 : ℚ), Vlow (cycString N T (storeIf b (c1.withSU u2))).su < x ↔
              Vlow (storeIf b (c1.withSU u2)).su < x := fun x hx =>
            stringOf_Vlow hN _ x (le_trans hx (hl _)) (le_trans (by norm_num) (hl _))
          have ha := ccAdapt_scale hN I vlim v.vo vi (Vlow (cycString N T (storeIf b (c1.withSU u2))).su)
            (Vlow (storeIf b (c1.withSU u2)).su) nMax n1 v.allowUp (hlow _ (le_refl _)) (hlow _ (by norm_num))
          rw [show (varsString N v).vo = N * v.vo from rfl, ha]
          exact Prod.ext rfl (Prod.ext rfl hth)
    · rfl
    · rfl
  · rfl
  · rfl

omit [LawfulCurrent U] [LawfulStep U] in
theorem ccBody_keepsDiag (I vlim tlim : ℚ) (ndt : ℤ) (nMax : ℕ) (v : CCVars) (c : Cyc U) (th : Thr) :
    (ccBody I vlim tlim ndt nMax v c th).2.1.diagnostic = c.diagnostic := by
  have hdiag := cycSet_diag c I vlim
  unfold ccBody
  generalize c.setCurrent I vlim = r0 at hdiag ⊢
  obtain ⟨o | e | w, c1⟩ := r0
  · dsimp only
    generalize (if v.nOnce * v.dti > tlim - v.ttot then 1 else v.nOnce) = n1
    generalize (if v.dti > tlim - v.ttot then tlim - v.ttot else v.dti) = d1
    rcases timeStep c1.su d1 n1 with ⟨o2 | e | w, u2⟩
    · dsimp only
      rcases ccVoltage (c1.withSU u2) with st | vi
      · exact hdiag
      · dsimp only
        split
        · rw [storeIf_diag]; exact hdiag
        · rw [storeIf_diag]; exact hdiag
    · exact hdiag
    · exact hdiag
  · exact hdiag
  · exact hdiag

/-- The result of the loop for the string. -/
def loopString (N : ℕ) : Status ⊕ (CCVars × Bool) → Status ⊕ (CCVars × Bool)
  | .inl st => .inl st
  | .inr (v, b) => .inr (varsString N v, b)

theorem cycString_ccLoop (hN : 1 ≤ N) (hN' : N ≤ 100) (hl : HighLimits U) (I : ℚ) {vlim : ℚ} (hv : 0 < vlim) (tlim : ℚ)
    (ndt : ℤ) (nMax : ℕ) (fuel : ℕ) : ∀ (v : CCVars) (c : Cyc U) (_ : c.diagnostic = false) (th : Thr),
    ccLoop I (N * vlim) tlim ndt nMax fuel (varsString N v) (cycString N T c) (thrString N th) =
      let r := ccLoop I vlim tlim ndt nMax fuel v c th
      (match r.1 with | .ok x => .ok (loopString N x) | .throw e => .throw e | .ub w => .ub w,
        cycString N T r.2.1, thrString N r.2.2) := by
  induction fuel with
  | zero =>
    intro v c hd th
    unfold ccLoop
    rw [show (varsString N v).ttot = v.ttot from rfl]
    by_cases h : v.ttot < tlim
    · rw [if_pos h, if_pos h]
    · rw [if_neg h, if_neg h]; rfl
  | succ f ih =>
    intro v c hd th
    unfold ccLoop
    rw [show (varsString N v).ttot = v.ttot from rfl]
    by_cases h : v.ttot < tlim
    · rw [if_pos h, if_pos h, cycString_ccBody hN hN' hl I hv tlim ndt nMax v c hd th]
      have hdiag := ccBody_keepsDiag I vlim tlim ndt nMax v c th
      generalize ccBody I vlim tlim ndt nMax v c th = r at hdiag ⊢
      obtain ⟨(st | v' | v') | e | w, c', th'⟩ := r
      · rfl
      · rfl
      · exact ih v' c' (hdiag.trans hd) th'
      · rfl
      · rfl
    · rw [if_neg h, if_neg h]; rfl

/-- **A constant-current phase of a string is the constant-current phase of one of its cells.** For a string of `N` copies of
any unit and a cycler without individual checks, the call with `N` times the voltage limit has the same outcome – the same
status, the same exception – as the call on the unit alone, in the same time and with the same charge, with `N` times the
energy; afterwards the string is a string of copies of what the unit has become, and its record is the record of the unit
with the voltages multiplied. -/
theorem string_cc (hN : 1 ≤ N) (hN' : N ≤ 100) (hl : HighLimits U) (fuel : ℕ) (c : Cyc U) (hd : c.diagnostic = false) (I : ℚ)
    {vlim : ℚ} (hv : 0 < vlim) (tlim dt : ℚ) (ndt : ℤ) (th : Thr)
    (hstart : 0 < I ∨ 0 < V (setCurrent c.su I false).2) :
    CC fuel (cycString N T c) I (N * vlim) tlim dt ndt (thrString N th) =
      let r := CC fuel c I vlim tlim dt ndt th
      (r.1, cycString N T r.2.1, thrString N r.2.2) := by
  have hp : (0 : ℚ) < N := by exact_mod_cast hN
  have hd0 : (storeIf (decide (0 < ndt)) c).diagnostic = false := by rw [storeIf_diag]; exact hd
  have hdiag := cycSet_diag (storeIf (decide (0 < ndt)) c) I vlim
  have hsu : (storeIf (decide (0 < ndt)) c).su = c.su := storeIf_su _ c
  have hu : setCurrent c.su I false = (.ok .Success, (setCurrent c.su I false).2) := by
    rw [← LawfulCurrent.unchecked c.su I]
  have hc1 : ((storeIf (decide (0 < ndt)) c).setCurrent I vlim).2.su = (setCurrent c.su I false).2 := by
    unfold Cyc.setCurrent
    dsimp only
    rw [hd0, hsu, hu]
    simp only [show Status.Success.isVoltageLimitsViolated = false from rfl, Bool.false_eq_true, if_false]
    split
    · rfl
    · split <;> rfl
  unfold CC
  dsimp only
  rw [cycString_storeIf, cycString_set hN hN' _ hd0 I hv]
  generalize (storeIf (decide (0 < ndt)) c).setCurrent I vlim = r0 at hdiag hc1 ⊢
  obtain ⟨st | e | w, c1⟩ := r0
  · dsimp only at hdiag hc1 ⊢
    by_cases hs : (!st.isSuccessful) = true
    · rw [if_pos hs, if_pos hs]
    · rw [if_neg hs, if_neg hs]
      have hsu1 : V (cycString N T c1).su = if V c1.su ≤ 0 then 0 else N * V c1.su := stringOf_V hN c1.su
      by_cases h0 : V c1.su ≤ 0
      · have hI : 0 < I := by
          rcases hstart with h | h
          · exact h
          · rw [← hc1] at h; exact absurd h0 (not_le.mpr h)
        rw [hsu1, if_pos h0, if_pos (Or.inr ⟨hI, mul_pos hp hv⟩),
          if_pos (Or.inr ⟨hI, lt_of_le_of_lt h0 hv⟩)]
      · rw [hsu1, if_neg h0]
        have e1 : (N * V c1.su > N * vlim) ↔ V c1.su > vlim := mul_lt_mul_iff_right₀ hp
        have e2 : (N * V c1.su < N * vlim) ↔ V c1.su < vlim := mul_lt_mul_iff_right₀ hp
        have hcc : ((I < 0 ∧ N * V c1.su > N * vlim) ∨ (I > 0 ∧ N * V c1.su < N * vlim)) ↔
            ((I < 0 ∧ V c1.su > vlim) ∨ (I > 0 ∧ V c1.su < vlim)) := by rw [e1, e2]
        by_cases hc : (I < 0 ∧ V c1.su > vlim) ∨ (I > 0 ∧ V c1.su < vlim)
        · rw [if_pos (hcc.mpr hc), if_pos hc]
        · rw [if_neg (fun h => hc (hcc.mp h)), if_neg hc]
          have hloop := cycString_ccLoop (T := T) hN hN' hl I hv tlim ndt
            (if decide (0 < ndt) = true then min 2 ndt.toNat else 2) fuel ⟨dt, 0, 0, 1, V c1.su, V c1.su, true⟩ c1
            (hdiag.trans hd0) th
          rw [show varsString N ⟨dt, 0, 0, 1, V c1.su, V c1.su, true⟩ =
            ⟨dt, 0, 0, 1, N * V c1.su, N * V c1.su, true⟩ from rfl] at hloop
          rw [hloop]
          generalize ccLoop I vlim tlim ndt (if decide (0 < ndt) = true then min 2 ndt.toNat else 2) fuel
            ⟨dt, 0, 0, 1, V c1.su, V c1.su, true⟩ c1 th = r
          obtain ⟨(st | ⟨v', b⟩) | e | w, c', th'⟩ := r
          · rfl
          · dsimp only [loopString]
            rw [show (varsString N v').ttot = v'.ttot from rfl, cycString_storeIf]
            by_cases g1 : v'.ttot ≥ tlim
            · rw [if_pos g1, if_pos g1]
            · rw [if_neg g1, if_neg g1]
              by_cases g2 : b = true
              · rw [if_pos g2, if_pos g2]
              · rw [if_neg g2, if_neg g2]
          · rfl
          · rfl
  · rfl
  · rfl

theorem cycString_restBody (hN' : N ≤ 100) (tlim : ℚ) (ndt : ℤ) (nMax : ℕ) (v : RestVars) (c : Cyc U) :
    restBody tlim ndt nMax v (cycString N T c) =
      ((restBody tlim ndt nMax v c).1, cycString N T (restBody tlim ndt nMax v c).2) := by
  have hu : setCurrent c.su 0 false = (.ok .Success, (setCurrent c.su 0 false).2) := by
    rw [← LawfulCurrent.unchecked c.su 0]
  unfold restBody
  rw [show (cycString N T c).su = stringOf N T c.su from rfl, stringOf_set hN' c.su 0, hu]
  simp only [show Status.Success.isBad = false from rfl, Bool.false_eq_true, if_false]
  rw [stringOf_step]
  generalize (if v.nOnce * v.dti > tlim - v.ttot then 1 else v.nOnce) = n1
  generalize (if v.dti > tlim - v.ttot then tlim - v.ttot else v.dti) = d1
  rcases timeStep (setCurrent c.su 0 false).2 d1 n1 with ⟨o2 | e | w, u2⟩
  · dsimp only
    rw [cycString_withSU, cycString_storeIf]
  · rfl
  · rfl

theorem cycString_restLoop (hN' : N ≤ 100) (tlim : ℚ) (ndt : ℤ) (nMax : ℕ) (fuel : ℕ) : ∀ (v : RestVars) (c : Cyc U),
    restLoop tlim ndt nMax fuel v (cycString N T c) =
      ((restLoop tlim ndt nMax fuel v c).1, cycString N T (restLoop tlim ndt nMax fuel v c).2) := by
  induction fuel with
  | zero =>
    intro v c
    unfold restLoop
    by_cases h : v.ttot < tlim
    · rw [if_pos h, if_pos h]
    · rw [if_neg h, if_neg h]
  | succ f ih =>
    intro v c
    unfold restLoop
    by_cases h : v.ttot < tlim
    · rw [if_pos h, if_pos h, cycString_restBody hN' tlim ndt nMax v c]
      rcases restBody tlim ndt nMax v c with ⟨(st | v') | e | w, c'⟩
      · rfl
      · exact ih v' c'
      · rfl
      · rfl
    · rw [if_neg h, if_neg h]

/-- **A rest of a string is the rest of one of its cells**, with or without individual checks. -/
theorem string_rest (hN' : N ≤ 100) (fuel : ℕ) (c : Cyc U) (tlim dt : ℚ) (ndt : ℤ) (th : Thr) :
    rest fuel (cycString N T c) tlim dt ndt (thrString N th) =
      let r := rest fuel c tlim dt ndt th
      (r.1, cycString N T r.2.1, thrString N r.2.2) := by
  unfold rest
  dsimp only
  rw [cycString_storeIf, cycString_restLoop hN']
  generalize (if decide (0 < ndt) = true then min 10 ndt.toNat else 10) = nMax
  rcases restLoop tlim ndt nMax fuel { dti := dt, ttot := 0, idat := 0, nOnce := 1, ninc := true }
    (storeIf (decide (0 < ndt)) c) with ⟨(st | v') | e | w, c'⟩
  · rfl
  · dsimp only
    by_cases g1 : v'.ttot ≥ tlim ∧ |v'.ttot - tlim| < 1
    · rw [if_pos g1, if_pos g1]
      have hu : setCurrent c'.su 0 false = (.ok .Success, (setCurrent c'.su 0 false).2) := by
        rw [← LawfulCurrent.unchecked c'.su 0]
      rw [show (cycString N T c').su = stringOf N T c'.su from rfl, stringOf_set hN' c'.su 0, hu]
      dsimp only
      rw [cycString_withSU, cycString_storeIf]
      rfl
    · rw [if_neg g1, if_neg g1]
  · rfl
  · rfl

/-- Every cell of the library has the voltage limits the theorem asks for. -/
theorem ecm_highLimits {n : ℕ} : HighLimits (ECM n) := fun _ => by
  show (31/10 : ℚ) ≤ cellLimits.Vmax
  decide +kernel

theorem spm_highLimits {n : ℕ} : HighLimits (SpmUnit n) := fun _ => by
  show (31/10 : ℚ) ≤ cellLimits.Vmax
  decide +kernel

end

/-- Three small cells in series on a cycler: a discharge of six seconds ends with the time limit and leaves every cell with
the charge the cell alone would have; the record has the cell's entries with three times the voltage. -/
example :
    let c : Cyc (ECM 0) := { su := smallCell }
    let r := CC 10 c 1 (27/10) 6 2 1 Thr.zero
    let R := CC 10 (cycString 3 293 c) 1 (3 * (27/10)) 6 2 1 (thrString 3 Thr.zero)
    R.1 = .ok .ReachedTimeLimit ∧ R.2.1.su.kids.map (·.su.st.SOC) = List.replicate 3 r.2.1.su.st.SOC ∧
      r.2.1.su.st.SOC < 1/2 ∧ V R.2.1.su = 3 * V r.2.1.su ∧ 0 < r.2.2.Wh ∧ R.2.2.Wh = 3 * r.2.2.Wh ∧
      R.2.1.log.length = r.2.1.log.length ∧ 2 ≤ r.2.1.log.length := by
  decide +kernel

/-- The hypotheses of `string_cc`: a hundred such cells, charged to their limit or for an hour. -/
example (fuel : ℕ) :
    let c : Cyc (ECM 0) := { su := smallCell }
    let r := CC fuel c (-1) (41/10) 3600 2 0 Thr.zero
    CC fuel (cycString 100 293 c) (-1) ((100 : ℕ) * (41/10)) 3600 2 0 (thrString 100 Thr.zero) =
      (r.1, cycString 100 293 r.2.1, thrString 100 r.2.2) :=
  string_cc (by decide) (by decide) ecm_highLimits fuel _ rfl (-1) (by norm_num) 3600 2 0 Thr.zero
    (Or.inr (by decide +kernel))

/-- A rest of a hundred such cells under a load of one ampere: the load is taken off. -/
example (fuel : ℕ) :
    let c : Cyc (ECM 0) := { su := smallCell.withI 1 }
    let r := rest fuel c 3600 2 0 Thr.zero
    rest fuel (cycString 100 293 c) 3600 2 0 (thrString 100 Thr.zero) = (r.1, cycString 100 293 r.2.1, thrString 100 r.2.2) :=
  string_rest (by decide) fuel _ 3600 2 0 Thr.zero

end Slide

import Verif.Spec.Multiply
import Verif.Lemmas.ECM
import Mathlib.Tactic.Linarith
import Mathlib.Tactic.FieldSimp
import Mathlib.Tactic.Ring
import Mathlib.Tactic.NormNum

/-!
# C131: a battery that stands for copies of a module is cycled like the module
-/

namespace Slide
open Spec StorageUnit

variable {M : Type} [StorageUnit M] {s p : ℕ}

/-! ## Helper lemmas -/

omit [StorageUnit M] in
theorem Spec.SideBySide.storeIf {cb : Cyc (Battery M)} {cm : Cyc M} (h : SideBySide s p cb cm) (b : Bool) :
    SideBySide s p (cb.storeIf b) (cm.storeIf b) := by
  have e : ∀ {U : Type} (c : Cyc U), (c.storeIf b).su = c.su ∧ (c.storeIf b).diagnostic = c.diagnostic := by
    intro U c
    unfold Cyc.storeIf
    cases b
    · exact ⟨rfl, rfl⟩
    · show c.storeData.su = c.su ∧ c.storeData.diagnostic = c.diagnostic
      unfold Cyc.storeData
      constructor <;> (dsimp only; split <;> rfl)
  constructor
  · rw [(e cb).1, (e cm).1]; exact h.su
  · rw [(e cb).2, (e cm).2]; exact h.diagnostic

omit [StorageUnit M] in
theorem Spec.SideBySide.withSU {cb : Cyc (Battery M)} {cm : Cyc M} (h : SideBySide s p cb cm) {b : Battery M} {m : M}
    (k : Stands s p b m) : SideBySide s p (cb.withSU b) (cm.withSU m) := ⟨k, h.diagnostic⟩

theorem Spec.Stands.V {b : Battery M} {m : M} (h : Stands s p b m) : StorageUnit.V b = s * StorageUnit.V m := by
  show StorageUnit.V b.cells * b.ns = _
  rw [h.cells, h.ns, mul_comm]

theorem Spec.Stands.I {b : Battery M} {m : M} (h : Stands s p b m) : StorageUnit.I b = p * StorageUnit.I m := by
  show StorageUnit.I b.cells * b.np = _
  rw [h.cells, h.np, mul_comm]

theorem Spec.Stands.setCurrent {b : Battery M} {m : M} (h : Stands s p b m) (hp : 0 < p) (i : ℚ) (chk : Bool) :
    (StorageUnit.setCurrent b (p * i) chk).1 = (StorageUnit.setCurrent m i chk).1 ∧
    Stands s p (StorageUnit.setCurrent b (p * i) chk).2 (StorageUnit.setCurrent m i chk).2 := by
  have e : StorageUnit.setCurrent b (p * i) chk =
      ((StorageUnit.setCurrent m i chk).1, { b with cells := (StorageUnit.setCurrent m i chk).2 }) := by
    show Battery.setCurrent b (p * i) chk = _
    unfold Battery.setCurrent
    have hp' : (p : ℚ) ≠ 0 := by positivity
    rw [if_neg (by rw [h.np]; omega), h.np, h.cells, mul_div_cancel_left₀ _ hp']
  rw [e]
  exact ⟨rfl, rfl, h.ns, h.np, h.conv⟩

theorem Spec.Stands.timeStep {b : Battery M} {m : M} (h : Stands s p b m) (dt : ℚ) (n : ℕ) :
    (StorageUnit.timeStep b dt n).1 = (StorageUnit.timeStep m dt n).1 ∧
    Stands s p (StorageUnit.timeStep b dt n).2 (StorageUnit.timeStep m dt n).2 := by
  obtain ⟨k, hk, h0⟩ := h.conv
  have hl : ∀ v i, ∃ q, b.conv.getLosses v i = .ok q := by
    intro v i
    unfold Converter.getLosses
    rw [hk]
    exact ⟨_, by show (if k = 0 then _ else _) = _; rw [if_neg h0]⟩
  show (Battery.timeStepWith b dt n StorageUnit.T StorageUnit.T).1 = _ ∧ _
  change _ ∧ Stands s p (Battery.timeStepWith b dt n StorageUnit.T StorageUnit.T).2 _
  unfold Battery.timeStepWith
  rw [h.cells]
  rcases StorageUnit.timeStep m dt n with ⟨_ | e | w, m'⟩
  · obtain ⟨q, hq⟩ := hl (Battery.V { b with cells := m' }) (Battery.I { b with cells := m' })
    simp only [hq]
    exact ⟨trivial, rfl, h.ns, h.np, h.conv⟩
  · exact ⟨rfl, rfl, h.ns, h.np, h.conv⟩
  · exact ⟨rfl, rfl, h.ns, h.np, h.conv⟩

theorem scale_lt {s : ℕ} (hs : 0 < s) (a b : ℚ) : (s : ℚ) * a < s * b ↔ a < b :=
  mul_lt_mul_iff_right₀ (by exact_mod_cast hs)
theorem scale_le {s : ℕ} (hs : 0 < s) (a b : ℚ) : (s : ℚ) * a ≤ s * b ↔ a ≤ b :=
  mul_le_mul_iff_right₀ (by exact_mod_cast hs)
theorem scale_neg {s : ℕ} (hs : 0 < s) (a : ℚ) : (s : ℚ) * a < 0 ↔ a < 0 := by
  simpa using scale_lt hs a 0
theorem scale_pos {s : ℕ} (hs : 0 < s) (a : ℚ) : 0 < (s : ℚ) * a ↔ 0 < a := by
  simpa using scale_lt hs 0 a
theorem scale_nonpos {s : ℕ} (hs : 0 < s) (a : ℚ) : (s : ℚ) * a ≤ 0 ↔ a ≤ 0 := by
  simpa using scale_le hs a 0

theorem cyc_setCurrent_side {cb : Cyc (Battery M)} {cm : Cyc M} (h : SideBySide s p cb cm) (hs : 0 < s) (hp : 0 < p)
    (I vlim : ℚ) :
    (cb.setCurrent (p * I) (s * vlim)).1 = (cm.setCurrent I vlim).1 ∧
    SideBySide s p (cb.setCurrent (p * I) (s * vlim)).2 (cm.setCurrent I vlim).2 := by
  have hV := h.su.V
  have hI := h.su.I
  obtain ⟨e1, r1⟩ := h.su.setCurrent hp I cm.diagnostic
  unfold Cyc.setCurrent
  rw [h.diagnostic, hV, hI]
  generalize StorageUnit.setCurrent cb.su (p * I) cm.diagnostic = xb at e1 r1 ⊢
  generalize StorageUnit.setCurrent cm.su I cm.diagnostic = xm at e1 r1 ⊢
  rcases xb with ⟨ob, ub⟩
  rcases xm with ⟨om, um⟩
  dsimp only at e1 r1
  subst e1
  rcases ob with st | e | w
  · dsimp only
    by_cases hv : st.isVoltageLimitsViolated = true
    · rw [if_pos hv, if_pos hv]
      obtain ⟨e2, r2⟩ := r1.setCurrent hp (StorageUnit.I cm.su) false
      generalize StorageUnit.setCurrent ub (p * StorageUnit.I cm.su) false = yb at e2 r2 ⊢
      generalize StorageUnit.setCurrent um (StorageUnit.I cm.su) false = ym at e2 r2 ⊢
      rcases yb with ⟨ob, ub'⟩
      rcases ym with ⟨om, um'⟩
      dsimp only at e2 r2
      subst e2
      rcases ob with st | e | w
      · exact ⟨rfl, h.withSU r2⟩
      · exact ⟨rfl, h.withSU r2⟩
      · exact ⟨rfl, h.withSU r2⟩
    · rw [if_neg hv, if_neg hv, r1.V]
      simp only [gt_iff_lt, ge_iff_le, scale_lt hs, scale_le hs, scale_neg hp]
      by_cases c1 : I < 0 ∧ StorageUnit.V cm.su ≤ vlim ∧ vlim < StorageUnit.V um
      · rw [if_pos c1, if_pos c1]; exact ⟨rfl, h.withSU r1⟩
      · rw [if_neg c1, if_neg c1]
        by_cases c2 : vlim ≤ StorageUnit.V cm.su ∧ StorageUnit.V um < vlim
        · rw [if_pos c2, if_pos c2]; exact ⟨rfl, h.withSU r1⟩
        · rw [if_neg c2, if_neg c2]; exact ⟨rfl, h.withSU r1⟩
  · exact ⟨rfl, h.withSU r1⟩
  · exact ⟨rfl, h.withSU r1⟩

theorem ccVoltage_side {cb : Cyc (Battery M)} {cm : Cyc M} (h : SideBySide s p cb cm) (hs : 0 < s) :
    cb.ccVoltage = match cm.ccVoltage with | .inl st => .inl st | .inr v => .inr (s * v) := by
  have hc : StorageUnit.checkVoltage cb.su = StorageUnit.checkVoltage cm.su := by
    show StorageUnit.checkVoltage cb.su.cells = _
    rw [h.su.cells]
  unfold Cyc.ccVoltage
  rw [h.diagnostic, hc, h.su.V]
  by_cases hd : cm.diagnostic = true
  · rw [if_pos hd, if_pos hd]
    by_cases h1 : (StorageUnit.checkVoltage cm.su).isSuccessful = true
    · simp only [if_pos h1]
    · simp only [if_neg h1]
  · rw [if_neg hd, if_neg hd]
    by_cases h1 : StorageUnit.V cm.su ≤ 0
    · rw [if_pos h1, if_pos ((scale_nonpos hs _).mpr h1)]
    · rw [if_neg h1, if_neg (fun h => h1 ((scale_nonpos hs _).mp h))]

theorem clamp1_one (n : ℤ) : Cyc.clamp1 n 1 = 1 := by
  unfold Cyc.clamp1
  by_cases h : n < 1
  · rw [if_pos h]
  · rw [if_neg h]
    by_cases h2 : ((1 : ℕ) : ℤ) < n
    · rw [if_pos h2]
    · rw [if_neg h2]; omega

/-- When the two adaptations agree: on charge, without series copies, or with single steps. -/
def AdaptsAlike (s : ℕ) (I : ℚ) (nMax : ℕ) : Prop := I < 0 ∨ s = 1 ∨ nMax = 1

/-- The variables of both loops. -/
structure VarsSide (s nMax : ℕ) (vb vm : Cyc.CCVars) : Prop where
  dti : vb.dti = vm.dti
  ttot : vb.ttot = vm.ttot
  idat : vb.idat = vm.idat
  nOnce : vb.nOnce = vm.nOnce
  vo : vb.vo = s * vm.vo
  up : vb.allowUp = vm.allowUp ∨ nMax = 1

theorem ccAdapt_side {I vlim vo vi vlow : ℚ} {nMax n : ℕ} {ub um : Bool} (hs : 0 < s) (hp : 0 < p)
    (ha : AdaptsAlike s I nMax) (hu : ub = um ∨ nMax = 1) :
    (Cyc.ccAdapt (p * I) (s * vlim) (s * vo) (s * vi) (s * vlow) nMax n ub).1 =
      (Cyc.ccAdapt I vlim vo vi vlow nMax n um).1 ∧
    ((Cyc.ccAdapt (p * I) (s * vlim) (s * vo) (s * vi) (s * vlow) nMax n ub).2 =
      (Cyc.ccAdapt I vlim vo vi vlow nMax n um).2 ∨ nMax = 1) := by
  by_cases h1 : nMax = 1
  · subst h1
    refine ⟨?_, .inr rfl⟩
    have e : ∀ (I vlim vo vi vlow : ℚ) (b : Bool), (Cyc.ccAdapt I vlim vo vi vlow 1 n b).1 = 1 := by
      intro I vlim vo vi vlow b
      unfold Cyc.ccAdapt
      by_cases h : I < 0
      · rw [if_pos h]; exact clamp1_one _
      · rw [if_neg h]; exact clamp1_one _
    rw [e, e]
  · have hu : ub = um := by rcases hu with h | h <;> [exact h; exact absurd h h1]
    subst hu
    have q1 : (s : ℚ) * vi - s * vo < (s * vlim - s * vi) / 10 ↔ vi - vo < (vlim - vi) / 10 := by
      rw [← mul_sub, ← mul_sub, mul_div_assoc]; exact scale_lt hs _ _
    have q2 : (s : ℚ) * vlim - s * vi ≤ s * vi - s * vo ↔ vlim - vi ≤ vi - vo := by
      rw [← mul_sub, ← mul_sub]; exact scale_le hs _ _
    have q3 : (s : ℚ) * vo - s * vi < (s * vi - s * vlim) / 10 ↔ vo - vi < (vi - vlim) / 10 := by
      rw [← mul_sub, ← mul_sub, mul_div_assoc]; exact scale_lt hs _ _
    have q4 : ((s : ℚ) * vi - s * vlim) * 2 ≤ s * vo - s * vi ↔ (vi - vlim) * 2 ≤ vo - vi := by
      rw [← mul_sub, ← mul_sub, mul_assoc]; exact scale_le hs _ _
    have e : Cyc.ccAdapt (p * I) (s * vlim) (s * vo) (s * vi) (s * vlow) nMax n ub =
        Cyc.ccAdapt I vlim vo vi vlow nMax n ub := by
      unfold Cyc.ccAdapt
      by_cases hI : I < 0
      · rw [if_pos ((scale_neg hp I).mpr hI), if_pos hI]
        simp only [ge_iff_le, q1, q2]
      · rw [if_neg (fun h => hI ((scale_neg hp I).mp h)), if_neg hI]
        have hs1 : s = 1 := by
          rcases ha with h | h | h
          · exact absurd h hI
          · exact h
          · exact absurd h h1
        subst hs1
        simp only [Nat.cast_one, one_mul]
    rw [e]
    exact ⟨rfl, .inl rfl⟩

/-- Corresponding results of one iteration. -/
def NextSide (s nMax : ℕ) : Outcome Cyc.CCNext → Outcome Cyc.CCNext → Prop
  | .ok (.ret a), .ok (.ret b) => a = b
  | .ok (.brk a), .ok (.brk b) => VarsSide s nMax a b
  | .ok (.cont a), .ok (.cont b) => VarsSide s nMax a b
  | .throw a, .throw b => a = b
  | .ub a, .ub b => a = b
  | _, _ => False

theorem Spec.Multiplied.add {tb tm : Thr} (h : Multiplied s p tb tm) (I d v : ℚ) :
    Multiplied s p { time := tb.time + d, Ah := tb.Ah + |(p : ℚ) * I| * d / 3600, Wh := tb.Wh + |(p : ℚ) * I| * d / 3600 * (s * v) }
      { time := tm.time + d, Ah := tm.Ah + |I| * d / 3600, Wh := tm.Wh + |I| * d / 3600 * v } := by
  have e : |(p : ℚ) * I| = p * |I| := by rw [abs_mul, Nat.abs_cast]
  rw [e]
  refine ⟨by simp only [h.time], by simp only [h.Ah]; ring, by simp only [h.Wh]; ring⟩

theorem ccBody_side {cb : Cyc (Battery M)} {cm : Cyc M} {tb tm : Thr} {vb vm : Cyc.CCVars} {I vlim tlim : ℚ} {ndt : ℤ}
    {nMax : ℕ} (h : SideBySide s p cb cm) (hs : 0 < s) (hp : 0 < p) (ht : Multiplied s p tb tm)
    (ha : AdaptsAlike s I nMax) (hv : VarsSide s nMax vb vm) :
    NextSide s nMax (cb.ccBody (p * I) (s * vlim) tlim ndt nMax vb tb).1 (cm.ccBody I vlim tlim ndt nMax vm tm).1 ∧
    SideBySide s p (cb.ccBody (p * I) (s * vlim) tlim ndt nMax vb tb).2.1 (cm.ccBody I vlim tlim ndt nMax vm tm).2.1 ∧
    Multiplied s p (cb.ccBody (p * I) (s * vlim) tlim ndt nMax vb tb).2.2 (cm.ccBody I vlim tlim ndt nMax vm tm).2.2 := by
  obtain ⟨e1, r1⟩ := cyc_setCurrent_side h hs hp I vlim
  unfold Cyc.ccBody
  generalize cb.setCurrent (p * I) (s * vlim) = xb at e1 r1 ⊢
  generalize cm.setCurrent I vlim = xm at e1 r1 ⊢
  rcases xb with ⟨ob, cb1⟩
  rcases xm with ⟨om, cm1⟩
  dsimp only at e1 r1
  subst e1
  rcases ob with st | e | w
  · dsimp only
    rw [hv.dti, hv.ttot, hv.nOnce, hv.idat]
    generalize (if (vm.nOnce : ℚ) * vm.dti > tlim - vm.ttot then 1 else vm.nOnce) = nOnce
    generalize (if vm.dti > tlim - vm.ttot then tlim - vm.ttot else vm.dti) = dti
    obtain ⟨e2, r2⟩ := r1.su.timeStep dti nOnce
    generalize StorageUnit.timeStep cb1.su dti nOnce = yb at e2 r2 ⊢
    generalize StorageUnit.timeStep cm1.su dti nOnce = ym at e2 r2 ⊢
    rcases yb with ⟨ob, ub⟩
    rcases ym with ⟨om, um⟩
    dsimp only at e2 r2
    subst e2
    rcases ob with st | e | w
    · dsimp only
      have r3 := r1.withSU r2
      have hcv := ccVoltage_side r3 hs
      rw [hcv]
      rcases (cm1.withSU um).ccVoltage with st | vi
      · exact ⟨rfl, r3, ht⟩
      · dsimp only
        have r4 := r3.storeIf (decide (0 < ndt) && decide (ndt ≤ ((vm.idat + nOnce : ℕ) : ℤ)))
        have hm := ht.add I (dti * nOnce) vi
        have hc : ((p : ℚ) * I < 0 ∧ (s : ℚ) * vi > s * vlim ∨ (p : ℚ) * I > 0 ∧ (s : ℚ) * vi < s * vlim) ↔
            (I < 0 ∧ vi > vlim ∨ I > 0 ∧ vi < vlim) := by
          simp only [gt_iff_lt, scale_lt hs, scale_neg hp, scale_pos hp]
        by_cases hb : I < 0 ∧ vi > vlim ∨ I > 0 ∧ vi < vlim
        · rw [if_pos (hc.mpr hb), if_pos hb]
          exact ⟨⟨rfl, rfl, rfl, rfl, hv.vo, hv.up⟩, r4, hm⟩
        · rw [if_neg (fun h => hb (hc.mp h)), if_neg hb]
          have hlow : StorageUnit.Vlow ((cb1.withSU ub).storeIf
              (decide (0 < ndt) && decide (ndt ≤ ((vm.idat + nOnce : ℕ) : ℤ)))).su = s * StorageUnit.Vlow
              ((cm1.withSU um).storeIf (decide (0 < ndt) && decide (ndt ≤ ((vm.idat + nOnce : ℕ) : ℤ)))).su := by
            generalize (cb1.withSU ub).storeIf
              (decide (0 < ndt) && decide (ndt ≤ ((vm.idat + nOnce : ℕ) : ℤ))) = kb at r4 ⊢
            generalize (cm1.withSU um).storeIf
              (decide (0 < ndt) && decide (ndt ≤ ((vm.idat + nOnce : ℕ) : ℤ))) = km at r4 ⊢
            show StorageUnit.Vlow kb.su.cells * kb.su.ns = _
            rw [r4.su.cells, r4.su.ns, mul_comm]
          rw [hlow, hv.vo]
          obtain ⟨a1, a2⟩ := ccAdapt_side (vlim := vlim) (vo := vm.vo) (vi := vi) (n := nOnce) (vlow :=
            StorageUnit.Vlow ((cm1.withSU um).storeIf (decide (0 < ndt) && decide (ndt ≤ ((vm.idat + nOnce : ℕ) : ℤ)))).su)
            hs hp ha hv.up
          exact ⟨⟨rfl, rfl, rfl, a1, rfl, a2⟩, r4, hm⟩
    · exact ⟨rfl, r1.withSU r2, ht⟩
    · exact ⟨rfl, r1.withSU r2, ht⟩
  · exact ⟨rfl, r1, ht⟩
  · exact ⟨rfl, r1, ht⟩

/-- Corresponding results of the loop. -/
def LoopSide (s nMax : ℕ) : Outcome (Status ⊕ (Cyc.CCVars × Bool)) → Outcome (Status ⊕ (Cyc.CCVars × Bool)) → Prop
  | .ok (.inl a), .ok (.inl b) => a = b
  | .ok (.inr (a, x)), .ok (.inr (b, y)) => VarsSide s nMax a b ∧ x = y
  | .throw a, .throw b => a = b
  | .ub a, .ub b => a = b
  | _, _ => False

theorem ccLoop_side {I vlim tlim : ℚ} {ndt : ℤ} {nMax : ℕ} (hs : 0 < s) (hp : 0 < p) (ha : AdaptsAlike s I nMax)
    (fuel : ℕ) : ∀ {cb : Cyc (Battery M)} {cm : Cyc M} {tb tm : Thr} {vb vm : Cyc.CCVars}, SideBySide s p cb cm →
    Multiplied s p tb tm → VarsSide s nMax vb vm →
    LoopSide s nMax (Cyc.ccLoop (p * I) (s * vlim) tlim ndt nMax fuel vb cb tb).1
      (Cyc.ccLoop I vlim tlim ndt nMax fuel vm cm tm).1 ∧
    SideBySide s p (Cyc.ccLoop (p * I) (s * vlim) tlim ndt nMax fuel vb cb tb).2.1
      (Cyc.ccLoop I vlim tlim ndt nMax fuel vm cm tm).2.1 ∧
    Multiplied s p (Cyc.ccLoop (p * I) (s * vlim) tlim ndt nMax fuel vb cb tb).2.2
      (Cyc.ccLoop I vlim tlim ndt nMax fuel vm cm tm).2.2 := by
  induction fuel with
  | zero =>
    intro cb cm tb tm vb vm h ht hv
    unfold Cyc.ccLoop
    rw [hv.ttot]
    by_cases c : vm.ttot < tlim
    · rw [if_pos c, if_pos c]; exact ⟨rfl, h, ht⟩
    · rw [if_neg c, if_neg c]; exact ⟨⟨hv, rfl⟩, h, ht⟩
  | succ fuel ih =>
    intro cb cm tb tm vb vm h ht hv
    unfold Cyc.ccLoop
    rw [hv.ttot]
    by_cases c : vm.ttot < tlim
    · rw [if_pos c, if_pos c]
      obtain ⟨b1, b2, b3⟩ := ccBody_side (vlim := vlim) (tlim := tlim) (ndt := ndt) h hs hp ht ha hv
      generalize cb.ccBody (p * I) (s * vlim) tlim ndt nMax vb tb = xb at b1 b2 b3 ⊢
      generalize cm.ccBody I vlim tlim ndt nMax vm tm = xm at b1 b2 b3 ⊢
      rcases xb with ⟨(_ | _ | _) | _ | _, cb1, tb1⟩ <;> rcases xm with ⟨(_ | _ | _) | _ | _, cm1, tm1⟩ <;>
        first
        | exact ih b2 b3 b1
        | exact absurd b1 id
        | exact ⟨⟨b1, rfl⟩, b2, b3⟩
        | exact ⟨b1, b2, b3⟩
    · rw [if_neg c, if_neg c]; exact ⟨⟨hv, rfl⟩, h, ht⟩

/-! ## The property -/

/-- **C131 (part that holds).**  On charge, without series copies, or when every time step is recorded, `p` times the
current and `s` times the limit have the same effect on the module of the battery as the current and the limit on the
module alone: same end, same module, same time, `p` times the charge and `s p` times the energy. -/
theorem batteryCyclesLikeModule_partial {fuel : ℕ} {cb : Cyc (Battery M)} {cm : Cyc M} {I vlim tlim dt : ℚ} {ndt : ℤ}
    {tb tm : Thr} (hs : 0 < s) (hp : 0 < p) (h : SideBySide s p cb cm) (ht : Multiplied s p tb tm)
    (ha : I < 0 ∨ s = 1 ∨ ndt = 1) :
    SameCourse s p (cb.CC fuel (p * I) (s * vlim) tlim dt ndt tb) (cm.CC fuel I vlim tlim dt ndt tm) := by
  have r0 := h.storeIf (decide (0 < ndt))
  obtain ⟨e1, r1⟩ := cyc_setCurrent_side r0 hs hp I vlim
  unfold Cyc.CC
  dsimp only
  generalize (cb.storeIf (decide (0 < ndt))).setCurrent (p * I) (s * vlim) = xb at e1 r1 ⊢
  generalize (cm.storeIf (decide (0 < ndt))).setCurrent I vlim = xm at e1 r1 ⊢
  rcases xb with ⟨ob, cb1⟩
  rcases xm with ⟨om, cm1⟩
  dsimp only at e1 r1
  subst e1
  rcases ob with st | e | w
  · dsimp only
    by_cases hst : (!st.isSuccessful) = true
    · rw [if_pos hst, if_pos hst]; exact ⟨rfl, r1, ht⟩
    · rw [if_neg hst, if_neg hst, r1.su.V]
      have hc : ((p : ℚ) * I < 0 ∧ (s : ℚ) * StorageUnit.V cm1.su > s * vlim ∨
          (p : ℚ) * I > 0 ∧ (s : ℚ) * StorageUnit.V cm1.su < s * vlim) ↔
          (I < 0 ∧ StorageUnit.V cm1.su > vlim ∨ I > 0 ∧ StorageUnit.V cm1.su < vlim) := by
        simp only [gt_iff_lt, scale_lt hs, scale_neg hp, scale_pos hp]
      by_cases hb : I < 0 ∧ StorageUnit.V cm1.su > vlim ∨ I > 0 ∧ StorageUnit.V cm1.su < vlim
      · rw [if_pos (hc.mpr hb), if_pos hb]; exact ⟨rfl, r1, ht⟩
      · rw [if_neg (fun h => hb (hc.mp h)), if_neg hb]
        have ha' : AdaptsAlike s I (if decide (0 < ndt) = true then min 2 ndt.toNat else 2) := by
          rcases ha with h | h | h
          · exact .inl h
          · exact .inr (.inl h)
          · subst h; exact .inr (.inr rfl)
        obtain ⟨l1, l2, l3⟩ := ccLoop_side (vlim := vlim) (tlim := tlim) (ndt := ndt) hs hp ha' fuel r1 ht
          (vb := { dti := dt, ttot := 0, idat := 0, nOnce := 1, vo := s * StorageUnit.V cm1.su,
                   vi := s * StorageUnit.V cm1.su, allowUp := true })
          (vm := { dti := dt, ttot := 0, idat := 0, nOnce := 1, vo := StorageUnit.V cm1.su,
                   vi := StorageUnit.V cm1.su, allowUp := true }) ⟨rfl, rfl, rfl, rfl, rfl, .inl rfl⟩
        generalize Cyc.ccLoop (p * I) (s * vlim) tlim ndt (if decide (0 < ndt) = true then min 2 ndt.toNat else 2) fuel
          _ cb1 tb = yb at l1 l2 l3 ⊢
        generalize Cyc.ccLoop I vlim tlim ndt (if decide (0 < ndt) = true then min 2 ndt.toNat else 2) fuel
          _ cm1 tm = ym at l1 l2 l3 ⊢
        rcases yb with ⟨(a | ⟨vb, xb⟩) | e | w, cb2, tb2⟩ <;> rcases ym with ⟨(b | ⟨vm, xm⟩) | e' | w', cm2, tm2⟩ <;>
          try exact absurd l1 id
        · exact ⟨congrArg _ l1, l2, l3⟩
        · obtain ⟨l1, l4⟩ := l1
          subst l4
          dsimp only
          rw [l1.ttot]
          by_cases c1 : vm.ttot ≥ tlim
          · rw [if_pos c1, if_pos c1]; exact ⟨rfl, l2.storeIf _, l3⟩
          · rw [if_neg c1, if_neg c1]
            cases xb
            · exact ⟨rfl, l2, l3⟩
            · exact ⟨rfl, l2.storeIf _, l3⟩
        · exact ⟨congrArg _ l1, l2, l3⟩
        · exact ⟨congrArg _ l1, l2, l3⟩
  · exact ⟨rfl, r1, ht⟩
  · exact ⟨rfl, r1, ht⟩

/-- Corresponding results of an iteration and of the loop of a rest. -/
theorem restBody_side {cb : Cyc (Battery M)} {cm : Cyc M} {tlim : ℚ} {ndt : ℤ} {nMax : ℕ} {v : Cyc.RestVars}
    (h : SideBySide s p cb cm) (hp : 0 < p) :
    (cb.restBody tlim ndt nMax v).1 = (cm.restBody tlim ndt nMax v).1 ∧
    SideBySide s p (cb.restBody tlim ndt nMax v).2 (cm.restBody tlim ndt nMax v).2 := by
  obtain ⟨e1, r1⟩ := h.su.setCurrent hp 0 false
  rw [mul_zero] at e1 r1
  unfold Cyc.restBody
  generalize StorageUnit.setCurrent cb.su 0 false = xb at e1 r1 ⊢
  generalize StorageUnit.setCurrent cm.su 0 false = xm at e1 r1 ⊢
  rcases xb with ⟨ob, ub⟩
  rcases xm with ⟨om, um⟩
  dsimp only at e1 r1
  subst e1
  rcases ob with st | e | w
  · dsimp only
    by_cases hb : st.isBad = true
    · rw [if_pos hb, if_pos hb]; exact ⟨rfl, h.withSU r1⟩
    · rw [if_neg hb, if_neg hb]
      generalize (if (v.nOnce : ℚ) * v.dti > tlim - v.ttot then 1 else v.nOnce) = nOnce
      generalize (if v.dti > tlim - v.ttot then tlim - v.ttot else v.dti) = dti
      obtain ⟨e2, r2⟩ := r1.timeStep dti nOnce
      generalize StorageUnit.timeStep ub dti nOnce = yb at e2 r2 ⊢
      generalize StorageUnit.timeStep um dti nOnce = ym at e2 r2 ⊢
      rcases yb with ⟨ob, ub'⟩
      rcases ym with ⟨om, um'⟩
      dsimp only at e2 r2
      subst e2
      rcases ob with st | e | w
      · exact ⟨rfl, (h.withSU r2).storeIf _⟩
      · exact ⟨rfl, h.withSU r2⟩
      · exact ⟨rfl, h.withSU r2⟩
  · exact ⟨rfl, h.withSU r1⟩
  · exact ⟨rfl, h.withSU r1⟩

theorem restLoop_side {tlim : ℚ} {ndt : ℤ} {nMax : ℕ} (hp : 0 < p) (fuel : ℕ) :
    ∀ {cb : Cyc (Battery M)} {cm : Cyc M} {v : Cyc.RestVars}, SideBySide s p cb cm →
    (Cyc.restLoop tlim ndt nMax fuel v cb).1 = (Cyc.restLoop tlim ndt nMax fuel v cm).1 ∧
    SideBySide s p (Cyc.restLoop tlim ndt nMax fuel v cb).2 (Cyc.restLoop tlim ndt nMax fuel v cm).2 := by
  induction fuel with
  | zero =>
    intro cb cm v h
    unfold Cyc.restLoop
    by_cases c : v.ttot < tlim
    · rw [if_pos c, if_pos c]; exact ⟨rfl, h⟩
    · rw [if_neg c, if_neg c]; exact ⟨rfl, h⟩
  | succ fuel ih =>
    intro cb cm v h
    unfold Cyc.restLoop
    by_cases c : v.ttot < tlim
    · rw [if_pos c, if_pos c]
      obtain ⟨b1, b2⟩ := restBody_side (tlim := tlim) (ndt := ndt) (nMax := nMax) (v := v) h hp
      generalize cb.restBody tlim ndt nMax v = xb at b1 b2 ⊢
      generalize cm.restBody tlim ndt nMax v = xm at b1 b2 ⊢
      rcases xb with ⟨ob, cb1⟩
      rcases xm with ⟨om, cm1⟩
      dsimp only at b1 b2
      subst b1
      rcases ob with (st | v') | e | w
      · exact ⟨rfl, b2⟩
      · exact ih b2
      · exact ⟨rfl, b2⟩
      · exact ⟨rfl, b2⟩
    · rw [if_neg c, if_neg c]; exact ⟨rfl, h⟩

/-- **C131, rest.**  A rest has the same effect on the module of the battery as on the module alone, however often data
are recorded. -/
theorem battery_rests_like_module {fuel : ℕ} {cb : Cyc (Battery M)} {cm : Cyc M} {tlim dt : ℚ} {ndt : ℤ} {tb tm : Thr}
    (hp : 0 < p) (h : SideBySide s p cb cm) (ht : Multiplied s p tb tm) :
    SameCourse s p (cb.rest fuel tlim dt ndt tb) (cm.rest fuel tlim dt ndt tm) := by
  obtain ⟨l1, l2⟩ := restLoop_side (tlim := tlim) (ndt := ndt)
    (nMax := if decide (0 < ndt) = true then min 10 ndt.toNat else 10)
    (v := { dti := dt, ttot := 0, idat := 0, nOnce := 1, ninc := true }) hp fuel (h.storeIf (decide (0 < ndt)))
  unfold Cyc.rest
  dsimp only
  generalize Cyc.restLoop tlim ndt (if decide (0 < ndt) = true then min 10 ndt.toNat else 10) fuel _
    (cb.storeIf (decide (0 < ndt))) = yb at l1 l2 ⊢
  generalize Cyc.restLoop tlim ndt (if decide (0 < ndt) = true then min 10 ndt.toNat else 10) fuel _
    (cm.storeIf (decide (0 < ndt))) = ym at l1 l2 ⊢
  rcases yb with ⟨ob, cb1⟩
  rcases ym with ⟨om, cm1⟩
  dsimp only at l1 l2
  subst l1
  rcases ob with (st | v) | e | w
  · exact ⟨rfl, l2, ht⟩
  · dsimp only
    by_cases c : v.ttot ≥ tlim ∧ |v.ttot - tlim| < 1
    · rw [if_pos c, if_pos c]
      obtain ⟨e1, r1⟩ := l2.su.setCurrent hp 0 false
      rw [mul_zero] at e1 r1
      generalize StorageUnit.setCurrent cb1.su 0 false = xb at e1 r1 ⊢
      generalize StorageUnit.setCurrent cm1.su 0 false = xm at e1 r1 ⊢
      rcases xb with ⟨ob, ub⟩
      rcases xm with ⟨om, um⟩
      dsimp only at e1 r1
      subst e1
      rcases ob with st | e | w
      · exact ⟨rfl, (l2.withSU r1).storeIf _, ⟨by simp only [ht.time], ht.Ah, ht.Wh⟩⟩
      · exact ⟨rfl, l2.withSU r1, ht⟩
      · exact ⟨rfl, l2.withSU r1, ht⟩
    · rw [if_neg c, if_neg c]; exact ⟨rfl, l2, ht⟩
  · exact ⟨rfl, l2, ht⟩
  · exact ⟨rfl, l2, ht⟩

/-! ## The full statement is false -/

/-- A cell of 1 Ah whose voltage is flat at 3.05 V down to half its charge and then falls linearly. -/
def cliffCell : ECM 0 where
  par := { cap := 1, Rdc := 1 / 1000, Rp := Fin.elim0, invTau := Fin.elim0,
           ocv := fun x => if 0 ≤ x ∧ x ≤ 1 then some (if x < 1 / 2 then 1 + 41 / 10 * x else 305 / 100) else none }
  st := { T := 288, SOC := 8 / 10, I := 0, Ir := Fin.elim0, time := 0, Ah := 0, Wh := 0 }

/-- A battery that stands for two of them in series. -/
def cliffBattery : Battery (ECM 0) :=
  { cells := cliffCell, cool := CoolSystem.make 2 1, conv := Converter.init, ns := 2, np := 1 }

/-- The two cyclers, without limits other than the given one. -/
theorem cliffSide : SideBySide 2 1 { su := cliffBattery } { su := cliffCell } :=
  ⟨⟨rfl, rfl, rfl, ⟨1, by decide +kernel, by norm_num⟩⟩, rfl⟩

/-- The cell alone stops after 4 steps, as part of the battery after 5: below 3.1 V the cycler is meant to take single
steps, but it compares the voltage of the lowest cell times the number of copies in series. -/
theorem cliff_times :
    (Cyc.CC 100 { su := cliffCell } 1 (27 / 10) 36000 360 0 Thr.zero).2.2.time = 1440 ∧
    (Cyc.CC 100 { su := cliffBattery } 1 (54 / 10) 36000 360 0 Thr.zero).2.2.time = 1800 := by decide +kernel

/-- **C131: the full statement is false of the code.** -/
theorem not_batteryCyclesLikeModule : ¬ BatteryCyclesLikeModule (ECM 0) := by
  intro H
  have h := (H 2 1 100 { su := cliffBattery } { su := cliffCell } 1 (27 / 10) 36000 360 0 Thr.zero Thr.zero (by norm_num)
    (by norm_num) cliffSide ⟨rfl, by norm_num [Thr.zero], by norm_num [Thr.zero]⟩).accounts.time
  have e1 : ((1 : ℕ) : ℚ) * 1 = 1 := by norm_num
  have e2 : ((2 : ℕ) : ℚ) * (27 / 10) = 54 / 10 := by norm_num
  rw [e1, e2, cliff_times.1, cliff_times.2] at h
  norm_num at h

/-- With recording at every step both take 4 steps. -/
example : (Cyc.CC 100 { su := cliffBattery } 1 (54 / 10) 36000 360 1 Thr.zero).2.2.time = 1440 := by
  have h := (batteryCyclesLikeModule_partial (fuel := 100) (I := 1) (vlim := 27 / 10) (tlim := 36000) (dt := 360)
    (ndt := 1) (tb := Thr.zero) (tm := Thr.zero) (by norm_num) (by norm_num) cliffSide
    ⟨rfl, by norm_num [Thr.zero], by norm_num [Thr.zero]⟩ (.inr (.inr rfl))).accounts.time
  have e1 : ((1 : ℕ) : ℚ) * 1 = 1 := by norm_num
  have e2 : ((2 : ℕ) : ℚ) * (27 / 10) = 54 / 10 := by norm_num
  rw [e1, e2] at h
  rw [h]
  decide +kernel

end Slide

import Verif.Spec.ChargeChecked
import Verif.Props.PackCycle

/-!
C144: the charge that a constant-current phase reports has flowed.
-/

namespace Slide
open StorageUnit Spec Cyc CellLaws

theorem checkVoltage_code_range (lim : VLimits) (v : Option ℚ) (I : ℚ) :
    0 ≤ (Slide.checkVoltage lim v I).code ∧ (Slide.checkVoltage lim v I).code ≤ 7 := by
  unfold Slide.checkVoltage
  cases v with
  | none => exact ⟨by simp [Status.code], by simp [Status.code]⟩
  | some x =>
    dsimp only
    split_ifs <;> decide

/-- Cells that answer a request with one of the results of the voltage check. -/
class AnswersCheck (C : Type) [StorageUnit C] : Prop where
  range : ∀ (c : C) i b st, (setCurrent c i b).1 = .ok st → 0 ≤ st.code ∧ st.code ≤ 7

instance {n : ℕ} : AnswersCheck (ECM n) where
  range c i b st h := by
    have h' : (ECM.setCurrent c i b).1 = st := by
      have : Outcome.ok (ECM.setCurrent c i b).1 = Outcome.ok st := h
      injection this
    have e : (ECM.setCurrent c i b).1 = (c.withI i).checkCurrent b := by
      unfold ECM.setCurrent
      dsimp only
      split <;> rfl
    rw [← h', e]
    cases b
    · exact (show 0 ≤ Status.Success.code ∧ Status.Success.code ≤ 7 by decide)
    · exact checkVoltage_code_range cellLimits (some (c.withI i).V) (c.withI i).st.I

instance {N : ℕ} : AnswersCheck (SpmUnit N) where
  range u i b st h := by
    have h' : (u.cell.setCurrent i b).1 = .ok st := h
    rw [spm_setCurrent_eq] at h'
    cases b with
    | false =>
      have hst : st = .Success := by
        have h2 : Outcome.ok Status.Success = Outcome.ok st := h'
        injection h2 with h2
        exact h2.symm
      rw [hst]
      decide
    | true =>
      have e : (withCurrent u.cell i).checkCurrent true = (withCurrent u.cell i).checkV := rfl
      rw [e] at h'
      have hk : ∀ s, (withCurrent u.cell i).checkV.1 = .ok s → 0 ≤ s.code ∧ s.code ≤ 7 := by
        intro s hs
        unfold SPM.checkV at hs
        rcases hv : (withCurrent u.cell i).V with ⟨r | e | w, c2⟩ <;> rw [hv] at hs
        · injection hs with hs
          rw [← hs]
          exact checkVoltage_code_range _ _ _
        · injection hs with hs
          rw [← hs]
          exact checkVoltage_code_range _ _ _
        · cases hs
      rcases hq : (withCurrent u.cell i).checkV with ⟨r | e | w, c2⟩ <;> rw [hq] at h' hk
      · dsimp only at h'
        by_cases hb : r.isBad = true
        · rw [if_pos hb] at h'
          have : r = st := by injection h'
          rw [← this]; exact hk r rfl
        · rw [if_neg hb] at h'
          have : r = st := by injection h'
          rw [← this]; exact hk r rfl
      · cases h'
      · cases h'

section
variable {C : Type} [StorageUnit C] [VoltageUnit C] [CellLaws C] [LawfulCurrent C]

omit [VoltageUnit C] [CellLaws C] in
/-- A cell that carries the current keeps it, whatever the answer. -/
theorem cycSet_keeps_I (c : Cyc C) {I vlim : ℚ} (h : StorageUnit.I c.su = I) :
    StorageUnit.I (c.setCurrent I vlim).2.su = I := by
  unfold Cyc.setCurrent
  dsimp only
  obtain ⟨st, hst⟩ := LawfulCurrent.returns c.su I c.diagnostic
  have hI1 : StorageUnit.I (StorageUnit.setCurrent c.su I c.diagnostic).2 = I := by
    by_cases hb : st.isBad = true
    · rw [LawfulCurrent.rejects c.su I _ st hst hb]; exact h
    · exact LawfulCurrent.sets c.su I _ st hst (by simpa using hb)
  generalize StorageUnit.setCurrent c.su I c.diagnostic = q at hst hI1
  obtain ⟨o, u1⟩ := q
  dsimp only at hst hI1
  subst hst
  dsimp only
  by_cases hv : st.isVoltageLimitsViolated = true
  · rw [if_pos hv, h]
    have hs := LawfulCurrent.unchecked u1 I
    have hI2 := LawfulCurrent.sets u1 I false _ hs rfl
    generalize StorageUnit.setCurrent u1 I false = q at hs hI2
    obtain ⟨o, u2⟩ := q
    dsimp only at hs hI2
    subst hs
    exact hI2
  · rw [if_neg hv]
    split
    · exact hI1
    · split <;> exact hI1

omit [VoltageUnit C] [CellLaws C] [LawfulCurrent C] in
theorem cycSet_success (c : Cyc C) (I vlim : ℚ) (hset : (StorageUnit.setCurrent c.su I c.diagnostic).1 = .ok .Success) :
    (c.setCurrent I vlim).2.su = (StorageUnit.setCurrent c.su I c.diagnostic).2 := by
  unfold Cyc.setCurrent
  dsimp only
  generalize StorageUnit.setCurrent c.su I c.diagnostic = q at hset
  obtain ⟨o, u1⟩ := q
  dsimp only at hset
  subst hset
  dsimp only
  rw [if_neg (by decide)]
  split
  · rfl
  · split <;> rfl

omit [VoltageUnit C] [CellLaws C] in
theorem cycSet_violated (c : Cyc C) (I vlim : ℚ) {st : Status} (hset : (StorageUnit.setCurrent c.su I c.diagnostic).1 = .ok st)
    (hv : st.isVoltageLimitsViolated = true) : (c.setCurrent I vlim).1 = .ok st := by
  unfold Cyc.setCurrent
  dsimp only
  generalize StorageUnit.setCurrent c.su I c.diagnostic = q at hset
  obtain ⟨o, u1⟩ := q
  dsimp only at hset
  subst hset
  dsimp only
  rw [if_pos hv]
  have hs := LawfulCurrent.unchecked u1 (StorageUnit.I c.su)
  generalize StorageUnit.setCurrent u1 (StorageUnit.I c.su) false = q at hs
  obtain ⟨o, u2⟩ := q
  dsimp only at hs
  subst hs
  rfl

/-- **The charge that a constant-current phase of a cell reports has flowed**, with or without individual checks, if the
voltage of the cell carrying the current can be computed: when the phase ends at one of its limits, the cell has carried the
current for the time reported, its charge counter and state of charge have changed by the charge reported. -/
theorem cc_charge_flows_partial [AnswersCheck C] (fuel : ℕ) (c c' : Cyc C) (I vlim tlim dt : ℚ) (ndt : ℤ) (th th' : Thr) (st : Status)
    (h : CC fuel c I vlim tlim dt ndt th = (.ok st, c', th')) (hd : 0 < dt) (ht : 0 ≤ tlim)
    (hst : st = .ReachedTimeLimit ∨ st = .ReachedVoltageLimit)
    (hV : (StorageUnit.setCurrent c.su I c.diagnostic).1 ≠ .ok .V_not_calculated) :
    ∃ τ, 0 ≤ τ ∧ τ ≤ tlim ∧ (st = .ReachedTimeLimit → τ = tlim) ∧ th'.time = th.time + τ ∧
      th'.Ah = th.Ah + |I| * τ / 3600 ∧ time c'.su = time c.su + τ ∧
      Ah c'.su - Ah c.su = th'.Ah - th.Ah ∧ SOC c'.su = SOC c.su - I * τ / 3600 / Cap c.su := by
  obtain ⟨s0, hs0⟩ := LawfulCurrent.returns c.su I c.diagnostic
  have hrange := AnswersCheck.range c.su I c.diagnostic s0 hs0
  have hnv : s0.isVoltageLimitsViolated = false := by
    by_contra hv
    have hv : s0.isVoltageLimitsViolated = true := by simpa using hv
    have e := cycSet_violated (storeIf (decide (0 < ndt)) c) I vlim (st := s0) (by rw [storeIf_su, storeIf_diag]; exact hs0) hv
    have hsuc : (!s0.isSuccessful) = true := by
      cases s0 <;> first | rfl | exact absurd hv (by decide)
    unfold CC at h
    dsimp only at h
    generalize (storeIf (decide (0 < ndt)) c).setCurrent I vlim = q at e h
    obtain ⟨o, c1⟩ := q
    dsimp only at e
    subst e
    dsimp only at h
    rw [if_pos hsuc] at h
    have : s0 = st := by injection h with h; injection h
    rw [this] at hv
    rcases hst with rfl | rfl <;> exact absurd hv (by decide)
  have hS : s0 = .Success := by
    rw [hs0] at hV
    cases s0 <;> first | rfl | exact absurd rfl hV | exact absurd hnv (by decide) | exact absurd hrange (by decide)
  subst hS
  have hI0 : StorageUnit.I (c.setCurrent I vlim).2.su = I := by
    rw [cycSet_success c I vlim hs0]
    exact LawfulCurrent.sets c.su I _ _ hs0 rfl
  have honly : ∀ c : Cyc C, Only c.su (c.setCurrent I vlim).2.su := by
    intro c
    unfold Cyc.setCurrent
    dsimp only
    have g := only_set c.su I c.diagnostic
    generalize StorageUnit.setCurrent c.su I c.diagnostic = q at g
    obtain ⟨o | e | w, u1⟩ := q
    · dsimp only at g ⊢
      by_cases hv : o.isVoltageLimitsViolated = true
      · rw [if_pos hv]
        have g2 := only_trans g (only_set u1 (StorageUnit.I c.su) false)
        generalize StorageUnit.setCurrent u1 (StorageUnit.I c.su) false = q at g2
        obtain ⟨o | e | w, u2⟩ := q <;> exact g2
      · rw [if_neg hv]
        split
        · exact g
        · split <;> exact g
    · exact g
    · exact g
  have hobs : ∀ c : Cyc C, (time (c.setCurrent I vlim).2.su, Ah (c.setCurrent I vlim).2.su, SOC (c.setCurrent I vlim).2.su,
      Cap (c.setCurrent I vlim).2.su) = (time c.su, Ah c.su, SOC c.su, Cap c.su) := by
    intro c
    obtain ⟨o1, o2, o3, o4⟩ := only_meters (honly c)
    rw [o1, o2, o3, o4]
  have hsame : ∀ (c : Cyc C) b, ((storeIf b c).setCurrent I vlim).2.su = (c.setCurrent I vlim).2.su := by
    intro c b
    unfold Cyc.setCurrent
    rw [storeIf_su, storeIf_diag]
    dsimp only
    generalize StorageUnit.setCurrent c.su I c.diagnostic = q
    obtain ⟨o | e | w, u1⟩ := q
    · dsimp only
      by_cases hv : o.isVoltageLimitsViolated = true
      · rw [if_pos hv, if_pos hv]
        generalize StorageUnit.setCurrent u1 (StorageUnit.I c.su) false = q
        obtain ⟨o | e | w, u2⟩ := q <;> rfl
      · rw [if_neg hv, if_neg hv]
        split
        · rfl
        · split <;> rfl
    · rfl
    · rfl
  have hO : Observed (U := C) (fun c => StorageUnit.I (c.setCurrent I vlim).2.su = I)
      (fun u : C => (time u, Ah u, SOC u, Cap u))
      (fun τ a => (a.1 + τ, a.2.1 + |I| * τ / 3600, a.2.2.1 - I * τ / 3600 / a.2.2.2, a.2.2.2)) I vlim := {
    next := by
      intro c dt n hg _ _ hok
      obtain ⟨m1, m2, m3, m4⟩ := step_meters _ dt n hok
      obtain ⟨o1, o2, o3, o4⟩ := only_meters (honly c)
      dsimp only
      rw [m1, m2, m3, m4, o1, o2, o3, o4, hg, mul_comm dt]
    keep := by
      intro c c' dt n hg _ _ hok hsu _
      exact cycSet_keeps_I c' (by rw [hsu, step_I _ dt n hok]; exact hg)
    zero := by intro a; simp
    add := by
      intro s t a
      refine Prod.ext (by dsimp only; ring) (Prod.ext (by dsimp only; ring) (Prod.ext ?_ rfl))
      dsimp only
      rw [sub_sub, ← add_div, ← add_div, ← mul_add] }
  obtain ⟨τ, t1, t2, t3, t4, t5, t6⟩ := cells_cc_accounts (C := C) (d := 0) hO
    hobs (fun c b hg => (congrArg (StorageUnit.I (U := C)) (hsame c b)).trans hg)
    (fun c hg => cycSet_keeps_I _ hg)
    fuel c c' tlim dt ndt th th' st h hd ht hI0 hst
  rw [Prod.mk.injEq, Prod.mk.injEq, Prod.mk.injEq] at t6
  obtain ⟨a1, a2, a3, a4⟩ := t6
  exact ⟨τ, t1, t2, t3, t4, t5, a1, by rw [a2, t5]; ring, a3⟩

/-- In a pack of copies of the cell – with modules in parallel too – the charge reported is `p` times the charge that each of
its cells has counted. -/
theorem pack_charge_flows [LawfulStep C] [CellChecks C] [CheckedSet C] [AnswersCheck C] {d s p : ℕ} (hl : HighLimits C) {c : Cyc C}
    {P : Cyc (Tree C d)} (h : CycUniform d s p c P) (hd : c.diagnostic = true) (fuel : ℕ) {I vlim : ℚ} (hv : 0 < vlim)
    (hset : (StorageUnit.setCurrent c.su I true).1 = .ok .Success) (tlim dt : ℚ) (ndt : ℤ) (th : Thr) (hdt : 0 < dt) (ht : 0 ≤ tlim)
    {st : Status} (hst : st = .ReachedTimeLimit ∨ st = .ReachedVoltageLimit)
    (hR : (CC fuel P (p * I) (s * vlim) tlim dt ndt (thrPack s p th)).1 = .ok st) :
    ∃ u, UniformPack u d s p (CC fuel P (p * I) (s * vlim) tlim dt ndt (thrPack s p th)).2.1.su ∧
      (CC fuel P (p * I) (s * vlim) tlim dt ndt (thrPack s p th)).2.2.Ah - (thrPack s p th).Ah = p * (Ah u - Ah c.su) := by
  obtain ⟨a1, a2, a3⟩ := pack_cc_partial hl h hd fuel hv hset tlim dt ndt th
  rw [a1] at hR
  obtain ⟨τ, -, -, -, -, -, -, e, -⟩ := cc_charge_flows_partial fuel c (CC fuel c I vlim tlim dt ndt th).2.1 I vlim tlim dt ndt th
    (CC fuel c I vlim tlim dt ndt th).2.2 st (Prod.ext hR rfl) hdt ht hst (by rw [hd, hset]; intro h; injection h with h; cases h)
  refine ⟨_, a2.unit, ?_⟩
  rw [a3, e]
  unfold thrPack
  ring

end

/-! ### Currents that are too large -/

/-- C144 for a cell on a cycler with individual checks: the full statement. -/
def CheckedChargeFlows : Prop :=
  ∀ (fuel : ℕ) (c c' : Cyc (ECM 0)) (I vlim tlim dt : ℚ) (ndt : ℤ) (th th' : Thr) (st : Status),
    CC fuel c I vlim tlim dt ndt th = (.ok st, c', th') → 0 < dt → 0 ≤ tlim → 0 < vlim →
    (st = .ReachedTimeLimit ∨ st = .ReachedVoltageLimit) → c.diagnostic = true →
    c'.su.st.Ah - c.su.st.Ah = th'.Ah - th.Ah

/-- C144 for a module of parallel cells on a cycler without individual checks: the cells together count at least the charge
reported. -/
def ParallelChargeFlows : Prop :=
  ∀ (fuel : ℕ) (c c' : Cyc (ModuleP (ECM 0))) (I vlim tlim dt : ℚ) (ndt : ℤ) (th th' : Thr) (st : Status),
    CC fuel c I vlim tlim dt ndt th = (.ok st, c', th') → 0 < dt → 0 ≤ tlim → 0 < vlim →
    (st = .ReachedTimeLimit ∨ st = .ReachedVoltageLimit) → c.diagnostic = false →
    th'.Ah - th.Ah ≤ countedAh c'.su.kids - countedAh c.su.kids

/-- A half-full cell on a cycler with individual checks. -/
def checkedCell : Cyc (ECM 0) := { su := bucket half 0, diagnostic := true }

/-- It fails when the voltage of the cell carrying the current would not be positive: the cell refuses the current with
`V_not_calculated`, which the cycler does not take for a refusal.  Asked for 2000 A the cell stays at rest; the cycler reports
the time limit and 2000 A times four seconds. -/
theorem not_checkedChargeFlows : ¬ CheckedChargeFlows := by
  intro h
  have e : (CC 10 checkedCell 2000 (27/10) 4 2 0 Thr.zero).1 = .ok .ReachedTimeLimit := by decide +kernel
  have h1 := h 10 checkedCell _ 2000 (27/10) 4 2 0 Thr.zero _ .ReachedTimeLimit (Prod.ext e rfl) (by norm_num) (by norm_num)
    (by norm_num) (.inl rfl) rfl
  revert h1
  decide +kernel

/-- What happens in this case. -/
example :
    let r := CC 10 checkedCell 2000 (27/10) 4 2 0 Thr.zero
    r.1 = .ok .ReachedTimeLimit ∧ r.2.2 = ⟨4, 2000 * 4 / 3600, 2000 * 4 / 3600 * V (bucket half 0)⟩ ∧
      r.2.1.su.st.I = 0 ∧ r.2.1.su.st.SOC = half ∧ r.2.1.su.st.Ah = 0 ∧ r.2.1.su.st.time = 4 := by
  decide +kernel

/-- Two half-full cells in parallel on a cycler without individual checks. -/
def parallelPair : Cyc (ModuleP (ECM 0)) := { su := { T := 288, kids := List.replicate 2 ⟨0, bucket half 0⟩ } }

/-- A parallel module checks its cells even if the cycler does not ask for it, with the same effect. -/
theorem not_parallelChargeFlows : ¬ ParallelChargeFlows := by
  intro h
  have e : (CC 10 parallelPair 4000 (27/10) 4 2 0 Thr.zero).1 = .ok .ReachedTimeLimit := by decide +kernel
  have h1 := h 10 parallelPair _ 4000 (27/10) 4 2 0 Thr.zero _ .ReachedTimeLimit (Prod.ext e rfl) (by norm_num) (by norm_num)
    (by norm_num) (.inl rfl) rfl
  revert h1
  decide +kernel

/-- The hypotheses of `cc_charge_flows_partial`: the cell is discharged with 16 A for four seconds. -/
example :
    let r := CC 10 checkedCell 16 (27/10) 4 2 0 Thr.zero
    r.1 = .ok .ReachedTimeLimit ∧ (StorageUnit.setCurrent checkedCell.su 16 checkedCell.diagnostic).1 ≠ .ok .V_not_calculated ∧
      r.2.2.Ah = 16 * 4 / 3600 ∧ r.2.1.su.st.Ah = 16 * 4 / 3600 ∧ r.2.1.su.st.SOC = half - 4 / 3600 := by
  decide +kernel

end Slide

import Verif.Spec.Interrupt
import Verif.Lemmas.CyclerLoops
import Verif.Lemmas.CellLaws
import Verif.Lemmas.SpmUnit
import Verif.Props.Series
import Mathlib.Data.Rat.Floor

/-!
# Helper lemmas for C159
-/

namespace Slide
open StorageUnit Spec Cyc

/-- Units of which a current can be set without checks, once or several times, before and after time steps. -/
structure Drivable {U : Type} [StorageUnit U] (P : U → Prop) : Prop where
  ok : ∀ u i, P u → (StorageUnit.setCurrent u i false).1 = .ok .Success
  set : ∀ u i, P u → P (StorageUnit.setCurrent u i false).2
  step : ∀ u dt n, 0 ≤ dt → P u → P (StorageUnit.timeStep u dt n).2
  twice : ∀ u i, P u → (StorageUnit.setCurrent (StorageUnit.setCurrent u i false).2 i false).2 = (StorageUnit.setCurrent u i false).2
  keeps : ∀ u i dt n, 0 ≤ dt → P u → (StorageUnit.setCurrent u i false).2 = u →
    (StorageUnit.setCurrent (StorageUnit.timeStep u dt n).2 i false).2 = (StorageUnit.timeStep u dt n).2

/-! ## Cells and strings of cells -/

/-- A well-behaved cell can be driven if setting a current twice is setting it once. -/
theorem drivable_cell {U : Type} [StorageUnit U] [LawfulCurrent U] [LawfulStep U]
    (h : ∀ (u : U) i, (StorageUnit.setCurrent (StorageUnit.setCurrent u i false).2 i false).2 = (StorageUnit.setCurrent u i false).2) :
    Drivable (fun _ : U => True) where
  ok u i _ := LawfulCurrent.unchecked u i
  set _ _ _ := trivial
  step _ _ _ _ _ := trivial
  twice u i _ := h u i
  keeps u i dt n _ _ hu := by
    have hI : StorageUnit.I u = i := by
      have := LawfulCurrent.sets u i false _ (LawfulCurrent.unchecked u i) (by decide)
      rw [hu] at this; exact this
    have hI2 : StorageUnit.I (StorageUnit.timeStep u dt n).2 = i := by rw [LawfulStep.keepsI, hI]
    generalize (StorageUnit.timeStep u dt n).2 = w at hI2
    have h1 := h w i
    have h2 := LawfulCurrent.undo w i false
    rw [hI2] at h2
    rw [← h1, h2]

theorem drivable_ecm (n : ℕ) : Drivable (fun _ : ECM n => True) := drivable_cell fun u i => by
  show (ECM.setCurrent (ECM.setCurrent u i false).2 i false).2 = (ECM.setCurrent u i false).2
  rw [ECM.setCurrent_unchecked, ECM.setCurrent_unchecked]
  rfl

theorem drivable_spm (N : ℕ) : Drivable (fun _ : SpmUnit N => True) := drivable_cell fun u i => SpmUnit.ext' rfl

/-- Strings of up to 100 units that can be driven can be driven; so can strings of strings. -/
theorem drivable_series {U : Type} [StorageUnit U] [LawfulStep U] {P : U → Prop} (h : Drivable P) :
    Drivable (fun m : ModuleS U => m.kids.length ≤ 100 ∧ ∀ k ∈ m.kids, P k.su) := by
  have hset : ∀ (m : ModuleS U) (i : ℚ), m.kids.length ≤ 100 → (∀ k ∈ m.kids, P k.su) →
      StorageUnit.setCurrent m i false =
        (.ok .Success, { m with kids := m.kids.map fun k => { k with su := (StorageUnit.setCurrent k.su i false).2 } }) := by
    intro m i hl hk
    show ModuleS.setCurrent m i false = _
    unfold ModuleS.setCurrent
    rw [setLoop_unchecked i m.kids [] (by simpa using hl) (fun k hm => h.ok _ _ (hk k hm))]
    simp
  have hstep : ∀ (m : ModuleS U) (dt : ℚ) (n : ℕ), 0 ≤ dt → (StorageUnit.timeStep m dt n).2 =
      { m with kids := m.kids.map fun k => { k with su := (StorageUnit.timeStep k.su dt n).2 } } := by
    intro m dt n hd
    show (ModuleS.timeStep m dt n).2 = _
    rw [ModuleS.timeStep, if_neg (not_lt.mpr hd), stepKids_spec dt n hd]
  refine ⟨?_, ?_, ?_, ?_, ?_⟩
  · rintro m i ⟨hl, hk⟩
    rw [hset m i hl hk]
  · rintro m i ⟨hl, hk⟩
    rw [hset m i hl hk]
    refine ⟨by simpa using hl, ?_⟩
    intro k hm
    obtain ⟨j, hj, rfl⟩ := List.mem_map.mp hm
    exact h.set _ _ (hk j hj)
  · rintro m dt n hd ⟨hl, hk⟩
    rw [hstep m dt n hd]
    refine ⟨by simpa using hl, ?_⟩
    intro k hm
    obtain ⟨j, hj, rfl⟩ := List.mem_map.mp hm
    exact h.step _ _ _ hd (hk j hj)
  · rintro m i ⟨hl, hk⟩
    rw [hset m i hl hk]
    rw [hset _ i (by simpa using hl) (by
      intro k hm
      obtain ⟨j, hj, rfl⟩ := List.mem_map.mp hm
      exact h.set _ _ (hk j hj))]
    simp only [List.map_map]
    congr 1
    apply List.map_congr_left
    intro k hm
    simp [h.twice k.su i (hk k hm)]
  · rintro m i dt n hd ⟨hl, hk⟩ he
    rw [hset m i hl hk] at he
    have hfix : ∀ k ∈ m.kids, (StorageUnit.setCurrent k.su i false).2 = k.su := by
      have := congrArg ModuleS.kids he
      dsimp only at this
      intro k hm
      have hmap : m.kids.map (fun k => ({ k with su := (StorageUnit.setCurrent k.su i false).2 } : Kid U)) = m.kids.map id := by
        rw [this, List.map_id]
      have := List.map_inj_left.mp hmap k hm
      exact congrArg Kid.su this
    rw [hstep m dt n hd]
    rw [hset _ i (by simpa using hl) (by
      intro k hm
      obtain ⟨j, hj, rfl⟩ := List.mem_map.mp hm
      exact h.step _ _ _ hd (hk j hj))]
    simp only [List.map_map]
    congr 1
    apply List.map_congr_left
    intro k hm
    simp [h.keeps k.su i dt n hd (hk k hm) (hfix k hm)]

/-! ## Steps -/

section
variable {U : Type} [StorageUnit U]

theorem stepped_add [LawfulStep U] (u : U) {dt : ℚ} (hd : 0 ≤ dt) (a b : ℕ) : stepped (stepped u dt a) dt b = stepped u dt (a + b) := by
  unfold stepped
  by_cases ha : a = 0
  · subst ha; simp
  · by_cases hb : b = 0
    · subst hb; simp
    · rw [if_neg ha, if_neg hb, if_neg (by omega), LawfulStep.batch u dt a b hd]

theorem courseOf_eq (u : U) (i : ℚ) {T dt : ℚ} (hd : 0 < dt) (n : ℕ) (h1 : n * dt ≤ T) (h2 : T < (n + 1) * dt) :
    courseOf u i T dt = if T = n * dt then stepped (StorageUnit.setCurrent u i false).2 dt n
      else (timeStep (stepped (StorageUnit.setCurrent u i false).2 dt n) (T - n * dt) 1).2 := by
  have hn : ⌊T / dt⌋ = (n : ℤ) := by
    rw [Int.floor_eq_iff]
    refine ⟨?_, ?_⟩
    · rw [le_div_iff₀ hd]; exact_mod_cast h1
    · rw [div_lt_iff₀ hd]; exact_mod_cast h2
  unfold courseOf
  rw [hn]
  simp

theorem courseOf_full (u : U) (i : ℚ) {dt : ℚ} (hd : 0 < dt) (n : ℕ) :
    courseOf u i (n * dt) dt = stepped (StorageUnit.setCurrent u i false).2 dt n := by
  rw [courseOf_eq u i hd n le_rfl (by linarith), if_pos rfl]

variable {P : U → Prop}

theorem drivable_stepped (h : Drivable P) {u : U} {i : ℚ} (hu : P u) (he : (StorageUnit.setCurrent u i false).2 = u) {dt : ℚ}
    (hd : 0 ≤ dt) (n : ℕ) : P (stepped u dt n) ∧ (StorageUnit.setCurrent (stepped u dt n) i false).2 = stepped u dt n := by
  unfold stepped
  split
  · exact ⟨hu, he⟩
  · exact ⟨h.step _ _ _ hd hu, h.keeps _ _ _ _ hd hu he⟩

theorem drivable_course (h : Drivable P) {u : U} (hu : P u) (i : ℚ) {T dt : ℚ} (hd : 0 < dt) (hT : 0 ≤ T) :
    P (courseOf u i T dt) ∧ (StorageUnit.setCurrent (courseOf u i T dt) i false).2 = courseOf u i T dt := by
  obtain ⟨p, e⟩ := drivable_stepped h (h.set u i hu) (h.twice u i hu) hd.le ⌊T / dt⌋.toNat
  unfold courseOf
  dsimp only
  split
  · exact ⟨p, e⟩
  · have hr : 0 ≤ T - ((⌊T / dt⌋.toNat : ℕ) : ℚ) * dt := by
      have h0 : 0 ≤ ⌊T / dt⌋ := Int.floor_nonneg.mpr (div_nonneg hT hd.le)
      have h1 : ((⌊T / dt⌋.toNat : ℕ) : ℚ) = ((⌊T / dt⌋ : ℤ) : ℚ) := by
        exact_mod_cast congrArg (Int.cast : ℤ → ℚ) (Int.toNat_of_nonneg h0)
      have h2 := Int.floor_le (T / dt)
      rw [le_div_iff₀ hd] at h2
      rw [h1]; linarith
    exact ⟨h.step _ _ _ hr p, h.keeps _ _ _ _ hr p e⟩

/-- Going on after `a` full steps. -/
theorem courseOf_split [LawfulStep U] (h : Drivable P) {u : U} (hu : P u) (i : ℚ) {T dt : ℚ} (hd : 0 < dt) (hT : 0 ≤ T) (a : ℕ) :
    courseOf (courseOf u i (a * dt) dt) i T dt = courseOf u i (a * dt + T) dt := by
  have h0 : 0 ≤ ⌊T / dt⌋ := Int.floor_nonneg.mpr (div_nonneg hT hd.le)
  obtain ⟨n, hn⟩ := Int.eq_ofNat_of_zero_le h0
  have b1 : (n : ℚ) * dt ≤ T := by
    have := Int.floor_le (T / dt)
    rw [hn, le_div_iff₀ hd] at this
    exact_mod_cast this
  have b2 : T < ((n : ℚ) + 1) * dt := by
    have := Int.lt_floor_add_one (T / dt)
    rw [hn, div_lt_iff₀ hd] at this
    exact_mod_cast this
  have hset := (drivable_course h hu i (T := a * dt) hd (mul_nonneg (Nat.cast_nonneg _) hd.le)).2
  rw [courseOf_eq _ i hd n b1 b2, hset, courseOf_full u i hd a, stepped_add _ hd.le]
  rw [courseOf_eq u i (T := a * dt + T) hd (a + n) (by push_cast; linarith) (by push_cast; linarith)]
  have e : (a * dt + T = ((a + n : ℕ) : ℚ) * dt) ↔ T = n * dt := by
    push_cast
    constructor <;> intro h <;> linarith
  by_cases hc : T = n * dt
  · rw [if_pos hc, if_pos (e.mpr hc)]
  · rw [if_neg hc, if_neg (fun h => hc (e.mp h))]
    congr 2
    push_cast; ring

/-- What one iteration chooses: whole steps, or the rest of the time. -/
theorem chosen_steps {r dt : ℚ} {n : ℕ} (hd : 0 < dt) (hn : 1 ≤ n) :
    ∀ n1 d1, (if (n : ℚ) * dt > r then 1 else n) = n1 → (if dt > r then r else dt) = d1 →
    (d1 = dt ∧ 1 ≤ n1 ∧ n1 * dt ≤ r) ∨ (d1 = r ∧ n1 = 1 ∧ r < dt) := by
  intro n1 d1 h1 h2
  by_cases hr : dt > r
  · rw [if_pos hr] at h2
    have : (n : ℚ) * dt > r := by
      have : (1 : ℚ) ≤ n := by exact_mod_cast hn
      nlinarith
    rw [if_pos this] at h1
    exact .inr ⟨h2.symm, h1.symm, hr⟩
  · rw [if_neg hr] at h2
    by_cases hs : (n : ℚ) * dt > r
    · rw [if_pos hs] at h1
      subst h1
      exact .inl ⟨h2.symm, le_rfl, by push_cast; linarith⟩
    · rw [if_neg hs] at h1
      subst h1
      exact .inl ⟨h2.symm, hn, not_lt.mp hs⟩

/-! ## Constant current -/

theorem drive_set (h : Drivable P) (c : Cyc U) (hc : P c.su) (hdiag : c.diagnostic = false) (I vlim : ℚ) :
    ∃ st, c.setCurrent I vlim = (.ok st, c.withSU (StorageUnit.setCurrent c.su I false).2) := by
  have a := h.ok c.su I hc
  unfold Cyc.setCurrent
  dsimp only
  rw [hdiag]
  generalize StorageUnit.setCurrent c.su I false = x at a
  obtain ⟨o, u1⟩ := x
  dsimp only at a
  subst a
  dsimp only
  rw [if_neg (show ¬ Status.Success.isVoltageLimitsViolated = true by decide)]
  split
  · exact ⟨_, rfl⟩
  · split <;> exact ⟨_, rfl⟩

theorem ccLoop_done {I vlim tlim : ℚ} {ndt : ℤ} {nMax fuel : ℕ} {v : CCVars} {c : Cyc U} {th : Thr} (h : ¬ v.ttot < tlim) :
    ccLoop I vlim tlim ndt nMax fuel v c th = (.ok (.inr (v, false)), c, th) := by
  cases fuel <;> (unfold ccLoop; rw [if_neg h])

theorem course_ccLoop [LawfulStep U] (h : Drivable P) {u : U} (hu : P u) {I vlim tlim dt : ℚ} {ndt : ℤ} {nMax : ℕ}
    (hd : 0 < dt) (hm : 1 ≤ nMax) (t0 : Thr) (fuel : ℕ) : ∀ (j : ℕ) (v : CCVars) (c : Cyc U) (th : Thr), v.dti = dt → v.ttot = j * dt →
    j * dt ≤ tlim → 1 ≤ v.nOnce → c.diagnostic = false → c.su = stepped (StorageUnit.setCurrent u I false).2 dt j →
    th.time = t0.time + v.ttot → th.Ah = t0.Ah + |I| * v.ttot / 3600 →
    ∀ v' b c' th', ccLoop I vlim tlim ndt nMax fuel v c th = (.ok (.inr (v', b)), c', th') → v'.ttot ≥ tlim →
      c'.su = courseOf u I tlim dt ∧ th'.time = t0.time + tlim ∧ th'.Ah = t0.Ah + |I| * tlim / 3600 ∧ c'.diagnostic = false := by
  induction fuel with
  | zero =>
    intro j v c th hdt htt hjt hn hdiag hsu ht hA v' b c' th' he hv
    unfold ccLoop at he
    by_cases g : v.ttot < tlim
    · rw [if_pos g] at he; simp at he
    · rw [if_neg g] at he
      simp only [Prod.mk.injEq, Outcome.ok.injEq, Sum.inr.injEq] at he
      obtain ⟨⟨rfl, rfl⟩, rfl, rfl⟩ := he
      have e : tlim = j * dt := by linarith [not_lt.mp g]
      rw [e, courseOf_full u I hd j, ← htt]
      exact ⟨hsu, ht, hA, hdiag⟩
  | succ f ih =>
    intro j v c th hdt htt hjt hn hdiag hsu ht hA v' b c' th' he hv
    by_cases g : v.ttot < tlim
    swap
    · rw [ccLoop_done g] at he
      simp only [Prod.mk.injEq, Outcome.ok.injEq, Sum.inr.injEq] at he
      obtain ⟨⟨rfl, rfl⟩, rfl, rfl⟩ := he
      have e : tlim = j * dt := by linarith [not_lt.mp g]
      rw [e, courseOf_full u I hd j, ← htt]
      exact ⟨hsu, ht, hA, hdiag⟩
    unfold ccLoop at he
    rw [if_pos g] at he
    obtain ⟨p, e⟩ := drivable_stepped h (h.set u I hu) (h.twice u I hu) hd.le j
    rw [← hsu] at p e
    obtain ⟨st, hs⟩ := drive_set h c p hdiag I vlim
    rw [e] at hs
    unfold ccBody at he
    rw [hs] at he
    dsimp only at he
    have hch := chosen_steps (r := tlim - v.ttot) (n := v.nOnce) (dt := v.dti) (by rw [hdt]; exact hd) hn _ _ rfl rfl
    generalize (if (v.nOnce : ℚ) * v.dti > tlim - v.ttot then 1 else v.nOnce) = n1 at *
    generalize (if v.dti > tlim - v.ttot then tlim - v.ttot else v.dti) = d1 at *
    have hd1 : 0 ≤ d1 := by rcases hch with ⟨q, -⟩ | ⟨q, -⟩ <;> rw [q] <;> [exact hdt ▸ hd.le; linarith]
    have hret := LawfulStep.returns c.su d1 n1 hd1
    rw [show (c.withSU c.su).su = c.su from rfl] at he
    rcases hstep : timeStep c.su d1 n1 with ⟨o, u2⟩
    rw [hstep] at he hret
    dsimp only at hret
    subst hret
    dsimp only at he
    rcases hv1 : ccVoltage ((c.withSU c.su).withSU u2) with st1 | vi
    · rw [hv1] at he; simp at he
    rw [hv1] at he
    dsimp only at he
    have hu2 : u2 = (timeStep c.su d1 n1).2 := by rw [hstep]
    generalize (decide (0 < ndt) && decide (ndt ≤ ((v.idat + n1 : ℕ) : ℤ))) = sv at he
    have hdiag3 : (storeIf sv ((c.withSU c.su).withSU u2)).diagnostic = false := by rw [storeIf_diag]; exact hdiag
    have hsu3 : (storeIf sv ((c.withSU c.su).withSU u2)).su = u2 := by rw [storeIf_su]; rfl
    generalize storeIf sv ((c.withSU c.su).withSU u2) = c3 at he hdiag3 hsu3
    -- the end of the phase inside this iteration
    have fin : ∀ w : CCVars, w.ttot = v.ttot + d1 * n1 → w.ttot ≥ tlim →
        c3.su = courseOf u I tlim dt ∧ v.ttot + d1 * n1 = tlim := by
      intro w hw hge
      rw [hw] at hge
      rcases hch with ⟨q1, q2, q3⟩ | ⟨q1, q2, q3⟩
      · have et : tlim = ((j + n1 : ℕ) : ℚ) * dt := by
          rw [q1, hdt, htt] at hge; rw [hdt, htt] at q3; push_cast; linarith
        refine ⟨?_, ?_⟩
        · rw [hsu3, hu2, et, courseOf_full u I hd, ← stepped_add _ hd.le, ← hsu, q1, hdt]
          unfold stepped
          rw [if_neg (by omega)]
        · rw [et, q1, hdt, htt]; push_cast; ring
      · refine ⟨?_, by rw [q1, q2]; push_cast; ring⟩
        rw [courseOf_eq u I hd j hjt (by rw [hdt, htt] at q3; linarith), if_neg (by rw [← htt]; exact fun h => by rw [h] at g; exact lt_irrefl _ g),
          hsu3, hu2, q1, q2, ← hsu, htt]
    have hth : th.time + d1 * n1 = t0.time + (v.ttot + d1 * n1) := by rw [ht]; ring
    have hAh : th.Ah + |I| * (d1 * n1) / 3600 = t0.Ah + |I| * (v.ttot + d1 * n1) / 3600 := by rw [hA]; ring
    by_cases hb : (I < 0 ∧ vi > vlim) ∨ (I > 0 ∧ vi < vlim)
    · rw [if_pos hb] at he
      simp only [Prod.mk.injEq, Outcome.ok.injEq, Sum.inr.injEq] at he
      obtain ⟨⟨rfl, rfl⟩, rfl, rfl⟩ := he
      obtain ⟨f1, f2⟩ := fin _ rfl hv
      refine ⟨f1, ?_, ?_, hdiag3⟩
      · dsimp only; rw [hth, f2]
      · dsimp only; rw [hAh, f2]
    · rw [if_neg hb] at he
      dsimp only at he
      have hpos : 1 ≤ (ccAdapt I vlim v.vo vi (Vlow c3.su) nMax n1 v.allowUp).1 := by
        unfold ccAdapt
        split <;> exact clamp1_pos _ _ hm
      by_cases hlt : v.ttot + d1 * n1 < tlim
      · rcases hch with ⟨q1, q2, q3⟩ | ⟨q1, q2, q3⟩
        · refine ih (j + n1) _ c3 _ (by dsimp only; rw [q1, hdt]) (by dsimp only; rw [q1, hdt, htt]; push_cast; ring)
            (by rw [hdt, htt] at q3; push_cast; linarith) hpos hdiag3 ?_ hth hAh v' b c' th' he hv
          rw [hsu3, hu2, ← stepped_add _ hd.le, ← hsu, q1, hdt]
          unfold stepped
          rw [if_neg (by omega)]
        · rw [q1, q2] at hlt; push_cast at hlt; linarith
      · obtain ⟨f1, f2⟩ := fin ⟨0, v.ttot + d1 * n1, 0, 0, 0, 0, false⟩ rfl (not_lt.mp hlt)
        rw [ccLoop_done (by dsimp only; exact hlt)] at he
        simp only [Prod.mk.injEq, Outcome.ok.injEq, Sum.inr.injEq] at he
        obtain ⟨⟨rfl, rfl⟩, rfl, rfl⟩ := he
        refine ⟨f1, ?_, ?_, hdiag3⟩
        · dsimp only; rw [hth, f2]
        · dsimp only; rw [hAh, f2]

/-! ## Rest -/

theorem restLoop_done {tlim : ℚ} {ndt : ℤ} {nMax fuel : ℕ} {v : RestVars} {c : Cyc U} (h : ¬ v.ttot < tlim) :
    restLoop tlim ndt nMax fuel v c = (.ok (.inr v), c) := by
  cases fuel <;> (unfold restLoop; rw [if_neg h])

theorem course_restLoop [LawfulStep U] (h : Drivable P) {u : U} {tlim dt : ℚ} {ndt : ℤ} {nMax : ℕ}
    (hd : 0 < dt) (hm : 1 ≤ nMax) (fuel : ℕ) : ∀ (j : ℕ) (v : RestVars) (c : Cyc U), v.dti = dt → v.ttot = j * dt →
    j * dt ≤ tlim → 1 ≤ v.nOnce → (StorageUnit.setCurrent c.su 0 false).2 = stepped (StorageUnit.setCurrent u 0 false).2 dt j → P c.su →
    (∃ v' c', restLoop tlim ndt nMax fuel v c = (.ok (.inr v'), c') ∧ v'.ttot = tlim ∧ P c'.su ∧ c'.diagnostic = c.diagnostic ∧
      (StorageUnit.setCurrent c'.su 0 false).2 = courseOf u 0 tlim dt) ∨
    ∃ c', restLoop tlim ndt nMax fuel v c = (.ub "out of fuel", c') := by
  induction fuel with
  | zero =>
    intro j v c hdt htt hjt hn hsu hc
    unfold restLoop
    by_cases g : v.ttot < tlim
    · rw [if_pos g]; exact .inr ⟨_, rfl⟩
    · rw [if_neg g]
      have e : tlim = j * dt := by linarith [not_lt.mp g]
      refine .inl ⟨_, _, rfl, by rw [htt, e], hc, rfl, ?_⟩
      rw [e, courseOf_full u 0 hd j]; exact hsu
  | succ f ih =>
    intro j v c hdt htt hjt hn hsu hc
    by_cases g : v.ttot < tlim
    swap
    · rw [restLoop_done g]
      have e : tlim = j * dt := by linarith [not_lt.mp g]
      refine .inl ⟨_, _, rfl, by rw [htt, e], hc, rfl, ?_⟩
      rw [e, courseOf_full u 0 hd j]; exact hsu
    unfold restLoop
    rw [if_pos g]
    unfold restBody
    have hok := h.ok c.su 0 hc
    have hp0 := h.set c.su 0 hc
    have htw := h.twice c.su 0 hc
    generalize StorageUnit.setCurrent c.su 0 false = x at hok hsu hp0 htw
    obtain ⟨o, u1⟩ := x
    dsimp only at hok hsu hp0 htw
    subst hok
    dsimp only
    rw [if_neg (show ¬ Status.Success.isBad = true by decide)]
    have hch := chosen_steps (r := tlim - v.ttot) (n := v.nOnce) (dt := v.dti) (by rw [hdt]; exact hd) hn _ _ rfl rfl
    generalize (if (v.nOnce : ℚ) * v.dti > tlim - v.ttot then 1 else v.nOnce) = n1 at *
    generalize (if v.dti > tlim - v.ttot then tlim - v.ttot else v.dti) = d1 at *
    have hd1 : 0 ≤ d1 := by rcases hch with ⟨q, -⟩ | ⟨q, -⟩ <;> rw [q] <;> [exact hdt ▸ hd.le; linarith]
    have hret := LawfulStep.returns u1 d1 n1 hd1
    have hp2 := h.step u1 d1 n1 hd1 hp0
    have hk2 := h.keeps u1 0 d1 n1 hd1 hp0 htw
    rcases hstep : timeStep u1 d1 n1 with ⟨o, u2⟩
    have hu2 : u2 = (timeStep u1 d1 n1).2 := by rw [hstep]
    rw [← hu2] at hp2 hk2
    rw [hstep] at hret
    dsimp only at hret
    subst hret
    dsimp only
    generalize (decide (0 < ndt) && decide (ndt ≤ ((v.idat + n1 : ℕ) : ℤ))) = sv
    have hsu3 : (storeIf sv (c.withSU u2)).su = u2 := by rw [storeIf_su]; rfl
    have hdi3 : (storeIf sv (c.withSU u2)).diagnostic = c.diagnostic := by rw [storeIf_diag]; rfl
    generalize storeIf sv (c.withSU u2) = c3 at hsu3 hdi3
    by_cases hlt : v.ttot + d1 * n1 < tlim
    · rcases hch with ⟨q1, q2, q3⟩ | ⟨q1, q2, q3⟩
      · rw [← hdi3]
        refine ih (j + n1) _ c3 (by dsimp only; rw [q1, hdt]) (by dsimp only; rw [q1, hdt, htt]; push_cast; ring)
          (by rw [hdt, htt] at q3; push_cast; linarith) (clamp1_pos _ _ hm) ?_ (by rw [hsu3]; exact hp2)
        rw [hsu3, hk2, hu2, ← stepped_add _ hd.le, ← hsu, q1, hdt]
        unfold stepped
        rw [if_neg (by omega)]
      · rw [q1, q2] at hlt; push_cast at hlt; linarith
    · rw [restLoop_done (by dsimp only; exact hlt)]
      refine .inl ⟨_, _, rfl, ?_, by rw [hsu3]; exact hp2, hdi3, ?_⟩
      · dsimp only
        rcases hch with ⟨q1, q2, q3⟩ | ⟨q1, q2, q3⟩
        · rw [q1] at hlt ⊢; linarith [not_lt.mp hlt]
        · rw [q1, q2]; push_cast; ring
      · rw [hsu3, hk2, hu2]
        rcases hch with ⟨q1, q2, q3⟩ | ⟨q1, q2, q3⟩
        · have et : tlim = ((j + n1 : ℕ) : ℚ) * dt := by
            rw [q1, hdt, htt] at hlt; rw [hdt, htt] at q3; push_cast; linarith [not_lt.mp hlt]
          rw [et, courseOf_full u 0 hd, ← stepped_add _ hd.le, ← hsu, q1, hdt]
          unfold stepped
          rw [if_neg (by omega)]
        · rw [courseOf_eq u 0 hd j hjt (by rw [hdt, htt] at q3; linarith),
            if_neg (by rw [← htt]; exact fun h => by rw [h] at g; exact lt_irrefl _ g), q1, q2, ← hsu, htt]

end

end Slide

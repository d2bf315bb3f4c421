import Verif.Model.SetVoltage
import Verif.Props.ParallelEq
import Verif.Tac

/-!
C68: `setVoltage` of the modules.
-/

namespace Slide
open StorageUnit Spec ModuleP

section
variable {U : Type} [StorageUnit U]

/-! ### What a status means -/

theorem iterLoop_success (Vset : ℚ) (fuel : ℕ) (ia : ℚ) (u u' : U) (st : Status)
    (h : iterLoop Vset fuel ia u = (.ok st, u')) :
    (st = .Success ∧ |Vset - StorageUnit.V u'| < 1/1000000) ∨ st = .RedistributeCurrent_failed := by
  induction fuel generalizing ia u with
  | zero =>
    rw [iterLoop] at h
    cases h
    exact .inr rfl
  | succ fuel ih =>
    rw [iterLoop] at h
    dsimp only at h
    by_cases h1 : |Vset - StorageUnit.V u| < 1/1000000
    · rw [if_pos h1] at h
      cases h
      exact .inl ⟨rfl, h1⟩
    · rw [if_neg h1] at h
      generalize (if Vset > StorageUnit.V u then ia - 1/100 * StorageUnit.Cap u
        else ia + 1/100 * StorageUnit.Cap u) = ib at h
      rcases hs : StorageUnit.setCurrent u ib true with ⟨o, u1⟩
      rw [hs] at h
      rcases o with s | e | w
      · dsimp only at h
        by_cases h0 : StorageUnit.V u - StorageUnit.V u1 = 0
        · rw [if_pos h0] at h; cases h
        · rw [if_neg h0] at h
          generalize ib - (StorageUnit.V u1 - Vset) * ((ia - ib) / (StorageUnit.V u - StorageUnit.V u1)) = ic at h
          rcases hs2 : StorageUnit.setCurrent u1 ic true with ⟨o2, u2⟩
          rw [hs2] at h
          rcases o2 with s2 | e | w
          · exact ih _ _ h
          · cases h
          · cases h
      · cases h
      · cases h

/-- C68: when `setVoltage` of a series module returns, it returns `Success` with the voltage within 1 µV of the
requested voltage, or the status for failure. -/
theorem series_setVoltage_status (m m' : ModuleS U) (Vset : ℚ) (st : Status)
    (h : VoltageUnit.setVoltage m Vset = (.ok st, m')) :
    (st = .Success ∧ |m'.V - Vset| < 1/1000000) ∨ st = .RedistributeCurrent_failed := by
  rcases iterLoop_success Vset 50 _ m m' st h with ⟨h1, h2⟩ | h1
  · exact .inl ⟨h1, by rw [abs_sub_comm]; exact h2⟩
  · exact .inr h1

theorem vLoopP_success (Vnew : ℚ) (fuel : ℕ) (bs bs' : List (Branch U)) (st : Status)
    (h : vLoopP Vnew fuel bs = (.ok st, bs')) :
    (st = .Success ∧ ((vallLoop (kidsOf bs')).1.map fun v => |Vnew - v|).sum < 1/10000000000) ∨
      st = .RedistributeCurrent_failed := by
  induction fuel generalizing bs with
  | zero =>
    rw [vLoopP] at h
    cases h
    exact .inr rfl
  | succ fuel ih =>
    rw [vLoopP] at h
    by_cases h1 : ((vallLoop (kidsOf bs)).1.map fun v => |Vnew - v|).sum < 1/10000000000
    · rw [if_pos h1] at h
      cases h
      exact .inl ⟨rfl, h1⟩
    · rw [if_neg h1] at h
      rcases hs : vSweep Vnew bs (vallLoop (kidsOf bs)).1 with ⟨o, b1⟩
      rw [hs] at h
      rcases o with s | e | w
      · exact ih _ h
      · cases h
      · cases h

theorem le_sum_of_mem (f : ℚ → ℚ) (hf : ∀ x, 0 ≤ f x) (l : List ℚ) (x : ℚ) (hx : x ∈ l) : f x ≤ (l.map f).sum := by
  induction l with
  | nil => cases hx
  | cons a l ih =>
    have hs : 0 ≤ (l.map f).sum := List.sum_nonneg (by
      intro y hy
      obtain ⟨z, _, rfl⟩ := List.mem_map.mp hy
      exact hf z)
    rcases List.mem_cons.mp hx with rfl | hx
    · simp; exact hs
    · have := ih hx
      have := hf a
      simp only [List.map_cons, List.sum_cons]
      linarith

/-- C68: when `setVoltage` of a parallel module returns, it returns `Success` with the terminal voltage of every
branch (its voltage minus the contact drops of the ladder) within 10⁻¹⁰ V of the requested voltage, or the status for
failure. -/
theorem parallel_setVoltage_status (m m' : ModuleP U) (Vset : ℚ) (st : Status)
    (h : VoltageUnit.setVoltage m Vset = (.ok st, m')) :
    (st = .Success ∧ ∀ (i : ℕ) (k : Kid U), m'.kids[i]? = some k →
      |StorageUnit.V k.su - ladderDrop m'.kids i - Vset| < 1/10000000000) ∨ st = .RedistributeCurrent_failed := by
  change m.setVoltage Vset = _ at h
  unfold ModuleP.setVoltage at h
  by_cases hn : NSUs_MAX < m.kids.length
  · rw [if_pos hn] at h; cases h
  · rw [if_neg hn] at h
    dsimp only at h
    rcases hl : vLoopP Vset 50 (m.kids.map fun k => ({ kid := k, ia := StorageUnit.I k.su } : Branch U)) with ⟨o, bs⟩
    rw [hl] at h
    obtain ⟨h1, h2⟩ := Prod.mk.inj h
    dsimp only at h1
    subst h1 h2
    rcases vLoopP_success _ _ _ _ _ hl with ⟨h3, h4⟩ | h3
    · refine .inl ⟨h3, fun i k hk => ?_⟩
      have hv := vallLoop_get _ i k hk
      have hm := List.mem_of_getElem? hv
      have := le_sum_of_mem (fun v => |Vset - v|) (fun _ => abs_nonneg _) _ _ hm
      rw [abs_sub_comm]
      exact lt_of_le_of_lt this h4
    · exact .inr h3

/-- C68: a successful `setVoltage` on a non-empty parallel module gives the module that voltage. -/
theorem parallel_setVoltage_V (m m' : ModuleP U) (Vset : ℚ) (hne : m'.kids ≠ [])
    (h : VoltageUnit.setVoltage m Vset = (.ok .Success, m')) : |m'.V - Vset| < 1/10000000000 := by
  rcases parallel_setVoltage_status m m' Vset _ h with ⟨_, h1⟩ | h1
  · obtain ⟨k, ks, hk⟩ := List.exists_cons_of_ne_nil hne
    have h2 := h1 0 k (by rw [hk]; rfl)
    have h3 : m'.V = StorageUnit.V k.su - ladderDrop m'.kids 0 := by
      obtain ⟨T, kids⟩ := m'
      dsimp only at hk
      subst hk
      simp [ModuleP.V, ladderDrop, ModuleP.I, tsum, currentFrom]; ring
    rw [h3]; exact h2
  · cases h1

end

/-! ### When a parallel module reaches the voltage -/

section
variable {n : ℕ}

/-- The branch after one correction. -/
def updV (Vnew : ℚ) (b : Branch (ECM n)) : Branch (ECM n) :=
  let ia := b.ia + (-(2/10)) * (Vnew - b.kid.su.V) / (1/1000)
  { kid := { b.kid with su := b.kid.su.withI ia }, ia := ia }

theorem updV_plain (v : ℚ) (b : Branch (ECM n)) (h : Plain b) : Plain (updV v b) := ⟨h.rc, h.ocv, rfl⟩

theorem updV_V (v : ℚ) (b : Branch (ECM n)) (h : Plain b) :
    v - (updV v b).kid.su.V = (1 - 200 * b.kid.su.par.Rdc) * (v - b.kid.su.V) := by
  simp only [updV]
  rw [ecm_V_withI _ _ h.ocv, h.ia]; ring

theorem vSweep_plain (v : ℚ) (bs : List (Branch (ECM n)))
    (ha : ∀ b ∈ bs, 2 ≤ (updV v b).kid.su.V ∧ (updV v b).kid.su.V ≤ 43/10) :
    vSweep v bs (bs.map fun b => b.kid.su.V) = (.ok (), bs.map (updV v)) := by
  induction bs with
  | nil => rfl
  | cons b bs ih =>
    have hb := ha b (by simp)
    obtain ⟨st, hst, _⟩ := ecm_accepts b.kid.su (b.ia + (-(2/10)) * (v - b.kid.su.V) / (1/1000)) hb.1 hb.2
    simp only [List.map_cons]
    rw [vSweep]
    dsimp only
    rw [hst]
    dsimp only
    rw [ih (fun b hb => ha b (by simp [hb]))]
    rfl

/-- A branch whose resistance is at most 5 mΩ and whose voltage is within the safety limits. -/
structure Damped (b : Branch (ECM n)) : Prop extends Plain b where
  r0 : 0 ≤ b.kid.su.par.Rdc
  r1 : 200 * b.kid.su.par.Rdc ≤ 1
  v0 : 2 ≤ b.kid.su.V
  v1 : b.kid.su.V ≤ 43/10

theorem updV_damped (v : ℚ) (h0 : 2 ≤ v) (h1 : v ≤ 43/10) (b : Branch (ECM n)) (h : Damped b) : Damped (updV v b) := by
  have hV := updV_V v b h.toPlain
  have a1 := mul_nonneg (mul_nonneg (by norm_num : (0:ℚ) ≤ 200) h.r0) (sub_nonneg.mpr h0)
  have a2 := mul_nonneg (mul_nonneg (by norm_num : (0:ℚ) ≤ 200) h.r0) (sub_nonneg.mpr h1)
  have a3 := mul_nonneg (sub_nonneg.mpr h.r1) (sub_nonneg.mpr h.v0)
  have a4 := mul_nonneg (sub_nonneg.mpr h.r1) (sub_nonneg.mpr h.v1)
  exact { updV_plain v b h.toPlain with
    r0 := h.r0, r1 := h.r1, v0 := by linarith, v1 := by linarith }

/-- Remaining voltage error of a set of branches after `j` corrections. -/
def remaining (v : ℚ) (j : ℕ) (bs : List (Branch (ECM n))) : ℚ :=
  (bs.map fun b => (1 - 200 * b.kid.su.par.Rdc) ^ j * |v - b.kid.su.V|).sum

theorem remaining_updV (v : ℚ) (j : ℕ) (bs : List (Branch (ECM n))) (h : ∀ b ∈ bs, Damped b) :
    remaining v j (bs.map (updV v)) = remaining v (j + 1) bs := by
  induction bs with
  | nil => rfl
  | cons b bs ih =>
    have hb := h b (by simp)
    have hV := updV_V v b hb.toPlain
    have hih := ih (fun b hb => h b (by simp [hb]))
    unfold remaining at hih ⊢
    simp only [List.map_cons, List.sum_cons]
    rw [hih, hV, abs_mul, abs_of_nonneg (sub_nonneg.mpr hb.r1), pow_succ]
    have : (updV v b).kid.su.par.Rdc = b.kid.su.par.Rdc := rfl
    rw [this]; ring

theorem remaining_anti (v : ℚ) (j : ℕ) (bs : List (Branch (ECM n))) (h : ∀ b ∈ bs, Damped b) :
    remaining v j bs ≤ remaining v 0 bs := by
  induction bs with
  | nil => exact le_refl _
  | cons b bs ih =>
    have hb := h b (by simp)
    have hih := ih (fun b hb => h b (by simp [hb]))
    unfold remaining at hih ⊢
    simp only [List.map_cons, List.sum_cons, pow_zero, one_mul] at hih ⊢
    have h1 : (1 - 200 * b.kid.su.par.Rdc) ^ j ≤ 1 :=
      pow_le_one₀ (sub_nonneg.mpr hb.r1) (by have := hb.r0; linarith)
    have h2 : (1 - 200 * b.kid.su.par.Rdc) ^ j * |v - b.kid.su.V| ≤ 1 * |v - b.kid.su.V| :=
      mul_le_mul_of_nonneg_right h1 (abs_nonneg _)
    linarith

theorem vLoopP_iff (v : ℚ) (h0 : 2 ≤ v) (h1 : v ≤ 43/10) (fuel : ℕ) (bs : List (Branch (ECM n)))
    (h : ∀ b ∈ bs, Damped b) :
    (vLoopP v (fuel + 1) bs).1 =
      .ok (if remaining v fuel bs < 1/10000000000 then .Success else .RedistributeCurrent_failed) := by
  induction fuel generalizing bs with
  | zero =>
    have hv : (vallLoop (kidsOf bs)).1 = bs.map fun b => b.kid.su.V := by
      rw [vallLoop_plain]
      · simp [kidsOf, Function.comp_def]
      · intro k hk
        obtain ⟨b, hb, rfl⟩ := List.mem_map.mp hk
        exact (h b hb).rc
    have hd : ∀ b ∈ bs, 2 ≤ (updV v b).kid.su.V ∧ (updV v b).kid.su.V ≤ 43/10 := fun b hb =>
      ⟨(updV_damped v h0 h1 b (h b hb)).v0, (updV_damped v h0 h1 b (h b hb)).v1⟩
    have hr : (((vallLoop (kidsOf bs)).1.map fun x => |v - x|).sum) = remaining v 0 bs := by
      rw [hv]; simp [remaining, Function.comp_def]
    rw [vLoopP, hr, hv, vSweep_plain v bs hd]
    by_cases hc : remaining v 0 bs < 1/10000000000
    · rw [if_pos hc, if_pos hc]
    · rw [if_neg hc, if_neg hc]; rfl
  | succ fuel ih =>
    have hv : (vallLoop (kidsOf bs)).1 = bs.map fun b => b.kid.su.V := by
      rw [vallLoop_plain]
      · simp [kidsOf, Function.comp_def]
      · intro k hk
        obtain ⟨b, hb, rfl⟩ := List.mem_map.mp hk
        exact (h b hb).rc
    have hd : ∀ b ∈ bs, 2 ≤ (updV v b).kid.su.V ∧ (updV v b).kid.su.V ≤ 43/10 := fun b hb =>
      ⟨(updV_damped v h0 h1 b (h b hb)).v0, (updV_damped v h0 h1 b (h b hb)).v1⟩
    have hr : (((vallLoop (kidsOf bs)).1.map fun x => |v - x|).sum) = remaining v 0 bs := by
      rw [hv]; simp [remaining, Function.comp_def]
    rw [vLoopP, hr, hv, vSweep_plain v bs hd]
    by_cases hc : remaining v 0 bs < 1/10000000000
    · rw [if_pos hc, if_pos (lt_of_le_of_lt (remaining_anti v _ bs h) hc)]
    · rw [if_neg hc]
      dsimp only
      rw [ih (bs.map (updV v)) (fun b hb => by
        obtain ⟨b', hb', rfl⟩ := List.mem_map.mp hb
        exact updV_damped v h0 h1 b' (h b' hb')), remaining_updV v fuel bs h]

/-- C68: for a parallel module of cells without contact resistances, with resistances of at most 5 mΩ and all voltages
within the safety limits, `setVoltage` succeeds exactly if the initial voltage errors, each reduced 49 times by the
factor `1 - 200 Ω⁻¹ R`, add up to less than 10⁻¹⁰ V; otherwise it reports failure. -/
theorem parallel_setVoltage_iff (m : ModuleP (ECM n)) (v : ℚ) (h0 : 2 ≤ v) (h1 : v ≤ 43/10)
    (hlen : m.kids.length ≤ 100) (hrc : ∀ k ∈ m.kids, k.rc = 0)
    (hocv : ∀ k ∈ m.kids, (k.su.par.ocv k.su.st.SOC).isSome)
    (hR : ∀ k ∈ m.kids, 0 ≤ k.su.par.Rdc ∧ k.su.par.Rdc ≤ 5/1000)
    (hV : ∀ k ∈ m.kids, 2 ≤ StorageUnit.V k.su ∧ StorageUnit.V k.su ≤ 43/10) :
    (VoltageUnit.setVoltage m v).1 =
      .ok (if (m.kids.map fun k => (1 - 200 * k.su.par.Rdc) ^ 49 * |v - StorageUnit.V k.su|).sum < 1/10000000000
        then .Success else .RedistributeCurrent_failed) := by
  show (m.setVoltage v).1 = _
  unfold ModuleP.setVoltage
  rw [if_neg (by unfold NSUs_MAX; omega)]
  dsimp only
  rw [vLoopP_iff v h0 h1 49 _ (by
    intro b hb
    obtain ⟨k, hk, rfl⟩ := List.mem_map.mp hb
    exact { rc := hrc k hk, ocv := hocv k hk, ia := rfl, r0 := (hR k hk).1,
            r1 := by have := (hR k hk).2; dsimp only; linarith,
            v0 := (hV k hk).1, v1 := (hV k hk).2 })]
  unfold remaining
  rw [List.map_map]
  rfl

/-- Two cells of 2 mΩ at 3.15 V reach 3.2 V; two cells of 1 mΩ do not. -/
def pairOf (r : ℚ) : ModuleP (ECM 0) where
  T := 288
  kids := [⟨0, { bucket half 0 with par := { (bucket half 0).par with Rdc := r } }⟩,
           ⟨0, { bucket half 0 with par := { (bucket half 0).par with Rdc := r } }⟩]

example : (VoltageUnit.setVoltage (pairOf (2/1000)) (32/10)).1 = .ok .Success := by decide +kernel
example : (VoltageUnit.setVoltage (pairOf (1/1000)) (32/10)).1 = .ok .RedistributeCurrent_failed := by decide +kernel
example : (∀ k ∈ (pairOf (1/1000)).kids, k.rc = 0 ∧ (k.su.par.ocv k.su.st.SOC).isSome ∧
    (0 ≤ k.su.par.Rdc ∧ k.su.par.Rdc ≤ 5/1000) ∧ 2 ≤ StorageUnit.V k.su ∧ StorageUnit.V k.su ≤ 43/10) := by
  decide +kernel

/-! ### A string reaches the voltage in one correction -/

/-- All cells of the string at current `i`. -/
def atCurrent (m : ModuleS (ECM n)) (i : ℚ) : ModuleS (ECM n) :=
  { m with kids := m.kids.map fun k => { k with su := k.su.withI i } }

theorem setLoop_all (i : ℚ) (ks : List (Kid (ECM n))) (done : List (ℚ × Kid (ECM n)))
    (hlen : done.length + ks.length ≤ 100)
    (h : ∀ k ∈ ks, 2 ≤ (k.su.withI i).V ∧ (k.su.withI i).V ≤ 43/10) :
    ModuleS.setLoop i true done ks = (.ok .Success, done.map Prod.snd ++ ks.map fun k => { k with su := k.su.withI i }) := by
  induction ks generalizing done with
  | nil => simp [ModuleS.setLoop]
  | cons k ks ih =>
    obtain ⟨st, hst, hok⟩ := ecm_accepts k.su i (h k (by simp)).1 (h k (by simp)).2
    simp only [List.length_cons] at hlen
    rw [ModuleS.setLoop, if_neg (by unfold NSUs_MAX; omega)]
    dsimp only
    rw [hst]
    dsimp only
    rw [if_neg (by simp [Status.isBad, hok]), ih _ (by simp; omega) (fun k hk => h k (by simp [hk]))]
    simp

theorem series_accepts (m : ModuleS (ECM n)) (i : ℚ) (hlen : m.kids.length ≤ 100)
    (h : ∀ k ∈ m.kids, 2 ≤ (k.su.withI i).V ∧ (k.su.withI i).V ≤ 43/10) :
    StorageUnit.setCurrent m i true = (.ok .Success, atCurrent m i) := by
  show m.setCurrent i true = _
  unfold ModuleS.setCurrent
  rw [setLoop_all i m.kids [] (by simpa using hlen) h]
  rfl

/-- Total resistance of a string: cells and contacts. -/
def stringR (m : ModuleS (ECM n)) : ℚ := (m.kids.map fun k => k.su.par.Rdc + k.rc).sum

theorem atCurrent_V (m : ModuleS (ECM n)) (i j : ℚ)
    (hocv : ∀ k ∈ m.kids, (k.su.par.ocv k.su.st.SOC).isSome)
    (hi : ∀ k ∈ m.kids, 2 ≤ (k.su.withI i).V) (hj : ∀ k ∈ m.kids, 2 ≤ (k.su.withI j).V) :
    (atCurrent m i).V = (atCurrent m j).V - stringR m * (i - j) := by
  have aux : ∀ (ks : List (Kid (ECM n))) (a b : ℚ), (∀ k ∈ ks, (k.su.par.ocv k.su.st.SOC).isSome) →
      (∀ k ∈ ks, 2 ≤ (k.su.withI i).V) → (∀ k ∈ ks, 2 ≤ (k.su.withI j).V) →
      ModuleS.vLoop a (ks.map fun k => ({ k with su := k.su.withI i } : Kid (ECM n))) =
        ModuleS.vLoop b (ks.map fun k => ({ k with su := k.su.withI j } : Kid (ECM n)))
          + a - b - (ks.map fun k => k.su.par.Rdc + k.rc).sum * (i - j) := by
    intro ks
    induction ks with
    | nil => intro a b _ _ _; simp [ModuleS.vLoop]
    | cons k ks ih =>
      intro a b h1 h2 h3
      have e2 := h2 k (by simp)
      have e3 := h3 k (by simp)
      have ev : (k.su.withI i).V = (k.su.withI j).V - k.su.par.Rdc * (i - j) := by
        rw [ecm_V_withI _ i (h1 k (by simp)), ecm_V_withI _ j (h1 k (by simp))]; ring
      simp only [List.map_cons, List.sum_cons, ModuleS.vLoop]
      have n2 : ¬ StorageUnit.V (k.su.withI i) ≤ 0 := by
        show ¬ (k.su.withI i).V ≤ 0; linarith
      have n3 : ¬ StorageUnit.V (k.su.withI j) ≤ 0 := by
        show ¬ (k.su.withI j).V ≤ 0; linarith
      rw [if_neg n2, if_neg n3, ih _ (b + (StorageUnit.V (k.su.withI j) - k.rc * StorageUnit.I (k.su.withI j)))
        (fun k hk => h1 k (by simp [hk])) (fun k hk => h2 k (by simp [hk])) (fun k hk => h3 k (by simp [hk]))]
      have w2 : StorageUnit.V (k.su.withI i) = (k.su.withI j).V - k.su.par.Rdc * (i - j) := ev
      have w3 : StorageUnit.V (k.su.withI j) = (k.su.withI j).V := rfl
      have w4 : StorageUnit.I (k.su.withI i) = i := rfl
      have w5 : StorageUnit.I (k.su.withI j) = j := rfl
      rw [w2, w3, w4, w5]; ring
  have := aux m.kids 0 0 hocv hi hj
  unfold ModuleS.V atCurrent stringR
  rw [this]; ring

theorem atCurrent_atCurrent (m : ModuleS (ECM n)) (i j : ℚ) : atCurrent (atCurrent m i) j = atCurrent m j := by
  simp [atCurrent, ECM.withI, Function.comp_def]

/-- The current the code tries first: 1 % of 1C towards the requested voltage. -/
def testCurrent (m : ModuleS (ECM n)) (v : ℚ) : ℚ := if v > m.V then m.I - 1/100 * m.Cap else m.I + 1/100 * m.Cap

/-- C68: `setVoltage` of a string of cells that carry one current reaches the requested voltage exactly, with one
correction, whenever the string has a resistance, a capacity, and the cells stay within the safety limits at the test
current and at the current `i` that corresponds to the requested voltage.  The string then carries `i` and is otherwise
unchanged. -/
theorem series_setVoltage_reaches (m : ModuleS (ECM n)) (v i : ℚ) (hlen : m.kids.length ≤ 100)
    (hsame : m = atCurrent m m.I) (hcap : m.Cap ≠ 0) (hR : stringR m ≠ 0)
    (hocv : ∀ k ∈ m.kids, (k.su.par.ocv k.su.st.SOC).isSome)
    (hfar : 1/1000000 ≤ |v - m.V|) (hi : m.V - stringR m * (i - m.I) = v)
    (hV0 : ∀ k ∈ m.kids, 2 ≤ k.su.V)
    (hV1 : ∀ k ∈ m.kids, 2 ≤ (k.su.withI (testCurrent m v)).V ∧ (k.su.withI (testCurrent m v)).V ≤ 43/10)
    (hV2 : ∀ k ∈ m.kids, 2 ≤ (k.su.withI i).V ∧ (k.su.withI i).V ≤ 43/10) :
    VoltageUnit.setVoltage m v = (.ok .Success, atCurrent m i) ∧ (atCurrent m i).V = v := by
  have hk0 : ∀ k ∈ m.kids, k.su.withI m.I = k.su := by
    have := congrArg ModuleS.kids hsame
    intro k hk
    have hmap : ∀ ks : List (Kid (ECM n)), ks = ks.map (fun k => ({ k with su := k.su.withI m.I } : Kid (ECM n))) →
        ∀ k ∈ ks, k.su.withI m.I = k.su := by
      intro ks
      induction ks with
      | nil => simp
      | cons a ks ih =>
        intro h k hk
        simp only [List.map_cons, List.cons.injEq] at h
        rcases List.mem_cons.mp hk with rfl | hk
        · exact (congrArg Kid.su h.1).symm
        · exact ih h.2 k hk
    exact hmap m.kids this k hk
  have hV0' : ∀ k ∈ m.kids, 2 ≤ (k.su.withI m.I).V := fun k hk => by rw [hk0 k hk]; exact hV0 k hk
  have hb : (atCurrent m (testCurrent m v)).V = m.V - stringR m * (testCurrent m v - m.I) := by
    have := atCurrent_V m (testCurrent m v) m.I hocv (fun k hk => (hV1 k hk).1) hV0'
    rw [← hsame] at this; exact this
  have hc : (atCurrent m i).V = v := by
    have := atCurrent_V m i m.I hocv (fun k hk => (hV2 k hk).1) hV0'
    rw [← hsame] at this
    rw [this, hi]
  have hne : testCurrent m v - m.I ≠ 0 := by
    unfold testCurrent
    split_ifs
    · intro h
      have h' : m.Cap = 0 := by linarith
      exact hcap h'
    · intro h
      have h' : m.Cap = 0 := by linarith
      exact hcap h'
  refine ⟨?_, hc⟩
  show iterLoop v 50 (StorageUnit.I m) m = _
  rw [iterLoop]
  dsimp only
  have hfar' : 1/1000000 ≤ |v - StorageUnit.V m| := hfar
  rw [if_neg (not_lt.mpr hfar')]
  have ht : (if v > StorageUnit.V m then StorageUnit.I m - 1/100 * StorageUnit.Cap m
      else StorageUnit.I m + 1/100 * StorageUnit.Cap m) = testCurrent m v := rfl
  rw [ht, series_accepts m _ hlen hV1]
  dsimp only
  have hb' : StorageUnit.V (atCurrent m (testCurrent m v)) = StorageUnit.V m - stringR m * (testCurrent m v - StorageUnit.I m) := hb
  have hne' : testCurrent m v - StorageUnit.I m ≠ 0 := hne
  have hi' : StorageUnit.V m - stringR m * (i - StorageUnit.I m) = v := hi
  rw [if_neg (by rw [hb']; ring_nf; intro h0; apply mul_ne_zero hR hne'; linarith)]
  have hic : testCurrent m v - (StorageUnit.V (atCurrent m (testCurrent m v)) - v) *
      ((StorageUnit.I m - testCurrent m v) / (StorageUnit.V m - StorageUnit.V (atCurrent m (testCurrent m v)))) = i := by
    rw [hb']
    have hd : StorageUnit.V m - (StorageUnit.V m - stringR m * (testCurrent m v - StorageUnit.I m)) =
        stringR m * (testCurrent m v - StorageUnit.I m) := by ring
    rw [hd]
    generalize testCurrent m v = t at hne'
    rw [← hi']
    have hx : (StorageUnit.I m - t) / (stringR m * (t - StorageUnit.I m)) = - (stringR m)⁻¹ := by
      field_simp; ring
    rw [hx]
    have hy : stringR m * (stringR m)⁻¹ = 1 := mul_inv_cancel₀ hR
    linear_combination (i - t) * hy
  rw [hic]
  have hset : StorageUnit.setCurrent (atCurrent m (testCurrent m v)) i true = (.ok .Success, atCurrent m i) := by
    rw [series_accepts (atCurrent m (testCurrent m v)) i (by simpa [atCurrent] using hlen), atCurrent_atCurrent]
    intro k hk
    obtain ⟨k', hk', rfl⟩ := List.mem_map.mp hk
    exact hV2 k' hk'
  rw [hset]
  dsimp only
  rw [iterLoop]
  dsimp only
  have : StorageUnit.V (atCurrent m i) = v := hc
  rw [if_pos (by rw [this]; norm_num)]

end

/-- Two half-full cells in series: 6.2 V is reached with 12.5 A. -/
def okString : ModuleS (ECM 0) := { T := 288, kids := [⟨1/1000, bucket half 0⟩, ⟨1/1000, bucket half 0⟩] }

example : okString.kids.length ≤ 100 ∧ okString.Cap ≠ 0 ∧ stringR okString ≠ 0 ∧ 1/1000000 ≤ |62/10 - okString.V| ∧
    okString.V - stringR okString * (50/3 - okString.I) = 62/10 ∧
    (∀ k ∈ okString.kids, 2 ≤ k.su.V ∧ (k.su.par.ocv k.su.st.SOC).isSome ∧ 2 ≤ (k.su.withI (testCurrent okString (62/10))).V ∧
      (k.su.withI (testCurrent okString (62/10))).V ≤ 43/10 ∧ 2 ≤ (k.su.withI (50/3)).V ∧ (k.su.withI (50/3)).V ≤ 43/10) := by
  decide +kernel
example : okString = atCurrent okString okString.I := rfl

/-! ### Failure does not restore the currents -/

/-- Full statement of the second half of C68: a `setVoltage` that does not report success leaves the module as it
was.  (The code of the parallel module saves the old currents "so we can revert if needed".) -/
def SetVoltageAtomic (U : Type) [StorageUnit U] [VoltageUnit U] : Prop :=
  ∀ (u u' : U) (v : ℚ) (st : Status), VoltageUnit.setVoltage u v = (.ok st, u') → st.isBad = true →
    StorageUnit.I u' = StorageUnit.I u

/-- A parallel module of two 1 mΩ cells keeps the currents of the failed attempt. -/
theorem not_setVoltageAtomic_parallel : ¬ SetVoltageAtomic (ModuleP (ECM 0)) := by
  intro h
  have h1 := h (pairOf (1/1000)) (VoltageUnit.setVoltage (pairOf (1/1000)) (32/10)).2 (32/10) .RedistributeCurrent_failed
    (Prod.ext (by decide +kernel) rfl) (by decide)
  exact absurd h1 (by decide +kernel)

/-- Asking a string for any voltage is defined behaviour, if all its cells have a resistance and a capacity.  False of
the code, see below. -/
def SeriesSetVoltageDefined (n : ℕ) : Prop :=
  ∀ (m : ModuleS (ECM n)) (v : ℚ), (∀ k ∈ m.kids, 0 < k.su.par.Rdc ∧ 0 < k.su.par.cap) → m.kids.length ≤ 100 →
    m.kids ≠ [] → ∀ w, (VoltageUnit.setVoltage m v).1 ≠ .ub w

/-- A string that is asked for a voltage its cells may not have: the current is refused, the statuses are ignored, the
voltage does not change and the code divides by the change of the voltage. -/
theorem not_seriesSetVoltageDefined : ¬ SeriesSetVoltageDefined 0 := by
  intro h
  have hw := h okString 12 (by decide +kernel) (by decide) (by decide)
  have hb : (match (VoltageUnit.setVoltage okString 12).1 with | .ub _ => true | _ => false) = true := by decide +kernel
  rcases he : (VoltageUnit.setVoltage okString 12).1 with s | e | w
  · rw [he] at hb; cases hb
  · rw [he] at hb; cases hb
  · exact hw w he

end Slide

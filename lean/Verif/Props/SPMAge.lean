import Verif.Lemmas.SPMAge
import Verif.Tac

/-!
Properties C38 (degradation only goes one way; unknown model identifiers throw 106) and C75 (active material is only
lost) of the single-particle cell.
-/

namespace Slide
open Spec SPM

variable {N : ℕ}

/-! ### One operation -/

theorem sameAge_ordinary {c : SPM N} (o : SpmOp N) (ho : ordinary o) (hs : ∀ dt n, o ≠ .step dt n) :
    SameAge c (spmAfter c o) := by
  cases o with
  | readV => exact sameAge_V c
  | setCurrent i b => exact sameAge_setCurrent c i b
  | setSOC s b => exact sameAge_setSOC c s b
  | setT t => exact ⟨rfl, rfl, rfl, rfl, rfl, rfl, rfl, rfl, rfl, rfl, rfl, rfl, rfl⟩
  | setTenv t =>
    show SameAge c (c.setTenv t).2
    unfold setTenv; split
    · exact .refl c
    · exact ⟨rfl, rfl, rfl, rfl, rfl, rfl, rfl, rfl, rfl, rfl, rfl, rfl, rfl⟩
  | setC fp fn =>
    show SameAge c (c.setC fp fn).2
    unfold setC; split
    · exact .refl c
    · exact ⟨rfl, rfl, rfl, rfl, rfl, rfl, rfl, rfl, rfl, rfl, rfl, rfl, rfl⟩
  | step dt n => exact absurd rfl (hs dt n)
  | block b => exact ⟨rfl, rfl, rfl, rfl, rfl, rfl, rfl, rfl, rfl, rfl, rfl, rfl, rfl⟩
  | setStates s b => exact ho.elim
  | setStateObj st => exact ho.elim
  | overwriteChar => exact ho.elim
  | overwriteGeo => exact ho.elim
  | setGeometric => exact ho.elim
  | setCharacterisation => exact ho.elim

/-- An operation of ordinary use changes no degradation state, or is a time step that adds degradation rates of a cell
of the same age and current over a time that is not negative. -/
theorem ordinary_cases {c : SPM N} (o : SpmOp N) (ho : ordinary o) :
    SameAge c (spmAfter c o) ∨ ∃ c1 d h, SameAge c c1 ∧ c1.st.I = c.st.I ∧ 0 ≤ c1.stress.dt ∧ c1.degRate = .ok d ∧
      0 ≤ h ∧ spmAfter c o = c1.addRate d h := by
  by_cases hs : ∃ dt n, o = .step dt n
  · obtain ⟨dt, n, rfl⟩ := hs
    rcases timeStep_age c dt n with h | ⟨hdt, c1, d, h1, h2, h3, h4, h5⟩
    · exact .inl h
    · have hn : (0 : ℚ) ≤ n := by exact_mod_cast (ho : 0 ≤ n)
      exact .inr ⟨c1, d, dt * n, h1, h2, by rw [h3]; exact mul_nonneg hn hdt, h4, mul_nonneg hdt hn, h5⟩
  · exact .inl (sameAge_ordinary o ho (fun dt n e => hs ⟨dt, n, e⟩))

/-! ### C38 -/

/-- C38: thickness of the SEI layer, crack surface and plated lithium never decrease, whatever is done in ordinary use,
for every selection of models and however the operations end. -/
theorem spm_ages (c : SPM N) (ops : List (SpmOp N)) (hp : SpmPhysical c.par) (hdel : 0 ≤ c.st.delta)
    (ho : ∀ o ∈ ops, ordinary o) :
    c.st.delta ≤ (spmRun c ops).st.delta ∧ c.st.CS ≤ (spmRun c ops).st.CS ∧
      c.st.deltaPl ≤ (spmRun c ops).st.deltaPl ∧ (spmRun c ops).par = c.par ∧ (spmRun c ops).deg = c.deg := by
  induction ops generalizing c with
  | nil => exact ⟨le_refl _, le_refl _, le_refl _, rfl, rfl⟩
  | cons o os ih =>
    have h1 : c.st.delta ≤ (spmAfter c o).st.delta ∧ c.st.CS ≤ (spmAfter c o).st.CS ∧
        c.st.deltaPl ≤ (spmAfter c o).st.deltaPl ∧ (spmAfter c o).par = c.par ∧ (spmAfter c o).deg = c.deg := by
      rcases ordinary_cases (c := c) o (ho o (List.mem_cons_self ..)) with h | ⟨c1, d, h, s, -, -, hd, hh, e⟩
      · exact ⟨h.delta.ge, h.CS.ge, h.deltaPl.ge, h.par, h.deg⟩
      · obtain ⟨a1, a2, a3, -⟩ := degRate_nonneg hd (s.par ▸ hp) (by rw [s.delta]; exact hdel)
        rw [e]
        refine ⟨?_, ?_, ?_, s.par, s.deg⟩
        · show _ ≤ c1.st.delta + d.delta * h
          rw [s.delta]; exact le_add_of_nonneg_right (mul_nonneg a1 hh)
        · show _ ≤ c1.st.CS + d.CS * h
          rw [s.CS]; exact le_add_of_nonneg_right (mul_nonneg a2 hh)
        · show _ ≤ c1.st.deltaPl + d.deltaPl * h
          rw [s.deltaPl]; exact le_add_of_nonneg_right (mul_nonneg a3 hh)
    have h2 := ih (spmAfter c o) (by rw [h1.2.2.2.1]; exact hp) (hdel.trans h1.1)
      (fun o' h' => ho o' (List.mem_cons_of_mem _ h'))
    exact ⟨h1.1.trans h2.1, h1.2.1.trans h2.2.1, h1.2.2.1.trans h2.2.2.1, h2.2.2.2.1.trans h1.2.2.2.1,
      h2.2.2.2.2.trans h1.2.2.2.2⟩

/-- C38 (partial): all four degradation states never decrease as long as the anode has not been used up.  Missing: a
time step may use up more than all of the anode, after which lost lithium is given back (`not_spmAgesOneWay`). -/
theorem spm_agesOneWay_partial (c : SPM N) (ops : List (SpmOp N)) (hp : SpmPhysical c.par) (hdel : 0 ≤ c.st.delta)
    (hCS : 0 ≤ c.st.CS) (ho : ∀ o ∈ ops, ordinary o)
    (hs : throughout (fun a => 0 ≤ a.st.thickn * a.st.an) c ops) : NotYounger c (spmRun c ops) := by
  have hrest := spm_ages c ops hp hdel ho
  refine ⟨hrest.1, ?_, hrest.2.1, hrest.2.2.1⟩
  clear hrest
  induction ops generalizing c with
  | nil => exact le_refl _
  | cons o os ih =>
    have h0 := spm_ages c [o] hp hdel (fun o' h' => ho o' (by rw [List.mem_singleton.mp h']; exact List.mem_cons_self ..))
    have h1 : c.st.LLI ≤ (spmAfter c o).st.LLI := by
      rcases ordinary_cases (c := c) o (ho o (List.mem_cons_self ..)) with h | ⟨c1, d, h, s, -, -, hd, hh, e⟩
      · exact h.LLI.ge
      · have a := (degRate_nonneg hd (s.par ▸ hp) (by rw [s.delta]; exact hdel)).2.2.2 (by rw [s.CS]; exact hCS)
          (by rw [s.thickn, s.an]; exact hs.1)
        rw [e]
        show _ ≤ c1.st.LLI + d.LLI * h
        rw [s.LLI]; exact le_add_of_nonneg_right (mul_nonneg a hh)
    refine h1.trans (ih (spmAfter c o) ?_ (hdel.trans h0.1) (hCS.trans h0.2.1)
      (fun o' h' => ho o' (List.mem_cons_of_mem _ h')) hs.2)
    have := h0.2.2.2.1
    show SpmPhysical (spmAfter c o).par
    rw [show (spmAfter c o).par = c.par from this]; exact hp

theorem spm1_physical : SpmPhysical spm1.par :=
  ⟨fun _ => by show (0 : ℚ) ≤ 1; norm_num, fun x => le_max_right _ _, by decide +kernel, by decide +kernel,
   by decide +kernel, by decide +kernel, by decide +kernel, by decide +kernel, by decide +kernel, by decide +kernel,
   by decide +kernel, by decide +kernel, by decide +kernel, by decide +kernel, by decide +kernel, by decide +kernel,
   by decide +kernel, by decide +kernel, by decide +kernel, by decide +kernel, by decide +kernel⟩

theorem spm1_physicalLam : SpmPhysicalLam spm1.par :=
  ⟨by decide +kernel, by decide +kernel, by decide +kernel, by decide +kernel, by decide +kernel, by decide +kernel,
   by decide +kernel, by decide +kernel, by decide +kernel, by decide +kernel, by decide +kernel, by decide +kernel,
   by decide +kernel, by decide +kernel, by decide +kernel⟩

theorem spm1_valid : SpmValid spm1 :=
  ⟨by decide +kernel, by decide +kernel, by decide +kernel, by decide +kernel, by decide +kernel, by decide +kernel,
   by decide +kernel, by decide +kernel, by decide +kernel, by decide +kernel, by decide +kernel⟩

/-- The example cell with slow SEI growth and the simplest model of loss of active material. -/
def spmLam : SPM 1 :=
  { spm1 with par := { spm1.par with sei := { spm1.par.sei with k1 := 1 / 100 } }, deg := { spm1.deg with LAM := [4] } }

theorem spmLam_physical : SpmPhysical spmLam.par :=
  { spm1_physical with k1 := by decide +kernel }

theorem spmLam_physicalLam : SpmPhysicalLam spmLam.par :=
  { spm1_physicalLam with por := by decide +kernel }

theorem spmLam_valid : SpmValid spmLam :=
  ⟨spm1_valid.1, spm1_valid.2, spm1_valid.3, spm1_valid.4, spm1_valid.5, spm1_valid.6, spm1_valid.7, spm1_valid.8,
   spm1_valid.9, spm1_valid.10, spm1_valid.11⟩

/-- C38 fails: a long step uses up more than all of the anode (Euler step of the loss of active material); in the next
step side reactions on a negative surface give lithium back. -/
theorem not_spmAgesOneWay : ¬ SpmAgesOneWay 1 := by
  intro h
  have h1 := (h spmLam [.step 3 1, .step 3 1] spmLam_physical spmLam_valid (by decide +kernel) (by decide +kernel)
    (by intro o ho; simp only [List.mem_cons, List.not_mem_nil, or_false] at ho
        rcases ho with rfl | rfl <;> exact (by decide : (0 : ℤ) ≤ 1))).LLI
  revert h1
  decide +kernel

/-- C38 fails: a time step of length zero divides by zero in the stress-driven models. -/
theorem not_spmStepsDefined : ¬ SpmStepsDefined 1 := by
  intro h
  refine h { spm1 with deg := { spm1.deg with LAM := [1] }, stress := { spm1.stress with dai := true } } 0 1
    spm1_physical ⟨spm1_valid.1, spm1_valid.2, spm1_valid.3, spm1_valid.4, spm1_valid.5, spm1_valid.6, spm1_valid.7,
      spm1_valid.8, spm1_valid.9, spm1_valid.10, spm1_valid.11⟩ ⟨18 / 5, by decide +kernel⟩ "division by zero" ?_
  decide +kernel

/-- C38 fails: a negative number of steps (only the sign of the length of the step is checked) makes the cell
younger. -/
theorem not_spmStepsNeverUnage : ¬ SpmStepsNeverUnage 1 := by
  intro h
  have := (h spm1 (1 / 10) (-1) spm1_physical spm1_valid (by decide +kernel) (by decide +kernel)).delta
  revert this
  decide +kernel

/-- Hypotheses of `spm_agesOneWay_partial` on a concrete run, in which the states do change. -/
example : SpmPhysical spmLam.par ∧ 0 ≤ spmLam.st.delta ∧ 0 ≤ spmLam.st.CS ∧
    (∀ o ∈ ([.setCurrent (1 / 10) true, .step (1 / 10) 2] : List (SpmOp 1)), ordinary o) ∧
    throughout (fun a => 0 ≤ a.st.thickn * a.st.an) spmLam [.setCurrent (1 / 10) true, .step (1 / 10) 2] ∧
    spmLam.st.delta < (spmRun spmLam [.setCurrent (1 / 10) true, .step (1 / 10) 2]).st.delta ∧
    spmLam.st.LLI < (spmRun spmLam [.setCurrent (1 / 10) true, .step (1 / 10) 2]).st.LLI := by
  refine ⟨spmLam_physical, by decide +kernel, by decide +kernel, ?_, ?_, by decide +kernel, by decide +kernel⟩
  · intro o ho
    simp only [List.mem_cons, List.not_mem_nil, or_false] at ho
    rcases ho with rfl | rfl
    · trivial
    · show (0 : ℤ) ≤ 2; decide
  · exact ⟨by decide +kernel, by decide +kernel, by show (0 : ℚ) ≤ _; decide +kernel⟩

/-- C38: an unknown identifier of an SEI growth, porosity, cracking, crack diffusion, loss of active material or plating
model makes the degradation rates throw 106, whatever other (known) models are selected. -/
theorem spm_unknown_throws (c : SPM N) (x y : ℚ) (hf : c.finite = true) (hc : c.concOk = true)
    (hi : c.i0p ≠ 0 ∧ c.i0n ≠ 0) (hn : c.par.nsei ≠ 0 ∧ c.par.npl ≠ 0 ∧ c.par.rhosei ≠ 0 ∧ c.par.rhopl ≠ 0)
    (hR : c.par.Rp ≠ 0 ∧ c.par.Rn ≠ 0) (hx : c.par.dNeg (c.cps / c.par.Cmaxpos) = some x)
    (hy : c.par.ocvN (c.cns / c.par.Cmaxneg) = some y)
    (hk : KnownModelsRun c (y + (c.st.T - c.par.T_ref) * x)) (hu : unknownModel c.deg) :
    c.degRate = .throw 106 := by
  have e1 : look c.par.dNeg (c.cps / c.par.Cmaxpos) = .ok x := by unfold look; rw [hx]
  have e2 : look c.par.ocvN (c.cns / c.par.Cmaxneg) = .ok y := by unfold look; rw [hy]
  unfold degRate
  simp only
  rw [if_neg (by simp [hf]), if_neg (by simp [hc]), if_neg (by simp [hi, hn, hR])]
  simp only [e1, e2, Outcome.ok_bind]
  have hS := SEI_unknown hk
  have hC := crack_unknown hk
  have hL := lamSum_unknown (lamModel_unknown c) c.deg.LAM hk.lam
  have hP := plating_unknown c (y + (c.st.T - c.par.T_ref) * x)
  by_cases uS : (∃ i ∈ c.deg.SEI, 4 < i) ∨ 1 < c.deg.SEIpor
  · rw [hS.1 uS]; rfl
  · push Not at uS
    obtain ⟨s, hs⟩ := hS.2 uS.1 uS.2
    rw [hs]
    simp only [Outcome.ok_bind]
    by_cases uC : (∃ i ∈ c.deg.CS, 5 < i) ∨ 1 < c.deg.CSdiff
    · rw [hC.1 uC]; rfl
    · push Not at uC
      obtain ⟨s', hs'⟩ := hC.2 uC.1 uC.2
      rw [hs']
      simp only [Outcome.ok_bind]
      by_cases uL : ∃ i ∈ c.deg.LAM, 4 < i
      · rw [hL.1 uL]; rfl
      · push Not at uL
        obtain ⟨l, hl⟩ := hL.2 uL
        rw [hl]
        simp only [Outcome.ok_bind]
        have uP : 1 < c.deg.pl := by
          rcases hu with h | h | h | h | h | h
          · obtain ⟨i, hi, h⟩ := h; exact absurd (uS.1 i hi) (not_le.mpr h)
          · exact absurd uS.2 (not_le.mpr h)
          · obtain ⟨i, hi, h⟩ := h; exact absurd (uC.1 i hi) (not_le.mpr h)
          · exact absurd uC.2 (not_le.mpr h)
          · obtain ⟨i, hi, h⟩ := h; exact absurd (uL i hi) (not_le.mpr h)
          · exact h
        rw [hP.1 uP]; rfl

/-- C38: the SEI models of physical parameters can always be evaluated once the layer has a thickness. -/
theorem spm_sei_known_run (c : SPM N) (o : ℚ) (hp : SpmPhysical c.par) (hdel : 0 < c.st.delta) (i : ℕ) (hi : i ≤ 4) :
    ∃ x, c.seiModel o i = .ok x := by
  have F := faraday_pos.le
  have n := hp.nsei.le
  have e := hp.exp
  have k : ∀ k y z : ℚ, 0 ≤ k → 0 ≤ c.par.nsei * Faraday * (k * c.par.exp y) * c.par.exp z := fun k y z hk =>
    mul_nonneg (mul_nonneg (mul_nonneg n F) (mul_nonneg hk (e _))) (e _)
  have k' : ∀ k y : ℚ, 0 ≤ k → 0 ≤ c.par.nsei * Faraday * (k * c.par.exp y) := fun k y hk =>
    mul_nonneg (mul_nonneg n F) (mul_nonneg hk (e _))
  have s : ∀ num a d : ℚ, 0 ≤ a → 0 ≤ d → ∃ x, seriesRate num a c.st.delta d = .ok x := by
    intro num a d ha hd
    unfold seriesRate
    by_cases h0 : d = 0
    · rw [if_pos h0, if_neg hdel.ne']; exact ⟨_, rfl⟩
    · rw [if_neg h0]
      by_cases h1 : a = 0
      · rw [if_pos h1]; exact ⟨_, rfl⟩
      · rw [if_neg h1]
        have hd' : 0 < d := lt_of_le_of_ne hd (Ne.symm h0)
        have ha' : 0 < a := lt_of_le_of_ne ha (Ne.symm h1)
        rw [if_neg (by positivity)]; exact ⟨_, rfl⟩
  rcases i with _ | _ | _ | _ | _ | i
  · exact ⟨_, rfl⟩
  · exact ⟨_, rfl⟩
  · exact s _ _ _ (k _ _ _ hp.k2) (k' _ _ hp.D2)
  · exact s _ _ _ (k _ _ _ hp.k3) (k' _ _ hp.D3)
  · exact s _ _ _ (k _ _ _ hp.k4) (k' _ _ hp.D4)
  · omega

/-- C38: with an unknown identifier selected, no time step with degradation switched on succeeds. -/
theorem spm_unknown_refused (c : SPM N) (h : ℚ) (hu : unknownModel c.deg) : (c.ageStep h).1 ≠ .ok () := by
  intro hok
  unfold ageStep SPM.andThen at hok
  obtain ⟨hs, -⟩ := sameAge_upd c
  rcases hr : c.updDai.updLares with ⟨_ | e | w, c1⟩
  · rw [hr] at hok hs
    simp only at hok hs
    rcases hd : c1.degRate with d | e | w
    · obtain ⟨-, o, sei, cr, l, ipl, h1, h2, h3, h4, -⟩ := degRate_spec hd
      have hdeg := hs.deg
      have sum_ok : ∀ {f : ℕ → Outcome ℚ} {k : ℕ} (_ : ∀ i, k < i → f i = .throw 106) (ids : List ℕ) (x : ℚ),
          sumModels f ids = .ok x → ∀ i ∈ ids, i ≤ k := by
        intro f k hf ids
        induction ids with
        | nil => intro x _ i hi; simp at hi
        | cons j js ih =>
          intro x hx i hi
          unfold sumModels at hx
          obtain ⟨a, ha, hx⟩ := Outcome.bind_eq_ok.mp hx
          obtain ⟨r, hr, hx⟩ := Outcome.bind_eq_ok.mp hx
          rcases List.mem_cons.mp hi with e | hi
          · by_contra hc
            rw [e] at hc; rw [hf j (not_le.mp hc)] at ha; simp at ha
          · exact ih r hr i hi
      have lam_ok : ∀ (ids : List ℕ) (x : LamOut), c1.lamSum ids = .ok x → ∀ i ∈ ids, i ≤ 4 := by
        intro ids
        induction ids with
        | nil => intro x _ i hi; simp at hi
        | cons j js ih =>
          intro x hx i hi
          unfold lamSum at hx
          obtain ⟨a, ha, hx⟩ := Outcome.bind_eq_ok.mp hx
          obtain ⟨r, hr, hx⟩ := Outcome.bind_eq_ok.mp hx
          rcases List.mem_cons.mp hi with e | hi
          · by_contra hc
            rw [e] at hc; rw [lamModel_unknown c1 j (not_le.mp hc)] at ha; simp at ha
          · exact ih r hr i hi
      rcases hu with ⟨i, hi, hk⟩ | hk | ⟨i, hi, hk⟩ | hk | ⟨i, hi, hk⟩ | hk
      · exact absurd (sum_ok (seiModel_unknown c1 o) _ _ (SEI_spec h1).1 i (by rw [hdeg]; exact hi)) (not_le.mpr hk)
      · unfold SEI at h1
        obtain ⟨a, ha, h1⟩ := Outcome.bind_eq_ok.mp h1
        obtain ⟨k, hk'⟩ : ∃ k, c1.deg.SEIpor = k + 2 := ⟨c1.deg.SEIpor - 2, by rw [hdeg]; omega⟩
        simp [hk'] at h1
      · exact absurd (sum_ok (csModel_unknown c1 o) _ _ (crack_spec h2).1 i (by rw [hdeg]; exact hi)) (not_le.mpr hk)
      · unfold crack at h2
        obtain ⟨a, ha, h2⟩ := Outcome.bind_eq_ok.mp h2
        obtain ⟨k, hk'⟩ : ∃ k, c1.deg.CSdiff = k + 2 := ⟨c1.deg.CSdiff - 2, by rw [hdeg]; omega⟩
        simp [hk'] at h2
      · exact absurd (lam_ok _ _ h3 i (by rw [hdeg]; exact hi)) (not_le.mpr hk)
      · rw [(plating_unknown c1 o).1 (by rw [hdeg]; exact hk)] at h4; simp at h4
    · rw [hd] at hok; simp at hok
    · rw [hd] at hok; simp at hok
  · rw [hr] at hok; simp at hok
  · rw [hr] at hok; simp at hok

/-- Hypotheses of `spm_unknown_throws` on a concrete cell. -/
example : let c : SPM 1 := { spm1 with deg := { spm1.deg with CS := [3, 7] } }
    c.finite = true ∧ c.concOk = true ∧ c.i0p ≠ 0 ∧ c.i0n ≠ 0 ∧ c.par.dNeg (c.cps / c.par.Cmaxpos) = some 0 ∧
      c.par.ocvN (c.cns / c.par.Cmaxneg) = some (1 / 10) ∧ KnownModelsRun c (1 / 10 + (c.st.T - c.par.T_ref) * 0) ∧
      unknownModel c.deg := by
  refine ⟨by decide +kernel, by decide +kernel, by decide +kernel, by decide +kernel, by decide +kernel,
    by decide +kernel, ⟨?_, ?_, ?_, by decide +kernel⟩, .inr (.inr (.inl ⟨7, by decide, by decide⟩))⟩
  · intro i _ h; exact spm_sei_known_run _ _ spm1_physical (by decide +kernel) i h
  · intro i hi h
    have : i = 3 := by
      simp only [List.mem_cons, List.not_mem_nil, or_false] at hi
      rcases hi with rfl | rfl
      · rfl
      · omega
    subst this
    exact ⟨_, rfl⟩
  · intro i hi; simp [spm1] at hi

/-! ### C75 -/

/-- C75 (partial): the amounts of active material never increase, as long as the effective surfaces and the anode's
thickness are not negative and, if the porosity model is on, the cell is not being charged.  Missing: those two cases
(`not_spmLosesMaterial`, `not_losesMaterial_charging`). -/
theorem spm_losesMaterial_partial (c : SPM N) (ops : List (SpmOp N)) (hp : SpmPhysical c.par)
    (hl : SpmPhysicalLam c.par) (hdel : 0 ≤ c.st.delta) (ho : ∀ o ∈ ops, ordinary o)
    (hs : throughout (fun a => 0 ≤ a.st.ap ∧ 0 ≤ a.st.an ∧ 0 ≤ a.st.thickn ∧ (a.deg.SEIpor = 0 ∨ 0 ≤ a.st.I)) c ops) :
    NotMore c (spmRun c ops) := by
  induction ops generalizing c with
  | nil => exact ⟨le_refl _, le_refl _, le_refl _, le_refl _, le_refl _, le_refl _⟩
  | cons o os ih =>
    have h0 := spm_ages c [o] hp hdel (fun o' h' => ho o' (by rw [List.mem_singleton.mp h']; exact List.mem_cons_self ..))
    have hpar : (spmAfter c o).par = c.par := h0.2.2.2.1
    have h1 : NotMore c (spmAfter c o) := by
      rcases ordinary_cases (c := c) o (ho o (List.mem_cons_self ..)) with h | ⟨c1, d, h, s, sI, sdt, hd, hh, e⟩
      · exact ⟨h.thickp.le, h.thickn.le, h.ep.le, h.en.le, h.ap.le, h.an.le⟩
      · obtain ⟨a1, a2, a3, a4, a5, a6⟩ := degRate_material hd (s.par ▸ hp) (s.par ▸ hl) (by rw [s.delta]; exact hdel)
          sdt (by rw [s.ap]; exact hs.1.1) (by rw [s.an]; exact hs.1.2.1) (by rw [s.thickn]; exact hs.1.2.2.1)
          (by rw [s.deg, sI]; exact hs.1.2.2.2)
        rw [e]
        have k : ∀ x y : ℚ, x ≤ 0 → y + x * h ≤ y := fun x y hx =>
          add_le_of_nonpos_right (mul_nonpos_of_nonpos_of_nonneg hx hh)
        exact ⟨s.thickp ▸ k _ _ a1, s.thickn ▸ k _ _ a2, s.ep ▸ k _ _ a3, s.en ▸ k _ _ a4, s.ap ▸ k _ _ a5,
          s.an ▸ k _ _ a6⟩
    have h2 := ih (spmAfter c o) (by rw [hpar]; exact hp) (by rw [hpar]; exact hl) (hdel.trans h0.1)
      (fun o' h' => ho o' (List.mem_cons_of_mem _ h')) hs.2
    exact ⟨h2.1.trans h1.1, h2.2.trans h1.2, h2.3.trans h1.3, h2.4.trans h1.4, h2.5.trans h1.5, h2.6.trans h1.6⟩

/-- C75 fails: after a long step the effective surface is negative and the next step makes it grow. -/
theorem not_spmLosesMaterial : ¬ SpmLosesMaterial 1 := by
  intro h
  have h1 := (h spmLam [.step 3 1, .step 3 1] spmLam_physical spmLam_physicalLam spmLam_valid (by decide +kernel)
    (by decide +kernel) (by decide +kernel)
    (by intro o ho; simp only [List.mem_cons, List.not_mem_nil, or_false] at ho
        rcases ho with rfl | rfl <;> exact (by decide : (0 : ℤ) ≤ 1))).an
  revert h1
  decide +kernel

/-- C75 fails in ordinary use too: with the porosity model on, charging creates active material. -/
theorem not_losesMaterial_charging :
    let c : SPM 1 := { spmLam with deg := { spmLam.deg with LAM := [], SEI := [], SEIpor := 1 } }
    (c.setCurrent (-1 / 10) true).1 = .ok .Success ∧
    ((c.setCurrent (-1 / 10) true).2.timeStep (1 / 10) 1).1 = .ok () ∧
    c.st.en < (spmRun c [.setCurrent (-1 / 10) true, .step (1 / 10) 1]).st.en := by
  decide +kernel

example : SpmPhysicalLam spmLam.par ∧
    throughout (fun a => 0 ≤ a.st.ap ∧ 0 ≤ a.st.an ∧ 0 ≤ a.st.thickn ∧ (a.deg.SEIpor = 0 ∨ 0 ≤ a.st.I)) spmLam
      [.setCurrent (1 / 10) true, .step (1 / 10) 2] ∧
    (spmRun spmLam [.setCurrent (1 / 10) true, .step (1 / 10) 2]).st.an < spmLam.st.an := by
  refine ⟨spmLam_physicalLam, ⟨by decide +kernel, by decide +kernel, ?_⟩, by decide +kernel⟩
  show _ ∧ _ ∧ _ ∧ _
  decide +kernel

end Slide

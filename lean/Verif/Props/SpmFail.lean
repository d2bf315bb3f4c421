import Verif.Lemmas.SpmFail

/-! C108: what a failing time step does to a single-particle cell, and why it may fail. -/

namespace Slide
open Spec SPM

variable {N : ℕ}

/-- What neither diffusion, nor the thermal part, nor the stress updates change. -/
structure KeepsBuild (a b : SPM N) : Prop where
  par : b.par = a.par
  deg : b.deg = a.deg
  block : b.block = a.block
  parent : b.parent = a.parent
  T_env : b.T_env = a.T_env
  dai : b.stress.dai = a.stress.dai
  lares : b.stress.lares = a.stress.lares

theorem KeepsBuild.refl (a : SPM N) : KeepsBuild a a := ⟨rfl, rfl, rfl, rfl, rfl, rfl, rfl⟩

theorem KeepsBuild.trans {a b c : SPM N} (h : KeepsBuild a b) (g : KeepsBuild b c) : KeepsBuild a c :=
  ⟨g.par.trans h.par, g.deg.trans h.deg, g.block.trans h.block, g.parent.trans h.parent, g.T_env.trans h.T_env,
   g.dai.trans h.dai, g.lares.trans h.lares⟩

theorem keepsBuild_diffStep (c : SPM N) (dt : ℚ) : KeepsBuild c (c.diffStep dt).2 := by
  unfold diffStep
  split
  · exact .refl c
  · have h2 := SPM.V_rest (c.diffState dt)
    rcases hk : (c.diffState dt).V with ⟨v | e | w, c2⟩ <;>
    · rw [hk] at h2; simp only at h2 ⊢; rw [h2]; exact ⟨rfl, rfl, rfl, rfl, rfl, rfl, rfl⟩

theorem keepsBuild_diffLoop (dt : ℚ) (k : ℕ) (c : SPM N) : KeepsBuild c (SPM.diffLoop dt k c).2 :=
  diffLoop_keeps (P := fun a => KeepsBuild c a) dt (fun a h => h.trans (keepsBuild_diffStep a dt)) k c (.refl c)

theorem keepsBuild_thermStep (c : SPM N) (x : ℚ) : KeepsBuild c (c.thermStep x).2 := by
  unfold thermStep
  rcases c.heat with q | e | w
  · show KeepsBuild c (SPM.thermPass _).2
    set b : SPM N := { c with Qgen := c.Qgen + q * x, thermTime := c.thermTime + x } with hb
    have h0 : KeepsBuild c b := ⟨rfl, rfl, rfl, rfl, rfl, rfl, rfl⟩
    refine h0.trans ?_
    unfold thermPass
    split
    · exact .refl b
    · have h2 : KeepsBuild b b.thermAlone.2 := by
        rcases thermAlone_snd b with e | e <;> rw [e]
        · exact .refl b
        · exact ⟨rfl, rfl, rfl, rfl, rfl, rfl, rfl⟩
      rcases hk : b.thermAlone with ⟨t | e | w, c2⟩
      · rw [hk] at h2; exact h2.trans ⟨rfl, rfl, rfl, rfl, rfl, rfl, rfl⟩
      · rw [hk] at h2; exact h2
      · rw [hk] at h2; exact h2
  · exact .refl c
  · exact .refl c

theorem keepsBuild_upd (c : SPM N) : KeepsBuild c c.updDai.updLares.2 := by
  have h1 : KeepsBuild c c.updDai := by
    unfold updDai; split
    · exact ⟨rfl, rfl, rfl, rfl, rfl, rfl, rfl⟩
    · exact .refl c
  refine h1.trans ?_
  generalize c.updDai = b
  unfold updLares
  split
  · split
    · exact .refl b
    · split
      · exact .refl b
      · split
        · exact ⟨rfl, rfl, rfl, rfl, rfl, rfl, rfl⟩
        · exact .refl b
        · exact .refl b
  · exact .refl b

theorem Spec.StepFailure.congr {a b : SPM N} (h : KeepsBuild a b) {e : Int} (f : StepFailure b e) : StepFailure a e := by
  cases f with
  | curve k => exact .curve (by rw [← h.par]; exact k)
  | overheat k1 k2 k3 => exact .overheat (h.block ▸ k1) (h.parent ▸ k2) (by rw [← h.par]; exact k3)
  | concentration k => exact .concentration (h.block ▸ k)
  | unknown k1 k2 => exact .unknown (h.block ▸ k1) (by rw [← h.deg]; exact k2)
  | stress k1 k2 =>
    refine .stress (h.block ▸ k1) fun k => k2 ?_
    unfold StressPrepared
    rw [h.deg, h.dai, h.lares]
    exact k

/-- C108: a time step that throws either was given a negative step size and has no effect at all, or it leaves the same
cell at the same current and of the same age, advanced by some of the steps – at least one, if there was one to do –
with clock, charge counters and lithium content agreeing on how many.  The temperature is kept by a blocked cell and by
a cell in a module, and by every cell that overheats. -/
theorem spm_failed_step_partial (c : SPM N) (dt : ℚ) (n : ℤ) (e : Int) (h : (c.timeStep dt n).1 = .throw e) :
    (dt < 0 ∧ e = 10 ∧ (c.timeStep dt n).2 = c) ∨
    (0 ≤ dt ∧ SameCellSameAge c (c.timeStep dt n).2 ∧ StepFailure c e ∧
      (∃ k, k ≤ n.toNat ∧ (0 < n → 1 ≤ k) ∧ AfterSteps c dt k (c.timeStep dt n).2) ∧
      ((c.block = true ∨ c.parent = true ∨ e = 9) → (c.timeStep dt n).2.st.T = c.st.T)) := by
  unfold timeStep at h ⊢
  by_cases hdt : dt < 0
  · rw [if_pos hdt] at h ⊢
    injection h with h
    exact .inl ⟨hdt, h.symm, rfl⟩
  rw [if_neg hdt] at h ⊢
  have hdt := not_lt.mp hdt
  right
  refine ⟨hdt, ?_⟩
  have hr : KeepsBuild c (c.rotate (n * dt)) := ⟨rfl, rfl, rfl, rfl, rfl, rfl, rfl⟩
  have hb := hr.trans (keepsBuild_diffLoop dt n.toNat (c.rotate (n * dt)))
  rcases andThen_throw h with ⟨h1, h2⟩ | ⟨h1, h2, h3⟩
  · rw [h2]
    obtain ⟨g1, g2, f, m, hm1, hm, g⟩ := diffLoop_throw hdt n.toNat _ h1
    have a := f.age
    refine ⟨⟨hb.par, hb.deg, hb.block, hb.parent, hb.T_env, f.I, a.delta, a.LLI, a.thickp, a.thickn, a.ep, a.en, a.ap,
      a.an, a.CS, f.Dp, f.Dn, a.deltaPl, f.rDC.1, f.rDC.2.1, f.rDC.2.2⟩, ?_, ⟨m, hm, fun _ => hm1, ?_⟩, fun _ => f.T⟩
    · subst g1; exact .curve g2
    · exact ⟨g.time, g.soc, g.ah, g.cathode, g.anode⟩
  · rw [h3]
    obtain ⟨f, gS, gt, gA, gp, gn, -, -⟩ := diffLoop_ok dt n.toNat _ h1
    generalize (SPM.diffLoop dt n.toNat (c.rotate (n * dt))).2 = a at *
    -- the state after the diffusion steps, up to the temperature
    have main : ∀ b : SPM N, KeepsBuild a b → (∃ t, b.st = { a.st with T := t }) →
        SameCellSameAge c b ∧ ∃ k, k ≤ n.toNat ∧ (0 < n → 1 ≤ k) ∧ AfterSteps c dt k b := by
      intro b hab ⟨t, hst⟩
      have k := hb.trans hab
      have ag := f.age
      refine ⟨⟨k.par, k.deg, k.block, k.parent, k.T_env, ?_, ?_, ?_, ?_, ?_, ?_, ?_, ?_, ?_, ?_, ?_, ?_, ?_, ?_, ?_, ?_⟩,
        n.toNat, le_refl _, fun hn => by omega, ?_, ?_, ?_, ?_, ?_⟩
      · rw [hst]; exact f.I
      · rw [hst]; exact ag.delta
      · rw [hst]; exact ag.LLI
      · rw [hst]; exact ag.thickp
      · rw [hst]; exact ag.thickn
      · rw [hst]; exact ag.ep
      · rw [hst]; exact ag.en
      · rw [hst]; exact ag.ap
      · rw [hst]; exact ag.an
      · rw [hst]; exact ag.CS
      · rw [hst]; exact f.Dp
      · rw [hst]; exact f.Dn
      · rw [hst]; exact ag.deltaPl
      · rw [hst]; exact f.rDC.1
      · rw [hst]; exact f.rDC.2.1
      · rw [hst]; exact f.rDC.2.2
      · rw [hst]; exact gt
      · rw [hst]; show a.st.SOC = _; rw [gS]
        show c.st.SOC + n.toNat * dt * (-c.st.I / (c.par.cap * 3600)) = _
        ring
      · rw [hst]; exact gA hdt
      · intro j hj; rw [hst]; exact gp j hj
      · intro j hj; rw [hst]; exact gn j hj
    by_cases hbl : a.block = true
    · rw [if_pos hbl] at h2; cases h2
    rw [if_neg hbl] at h2 ⊢
    have hcb : c.block = false := by rw [← hb.block]; simpa using hbl
    have hth := keepsBuild_thermStep a (dt * n)
    have hpar : c.parent = true → (a.thermStep (dt * n)).2.st.T = a.st.T := by
      intro hp
      have hp' : a.parent = true := hb.parent.trans hp
      unfold thermStep
      rcases a.heat with q | e | w
      · show (SPM.thermPass _).2.st.T = _
        unfold thermPass
        rw [if_pos hp']
      · rfl
      · rfl
    rcases andThen_throw h2 with ⟨k1, k2⟩ | ⟨k1, k2, k3⟩
    · rw [k2]
      obtain ⟨m1, m2⟩ := main _ hth (thermStep_st a (dt * n))
      refine ⟨m1, ?_, m2, ?_⟩
      · refine StepFailure.congr hb ?_
        rcases thermStep_throw k1 with k | ⟨k, k'⟩ | ⟨k, k', k''⟩
        · subst k; exact .concentration (by simpa using hbl)
        · subst k; exact .curve k'
        · subst k; exact .overheat (by simpa using hbl) k' k''
      · intro _
        have : (a.thermStep (dt * n)).2.st.T = a.st.T := by
          unfold thermStep at k1 ⊢
          rcases hq : a.heat with q | y | w <;> rw [hq] at k1
          · change (SPM.thermPass _).1 = _ at k1
            show (SPM.thermPass _).2.st.T = _
            unfold thermPass at k1 ⊢
            split at k1
            · cases k1
            · rename_i hp
              rw [if_neg hp]
              have hs := thermAlone_snd
                ({ a with Qgen := a.Qgen + q * (dt * n), thermTime := a.thermTime + dt * n } : SPM N)
              rcases ht : ({ a with Qgen := a.Qgen + q * (dt * n), thermTime := a.thermTime + dt * n } : SPM N).thermAlone
                with ⟨t | y | w, b⟩
              · rw [ht] at k1; cases k1
              · rw [ht] at hs
                rcases hs with hs | hs
                · simp only at hs ⊢; rw [hs]
                · simp only at hs ⊢; rw [hs]; rfl
              · rw [ht] at k1; cases k1
        rw [this]; exact f.T
    · rw [k3]
      obtain ⟨q1, q2⟩ := ageStep_throw k2
      rw [q2]
      have hu := keepsBuild_upd (a.thermStep (dt * n)).2
      have hust := (sameAge_upd (a.thermStep (dt * n)).2).2.1
      obtain ⟨t, ht⟩ := thermStep_st a (dt * n)
      obtain ⟨m1, m2⟩ := main _ (hth.trans hu) ⟨t, hust.trans ht⟩
      have hbl' : (a.thermStep (dt * n)).2.block = false := by rw [hth.block]; simpa using hbl
      refine ⟨m1, ?_, m2, ?_⟩
      · refine StepFailure.congr (hb.trans hth) ?_
        rcases q1 with k | ⟨k, k'⟩ | ⟨k, k'⟩ | ⟨k, k'⟩
        · subst k; exact .concentration hbl'
        · subst k; exact .curve k'
        · subst k; exact .unknown hbl' k'
        · subst k; exact .stress hbl' k'
      · rintro (hk | hk | hk)
        · rw [hcb] at hk; cases hk
        · rw [hust, hpar hk]; exact f.T
        · subst hk; rcases q1 with k | ⟨k, -⟩ | ⟨k, -⟩ | ⟨k, -⟩ <;> cases k

/-- C108: a blocked cell whose curves have a value for every lithium fraction never fails a time step. -/
theorem spm_blocked_step_never_fails (c : SPM N) {dt : ℚ} (n : ℤ) (e : Int) (hdt : 0 ≤ dt) (hb : c.block = true)
    (hc : CurvesCover c.par) : (c.timeStep dt n).1 ≠ .throw e := by
  intro h
  rcases spm_failed_step_partial c dt n e h with ⟨k, -⟩ | ⟨-, -, k, -⟩
  · linarith
  · cases k with
    | curve k => exact k hc
    | overheat k _ _ => rw [hb] at k; cases k
    | concentration k => rw [hb] at k; cases k
    | unknown k _ => rw [hb] at k; cases k
    | stress k _ => rw [hb] at k; cases k

/-- C108: the constructor switches on the stress models that the selected degradation models need, so that no time step
of a cell it returns finds them missing. -/
theorem spm_stress_always_prepared (c : SPM N) (deg : DegSel) (capf resf fsei flam dt : ℚ) (n : ℤ) :
    ((c.build deg capf resf fsei flam).timeStep dt n).1 ≠ .throw 108 := by
  intro h
  rcases spm_failed_step_partial _ dt n 108 h with ⟨-, k, -⟩ | ⟨-, -, k, -⟩
  · cases k
  · cases k with
    | stress _ k =>
      apply k
      constructor
      · intro hk
        show (c.stress.dai || deg.CS.any (· == 2) || deg.LAM.any (· == 1)) = true
        have hk' : (deg.CS.any (· == 2) || deg.LAM.any (· == 1)) = true := hk
        rw [Bool.or_assoc, hk', Bool.or_true]
      · intro hk
        show (c.stress.lares || deg.CS.any (· == 1)) = true
        have hk' : deg.CS.any (· == 1) = true := hk
        rw [hk', Bool.or_true]

/-- A discharge with more charge than the cell holds fails with 101 after the lithium has been moved. -/
def emptied : SPM 1 := { spm1 with st := { spm1.st with I := 1000000 } }

example : (emptied.timeStep 1 2).1 = .throw 101 ∧ (emptied.timeStep 1 2).2.st.time = 2 := by decide +kernel

/-- C108: the strong guarantee does not hold. -/
theorem not_spmFailedStepNoEffect : ¬ SpmFailedStepNoEffect 1 := by
  intro h
  have h1 := h emptied 1 2 101 (by decide +kernel)
  have h2 : (emptied.timeStep 1 2).2.st.time = emptied.st.time := by rw [h1]
  revert h2
  decide +kernel

-- The hypotheses of the theorems can be met: the blocked twin goes on; its curves cover all fractions.
example : CurvesCover emptied.par ∧ (({ emptied with block := true } : SPM 1).timeStep 1 2).1 = .ok () := by
  refine ⟨fun z h0 h1 => ?_, by decide +kernel⟩
  have : (0 ≤ z ∧ z ≤ 1) := ⟨h0, h1⟩
  refine ⟨?_, ?_, ?_, ?_, ?_⟩ <;> simp [emptied, spm1, this]

-- A cell that selects a stress-driven model.
example : ((spm1.build { spm1.deg with LAM := [1] } 1 1 1 1).timeStep 1 1).1 = .ok () ∧
    StressPrepared (spm1.build { spm1.deg with LAM := [1] } 1 1 1 1) := by
  refine ⟨by decide +kernel, by decide +kernel, by decide +kernel⟩

-- Without the constructor's preparation the step fails with 108, after the diffusion.
example : (({ spm1 with deg := { spm1.deg with LAM := [1] } } : SPM 1).timeStep 1 1).1 = .throw 108 ∧
    (({ spm1 with deg := { spm1.deg with LAM := [1] } } : SPM 1).timeStep 1 1).2.st.time = 1 := by decide +kernel

end Slide

import Verif.Lemmas.Driven

/-! C114: ageing by cycling needs cycling. -/

namespace Slide
open Spec SPM

variable {N : ℕ}

theorem still_after (c : SPM N) (o : SpmOp N) (h : restOp o) (hw : RestsWell c) (r : Relaxed c) (hs : Settled c) :
    Still c (spmAfter c o) ∧ Settled (spmAfter c o) := by
  have only : ∀ b : SPM N, OnlyCurrentDiffers c b → b.st.I = c.st.I → Still c b ∧ Settled b := by
    intro b hb hI
    have k0 := congrArg SpmState.delta hb.st
    have k1 := congrArg SpmState.LLI hb.st
    have k2 := congrArg SpmState.deltaPl hb.st
    have k3 := congrArg SpmState.CS hb.st
    have k4 := congrArg SpmState.Dn hb.st
    have k5 := congrArg SpmState.Dp hb.st
    have k6 := congrArg SpmState.thickp hb.st
    have k7 := congrArg SpmState.thickn hb.st
    have k8 := congrArg SpmState.ep hb.st
    have k9 := congrArg SpmState.en hb.st
    have k10 := congrArg SpmState.ap hb.st
    have k11 := congrArg SpmState.an hb.st
    have k12 := congrArg SpmState.zp hb.st
    have k13 := congrArg SpmState.zn hb.st
    have hk : Still c b := ⟨⟨⟨hb.par, hb.rest.1⟩, ⟨k0, k1, k2⟩, ⟨k3, k4, k5⟩, ⟨k6, k7, k8, k9, k10, k11⟩, k12, k13⟩, hI⟩
    exact ⟨hk, settled_still hk r hs (by rw [hb.stress]) (by rw [hb.stress]) (by rw [hb.stress]) (by rw [hb.stress])
      (by rw [hb.stress])⟩
  have other : ∀ b : SPM N, Still c b → stressCore b.stress = stressCore c.stress → Still c b ∧ Settled b := by
    intro b hb e
    have a1 := congrArg (fun x => x.1) e
    have a2 := congrArg (fun x => x.2.1) e
    have a3 := congrArg (fun x => x.2.2.1) e
    have a4 := congrArg (fun x => x.2.2.2.1) e
    have a5 := congrArg (fun x => x.2.2.2.2.2.2.1) e
    exact ⟨hb, settled_still hb r hs a1 a2 a3 a4 a5⟩
  cases o with
  | readV => exact only _ (V_onlyCurrent c) (by show c.V.2.st.I = _; rw [SPM.V_rest])
  | setCurrent i b =>
    have hi : i = 0 := h
    subst hi
    refine only _ (setCurrent_onlyCurrent c 0 b) ?_
    show (c.setCurrent 0 b).2.st.I = _
    have h2 : ((withCurrent c 0).checkCurrent b).2.st.I = c.st.I := by
      rw [checkCurrent_snd, r.I]
      cases b
      · rfl
      · rw [if_pos rfl, SPM.V_rest]; rfl
    rw [spm_setCurrent_eq]
    rcases hk : (withCurrent c 0).checkCurrent b with ⟨s | e | w, c2⟩ <;> rw [hk] at h2 <;> simp only at h2 ⊢
    · split
      · rfl
      · exact h2
    · exact h2
    · exact h2
  | setSOC s b =>
    have hV : ∀ c1 : SPM N, Still c c1 → c1.stress = c.stress → Still c c1.V.2 ∧ c1.V.2.stress = c.stress := by
      intro c1 h1 h2
      rw [SPM.V_rest]
      exact ⟨h1.trans ⟨⟨⟨rfl, rfl⟩, ⟨rfl, rfl, rfl⟩, ⟨rfl, rfl, rfl⟩, ⟨rfl, rfl, rfl, rfl, rfl, rfl⟩, rfl, rfl⟩, rfl⟩, h2⟩
    have g : Still c (c.setSOC s b).2 ∧ (c.setSOC s b).2.stress = c.stress := by
      unfold setSOC
      split
      · exact ⟨.refl c, rfl⟩
      · set c1 : SPM N := { c with st := { c.st with SOC := s } } with hc1
        have h1 : Still c c1 :=
          ⟨⟨⟨rfl, rfl⟩, ⟨rfl, rfl, rfl⟩, ⟨rfl, rfl, rfl⟩, ⟨rfl, rfl, rfl, rfl, rfl, rfl⟩, rfl, rfl⟩, rfl⟩
        cases b
        · exact ⟨h1, rfl⟩
        · have h2 := hV c1 h1 rfl
          rw [← checkV_snd] at h2
          rcases hk : c1.checkV with ⟨r | e | w, c2⟩ <;> rw [hk] at h2 <;> simp only [if_true, hk] at h2 ⊢
          · split
            · exact ⟨h2.1.trans ⟨⟨⟨rfl, rfl⟩, ⟨rfl, rfl, rfl⟩, ⟨rfl, rfl, rfl⟩, ⟨rfl, rfl, rfl, rfl, rfl, rfl⟩, rfl, rfl⟩,
                rfl⟩, h2.2⟩
            · exact h2
          · exact h2
          · exact h2
    exact other _ g.1 (by show stressCore (c.setSOC s b).2.stress = _; rw [g.2])
  | setT t =>
    exact other _ ⟨⟨⟨rfl, rfl⟩, ⟨rfl, rfl, rfl⟩, ⟨rfl, rfl, rfl⟩, ⟨rfl, rfl, rfl, rfl, rfl, rfl⟩, rfl, rfl⟩, rfl⟩ rfl
  | setTenv t =>
    show Still c (c.setTenv t).2 ∧ Settled (c.setTenv t).2
    unfold setTenv
    split
    · exact other _ (.refl c) rfl
    · exact other _ ⟨⟨⟨rfl, rfl⟩, ⟨rfl, rfl, rfl⟩, ⟨rfl, rfl, rfl⟩, ⟨rfl, rfl, rfl, rfl, rfl, rfl⟩, rfl, rfl⟩, rfl⟩ rfl
  | step dt n => exact timeStep_still c dt n hw r hs
  | block b =>
    exact other _ ⟨⟨⟨rfl, rfl⟩, ⟨rfl, rfl, rfl⟩, ⟨rfl, rfl, rfl⟩, ⟨rfl, rfl, rfl, rfl, rfl, rfl⟩, rfl, rfl⟩, rfl⟩ rfl
  | _ => cases h

/-- C114: a relaxed cell without models of ageing at rest, whose remembered stress is the one it has, does not age and keeps its
concentrations, however long it rests, however warm it is, and however its steps end. -/
theorem rest_partial (c : SPM N) (ops : List (SpmOp N)) (h : ∀ o ∈ ops, restOp o) (hw : RestsWell c) (r : Relaxed c)
    (hs : Settled c) : NotAged c (spmRun c ops) ∧ Relaxed (spmRun c ops) ∧ Settled (spmRun c ops) := by
  induction ops generalizing c with
  | nil => exact ⟨.refl c, r, hs⟩
  | cons o os ih =>
    obtain ⟨h1, h2⟩ := still_after c o (h o (by simp)) hw r hs
    obtain ⟨k1, k2, k3⟩ := ih _ (fun p hp => h p (by simp [hp])) (hw.still h1.aged.fixed.1 h1.aged.fixed.2) (h1.relaxed r) h2
    exact ⟨h1.aged.trans k1, k2, k3⟩

/-- C114: one accepted step of rest with ageing settles the stress of a relaxed cell, whatever was remembered. -/
theorem rest_settles (c : SPM N) (dt : ℚ) (n : ℤ) (hw : RestsWell c) (r : Relaxed c) (hb : c.block = false)
    (h : (c.timeStep dt n).1 = .ok ()) : Relaxed (c.timeStep dt n).2 ∧ Settled (c.timeStep dt n).2 ∧
      RestsWell (c.timeStep dt n).2 ∧ (c.timeStep dt n).2.st.zp = c.st.zp ∧ (c.timeStep dt n).2.st.zn = c.st.zn := by
  unfold timeStep at h ⊢
  by_cases hdt : dt < 0
  · rw [if_pos hdt] at h; cases h
  rw [if_neg hdt] at h ⊢
  have hrot : Still c (c.rotate (n * dt)) :=
    ⟨⟨⟨rfl, rfl⟩, ⟨rfl, rfl, rfl⟩, ⟨rfl, rfl, rfl⟩, ⟨rfl, rfl, rfl, rfl, rfl, rfl⟩, rfl, rfl⟩, rfl⟩
  have h1 : Still c (SPM.diffLoop dt n.toNat (c.rotate (n * dt))).2 :=
    hrot.trans (diffLoop_still dt _ _ (hrot.relaxed r) (noDecay_par rfl hw.noDecay))
  obtain ⟨g1, g2, g3⟩ := andThen_ok h
  have hbl : (SPM.diffLoop dt n.toNat (c.rotate (n * dt))).2.block = c.block :=
    ((diffLoop_ok dt n.toNat _ g1).1).block
  rw [g3]
  generalize (SPM.diffLoop dt n.toNat (c.rotate (n * dt))).2 = c1 at *
  rw [if_neg (by rw [hbl, hb]; simp)] at g2 ⊢
  obtain ⟨k1, k2, k3⟩ := andThen_ok g2
  rw [k3]
  have h2 := h1.trans (thermStep_still c1 (dt * n))
  generalize (c1.thermStep (dt * n)).2 = c2 at *
  have hw2 := hw.still h2.aged.fixed.1 h2.aged.fixed.2
  have r2 := h2.relaxed r
  have hdai := relaxed_dai r2 hw2.cons hw2.dai
  unfold ageStep at k2 ⊢
  obtain ⟨u1, u2, u3⟩ := andThen_ok k2
  rw [u3]
  obtain ⟨ha, hst, -⟩ := sameAge_upd c2
  have hset : Settled c2.updDai.updLares.2 := by
    have d : c2.updDai.st = c2.st ∧ c2.updDai.par = c2.par ∧ c2.updDai.stress.lares = c2.stress.lares ∧
        (c2.updDai.stress.dai = true → c2.updDai.stress.daiP = 0 ∧ c2.updDai.stress.daiN = 0) := by
      unfold updDai
      by_cases hd : c2.stress.dai = true
      · rw [if_pos hd, hdai]; exact ⟨rfl, rfl, rfl, fun _ => ⟨rfl, rfl⟩⟩
      · rw [if_neg hd]; exact ⟨rfl, rfl, rfl, fun k => absurd k hd⟩
    generalize c2.updDai = c3 at d u1
    obtain ⟨d1, d2, d3, d4⟩ := d
    unfold updLares at u1 ⊢
    by_cases hl : c3.stress.lares = true
    · rw [if_pos hl] at u1 ⊢
      split at u1
      · cases u1
      · rename_i n1
        rw [if_neg n1]
        split at u1
        · cases u1
        · rename_i n2
          rw [if_neg n2]
          unfold look at u1 ⊢
          rcases hk : c3.par.laresCurve (c3.cns / c3.par.Cmaxneg) with _ | s <;> rw [hk] at u1
          · cases u1
          · exact ⟨d4, fun _ => hk⟩
    · rw [if_neg hl]
      exact ⟨d4, fun k => absurd k hl⟩
  have hb4 : Still c2 c2.updDai.updLares.2 := by
    refine ⟨⟨⟨ha.par, ha.deg⟩, ?_, ?_, ?_, ?_⟩, ?_⟩ <;> rw [hst]
    · exact ⟨rfl, rfl, rfl⟩
    · exact ⟨rfl, rfl, rfl⟩
    · exact ⟨rfl, rfl, rfl, rfl, rfl, rfl⟩
    · exact ⟨rfl, rfl⟩
  generalize c2.updDai.updLares.2 = c4 at *
  have r4 := hb4.relaxed r2
  have h24 := h2.trans hb4
  rcases hdr : c4.degRate with d | e | w <;> rw [hdr] at u2
  · simp only
    have hz := degRate_zn hdr (by rw [h24.aged.fixed.2]; exact hw.only)
    have zz : (c4.addRate d (dt * n)).st.zn = c4.st.zn := by
      unfold addRate
      rw [hz]
      simp
    have r5 : Relaxed (c4.addRate d (dt * n)) := ⟨r4.I, r4.zp, by rw [zz]; exact r4.zn⟩
    refine ⟨r5, ⟨hset.dai, fun k => ?_⟩, hw.still h24.aged.fixed.1 h24.aged.fixed.2, h24.aged.conc.1,
      zz.trans h24.aged.conc.2⟩
    have : (c4.addRate d (dt * n)).cns = c4.cns := by
      rw [relaxed_cns r5, relaxed_cns r4, zz]; rfl
    rw [this]
    exact hset.lares k
  · cases u2
  · cases u2

/-- C114: so at most the first step of a rest ages the cell. -/
theorem rest_ages_once (c : SPM N) (dt : ℚ) (n : ℤ) (hw : RestsWell c) (r : Relaxed c) (hb : c.block = false)
    (h : (c.timeStep dt n).1 = .ok ()) (ops : List (SpmOp N)) (ho : ∀ o ∈ ops, restOp o) :
    NotAged (c.timeStep dt n).2 (spmRun (c.timeStep dt n).2 ops) := by
  obtain ⟨h1, h2, h3, -⟩ := rest_settles c dt n hw r hb h
  exact (rest_partial _ ops ho h3 h1 h2).1

/-- C114, in full: without models of ageing at rest a relaxed cell never ages at rest. -/
def RestNeverAges (N : ℕ) : Prop := ∀ (c : SPM N) (ops : List (SpmOp N)), (∀ o ∈ ops, restOp o) → RestsWell c → Relaxed c →
  NotAged c (spmRun c ops)

/-- A new cell with all models of ageing by cycling. -/
def spmDr0 : SPM 1 :=
  { spm1 with
    par := { spm1.par with M := { spm1.par.M with xch := Dai.xch1, Vp := fun _ _ => 2, Vn := fun _ _ => 2 } }
    deg := { SEI := [0], SEIpor := 0, CS := [1, 2, 3, 4], CSdiff := 1, LAM := [1, 2], pl := 0 }
    stress := { spm1.stress with dai := true, lares := true } }

/-- Its stress, as the code computes it. -/
def daiDr (s : SpmState 1) : ℚ × ℚ :=
  match Dai.ofCell Dai.mat1 Dai.mat1 Dai.Q1 ({ spmDr0 with st := s } : SPM 1) with
  | .ok r => r
  | _ => (0, 0)

def spmDr : SPM 1 := { spmDr0 with par := { spmDr0.par with dai := daiDr } }

theorem spmDr_restsWell : RestsWell spmDr := by
  refine ⟨⟨by decide, by decide, by decide, rfl⟩, ⟨by decide +kernel, by decide +kernel, by decide +kernel⟩, ⟨rfl, rfl⟩,
    ⟨Dai.mat1, Dai.mat1, Dai.Q1, Dai.Q1_exact, fun s => ?_⟩, by decide +kernel⟩
  have h : ∀ f : Fin 3 → ℚ, ∃ x, Dai.particle Dai.mat1 Dai.xch1 Dai.Q1 f = .ok x := fun f => by
    unfold Dai.particle
    exact ⟨_, if_neg (by decide +kernel)⟩
  show Dai.ofCell Dai.mat1 Dai.mat1 Dai.Q1 ({ spmDr0 with st := s } : SPM 1) = .ok (daiDr s)
  obtain ⟨r, hr⟩ : ∃ r, Dai.ofCell Dai.mat1 Dai.mat1 Dai.Q1 ({ spmDr0 with st := s } : SPM 1) = .ok r := by
    obtain ⟨x, hx⟩ := h (Dai.concP ({ spmDr0 with st := s } : SPM 1))
    obtain ⟨y, hy⟩ := h (Dai.concN ({ spmDr0 with st := s } : SPM 1))
    refine ⟨(x.max, y.max), ?_⟩
    unfold Dai.ofCell
    exact Outcome.bind_eq_ok.mpr ⟨x, hx, Outcome.bind_eq_ok.mpr ⟨y, hy, rfl⟩⟩
  unfold daiDr
  rw [hr]

theorem spmDr_relaxed : Relaxed spmDr :=
  ⟨rfl, fun j hj => absurd (Subsingleton.elim j _) hj, fun j hj => absurd (Subsingleton.elim j _) hj⟩

/-- **C114 in full is false of the code**: a new cell remembers no stress, so its first step of rest looks like a change from no
stress to the one it has, and cracks its particles. -/
theorem not_restNeverAges : ¬ RestNeverAges 1 := by
  intro h
  have := (h spmDr [.step 1 1] (by simp [restOp, simulating]) spmDr_restsWell spmDr_relaxed).cracks.1
  revert this
  decide +kernel

/-- The new cell after its first second. -/
def spmDr1 : SPM 1 := (spmDr.timeStep 1 1).2

theorem spmDr_first : (spmDr.timeStep 1 1).1 = .ok () := by decide +kernel

example : RestsWell spmDr1 ∧ Relaxed spmDr1 ∧ Settled spmDr1 ∧ spmDr1.stress.laresN ≠ 0 ∧
    ((spmDr1.timeStep 1 5).1 = .ok ()) ∧ spmDr1.st.CS ≠ spmDr.st.CS := by
  obtain ⟨h1, h2, h3, -⟩ := rest_settles spmDr 1 1 spmDr_restsWell spmDr_relaxed rfl spmDr_first
  exact ⟨h3, h1, h2, by decide +kernel, by decide +kernel, by decide +kernel⟩

/-- It rests without ageing, and ages as soon as it is used. -/
example : NotAged spmDr1 (spmRun spmDr1 [.step 1 5, .setT 300, .setCurrent 0 true, .step 2 100]) :=
  rest_ages_once spmDr 1 1 spmDr_restsWell spmDr_relaxed rfl spmDr_first _ (by simp [restOp, simulating])

example : (spmRun spmDr1 [.setCurrent (1 / 10) false, .step 1 1]).st.CS > spmDr1.st.CS ∧
    (spmRun spmDr1 [.setCurrent (1 / 10) false, .step 1 1]).st.thickn ≠ spmDr1.st.thickn := by decide +kernel

end Slide

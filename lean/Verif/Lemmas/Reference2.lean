import Verif.Lemmas.Reference

/-! Lemmas: time steps with ageing commute with a change of the reference electrode. -/

namespace Slide
open Spec SPM

variable {N : ℕ}

theorem against_degRate (x : ℚ) (c : SPM N) : (against x c).degRate = c.degRate := by
  obtain ⟨d, hd⟩ : ∃ d, d = against x c := ⟨_, rfl⟩
  have e1 : d.finite = c.finite := hd ▸ against_finite x c
  have e2 : d.concOk = c.concOk := hd ▸ against_concOk x c
  have e3 : d.cps = c.cps := hd ▸ against_cps x c
  have e4 : d.cns = c.cns := hd ▸ against_cns x c
  have e5 : d.i0p = c.i0p := hd ▸ against_i0p x c
  have e6 : d.i0n = c.i0n := hd ▸ against_i0n x c
  have e7 : ∀ z, look d.par.ocvN z = (look c.par.ocvN z >>= fun y => .ok (y + x)) := hd ▸ against_ocvN x c
  have e8 : ∀ l, d.lamSum l = c.lamSum l := hd ▸ against_lamSum x c
  have e9 : ∀ o, d.SEI (o + x) = c.SEI o := hd ▸ against_SEI x c
  have ea : ∀ o, d.crack (o + x) = c.crack o := hd ▸ against_crack x c
  have eb : ∀ o, d.plating (o + x) = c.plating o := hd ▸ against_plating x c
  have f1 : d.st = c.st := hd ▸ rfl
  have f2 : d.par.nsei = c.par.nsei := hd ▸ rfl
  have f3 : d.par.npl = c.par.npl := hd ▸ rfl
  have f4 : d.par.rhosei = c.par.rhosei := hd ▸ rfl
  have f5 : d.par.rhopl = c.par.rhopl := hd ▸ rfl
  have f6 : d.par.Rp = c.par.Rp := hd ▸ rfl
  have f7 : d.par.Rn = c.par.Rn := hd ▸ rfl
  have f8 : d.par.dNeg = c.par.dNeg := hd ▸ rfl
  have f9 : d.par.T_ref = c.par.T_ref := hd ▸ rfl
  have g1 : d.par.M = c.par.M := hd ▸ rfl
  have g2 : d.par.elecSurf = c.par.elecSurf := hd ▸ rfl
  have g3 : d.par.Cmaxpos = c.par.Cmaxpos := hd ▸ rfl
  have g4 : d.par.Cmaxneg = c.par.Cmaxneg := hd ▸ rfl
  have g5 : d.deg = c.deg := hd ▸ rfl
  rw [← hd]
  unfold degRate
  simp only [e1, e2, e3, e4, e5, e6, e7, e8, f1, f2, f3, f4, f5, f6, f7, f8, f9, g1, g2, g3, g4, g5]
  rcases look c.par.dNeg (c.cps / c.par.Cmaxpos) with q | e | w
  · simp only [Outcome.ok_bind]
    rcases look c.par.ocvN (c.cns / c.par.Cmaxneg) with n | e | w
    · simp only [Outcome.ok_bind]
      rw [show n + x + (c.st.T - c.par.T_ref) * q = n + (c.st.T - c.par.T_ref) * q + x by ring, e9, ea, eb]
    · simp only [Outcome.throw_bind]
    · simp only [Outcome.ub_bind]
  · simp only [Outcome.throw_bind]
  · simp only [Outcome.ub_bind]

theorem against_updDai (x : ℚ) (c : SPM N) : (against x c).updDai = against x c.updDai := by
  unfold updDai
  by_cases h : c.stress.dai = true
  · rw [if_pos h, if_pos (show (against x c).stress.dai = true from h)]; rfl
  · rw [if_neg h, if_neg (show ¬ (against x c).stress.dai = true from h)]

theorem against_updLares (x : ℚ) (c : SPM N) : SameCall x c.updLares (against x c).updLares := by
  unfold SameCall updLares
  by_cases h : c.stress.lares = true
  · rw [if_pos h, if_pos (show (against x c).stress.lares = true from h)]
    rw [against_finite, against_cps, against_cns]
    by_cases h1 : (!c.finite) = true
    · rw [if_pos h1, if_pos h1]
    rw [if_neg h1, if_neg h1]
    by_cases h2 : c.cps < 0 ∨ c.cns < 0 ∨ c.cps > c.par.Cmaxpos ∨ c.cns > c.par.Cmaxneg
    · rw [if_pos h2]; exact if_pos h2
    · rw [if_neg h2]
      refine (if_neg h2).trans ?_
      show (match look c.par.laresCurve (c.cns / c.par.Cmaxneg) with | .ok s => _ | .throw e => _ | .ub w => _) = _
      rcases look c.par.laresCurve (c.cns / c.par.Cmaxneg) with s | e | w <;> rfl
  · rw [if_neg h, if_neg (show ¬ (against x c).stress.lares = true from h)]

theorem against_ageStep (x : ℚ) (c : SPM N) (h : ℚ) : SameCall x (c.ageStep h) ((against x c).ageStep h) := by
  unfold ageStep
  rw [against_updDai]
  refine against_andThen x (against_updLares x _) ?_
  intro c1
  unfold SameCall
  rw [against_degRate]
  rcases c1.degRate with d | e | w <;> rfl

theorem against_timeStep (x : ℚ) (c : SPM N) (dt : ℚ) (n : ℤ) :
    SameCall x (c.timeStep dt n) ((against x c).timeStep dt n) := by
  unfold timeStep
  by_cases h : dt < 0
  · rw [if_pos h, if_pos h]; rfl
  rw [if_neg h, if_neg h]
  have h1 : (against x c).rotate (n * dt) = against x (c.rotate (n * dt)) := rfl
  rw [h1]
  refine against_andThen x (against_diffLoop x dt n.toNat _) ?_
  intro c1
  by_cases hb : c1.block = true
  · rw [if_pos hb, if_pos (show (against x c1).block = true from hb)]; rfl
  rw [if_neg hb, if_neg (show ¬ (against x c1).block = true from hb)]
  exact against_andThen x (against_thermStep x c1 _) (fun c2 => against_ageStep x c2 _)

end Slide

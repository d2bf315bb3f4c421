import Verif.Lemmas.SPMScale
import Verif.Tac

/-!
Properties C43 (diffusion keeps equilibrium, charge counting) and C73 (cells scale with their capacity) of the
single-particle cell.
-/

namespace Slide
open Spec SPM

variable {N : ℕ}

/-! ### C43 -/

/-- C43: a successful time step changes the reported state of charge by the charge passed, with or without degradation
and heat; time and throughput are counted likewise. -/
theorem spm_soc_charge (c : SPM N) (dt : ℚ) (n : ℕ) (h : (c.timeStep dt n).1 = .ok ()) :
    (c.timeStep dt n).2.st.SOC = c.st.SOC - c.st.I * dt * n / (3600 * c.par.cap) ∧
    (c.timeStep dt n).2.st.time = c.st.time + n * dt ∧
    (c.timeStep dt n).2.st.Ah = c.st.Ah + |c.st.I| * (n * dt) / 3600 := by
  obtain ⟨hdt, h1, -, eS, -, et, eA, -⟩ := timeStep_ok h
  obtain ⟨-, gS, gt, gA, -⟩ := diffLoop_ok dt _ _ h1
  rw [eS, et, eA, gS, gt, gA hdt]
  simp only [Int.toNat_natCast]
  refine ⟨?_, rfl, rfl⟩
  show c.st.SOC + n * dt * (-c.st.I / (c.par.cap * 3600)) = _
  rw [show c.par.cap * 3600 = 3600 * c.par.cap by ring, sub_eq_add_neg, ← mul_div_assoc, ← neg_div]
  congr 1; ring

theorem setCurrent_keeps (c : SPM N) (i : ℚ) (r : Status) (h : (c.setCurrent i true).1 = .ok r)
    (hr : r.isBad = false) : (c.setCurrent i true).2.st.SOC = c.st.SOC ∧ (c.setCurrent i true).2.st.I = i ∧
      (c.setCurrent i true).2.par = c.par := by
  unfold setCurrent at *
  set c1 : SPM N := { c with st := { c.st with I := i }, valid := false } with hc1
  have hs := checkCurrent_snd c1 true
  have hv := SPM.V_rest c1
  rcases hk : c1.checkCurrent true with ⟨s | e | w, c2⟩
  · rw [hk] at hs
    simp only [if_true] at hs
    simp only [hk] at h ⊢
    have : s = r := by
      by_cases hb : s.isBad = true
      · rw [if_pos hb] at h; exact Outcome.ok.inj h
      · rw [if_neg hb] at h; exact Outcome.ok.inj h
    rw [if_neg (by rw [this, hr]; simp)]
    simp only
    rw [hs, hv]
    exact ⟨rfl, rfl, rfl⟩
  · simp only [hk] at h; simp at h
  · simp only [hk] at h; simp at h

theorem spmLeg_soc (c c2 : SPM N) (i dt : ℚ) (n : ℕ) (h : spmLeg c i dt n = some c2) :
    c2.st.SOC = c.st.SOC - i * dt * n / (3600 * c.par.cap) ∧ c2.par = c.par := by
  unfold spmLeg at h
  rcases hk : c.setCurrent i true with ⟨r | e | w, c1⟩
  · rw [hk] at h
    simp only at h
    by_cases hb : r.isBad = true
    · rw [if_pos hb] at h; simp at h
    · rw [if_neg hb] at h
      have h1 := setCurrent_keeps c i r (by rw [hk]) (by simpa using hb)
      rw [hk] at h1
      simp only at h1
      rcases hk2 : c1.timeStep dt n with ⟨u | e | w, c3⟩
      · rw [hk2] at h
        have hok : (c1.timeStep dt n).1 = .ok () := by rw [hk2]
        have h2 := (spm_soc_charge c1 dt n hok).1
        have hp := (timeStep_ok hok).2.2.2.2.2.2.2.2.1
        rw [hk2] at h2 hp
        have e : c3 = c2 := Option.some.inj h
        rw [← e]
        simp only at h2 hp
        rw [h2, h1.1, h1.2.1, h1.2.2]
        exact ⟨rfl, hp.trans h1.2.2⟩
      · rw [hk2] at h; simp at h
      · rw [hk2] at h; simp at h
  · rw [hk] at h; simp at h
  · rw [hk] at h; simp at h

/-- C43: over any current profile the state of charge changes by exactly the charge passed over the capacity. -/
theorem spm_profile_soc (c c' : SPM N) (ps : List (ℚ × ℚ × ℕ)) (h : spmProfile c ps = some c') :
    c'.st.SOC = c.st.SOC - profileCharge ps / (3600 * c.par.cap) := by
  induction ps generalizing c with
  | nil => simp only [spmProfile, Option.some.injEq] at h; rw [h]; simp [profileCharge]
  | cons p ps ih =>
    rw [spmProfile] at h
    obtain ⟨c2, h1, h2⟩ := Option.bind_eq_some_iff.mp h
    obtain ⟨e1, e2⟩ := spmLeg_soc c c2 _ _ _ h1
    rw [ih c2 h2, e1, e2, profileCharge]
    ring

/-- C43: a profile that takes out nothing on balance ends at the state of charge it began with. -/
theorem spm_closed_profile (c c' : SPM N) (ps : List (ℚ × ℚ × ℕ)) (h : spmProfile c ps = some c')
    (h0 : profileCharge ps = 0) : c'.st.SOC = c.st.SOC := by
  rw [spm_profile_soc c c' ps h, h0]; simp

example : ∃ c', spmProfile spm1 [(1 / 10, 1 / 10, 3), (-1 / 20, 1 / 10, 6)] = some c' ∧
    profileCharge [(1 / 10, 1 / 10, 3), (-1 / 20, 1 / 10, 6)] = 0 := by
  have h : (spmProfile spm1 [(1 / 10, 1 / 10, 3), (-1 / 20, 1 / 10, 6)]).isSome = true ∧
    profileCharge [(1 / 10, 1 / 10, 3), (-1 / 20, 1 / 10, 6)] = 0 := by decide +kernel
  obtain ⟨c', hc⟩ := Option.isSome_iff_exists.mp h.1
  exact ⟨c', hc, h.2⟩

/-- C43: after `setC` the concentrations do not change while the cell rests, for any number of steps of any length; with
degradation and heat blocked, or no degradation model selected. -/
theorem spm_equilibrium (c : SPM N) (fp fn dt : ℚ) (n : ℤ) (hA : NoDecay c)
    (hq : c.block = true ∨ noDegradation c.deg) (h0 : (c.setC fp fn).1 = .ok ())
    (h : ((c.setC fp fn).2.timeStep dt n).1 = .ok ()) :
    ((c.setC fp fn).2.timeStep dt n).2.st.zp = (c.setC fp fn).2.st.zp ∧
    ((c.setC fp fn).2.timeStep dt n).2.st.zn = (c.setC fp fn).2.st.zn := by
  have hk : (c.setC fp fn).2.st.I = 0 ∧ (c.setC fp fn).2.par = c.par ∧ (c.setC fp fn).2.deg = c.deg ∧
      (c.setC fp fn).2.block = c.block ∧ (∀ k, k ≠ c.par.M.ind → (c.setC fp fn).2.st.zp k = 0) ∧
      (∀ k, k ≠ c.par.M.ind → (c.setC fp fn).2.st.zn k = 0) := by
    unfold setC at h0 ⊢
    split at h0
    · simp at h0
    · rename_i hf
      rw [if_neg hf]
      refine ⟨rfl, rfl, rfl, rfl, fun k hk => ?_, fun k hk => ?_⟩
      · simp only [uniformZp, if_neg hk]
      · simp only [uniformZn, if_neg hk]
  generalize (c.setC fp fn).2 = a at *
  obtain ⟨hI, hp, hd, hb, hzp, hzn⟩ := hk
  obtain ⟨hdt, h1, hbl, -, ezp, -, -, -, -, ezn⟩ := timeStep_ok h
  obtain ⟨-, -, -, -, -, -, gzp, gzn⟩ := diffLoop_ok dt _ _ h1
  have e1 := gzp hI (fun j => by
    show a.par.M.Ap j * a.st.zp j = 0
    by_cases hj : j = c.par.M.ind
    · rw [hj, hp, hA.1]; simp
    · rw [hzp j hj]; simp)
  have e2 := gzn hI (fun j => by
    show a.par.M.An j * a.st.zn j = 0
    by_cases hj : j = c.par.M.ind
    · rw [hj, hp, hA.2]; simp
    · rw [hzn j hj]; simp)
  refine ⟨ezp.trans e1, ?_⟩
  rcases hq with hq | hq
  · rw [hbl (hb.trans hq)]; exact e2
  · rw [ezn (by rw [hd]; exact hq)]; exact e2

/-- C43: and the voltage it reports stays the same. -/
theorem spm_rest_voltage (c : SPM N) (fp fn dt : ℚ) (n : ℤ) (hA : NoDecay c) (hq : c.block = true)
    (h0 : (c.setC fp fn).1 = .ok ()) (h : ((c.setC fp fn).2.timeStep dt n).1 = .ok ()) :
    ((c.setC fp fn).2.timeStep dt n).2.calcV = (c.setC fp fn).2.calcV := by
  obtain ⟨e1, e2⟩ := spm_equilibrium c fp fn dt n hA (.inl hq) h0 h
  have hb : (c.setC fp fn).2.block = true := by
    unfold setC; split <;> exact hq
  generalize (c.setC fp fn).2 = a at *
  obtain ⟨-, h1, hbl, -⟩ := timeStep_ok h
  rw [hbl hb] at e1 e2 ⊢
  have f := (diffLoop_ok dt _ _ h1).1
  generalize (SPM.diffLoop dt n.toNat (a.rotate (n * dt))).2 = b at *
  have est : b.st = { a.st with V := b.st.V, SOC := b.st.SOC, time := b.st.time, Ah := b.st.Ah, Wh := b.st.Wh } := by
    ext
    all_goals first
      | rfl
      | exact f.I | exact f.T | exact f.age.delta | exact f.age.LLI | exact f.age.thickp | exact f.age.thickn
      | exact f.age.ep | exact f.age.en | exact f.age.ap | exact f.age.an | exact f.age.CS | exact f.Dp | exact f.Dn
      | exact f.age.deltaPl | exact congrFun e1 _ | exact congrFun e2 _ | exact f.rDC.1 | exact f.rDC.2.1
      | exact f.rDC.2.2
  have ep : b.par = a.par := f.age.par
  have eb : b = { b with
      par := a.par
      st := { a.st with V := b.st.V, SOC := b.st.SOC, time := b.st.time, Ah := b.st.Ah, Wh := b.st.Wh } } := by
    rw [← est, ← ep]
  rw [eb]
  rfl

/-- C43: the lithium content of the particles (the amplitude of the uniform concentration) changes in proportion to the
reported state of charge: nothing is lost or created by diffusion, for any number of steps. -/
theorem spm_lithium_tracks_soc (c : SPM N) (dt : ℚ) (n : ℕ) (hA : NoDecay c) (hb : c.block = true)
    (h : (c.timeStep dt n).1 = .ok ()) :
    (c.timeStep dt n).2.st.zp c.par.M.ind - c.st.zp c.par.M.ind =
      n * dt * (c.par.M.Bp c.par.M.ind * (-(c.st.I / c.par.elecSurf) / (c.st.ap * c.par.n * Faraday * c.st.thickp))) ∧
    (c.timeStep dt n).2.st.zn c.par.M.ind - c.st.zn c.par.M.ind =
      n * dt * (c.par.M.Bn c.par.M.ind * (c.st.I / c.par.elecSurf / (c.st.an * c.par.n * Faraday * c.st.thickn))) := by
  obtain ⟨-, h1, hbl, -⟩ := timeStep_ok h
  obtain ⟨-, -, -, -, gp, gn, -, -⟩ := diffLoop_ok dt _ _ h1
  rw [hbl hb]
  have e1 := gp c.par.M.ind hA.1
  have e2 := gn c.par.M.ind hA.2
  simp only [Int.toNat_natCast] at e1 e2 ⊢
  rw [e1, e2]
  constructor
  · show c.st.zp c.par.M.ind + n * dt * (c.par.M.Bp c.par.M.ind * c.jp) - c.st.zp c.par.M.ind = _
    unfold jp iApp; ring
  · show c.st.zn c.par.M.ind + n * dt * (c.par.M.Bn c.par.M.ind * c.jn) - c.st.zn c.par.M.ind = _
    unfold jn iApp; ring

/-- C43: with a consistent discretisation, `setC` sets the requested lithium fractions at every node of both particles,
centres included. -/
theorem spm_setC_uniform (c : SPM N) (fp fn : ℚ) (hC : Consistent c) (h0 : (c.setC fp fn).1 = .ok ()) :
    (∀ i, (c.setC fp fn).2.nodeP i = fp * c.par.Cmaxpos) ∧ (c.setC fp fn).2.centreP = fp * c.par.Cmaxpos ∧
    (∀ i, (c.setC fp fn).2.nodeN i = fn * c.par.Cmaxneg) ∧ (c.setC fp fn).2.centreN = fn * c.par.Cmaxneg := by
  unfold setC at h0 ⊢
  split at h0
  · simp at h0
  · rename_i hf
    rw [if_neg hf]
    simp only
    set a : SPM N := { c with
      st := { c.st with zp := c.uniformZp (fp * c.par.Cmaxpos), zn := c.uniformZn (fn * c.par.Cmaxneg), I := 0 },
      stress := { c.stress with daiUpd := false, laresUpd := false },
      valid := false } with ha
    have hjp : a.jp = 0 := by simp [jp, iApp, ha]
    have hjn : a.jn = 0 := by simp [jn, iApp, ha]
    have hP : ∀ i, a.nodeP i = fp * c.par.Cmaxpos := by
      intro i
      unfold nodeP
      rw [hjp]
      have : ∀ j, a.par.M.Cp i j * a.st.zp j =
          if j = c.par.M.ind then a.par.M.Cp i c.par.M.ind * a.st.zp c.par.M.ind else 0 := by
        intro j
        by_cases hj : j = c.par.M.ind
        · rw [if_pos hj, hj]
        · rw [if_neg hj]
          show c.par.M.Cp i j * c.uniformZp (fp * c.par.Cmaxpos) j = 0
          rw [uniformZp, if_neg hj, mul_zero]
      rw [Finset.sum_congr rfl (fun j _ => this j), Finset.sum_ite_eq' Finset.univ, if_pos (Finset.mem_univ _)]
      show c.par.M.Cp i c.par.M.ind * c.uniformZp (fp * c.par.Cmaxpos) c.par.M.ind + _ = _
      rw [uniformZp, if_pos rfl]
      have e : ∑ k, c.par.M.Vp c.par.M.ind k * (fp * c.par.Cmaxpos * c.par.M.xch k * c.par.Rp) =
          fp * c.par.Cmaxpos * ∑ k, c.par.M.Vp c.par.M.ind k * (c.par.M.xch k * c.par.Rp) := by
        rw [Finset.mul_sum]; exact Finset.sum_congr rfl (fun k _ => by ring)
      rw [e]
      have := hC.p i
      linear_combination fp * c.par.Cmaxpos * this
    have hN : ∀ i, a.nodeN i = fn * c.par.Cmaxneg := by
      intro i
      unfold nodeN
      rw [hjn]
      have : ∀ j, a.par.M.Cn i j * a.st.zn j =
          if j = c.par.M.ind then a.par.M.Cn i c.par.M.ind * a.st.zn c.par.M.ind else 0 := by
        intro j
        by_cases hj : j = c.par.M.ind
        · rw [if_pos hj, hj]
        · rw [if_neg hj]
          show c.par.M.Cn i j * c.uniformZn (fn * c.par.Cmaxneg) j = 0
          rw [uniformZn, if_neg hj, mul_zero]
      rw [Finset.sum_congr rfl (fun j _ => this j), Finset.sum_ite_eq' Finset.univ, if_pos (Finset.mem_univ _)]
      show c.par.M.Cn i c.par.M.ind * c.uniformZn (fn * c.par.Cmaxneg) c.par.M.ind + _ = _
      rw [uniformZn, if_pos rfl]
      have e : ∑ k, c.par.M.Vn c.par.M.ind k * (fn * c.par.Cmaxneg * c.par.M.xch k * c.par.Rn) =
          fn * c.par.Cmaxneg * ∑ k, c.par.M.Vn c.par.M.ind k * (c.par.M.xch k * c.par.Rn) := by
        rw [Finset.mul_sum]; exact Finset.sum_congr rfl (fun k _ => by ring)
      rw [e]
      have := hC.n i
      linear_combination fn * c.par.Cmaxneg * this
    refine ⟨hP, ?_, hN, ?_⟩
    · unfold centreP
      rw [hjp, Finset.sum_congr rfl (fun i _ => by rw [hP i]), ← Finset.sum_mul]
      have := hC.centre
      show -1 / 2 * ((∑ i, c.par.M.Cc i) * _ + _) = _
      rw [this]; ring
    · unfold centreN
      rw [hjn, Finset.sum_congr rfl (fun i _ => by rw [hN i]), ← Finset.sum_mul]
      have := hC.centre
      show -1 / 2 * ((∑ i, c.par.M.Cc i) * _ + _) = _
      rw [this]; ring

/-- Hypotheses of the theorems above on a concrete cell. -/
example : NoDecay spm1 ∧ (spm1.setC (1 / 2) (1 / 2)).1 = .ok () ∧
    (({ spm1 with block := true } : SPM 1).setC (1 / 2) (1 / 2)).1 = .ok () ∧
    ((({ spm1 with block := true } : SPM 1).setC (1 / 2) (1 / 2)).2.timeStep 10 7).1 = .ok () := by
  refine ⟨⟨rfl, rfl⟩, ?_⟩
  decide +kernel

example : Consistent spm1 :=
  ⟨by decide +kernel, by decide +kernel, by decide +kernel⟩

/-! ### C73 -/

/-- C73: a cell whose capacity and electrode area are `f` times those of another behaves like that other cell under
currents that are `f` times as large: after any sequence of operations (with degradation and heat blocked) the states
per area agree and the reported voltages are equal. -/
theorem spm_scales (f : ℚ) (hf : 0 < f) (a b : SPM N) (ops : List (SpmOp N)) (h : ScaledBy f a b)
    (ho : ∀ o ∈ ops, blockedUse o) :
    ScaledBy f (spmRun a ops) (spmRun b (ops.map (scaleOp f))) ∧
    (spmRun b (ops.map (scaleOp f))).V.1 = (spmRun a ops).V.1 := by
  have key : ScaledBy f (spmRun a ops) (spmRun b (ops.map (scaleOp f))) := by
    induction ops generalizing a b with
    | nil => exact h
    | cons o os ih =>
      refine ih _ _ ?_ (fun o' h' => ho o' (List.mem_cons_of_mem _ h'))
      have hb := ho o (List.mem_cons_self ..)
      cases o with
      | readV => exact (scaled_V hf h).2
      | setCurrent i c => exact (scaled_setCurrent hf h i c).2
      | setSOC s c => exact (scaled_setSOC hf h s c).2
      | setT t => exact ⟨h.par, by simp only [spmAfter, scaleOp, setT]; rw [h.st], h.valid, h.block⟩
      | setTenv t =>
        show ScaledBy f (a.setTenv t).2 (b.setTenv t).2
        unfold setTenv; split
        · exact h
        · exact ⟨h.par, h.st, h.valid, h.block⟩
      | setC fp fn =>
        show ScaledBy f (a.setC fp fn).2 (b.setC fp fn).2
        unfold setC; split
        · exact h
        · refine ⟨h.par, ?_, rfl, h.block⟩
          have e1 : ∀ x, b.uniformZp x = a.uniformZp x := by intro x; unfold uniformZp; rw [h.par]
          have e2 : ∀ x, b.uniformZn x = a.uniformZn x := by intro x; unfold uniformZn; rw [h.par]
          simp only [e1, e2]
          rw [h.st, h.par]
          simp
      | step dt n => exact (scaled_timeStep hf h dt n).2
      | setStates s b => exact hb.elim
      | setStateObj st => exact hb.elim
      | block b => exact hb.elim
      | overwriteChar => exact hb.elim
      | overwriteGeo => exact hb.elim
      | setGeometric => exact hb.elim
      | setCharacterisation => exact hb.elim
  exact ⟨key, (scaled_V hf key).1⟩

/-- C73: this is what the capacity factor of the constructor does. -/
theorem spm_build_scaled (c : SPM N) (deg : DegSel) (capf fsei flam : ℚ) (hS : c.par.varSEI = 1)
    (hL : c.par.varLAM = 1) (hI : c.st.I = 0) (hA : c.st.Ah = 0) (hW : c.st.Wh = 0) (hb : c.block = true) :
    ScaledBy capf c (c.build deg capf 1 fsei flam) := by
  refine ⟨?_, ?_, rfl, ⟨hb, hb⟩⟩
  · simp only [build, hS, hL, SeiPar.scale, CsPar.scale, LamPar.scale, PlPar.scale, mul_one, mul_comm capf]
  · simp only [build, mul_one, hI, hA, hW, mul_zero]

example : ScaledBy 2 { spm1 with block := true } (({ spm1 with block := true } : SPM 1).build spm1.deg 2 1 3 4) ∧
    (∀ o ∈ ([.setCurrent (1 / 10) true, .step (1 / 10) 2] : List (SpmOp 1)), blockedUse o) ∧
    (({ spm1 with block := true } : SPM 1).setCurrent (1 / 10) true).1 = .ok .Success := by
  refine ⟨spm_build_scaled _ _ 2 3 4 rfl rfl rfl rfl rfl rfl, ?_, by decide +kernel⟩
  intro o ho
  simp only [List.mem_cons, List.not_mem_nil, or_false] at ho
  rcases ho with rfl | rfl <;> trivial

end Slide

import Verif.Lemmas.Rest
import Mathlib.Algebra.Order.Archimedean.Basic
import Mathlib.Algebra.Order.Field.Power

/-!
Property C90: a single-particle cell at rest settles to the open-circuit voltage of its state of charge.
-/

namespace Slide
open Spec SPM Default

variable {N : ℕ}

/-- C90, for every cell without degradation models and thermal model: a rest multiplies every mode of the concentration
by the `n`-th power of a fixed factor and leaves temperature and charge counters alone. -/
theorem rest_modes {c : SPM N} {dt : ℚ} {n : ℕ} (hn : noDegradation c.deg) (h0 : c.par.tModel = 0)
    (h : (restFor c dt n).1 = .ok ()) :
    (∀ j, (restFor c dt n).2.st.zp j = (1 + dt * c.Dpt * c.par.M.Ap j) ^ n * c.st.zp j) ∧
    (∀ j, (restFor c dt n).2.st.zn j = (1 + dt * c.Dnt * c.par.M.An j) ^ n * c.st.zn j) ∧
    (restFor c dt n).2.st.I = 0 ∧ (restFor c dt n).2.st.T = c.st.T ∧ (restFor c dt n).2.st.SOC = c.st.SOC ∧
    (restFor c dt n).2.st.Ah = c.st.Ah ∧ (restFor c dt n).2.par = c.par ∧ (restFor c dt n).2.deg = c.deg ∧
    SameAge c (restFor c dt n).2 ∧ (restFor c dt n).2.st.Dp = c.st.Dp ∧ (restFor c dt n).2.st.Dn = c.st.Dn := by
  unfold restFor at h ⊢
  rw [setCurrent_zero] at h ⊢
  set a : SPM N := { c with st := { c.st with I := 0 }, valid := false } with ha
  obtain ⟨es, ep, ed⟩ := timeStep_plain (c := a) hn h0 h
  obtain ⟨hdt, hl, -⟩ := timeStep_ok h
  rw [Int.toNat_natCast] at es hl
  obtain ⟨f, gS, -, gA, -⟩ := diffLoop_ok dt n _ hl
  obtain ⟨gp, gn⟩ := diffLoop_rest dt n _ hl rfl
  have hs : ∀ (x : ℚ), x + n * dt * (a.rotate ((n : ℤ) * dt)).dSOC = x := by
    intro x
    have : (a.rotate ((n : ℤ) * dt)).dSOC = 0 := by
      unfold dSOC; show -(0 : ℚ) / _ = 0; simp
    rw [this]; simp
  refine ⟨fun j => by rw [es, gp j]; rfl, fun j => by rw [es, gn j]; rfl, by rw [es, f.I]; rfl, by rw [es, f.T]; rfl,
    by rw [es, gS, hs]; rfl, ?_, ep, ed, ⟨ep, ed, ?_, ?_, ?_, ?_, ?_, ?_, ?_, ?_, ?_, ?_, ?_⟩, ?_, ?_⟩
  · rw [es, gA hdt]
    have : (a.rotate ((n : ℤ) * dt)).st.I = 0 := rfl
    rw [this]; simp; rfl
  · rw [es, f.age.delta]; rfl
  · rw [es, f.age.LLI]; rfl
  · rw [es, f.age.thickp]; rfl
  · rw [es, f.age.thickn]; rfl
  · rw [es, f.age.ep]; rfl
  · rw [es, f.age.en]; rfl
  · rw [es, f.age.ap]; rfl
  · rw [es, f.age.an]; rfl
  · rw [es, f.age.CS]; rfl
  · rw [es, f.age.deltaPl]; rfl
  · rw [es, f.age.Dn]; rfl
  · rw [es, f.Dp]; rfl
  · rw [es, f.Dn]; rfl

/-- The factor of a decaying mode is smaller than one in magnitude exactly if the time step is short enough: shorter
than two time constants of the mode. -/
theorem factor_lt_one_iff {dt D A : ℚ} (hdt : 0 < dt) (hD : 0 < D) (hA : A < 0) :
    |1 + dt * D * A| < 1 ↔ dt * (D * -A) < 2 := by
  have : 0 < dt * (D * -A) := by
    have := neg_pos.mpr hA
    positivity
  rw [abs_lt]
  constructor
  · rintro ⟨h1, -⟩; linarith
  · intro h; constructor <;> linarith

/-- C90: if all factors are at most `r`, the surface concentrations after `n` steps of rest differ from those of evenly
distributed lithium by at most `r ^ n` times the unevenness at the start. -/
theorem rest_surface {c : SPM N} {dt r : ℚ} {n : ℕ} (hn : noDegradation c.deg) (h0 : c.par.tModel = 0) (hA : NoDecay c)
    (hp : ∀ j, j ≠ c.par.M.ind → |1 + dt * c.Dpt * c.par.M.Ap j| ≤ r)
    (hm : ∀ j, j ≠ c.par.M.ind → |1 + dt * c.Dnt * c.par.M.An j| ≤ r)
    (h : (restFor c dt n).1 = .ok ()) :
    |(restFor c dt n).2.cps - (equalised c).cps| ≤ r ^ n * unevenP c ∧
    |(restFor c dt n).2.cns - (equalised c).cns| ≤ r ^ n * unevenN c := by
  obtain ⟨gp, gn, hI, -, -, -, hpar, -⟩ := rest_modes hn h0 h
  obtain ⟨e1, e2⟩ := equalised_surface c
  rw [e1, e2]
  unfold SPM.cps SPM.cns
  rw [jp_rest hI, jn_rest hI, hpar]
  simp only [mul_zero, zero_div, add_zero, gp, gn]
  constructor
  · refine sum_dist _ (fun j => (1 + dt * c.Dpt * c.par.M.Ap j) ^ n) _ _ _ (by simp [hA.1]) fun j hj => ?_
    rw [abs_pow]
    exact pow_le_pow_left₀ (abs_nonneg _) (hp j hj) n
  · refine sum_dist _ (fun j => (1 + dt * c.Dnt * c.par.M.An j) ^ n) _ _ _ (by simp [hA.2]) fun j hj => ?_
    rw [abs_pow]
    exact pow_le_pow_left₀ (abs_nonneg _) (hm j hj) n

/-! ### The default cell -/

/-- The parameters of the default cell at 15 °C. -/
structure Fixed (e : Env) (c : SPM 5) : Prop where
  par : c.par = par e
  ap : c.st.ap = st0.ap
  an : c.st.an = st0.an
  thickp : c.st.thickp = st0.thickp
  thickn : c.st.thickn = st0.thickn
  T : c.st.T = 288
  Dp : c.st.Dp = st0.Dp
  Dn : c.st.Dn = st0.Dn

theorem OnTrack.fixed {e : Env} {c : SPM 5} (h : OnTrack e c) : Fixed e c :=
  ⟨h.par, h.ap, h.an, h.thickp, h.thickn, h.T, h.Dp, h.Dn⟩

theorem Fixed.frame {e : Env} {a b : SPM 5} (h : Fixed e a) (f : DiffFrame a b) : Fixed e b :=
  ⟨f.age.par.trans h.par, f.age.ap.trans h.ap, f.age.an.trans h.an, f.age.thickp.trans h.thickp,
   f.age.thickn.trans h.thickn, f.T.trans h.T, f.Dp.trans h.Dp, f.Dn.trans h.Dn⟩

theorem Fixed.Dpt_pos {e : Env} (he : Libm e) {c : SPM 5} (h : Fixed e c) : 0 < c.Dpt := by
  unfold Dpt; rw [h.Dp, h.par]
  exact mul_pos (by decide +kernel) (he.exp _)

theorem Fixed.Dnt_pos {e : Env} (he : Libm e) {c : SPM 5} (h : Fixed e c) : 0 < c.Dnt := by
  unfold Dnt; rw [h.Dn, h.par]
  exact mul_pos (by decide +kernel) (he.exp _)

theorem Fixed.finite {e : Env} (he : Libm e) {c : SPM 5} (h : Fixed e c) : c.finite = true := by
  have hDp := h.Dpt_pos he
  have hDn := h.Dnt_pos he
  unfold SPM.finite
  rw [h.par, h.ap, h.an, h.thickp, h.thickn, h.T]
  have : ((Default.par e).T_ref = 0) = False ∧ ((Default.par e).elecSurf = 0) = False ∧ (st0.ap = 0) = False ∧ (st0.an = 0) = False ∧
      ((Default.par e).n = 0) = False ∧ (st0.thickp = 0) = False ∧ (st0.thickn = 0) = False ∧
      ((Default.par e).Cmaxpos = 0) = False ∧ ((Default.par e).Cmaxneg = 0) = False := by
    refine ⟨?_, ?_, ?_, ?_, ?_, ?_, ?_, ?_, ?_⟩
    · show ((298 : ℚ) = 0) = False; norm_num
    · show ((31 / 50 : ℚ) = 0) = False; norm_num
    · exact eq_false (by decide +kernel)
    · exact eq_false (by decide +kernel)
    · show ((1 : ℚ) = 0) = False; norm_num
    · exact eq_false (by decide +kernel)
    · exact eq_false (by decide +kernel)
    · show ((51385 : ℚ) = 0) = False; norm_num
    · show ((30555 : ℚ) = 0) = False; norm_num
  obtain ⟨t1, t2, t3, t4, t5, t6, t7, t8, t9⟩ := this
  have t10 : ((288 : ℚ) = 0) = False := by norm_num
  simp only [t1, t2, t3, t4, t5, t6, t7, t8, t9, t10, hDp.ne', hDn.ne', decide_false, Bool.or_false, Bool.not_false]

theorem concOk_iff (c : SPM N) : c.concOk = true ↔ 0 < c.cps ∧ c.cps < c.par.Cmaxpos ∧ 0 < c.cns ∧ c.cns < c.par.Cmaxneg := by
  unfold concOk
  simp only [Bool.not_eq_true', Bool.or_eq_false_iff, decide_eq_false_iff_not, not_le, ge_iff_le]
  tauto

/-- The voltage of the default cell is always defined, whatever its concentrations and its current. -/
theorem Fixed.V_ok {e : Env} (he : Libm e) {c : SPM 5} (h : Fixed e c) : ∃ v, c.V.1 = .ok v := by
  unfold SPM.V
  by_cases hv : c.valid = true
  · rw [if_pos hv]; exact ⟨_, rfl⟩
  · rw [if_neg hv]
    have : ∃ o, c.calcV = .ok o := by
      unfold calcV
      rw [h.finite he]
      by_cases hok : c.concOk = true
      · rw [hok]
        obtain ⟨a1, a2, a3, a4⟩ := (concOk_iff c).mp hok
        have hCp : c.par.Cmaxpos = 51385 := by rw [h.par]; rfl
        have hCn : c.par.Cmaxneg = 30555 := by rw [h.par]; rfl
        rw [hCp] at a2 ⊢
        rw [hCn] at a4 ⊢
        have x0 : 0 ≤ c.cps / 51385 := by positivity
        have x1 : c.cps / 51385 ≤ 1 := by rw [div_le_one (by norm_num)]; exact a2.le
        have y0 : 0 ≤ c.cns / 30555 := by positivity
        have y1 : c.cns / 30555 ≤ 1 := by rw [div_le_one (by norm_num)]; exact a4.le
        obtain ⟨p, p1, -⟩ := pos_defined x0 x1
        obtain ⟨n, n1, -⟩ := neg_defined y0 y1
        obtain ⟨d, d1, -⟩ := ent_defined x0 x1
        have l1 : look c.par.dTot (c.cps / 51385) = .ok d := by
          rw [h.par]; show look (curve entX entY) _ = _; unfold look; rw [d1]
        have l2 : look c.par.ocvN (c.cns / 30555) = .ok n := by
          rw [h.par]; show look (curve negX negY) _ = _; unfold look; rw [n1]
        have l3 : look c.par.ocvP (c.cps / 51385) = .ok p := by
          rw [h.par]; show look (curve posX posY) _ = _; unfold look; rw [p1]
        have h2 : 0 < c.par.n := by rw [h.par]; show (0 : ℚ) < 1; norm_num
        have h3 : 0 < Faraday := by unfold Faraday; norm_num
        have hi0p : c.i0p ≠ 0 := by
          unfold i0p
          have hs : 0 < c.par.sqrt (c.par.C_elec * c.cps * (c.par.Cmaxpos - c.cps)) := by
            rw [h.par]
            refine he.sqrt_pos _ ?_
            show 0 < (1000 : ℚ) * c.cps * (51385 - c.cps)
            exact mul_pos (by linarith) (by linarith)
          have he' : 0 < c.par.exp (c.par.kp_T * c.arrh) := by rw [h.par]; exact he.exp _
          have h1 : 0 < c.par.kp := by rw [h.par]; show (0 : ℚ) < 1 / 20000000000; norm_num
          positivity
        have hi0n : c.i0n ≠ 0 := by
          unfold i0n
          have hs : 0 < c.par.sqrt (c.par.C_elec * c.cns * (c.par.Cmaxneg - c.cns)) := by
            rw [h.par]
            refine he.sqrt_pos _ ?_
            show 0 < (1000 : ℚ) * c.cns * (30555 - c.cns)
            exact mul_pos (by linarith) (by linarith)
          have he' : 0 < c.par.exp (c.par.kn_T * c.arrh) := by rw [h.par]; exact he.exp _
          have h1 : 0 < c.par.kn := by rw [h.par]; show (0 : ℚ) < 441 / 25000000000000; norm_num
          positivity
        rw [l1, l2, l3]
        simp only [Bool.not_true, Bool.false_eq_true, if_false, bind, Outcome.bind, hi0p, hi0n, decide_false,
          Bool.or_false]
        exact ⟨_, rfl⟩
      · have : c.concOk = false := by simpa using hok
        rw [this]; exact ⟨none, rfl⟩
    obtain ⟨o, ho⟩ := this
    rw [ho]
    rcases o with _ | v <;> exact ⟨_, rfl⟩

theorem Fixed.diffLoop_ok {e : Env} (he : Libm e) (dt : ℚ) (n : ℕ) : ∀ {c : SPM 5}, Fixed e c →
    (SPM.diffLoop dt n c).1 = .ok () := by
  induction n with
  | zero => intro c _; rfl
  | succ n ih =>
    intro c h
    have h1 : (c.diffStep dt).1 = .ok () := by
      unfold diffStep
      have hc : c.par.cap ≠ 0 := by rw [h.par]; show (16 : ℚ) ≠ 0; norm_num
      rw [if_neg (by rw [h.finite he]; simp [hc])]
      have hd : Fixed e (c.diffState dt) := ⟨h.par, h.ap, h.an, h.thickp, h.thickn, h.T, h.Dp, h.Dn⟩
      obtain ⟨v, hv⟩ := hd.V_ok he
      rcases hk : (c.diffState dt).V with ⟨o, c2⟩
      rw [hk] at hv
      simp only at hv
      rw [hv]
    rw [SPM.diffLoop, SPM.andThen, h1]
    exact ih (h.frame (diffStep_ok h1).2.1)

/-- C90: with degradation and heat blocked the default cell accepts every time step of non-negative length, whatever its
current and its concentrations. -/
theorem default_step_ok {e : Env} (he : Libm e) {c : SPM 5} (h : Fixed e c) (hb : c.block = true) {dt : ℚ}
    (hdt : 0 ≤ dt) (n : ℤ) : (c.timeStep dt n).1 = .ok () := by
  have hr : Fixed e (c.rotate (n * dt)) := ⟨h.par, h.ap, h.an, h.thickp, h.thickn, h.T, h.Dp, h.Dn⟩
  have h1 := hr.diffLoop_ok he dt n.toNat
  have hf := (_root_.Slide.diffLoop_ok dt n.toNat _ h1).1
  unfold timeStep
  rw [if_neg (not_lt.mpr hdt), SPM.andThen, h1]
  simp only
  rw [if_pos (hf.block.trans hb)]

/-- The voltage of the default cell at rest, close to even distribution. -/
theorem voltage_near {e : Env} (he : Libm e) {c : SPM 5} (h : Fixed e c) (hI : c.st.I = 0) (hF : Fresh c) {s δ : ℚ}
    (h0 : 0 ≤ s) (h1 : s ≤ 1) (hδ : δ ≤ 1 / 100) (hx : |c.cps / 51385 - faradayP s * kP| ≤ δ)
    (hy : |c.cns / 30555 - faradayN s * kN| ≤ δ) : ∃ v, c.V.1 = .ok v ∧ |v - restV 288 s| ≤ 600 * δ := by
  obtain ⟨p, n, d, -, p2, -, n2, -, d2, e1, x0, x1, y0, y1⟩ := restV_eq (T := 288) h0 h1
  set x := c.cps / 51385 with hx'
  set y := c.cns / 30555 with hy'
  obtain ⟨gx1, gx2⟩ := abs_le.mp hx
  obtain ⟨gy1, gy2⟩ := abs_le.mp hy
  obtain ⟨p', p1', p2'⟩ := pos_defined (x := x) (by linarith) (by linarith)
  obtain ⟨n', n1', n2'⟩ := neg_defined (x := y) (by linarith) (by linarith)
  obtain ⟨d', d1', d2'⟩ := ent_defined (x := x) (by linarith) (by linarith)
  have hr := (rest_report he (c := { c with valid := false }) h.par hI rfl
    (by show 0 < c.st.T; rw [h.T]; norm_num)
    ⟨h.ap, h.an, h.thickp, h.thickn, h.Dp, h.Dn⟩ (x := x) (y := y)
    (show c.cps = _ by rw [hx']; ring) (show c.cns = _ by rw [hy']; ring)
    (by linarith) (by linarith) (by linarith) (by linarith) p1' n1' d1').2
  refine ⟨_, hF.trans hr, ?_⟩
  show |p' - n' + (c.st.T - 298) * d' - _| ≤ _
  rw [h.T, e1]
  have dp : |p' - p| ≤ 250 * |x - faradayP s * kP| :=
    dist_chord (f := OnPolygon posX posY) (fun x y x' y' h h' hxx => by
      obtain ⟨c1, c2⟩ := pos_chord h h' hxx
      exact abs_le.mpr ⟨by linarith, by linarith [sub_nonneg.mpr hxx]⟩) p2 p2'
  have dn : |n' - n| ≤ 314 * |y - faradayN s * kN| :=
    dist_chord (f := OnPolygon negX negY) (fun x y x' y' h h' hxx => by
      obtain ⟨c1, c2⟩ := neg_chord h h' hxx
      exact abs_le.mpr ⟨by linarith, by linarith [sub_nonneg.mpr hxx]⟩) n2 n2'
  have dd : |d' - d| ≤ 1 * |x - faradayP s * kP| :=
    dist_chord (f := OnPolygon entX entY) (fun x y x' y' h h' hxx => by
      obtain ⟨c1, c2⟩ := ent_chord h h' hxx
      exact abs_le.mpr ⟨by linarith [sub_nonneg.mpr hxx], by linarith [sub_nonneg.mpr hxx]⟩) d2 d2'
  obtain ⟨u1, u2⟩ := abs_le.mp dp
  obtain ⟨v1, v2⟩ := abs_le.mp dn
  obtain ⟨w1, w2⟩ := abs_le.mp dd
  exact abs_le.mpr ⟨by linarith, by linarith⟩

theorem exists_bound {ι : Type*} [Fintype ι] [DecidableEq ι] [Nonempty ι] (f g : ι → ℚ) (k : ι)
    (h : ∀ j, j ≠ k → |f j| < 1 ∧ |g j| < 1) :
    ∃ r, 0 ≤ r ∧ r < 1 ∧ ∀ j, j ≠ k → |f j| ≤ r ∧ |g j| ≤ r := by
  obtain ⟨m, -, hm⟩ := Finset.exists_max_image Finset.univ (fun j => if j = k then 0 else max |f j| |g j|)
    Finset.univ_nonempty
  refine ⟨if m = k then 0 else max |f m| |g m|, ?_, ?_, fun j hj => ?_⟩
  · split
    · exact le_rfl
    · exact (abs_nonneg _).trans (le_max_left _ _)
  · split
    · norm_num
    · rename_i h'; exact max_lt (h m h').1 (h m h').2
  · have := hm j (Finset.mem_univ _)
    simp only [if_neg hj] at this
    exact ⟨(le_max_left _ _).trans this, (le_max_right _ _).trans this⟩

/-- Evenly distributed, the lithium of the default cell is that of its state of charge. -/
theorem equalised_near {e : Env} {c : SPM 5} (ht : OnTrack e c) (h0 : 0 ≤ c.st.SOC) (h1 : c.st.SOC ≤ 1) :
    |(equalised c).cps / 51385 - faradayP c.st.SOC * kP| ≤ 4 / 10 ^ 13 ∧
    |(equalised c).cns / 30555 - faradayN c.st.SOC * kN| ≤ 4 / 10 ^ 13 := by
  obtain ⟨f1, f2⟩ := onTrack_fractions ht
  have hs : |c.st.SOC - 1 / 2| ≤ 1 / 2 := abs_le.mpr ⟨by linarith, by linarith⟩
  have bnd : (1 + |c.st.SOC - 1 / 2|) / 10 ^ 13 ≤ 2 / 10 ^ 13 := by
    rw [div_le_div_iff_of_pos_right (by positivity)]; linarith
  obtain ⟨a1, a2, a3, a4⟩ := frac_range h0 h1
  have gx := f1.trans bnd
  have gy := f2.trans bnd
  constructor
  · have : (equalised c).cps / 51385 - faradayP c.st.SOC * kP =
        ((equalised c).cps / 51385 - faradayP c.st.SOC) + faradayP c.st.SOC * (1 - kP) := by ring
    rw [this]
    refine (abs_add_le _ _).trans ?_
    rw [abs_mul, abs_sub_comm 1 kP, abs_of_nonneg (by linarith : 0 ≤ faradayP c.st.SOC)]
    have := mul_le_mul a2 kP_near (abs_nonneg _) (by norm_num)
    norm_num at this gx ⊢; linarith
  · have : (equalised c).cns / 30555 - faradayN c.st.SOC * kN =
        ((equalised c).cns / 30555 - faradayN c.st.SOC) + faradayN c.st.SOC * (1 - kN) := by ring
    rw [this]
    refine (abs_add_le _ _).trans ?_
    rw [abs_mul, abs_sub_comm 1 kN, abs_of_nonneg (by linarith : 0 ≤ faradayN c.st.SOC)]
    have := mul_le_mul a4 kN_near (abs_nonneg _) (by norm_num)
    norm_num at this gy ⊢; linarith

/-- The decay rates of the shipped discretisation. -/
theorem model_rates : ∀ j : Fin 5, j ≠ 3 → model.Ap j < 0 ∧ -(44 / 10 * 10 ^ 12) < model.Ap j ∧ model.An j < 0 ∧
    -(44 / 10 * 10 ^ 12) < model.An j := by decide +kernel

/-- Up to 5 s every factor of the default cell at 15 °C is smaller than one. -/
theorem default_factors {e : Env} (he : Libm e) (hexp : ∀ x, x ≤ 0 → e.exp x ≤ 1) {c : SPM 5} (h : Fixed e c) {dt : ℚ}
    (hdt : 0 < dt) (hdt5 : dt ≤ 5) : ∀ j : Fin 5, j ≠ 3 →
    |1 + dt * c.Dpt * c.par.M.Ap j| < 1 ∧ |1 + dt * c.Dnt * c.par.M.An j| < 1 := by
  intro j hj
  obtain ⟨a1, a2, a3, a4⟩ := model_rates j hj
  have hM : c.par.M = model := by rw [h.par]; rfl
  have hDp := h.Dpt_pos he
  have hDn := h.Dnt_pos he
  have harr : c.arrh ≤ 0 := by
    unfold arrh; rw [h.T, h.par]
    show (1 / (298 : ℚ) - 1 / 288) / Rgas ≤ 0
    decide +kernel
  have hDp1 : c.Dpt ≤ 8 / 10 ^ 14 := by
    have h1 : c.par.exp (c.par.Dp_T * c.arrh) ≤ 1 := by
      have : c.par.Dp_T * c.arrh ≤ 0 := by
        refine mul_nonpos_of_nonneg_of_nonpos ?_ harr
        rw [h.par]; show (0 : ℚ) ≤ 29000; norm_num
      rw [h.par] at this ⊢
      exact hexp _ this
    have h2 : st0.Dp = 8 / 10 ^ 14 := by decide +kernel
    unfold Dpt; rw [h.Dp, h2]
    nlinarith
  have hDn1 : c.Dnt ≤ 8 / 10 ^ 14 := by
    have h1 : c.par.exp (c.par.Dn_T * c.arrh) ≤ 1 := by
      have : c.par.Dn_T * c.arrh ≤ 0 := by
        refine mul_nonpos_of_nonneg_of_nonpos ?_ harr
        rw [h.par]; show (0 : ℚ) ≤ 7000; norm_num
      rw [h.par] at this ⊢
      exact hexp _ this
    have h2 : st0.Dn = 7 / 10 ^ 14 := by decide +kernel
    unfold Dnt; rw [h.Dn, h2]
    norm_num
    linarith
  have fin : ∀ D A : ℚ, 0 < D → D ≤ 8 / 10 ^ 14 → A < 0 → -(44 / 10 * 10 ^ 12) < A → |1 + dt * D * A| < 1 := by
    intro D A d0 d1 b1 b2
    rw [factor_lt_one_iff hdt d0 b1]
    have h3 : D * -A ≤ 8 / 10 ^ 14 * (44 / 10 * 10 ^ 12) := mul_le_mul d1 (by linarith) (by linarith) (by positivity)
    have h4 : dt * (D * -A) ≤ 5 * (8 / 10 ^ 14 * (44 / 10 * 10 ^ 12)) :=
      mul_le_mul hdt5 h3 (mul_nonneg d0.le (by linarith)) (by norm_num)
    norm_num at h4 ⊢
    linarith
  rw [hM]
  exact ⟨fin _ _ hDp hDp1 a1 a2, fin _ _ hDn hDn1 a3 a4⟩

theorem spmLeg_block {c c2 : SPM N} {i dt : ℚ} {n : ℕ} (h : spmLeg c i dt n = some c2) (hb : c.block = true) :
    c2.block = true := by
  unfold spmLeg at h
  have h1 : (c.setCurrent i true).2.block = c.block := by
    unfold setCurrent
    set c1 : SPM N := { c with st := { c.st with I := i }, valid := false } with hc1
    have hs := checkCurrent_snd c1 true
    have hv := SPM.V_rest c1
    simp only [if_true] at hs
    have hbb : (c1.checkCurrent true).2.block = c.block := by rw [hs, hv]
    rcases hk : c1.checkCurrent true with ⟨s | e | w, c2⟩
    · rw [hk] at hbb
      by_cases hb : s.isBad = true
      · simp only [hk]; rw [if_pos hb]; exact hbb
      · simp only [hk]; rw [if_neg hb]; exact hbb
    · rw [hk] at hbb; simp only [hk]; exact hbb
    · rw [hk] at hbb; simp only [hk]; exact hbb
  rcases hk : c.setCurrent i true with ⟨r | e | w, c1⟩
  · rw [hk] at h h1
    simp only at h h1
    split at h
    · simp at h
    · rcases hk2 : c1.timeStep dt n with ⟨u | e | w, c3⟩
      · rw [hk2] at h
        have e : c3 = c2 := Option.some.inj h
        have hok : (c1.timeStep dt n).1 = .ok () := by rw [hk2]
        obtain ⟨-, hl, hbl, -⟩ := timeStep_ok hok
        have hf := (_root_.Slide.diffLoop_ok dt _ _ hl).1
        have := hbl (h1.trans hb)
        rw [hk2, e] at this
        simp only at this
        rw [this, hf.block]
        exact h1.trans hb
      · rw [hk2] at h; simp at h
      · rw [hk2] at h; simp at h
  · rw [hk] at h; simp at h
  · rw [hk] at h; simp at h

theorem spmProfile_block (ps : List (ℚ × ℚ × ℕ)) : ∀ (c c' : SPM N), spmProfile c ps = some c' → c.block = true →
    c'.block = true := by
  induction ps with
  | nil => intro c c' h hb; rw [spmProfile] at h; rw [← Option.some.inj h]; exact hb
  | cons q ps ih =>
    intro c c' h hb
    rw [spmProfile] at h
    obtain ⟨c2, h1, h2⟩ := Option.bind_eq_some_iff.mp h
    exact ih c2 c' h2 (spmLeg_block h1 hb)

/-- What a rest of the default cell leaves. -/
theorem default_rest {e : Env} (he : Libm e) {c : SPM 5} (h : Fixed e c) (hd : noDegradation c.deg)
    (hb : c.block = true) {dt : ℚ} (hdt : 0 ≤ dt) (n : ℕ) : (restFor c dt n).1 = .ok () ∧
    Fixed e (restFor c dt n).2 ∧ Fresh (restFor c dt n).2 ∧ (restFor c dt n).2.st.I = 0 := by
  have hok : (restFor c dt n).1 = .ok () := by
    unfold restFor
    rw [setCurrent_zero]
    exact default_step_ok he (c := { c with st := { c.st with I := 0 }, valid := false })
      ⟨h.par, h.ap, h.an, h.thickp, h.thickn, h.T, h.Dp, h.Dn⟩ hb hdt _
  obtain ⟨-, -, hI, hT, -, -, hpar, -, hs, hDp, hDn⟩ := rest_modes hd (by rw [h.par]; rfl) hok
  refine ⟨hok, ⟨hpar.trans h.par, hs.ap.trans h.ap, hs.an.trans h.an, hs.thickp.trans h.thickp,
    hs.thickn.trans h.thickn, hT.trans h.T, hDp.trans h.Dp, hDn.trans h.Dn⟩, ?_, hI⟩
  unfold restFor
  rw [setCurrent_zero]
  exact fresh_step_blocked dt n (c := { c with st := { c.st with I := 0 }, valid := false }) hb (fresh_of_invalid rfl)

theorem restVoltage_eq {c : SPM N} {dt v : ℚ} {n : ℕ} (h : (restFor c dt n).1 = .ok ())
    (hv : (restFor c dt n).2.V.1 = .ok v) : restVoltage c dt n = some v := by
  unfold restVoltage
  rcases hk : restFor c dt n with ⟨o, c2⟩
  rw [hk] at h hv
  simp only at h hv
  rw [h]
  simp only [hv]

/-- C90, the part that holds: with time steps of at most 5 s the voltage of the default cell at rest converges to the
open-circuit voltage of its state of charge, after every profile of currents.  Missing from `RestSettles`: longer time
steps, see `not_restSettles`. -/
theorem restSettles_partial (e : Env) (he : Libm e) (hexp : ∀ x, x ≤ 0 → e.exp x ≤ 1) (ps : List (ℚ × ℚ × ℕ)) (c : SPM 5)
    (hc : spmProfile { cell e with block := true } ps = some c) (h0 : 0 ≤ c.st.SOC) (h1 : c.st.SOC ≤ 1) (dt : ℚ)
    (hdt : 0 < dt) (hdt5 : dt ≤ 5) : ConvergesUpTo (restVoltage c dt) (restV 288 c.st.SOC) (3 / 10 ^ 10) := by
  have ht := onTrack_profile e ps _ _ (onTrack_cell e true) hc
  have hb := spmProfile_block ps _ _ hc rfl
  have hf := ht.fixed
  have hM : c.par.M = model := by rw [hf.par]; rfl
  have hind : c.par.M.ind = 3 := by rw [hM]; rfl
  have hA : NoDecay c := by
    unfold NoDecay; rw [hM]
    exact (show model.Ap 3 = 0 ∧ model.An 3 = 0 by decide +kernel)
  obtain ⟨r, r0, r1, hr⟩ := exists_bound _ _ 3 (default_factors he hexp hf hdt hdt5)
  obtain ⟨q1, q2⟩ := equalised_near ht h0 h1
  set U := unevenP c / 51385 + unevenN c / 30555 with hU
  have uP : 0 ≤ unevenP c / 51385 := div_nonneg (unevenP_nonneg c) (by norm_num)
  have uN : 0 ≤ unevenN c / 30555 := div_nonneg (unevenN_nonneg c) (by norm_num)
  have hU0 : 0 ≤ U := add_nonneg uP uN
  intro ε hε
  have hη : 0 < min ε 1 / (1000 * (U + 1)) := div_pos (lt_min hε one_pos) (by positivity)
  obtain ⟨K, hK⟩ := exists_pow_lt_of_lt_one hη r1
  refine ⟨K, fun n hn => ?_⟩
  obtain ⟨hok, hf', hF, hI⟩ := default_rest he hf ht.deg hb hdt.le n
  obtain ⟨s1, s2⟩ := rest_surface (r := r) ht.deg (by rw [hf.par]; rfl) hA
    (fun j hj => (hr j (by rw [hind] at hj; exact hj)).1) (fun j hj => (hr j (by rw [hind] at hj; exact hj)).2) hok
  have hrn : r ^ n * U ≤ min ε 1 / 1000 := by
    have h2 : r ^ n ≤ min ε 1 / (1000 * (U + 1)) := (pow_le_pow_of_le_one r0 r1.le hn).trans hK.le
    calc r ^ n * U ≤ min ε 1 / (1000 * (U + 1)) * (U + 1) := by
          refine mul_le_mul h2 (by linarith) hU0 hη.le
      _ = min ε 1 / 1000 := by field_simp
  have hrn0 : 0 ≤ r ^ n := pow_nonneg r0 n
  have hme : min ε 1 ≤ ε := min_le_left _ _
  have hm1 : min ε 1 ≤ 1 := min_le_right _ _
  set δ := 4 / 10 ^ 13 + min ε 1 / 1000 with hδ
  have bx : |(restFor c dt n).2.cps / 51385 - faradayP c.st.SOC * kP| ≤ δ := by
    have h3 : |(restFor c dt n).2.cps / 51385 - (equalised c).cps / 51385| ≤ r ^ n * (unevenP c / 51385) := by
      rw [← sub_div, abs_div, abs_of_pos (show (0 : ℚ) < 51385 by norm_num), ← mul_div_assoc]
      exact div_le_div_of_nonneg_right s1 (by norm_num)
    have h4 : r ^ n * (unevenP c / 51385) ≤ r ^ n * U := mul_le_mul_of_nonneg_left (by linarith) hrn0
    have h5 := abs_sub_le ((restFor c dt n).2.cps / 51385) ((equalised c).cps / 51385) (faradayP c.st.SOC * kP)
    linarith
  have bY : |(restFor c dt n).2.cns / 30555 - faradayN c.st.SOC * kN| ≤ δ := by
    have h3 : |(restFor c dt n).2.cns / 30555 - (equalised c).cns / 30555| ≤ r ^ n * (unevenN c / 30555) := by
      rw [← sub_div, abs_div, abs_of_pos (show (0 : ℚ) < 30555 by norm_num), ← mul_div_assoc]
      exact div_le_div_of_nonneg_right s2 (by norm_num)
    have h4 : r ^ n * (unevenN c / 30555) ≤ r ^ n * U := mul_le_mul_of_nonneg_left (by linarith) hrn0
    have h5 := abs_sub_le ((restFor c dt n).2.cns / 30555) ((equalised c).cns / 30555) (faradayN c.st.SOC * kN)
    linarith
  obtain ⟨v, v1, v2⟩ := voltage_near he hf' hI hF h0 h1 (δ := δ) (by rw [hδ]; norm_num; linarith) bx bY
  refine ⟨v, restVoltage_eq hok v1, v2.trans ?_⟩
  rw [hδ]; norm_num; linarith

theorem V_out {e : Env} (he : Libm e) {c : SPM 5} (h : Fixed e c) (hF : Fresh c) (hc : c.concOk = false) :
    c.V.1 = .ok 0 := by
  rw [hF]
  unfold SPM.V
  have h1 : ({ c with valid := false } : SPM 5).finite = true := h.finite he
  have h2 : ({ c with valid := false } : SPM 5).concOk = false := hc
  have h3 : ({ c with valid := false } : SPM 5).calcV = .ok none := by
    unfold calcV; rw [h1, h2]; rfl
  rw [h3]; rfl

/-- C90: with a time step of 10 s the gradients left by one second of discharge grow by a factor of about 2.5 in every
step of rest; from some step on the voltage reads 0. -/
theorem rest_diverges : ∃ c, spmProfile { cell env0 with block := true } [(16, 1, 1)] = some c ∧ 0 ≤ c.st.SOC ∧
    c.st.SOC ≤ 1 ∧ ∃ K, ∀ n, K ≤ n → restVoltage c 10 n = some 0 := by
  have h : ((spmProfile { cell env0 with block := true } [(16, 1, 1)]).any fun c =>
      decide (0 ≤ c.st.SOC ∧ c.st.SOC ≤ 1 ∧ 1 ≤ |model.Cp 0 0 * c.st.zp 0|)) = true := by decide +kernel
  obtain ⟨c, hc, h2⟩ := (Option.any_eq_true _ _).mp h
  obtain ⟨s0, s1, z0⟩ := of_decide_eq_true h2
  refine ⟨c, hc, s0, s1, ?_⟩
  have ht := onTrack_profile env0 _ _ _ (onTrack_cell env0 true) hc
  have hb := spmProfile_block _ _ _ hc rfl
  have hf := ht.fixed
  have hM : c.par.M = model := by rw [hf.par]; rfl
  have hD : c.Dpt = 8 / 10 ^ 14 := by
    unfold Dpt; rw [hf.Dp, hf.par]
    show st0.Dp * 1 = _
    decide +kernel
  set f : Fin 5 → ℚ := fun j => 1 + 10 * (8 / 10 ^ 14) * model.Ap j with hfdef
  have f0 : 2 ≤ |f 0| := by decide +kernel
  have fj : ∀ j : Fin 5, j ≠ 0 → |f j| ≤ 1 := by decide +kernel
  set B := ∑ j : Fin 4, |model.Cp 0 j.succ * c.st.zp j.succ| with hB
  obtain ⟨K, hK⟩ := pow_unbounded_of_one_lt (51385 + B) (show (1 : ℚ) < 2 by norm_num)
  refine ⟨K, fun n hn => ?_⟩
  obtain ⟨hok, hf', hF, hI⟩ := default_rest libm_env0 hf ht.deg hb (show (0 : ℚ) ≤ 10 by norm_num) n
  refine restVoltage_eq hok (V_out libm_env0 hf' hF ?_)
  obtain ⟨gp, -⟩ := rest_modes ht.deg (by rw [hf.par]; rfl) hok
  have hcps : (restFor c 10 n).2.cps = ∑ j, model.Cp 0 j * (f j ^ n * c.st.zp j) := by
    unfold SPM.cps
    rw [jp_rest hI, hf'.par]
    simp only [mul_zero, zero_div, add_zero, gp, hM, hD]
    rfl
  have big : 51385 < |(restFor c 10 n).2.cps| := by
    rw [hcps, Fin.sum_univ_succ]
    have t0 : 51385 + B < |model.Cp 0 0 * (f 0 ^ n * c.st.zp 0)| := by
      have e1 : model.Cp 0 0 * (f 0 ^ n * c.st.zp 0) = f 0 ^ n * (model.Cp 0 0 * c.st.zp 0) := by ring
      rw [e1, abs_mul, abs_pow]
      have h3 : (2 : ℚ) ^ K ≤ |f 0| ^ n :=
        (pow_le_pow_right₀ (by norm_num) hn).trans (pow_le_pow_left₀ (by norm_num) f0 n)
      have h4 : |f 0| ^ n * 1 ≤ |f 0| ^ n * |model.Cp 0 0 * c.st.zp 0| := mul_le_mul_of_nonneg_left z0 (by positivity)
      linarith
    have t1 : |∑ j : Fin 4, model.Cp 0 j.succ * (f j.succ ^ n * c.st.zp j.succ)| ≤ B := by
      refine (Finset.abs_sum_le_sum_abs _ _).trans (Finset.sum_le_sum fun j _ => ?_)
      have e1 : model.Cp 0 j.succ * (f j.succ ^ n * c.st.zp j.succ) =
        f j.succ ^ n * (model.Cp 0 j.succ * c.st.zp j.succ) := by ring
      rw [e1, abs_mul, abs_pow]
      exact mul_le_of_le_one_left (abs_nonneg _) (pow_le_one₀ (abs_nonneg _) (fj _ (Fin.succ_ne_zero j)))
    have t2 := abs_sub_abs_le_abs_sub (model.Cp 0 0 * (f 0 ^ n * c.st.zp 0))
      (-∑ j : Fin 4, model.Cp 0 j.succ * (f j.succ ^ n * c.st.zp j.succ))
    rw [abs_neg, sub_neg_eq_add] at t2
    linarith
  have hCp : (restFor c 10 n).2.par.Cmaxpos = 51385 := by rw [hf'.par]; rfl
  by_contra hcon
  have := (concOk_iff (restFor c 10 n).2).mp (by simpa using hcon)
  rw [hCp] at this
  rw [abs_of_pos this.1] at big
  linarith [this.2.1]

/-- C90, full statement: false of the code. -/
theorem not_restSettles : ¬ RestSettles (restV 288) := by
  intro H
  obtain ⟨c, hc, s0, s1, K, hK⟩ := rest_diverges
  obtain ⟨K', hK'⟩ := H env0 libm_env0 (fun x _ => show (1 : ℚ) ≤ 1 from le_rfl) _ c hc s0 s1 10 (by norm_num) 1 one_pos
  obtain ⟨v, hv, hd⟩ := hK' (max K K') (le_max_right _ _)
  rw [hK _ (le_max_left _ _)] at hv
  rw [← Option.some.inj hv] at hd
  obtain ⟨r1, -⟩ := restV_range (T := 288) (by norm_num) s0 s1
  obtain ⟨d1, d2⟩ := abs_le.mp hd
  norm_num at d1
  linarith

/-- The hypotheses of the convergence theorem are met by a discharge followed by a rest with steps of 2 s. -/
example : Libm env0 ∧ (∀ x, x ≤ 0 → env0.exp x ≤ 1) ∧
    ∃ c, spmProfile { cell env0 with block := true } [(16, 2, 3)] = some c ∧ 0 ≤ c.st.SOC ∧ c.st.SOC ≤ 1 ∧
      unevenP c ≠ 0 := by
  have h : ((spmProfile { cell env0 with block := true } [(16, 2, 3)]).any fun c' =>
      decide (0 ≤ c'.st.SOC ∧ c'.st.SOC ≤ 1 ∧ unevenP c' ≠ 0)) = true := by decide +kernel
  obtain ⟨c', h1, h2⟩ := (Option.any_eq_true _ _).mp h
  exact ⟨libm_env0, fun x _ => show (1 : ℚ) ≤ 1 from le_rfl, c', h1, of_decide_eq_true h2⟩

end Slide

import Verif.Spec.StepAccuracy
import Verif.Lemmas.Euler
import Verif.Lemmas.ECM
import Verif.Lemmas.Rest
import Verif.Props.ECM
import Verif.Props.Kinetics

/-!
# C130: at constant current the simulation follows the exact course, with an error proportional to the time step
-/

namespace Slide

open Spec

variable {n N : ℕ}

/-! ## Helper lemmas -/

/-- One Euler step. -/
def eulerStep (l b dt x : ℚ) : ℚ := x + dt * (l * x + b)

theorem euler_rat {l b dt x0 : ℚ} {x : ℝ → ℝ} (hl : l ≤ 0) (hdt : 0 ≤ dt) (h1 : -(l * dt) ≤ 1)
    (hx : ∀ t, HasDerivAt x ((l : ℝ) * x t + (b : ℝ)) t) (h0 : x 0 = x0) (k : ℕ) :
    |(((eulerStep l b dt)^[k] x0 : ℚ) : ℝ) - x (k * dt)| ≤ ((k * dt * dt / 2 * (-l * |l * x0 + b|) : ℚ) : ℝ) := by
  have := euler_error (l := l) (b := b) (dt := dt) (x := x) (y := fun k => (((eulerStep l b dt)^[k] x0 : ℚ) : ℝ))
    (by exact_mod_cast hl) (by exact_mod_cast hdt) (by exact_mod_cast h1) hx
    (fun k => by
      simp only [Function.iterate_succ', Function.comp]
      generalize (eulerStep l b dt)^[k] x0 = y
      unfold eulerStep; push_cast; ring) (by simp [h0]) k
  rw [h0] at this
  push_cast
  exact this

theorem steps_Ir_euler (dt : ℚ) (k : ℕ) (i : Fin n) : ∀ c : ECM n, (c.steps dt k).st.Ir i =
    (eulerStep (-c.par.invTau i) (c.st.I * c.par.invTau i) dt)^[k] (c.st.Ir i) := by
  induction k with
  | zero => intro c; rfl
  | succ k ih =>
    intro c
    rw [ECM.steps, ih, Function.iterate_succ, Function.comp]
    have : (c.step1 dt).st.Ir i = eulerStep (-c.par.invTau i) (c.st.I * c.par.invTau i) dt (c.st.Ir i) := by
      show c.st.Ir i + dt * c.par.invTau i * (c.st.I - c.st.Ir i) = _
      unfold eulerStep; ring
    rw [this]; rfl

theorem diffLoop_euler (dt : ℚ) (k : ℕ) : ∀ c : SPM N, (SPM.diffLoop dt k c).1 = .ok () →
    (∀ j, (SPM.diffLoop dt k c).2.st.zp j =
      (eulerStep (c.Dpt * c.par.M.Ap j) (c.par.M.Bp j * c.jp) dt)^[k] (c.st.zp j)) ∧
    (∀ j, (SPM.diffLoop dt k c).2.st.zn j =
      (eulerStep (c.Dnt * c.par.M.An j) (c.par.M.Bn j * c.jn) dt)^[k] (c.st.zn j)) ∧
    DiffFrame c (SPM.diffLoop dt k c).2 := by
  induction k with
  | zero => intro c _; exact ⟨fun j => rfl, fun j => rfl, .refl c⟩
  | succ k ih =>
    intro c h
    rw [SPM.diffLoop] at h ⊢
    obtain ⟨h1, h2, h3⟩ := andThen_ok h
    rw [h3]
    obtain ⟨-, f, ezp, ezn, -⟩ := diffStep_ok h1
    obtain ⟨gp, gn, gf⟩ := ih _ h2
    have ejp : (c.diffStep dt).2.jp = c.jp := by unfold SPM.jp SPM.iApp; rw [f.age.par, f.I, f.age.ap, f.age.thickp]
    have ejn : (c.diffStep dt).2.jn = c.jn := by unfold SPM.jn SPM.iApp; rw [f.age.par, f.I, f.age.an, f.age.thickn]
    refine ⟨fun j => ?_, fun j => ?_, f.trans gf⟩
    · rw [gp j, Dpt_frame f, f.age.par, ezp, ejp, Function.iterate_succ, Function.comp]; rfl
    · rw [gn j, Dnt_frame f, f.age.par, ezn, ejn, Function.iterate_succ, Function.comp]; rfl

theorem Dpt_diffusion (c : SPM N) : c.Dpt = diffusionP c := by
  unfold SPM.Dpt diffusionP SPM.arrh Rgas
  congr 2; ring
theorem Dnt_diffusion (c : SPM N) : c.Dnt = diffusionN c := by
  unfold SPM.Dnt diffusionN SPM.arrh Rgas
  congr 2; ring
theorem jp_flux (c : SPM N) : c.jp = fluxP c := by
  unfold SPM.jp fluxP SPM.iApp activeSurface Faraday
  rw [neg_div', div_div]; congr 1; ring
theorem jn_flux (c : SPM N) : c.jn = fluxN c := by
  unfold SPM.jn fluxN SPM.iApp activeSurface Faraday
  rw [div_div]; congr 1; ring

theorem sum_error {ι : Type*} [Fintype ι] (C : ι → ℚ) (y : ι → ℚ) (x : ι → ℝ) (e : ι → ℚ) (a : ℝ)
    (h : ∀ i, |(y i : ℝ) - x i| ≤ (e i : ℝ)) :
    |(((∑ i, C i * y i : ℚ) : ℝ) + a) - (∑ i, (C i : ℝ) * x i + a)| ≤ ((∑ i, |C i| * e i : ℚ) : ℝ) := by
  push_cast
  rw [add_sub_add_right_eq_sub, ← Finset.sum_sub_distrib]
  refine (Finset.abs_sum_le_sum_abs _ _).trans (Finset.sum_le_sum fun i _ => ?_)
  rw [← mul_sub, abs_mul]
  exact mul_le_mul_of_nonneg_left (h i) (abs_nonneg _)

/-! ## Equivalent-circuit cells -/

/-- **C130.**  With time steps not longer than the time constant of an RC pair, its current after `k` steps differs from
the exact one by at most half the time times the time step times the second derivative at the start. -/
theorem rc_error {c : ECM n} {x : Fin n → ℝ → ℝ} {dt : ℚ} {k : ℕ} {i : Fin n} (hx : ExactCircuit c x) (h0 : 0 ≤ dt)
    (ht : 0 ≤ c.par.invTau i) (h1 : dt * c.par.invTau i ≤ 1) :
    |((c.timeStep dt k).2.st.Ir i : ℝ) - x i (k * dt)| ≤
      ((k * dt * dt / 2 * (c.par.invTau i ^ 2 * |c.st.I - c.st.Ir i|) : ℚ) : ℝ) := by
  have e : (c.timeStep dt k).2 = c.steps dt k := by unfold ECM.timeStep; rw [if_neg (not_lt.mpr h0)]
  rw [e, steps_Ir_euler]
  have := euler_rat (l := -c.par.invTau i) (b := c.st.I * c.par.invTau i) (x := x i) (x0 := c.st.Ir i) (by linarith) h0
    (by linarith) (fun t => by
      have h := hx.law i t
      have e : ((-c.par.invTau i : ℚ) : ℝ) * x i t + ((c.st.I * c.par.invTau i : ℚ) : ℝ) =
        ((c.st.I : ℝ) - x i t) * (c.par.invTau i : ℝ) := by push_cast; ring
      rw [e]; exact h) (hx.start i) k
  refine this.trans (le_of_eq ?_)
  have e2 : |-c.par.invTau i * c.st.Ir i + c.st.I * c.par.invTau i| = c.par.invTau i * |c.st.I - c.st.Ir i| := by
    rw [← abs_of_nonneg ht, ← abs_mul, abs_of_nonneg ht]; congr 1; ring
  rw [e2]; push_cast; ring

/-- **C130.**  The same for the voltage: with time steps not longer than any time constant, the voltage after `k` steps
differs from that of the exact circuit, at the state of charge that is left, by at most a constant times the time
step. -/
theorem circuit_error {c : ECM n} {x : Fin n → ℝ → ℝ} {dt o : ℚ} {k : ℕ} (hx : ExactCircuit c x) (h0 : 0 ≤ dt)
    (ht : ∀ i, 0 ≤ c.par.invTau i) (h1 : ∀ i, dt * c.par.invTau i ≤ 1)
    (ho : c.par.ocv (c.st.SOC - k * dt * c.st.I / (3600 * c.par.cap)) = some o) :
    |((c.timeStep dt k).2.V : ℝ) - exactVoltage c x o (k * dt)| ≤
      ((k * dt * dt / 2 * ∑ i, |c.par.Rp i| * (c.par.invTau i ^ 2 * |c.st.I - c.st.Ir i|) : ℚ) : ℝ) := by
  have hr := fun i => rc_error (k := k) (i := i) hx h0 (ht i) (h1 i)
  have e : (c.timeStep dt k).2 = c.steps dt k := by unfold ECM.timeStep; rw [if_neg (not_lt.mpr h0)]
  rw [e] at hr ⊢
  have hs : (c.steps dt k).st.SOC = c.st.SOC - k * dt * c.st.I / (3600 * c.par.cap) := by
    rw [ECM.steps_SOC, ← div_div]; ring
  have hv : (c.steps dt k).V = o - c.par.Rdc * c.st.I - ∑ i, c.par.Rp i * (c.steps dt k).st.Ir i := by
    unfold ECM.V
    rw [ECM.steps_par, ECM.steps_I, hs, ho]
  have hse := sum_error c.par.Rp (fun i => (c.steps dt k).st.Ir i) (fun i => x i (k * dt)) _ 0 hr
  rw [hv]
  unfold exactVoltage
  rw [← abs_neg]
  have e3 : -((((o - c.par.Rdc * c.st.I - ∑ i, c.par.Rp i * (c.steps dt k).st.Ir i : ℚ)) : ℝ) -
      ((o : ℝ) - ((c.st.I * c.par.Rdc : ℚ) : ℝ) - ∑ i, (c.par.Rp i : ℝ) * x i (k * dt))) =
      (((∑ i, c.par.Rp i * (c.steps dt k).st.Ir i : ℚ) : ℝ) + 0) - (∑ i, (c.par.Rp i : ℝ) * x i (k * dt) + 0) := by
    push_cast; ring
  rw [e3]
  refine hse.trans (le_of_eq ?_)
  rw [Finset.mul_sum]
  congr 1
  exact Finset.sum_congr rfl fun i _ => by ring

/-- **C130.**  As the time is divided into more and more steps, the voltage converges to that of the exact circuit. -/
theorem circuit_converges {c : ECM n} {x : Fin n → ℝ → ℝ} {t o : ℚ} (hx : ExactCircuit c x) (h0 : 0 ≤ t)
    (ht : ∀ i, 0 ≤ c.par.invTau i) (ho : c.par.ocv (c.st.SOC - t * c.st.I / (3600 * c.par.cap)) = some o)
    {ε : ℚ} (hε : 0 < ε) :
    ∃ k0 : ℕ, ∀ k : ℕ, k0 < k → |((c.timeStep (t / k) k).2.V : ℝ) - exactVoltage c x o t| < ε := by
  set K : ℚ := t * t / 2 * ∑ i, |c.par.Rp i| * (c.par.invTau i ^ 2 * |c.st.I - c.st.Ir i|) with hK
  have hK0 : 0 ≤ K := mul_nonneg (by positivity) (Finset.sum_nonneg fun i _ => by positivity)
  obtain ⟨a, ha⟩ := exists_nat_gt (K / ε)
  obtain ⟨b, hb⟩ := exists_nat_gt (∑ i, t * c.par.invTau i)
  refine ⟨max a b, fun k hk => ?_⟩
  have hka : (a : ℚ) < k := by exact_mod_cast lt_of_le_of_lt (le_max_left a b) hk
  have hkb : (b : ℚ) < k := by exact_mod_cast lt_of_le_of_lt (le_max_right a b) hk
  have hk0 : (0 : ℚ) < k := lt_of_le_of_lt (Nat.cast_nonneg a) hka
  have hkt : (k : ℚ) * (t / k) = t := by field_simp
  have h1 : ∀ i, t / k * c.par.invTau i ≤ 1 := by
    intro i
    have : t * c.par.invTau i ≤ ∑ i, t * c.par.invTau i :=
      Finset.single_le_sum (f := fun i => t * c.par.invTau i) (fun i _ => mul_nonneg h0 (ht i)) (Finset.mem_univ i)
    rw [div_mul_eq_mul_div, div_le_one hk0]
    linarith
  have he := circuit_error (k := k) (o := o) hx (div_nonneg h0 hk0.le) ht h1 (by rw [hkt]; exact ho)
  have hkt' : (k : ℝ) * ((t / k : ℚ) : ℝ) = t := by
    have := congrArg (fun q : ℚ => (q : ℝ)) hkt
    push_cast at this ⊢
    exact this
  rw [hkt'] at he
  refine lt_of_le_of_lt he ?_
  have e4 : (k : ℚ) * (t / k) * (t / k) / 2 * ∑ i, |c.par.Rp i| * (c.par.invTau i ^ 2 * |c.st.I - c.st.Ir i|) = K / k := by
    rw [hkt, hK]; ring
  rw [e4]
  have : K / k < ε := by
    rw [div_lt_iff₀ hk0]
    rw [div_lt_iff₀ hε] at ha
    nlinarith
  exact_mod_cast this

/-- The exact circuit exists. -/
theorem exactCircuit_exists (c : ECM n) :
    ExactCircuit c fun i t => (c.st.I : ℝ) + ((c.st.Ir i : ℝ) - c.st.I) * Real.exp (-((c.par.invTau i : ℝ) * t)) where
  start i := by simp
  law i t := by
    have h1 : HasDerivAt (fun s : ℝ => -((c.par.invTau i : ℝ) * s)) (-((c.par.invTau i : ℝ) * 1)) t :=
      ((hasDerivAt_id t).const_mul (c.par.invTau i : ℝ)).neg
    have h2 := ((h1.exp).const_mul ((c.st.Ir i : ℝ) - c.st.I)).const_add (c.st.I : ℝ)
    have e : ((c.st.Ir i : ℝ) - c.st.I) * (Real.exp (-((c.par.invTau i : ℝ) * t)) * -((c.par.invTau i : ℝ) * 1)) =
        (((c.st.I : ℚ) : ℝ) - ((c.st.I : ℝ) + ((c.st.Ir i : ℝ) - c.st.I) * Real.exp (-((c.par.invTau i : ℝ) * t)))) *
          ((c.par.invTau i : ℚ) : ℝ) := by ring
    exact e ▸ h2

/-- A cell that is discharged at 1 A for an hour, simulated in steps of 10 s: the hypotheses hold, and the error is
below 1 mV. -/
example : ∀ x, ExactCircuit (exampleCell.withI 1) x → ∃ o,
    |(((exampleCell.withI 1).timeStep 10 360).2.V : ℝ) - exactVoltage (exampleCell.withI 1) x o ((360 : ℕ) * (10 : ℚ))| ≤
      ((1 / 1000 : ℚ) : ℝ) := by
  intro x hx
  obtain ⟨o, ho⟩ : ∃ o, (exampleCell.withI 1).par.ocv ((exampleCell.withI 1).st.SOC -
      (360 : ℕ) * 10 * (exampleCell.withI 1).st.I / (3600 * (exampleCell.withI 1).par.cap)) = some o :=
    Option.isSome_iff_exists.mp (by decide +kernel)
  refine ⟨o, ?_⟩
  have := circuit_error (k := 360) (dt := 10) hx (by norm_num) (by decide +kernel) (by decide +kernel) ho
  have h2 : ((360 : ℕ) * 10 * 10 / 2 * ∑ i, |(exampleCell.withI 1).par.Rp i| *
      ((exampleCell.withI 1).par.invTau i ^ 2 * |(exampleCell.withI 1).st.I - (exampleCell.withI 1).st.Ir i|) : ℚ) ≤ 1 / 1000 := by
    decide +kernel
  exact this.trans (Rat.cast_le.mpr h2)

/-! ## Single-particle cells -/

/-- **C130.**  For a cell whose degradation is blocked or absent: with time steps not longer than the time constants of
its modes, the concentration at every node of its particles after `k` steps differs from the exact course of diffusion by
at most a constant times the time step. -/
theorem diffusion_error {c : SPM N} {zp zn : Fin N → ℝ → ℝ} {dt : ℚ} {k : ℕ} (hx : ExactDiffusion c zp zn)
    (hb : c.block = true ∨ noDegradation c.deg ∧ c.par.tModel = 0) (h : (c.timeStep dt k).1 = .ok ())
    (hp : ∀ j, diffusionP c * c.par.M.Ap j ≤ 0 ∧ -(diffusionP c * c.par.M.Ap j * dt) ≤ 1)
    (hn : ∀ j, diffusionN c * c.par.M.An j ≤ 0 ∧ -(diffusionN c * c.par.M.An j * dt) ≤ 1) (i : Fin (N + 1)) :
    |((c.timeStep dt k).2.nodeP i : ℝ) -
        exactNode (c.par.M.Cp i) (c.par.M.Dp i) (fluxP c) (diffusionP c) (fun j => zp j (k * dt))| ≤
      ((∑ j, |c.par.M.Cp i j| * (k * dt * dt / 2 * (-(diffusionP c * c.par.M.Ap j) *
        |diffusionP c * c.par.M.Ap j * c.st.zp j + c.par.M.Bp j * fluxP c|)) : ℚ) : ℝ) ∧
    |((c.timeStep dt k).2.nodeN i : ℝ) -
        exactNode (c.par.M.Cn i) (c.par.M.Dn i) (fluxN c) (diffusionN c) (fun j => zn j (k * dt))| ≤
      ((∑ j, |c.par.M.Cn i j| * (k * dt * dt / 2 * (-(diffusionN c * c.par.M.An j) *
        |diffusionN c * c.par.M.An j * c.st.zn j + c.par.M.Bn j * fluxN c|)) : ℚ) : ℝ) := by
  obtain ⟨hdt, hl, hbk, -⟩ := timeStep_ok h
  rw [Int.toNat_natCast] at hl
  obtain ⟨gp, gn, f⟩ := diffLoop_euler dt k _ hl
  have es : (c.timeStep dt k).2.st = (SPM.diffLoop dt k (c.rotate ((k : ℤ) * dt))).2.st ∧
      (c.timeStep dt k).2.par = c.par := by
    rcases hb with hb | ⟨h1, h2⟩
    · have := hbk hb
      rw [Int.toNat_natCast] at this
      rw [this]; exact ⟨rfl, f.age.par⟩
    · obtain ⟨e1, e2, -⟩ := timeStep_plain h1 h2 h
      rw [Int.toNat_natCast] at e1
      exact ⟨e1, e2⟩
  obtain ⟨es, ep⟩ := es
  have ejp : (c.timeStep dt k).2.jp = fluxP c := by
    rw [← jp_flux]; unfold SPM.jp SPM.iApp; rw [ep, es, f.I, f.age.ap, f.age.thickp]; rfl
  have ejn : (c.timeStep dt k).2.jn = fluxN c := by
    rw [← jn_flux]; unfold SPM.jn SPM.iApp; rw [ep, es, f.I, f.age.an, f.age.thickn]; rfl
  have eDp : (c.timeStep dt k).2.Dpt = diffusionP c := by
    rw [← Dpt_diffusion]; unfold SPM.Dpt SPM.arrh; rw [ep, es, f.T, f.Dp]; rfl
  have eDn : (c.timeStep dt k).2.Dnt = diffusionN c := by
    rw [← Dnt_diffusion]; unfold SPM.Dnt SPM.arrh; rw [ep, es, f.T, f.Dn]; rfl
  have rP : ∀ j, |((c.timeStep dt k).2.st.zp j : ℝ) - zp j (k * dt)| ≤ ((k * dt * dt / 2 *
      (-(diffusionP c * c.par.M.Ap j) * |diffusionP c * c.par.M.Ap j * c.st.zp j + c.par.M.Bp j * fluxP c|) : ℚ) : ℝ) := by
    intro j
    rw [es, gp j]
    have := euler_rat (hp j).1 hdt (hp j).2 (hx.lawP j) (hx.startP j) k
    rw [← Dpt_diffusion, ← jp_flux] at this ⊢
    exact this
  have rN : ∀ j, |((c.timeStep dt k).2.st.zn j : ℝ) - zn j (k * dt)| ≤ ((k * dt * dt / 2 *
      (-(diffusionN c * c.par.M.An j) * |diffusionN c * c.par.M.An j * c.st.zn j + c.par.M.Bn j * fluxN c|) : ℚ) : ℝ) := by
    intro j
    rw [es, gn j]
    have := euler_rat (hn j).1 hdt (hn j).2 (hx.lawN j) (hx.startN j) k
    rw [← Dnt_diffusion, ← jn_flux] at this ⊢
    exact this
  constructor
  · have := sum_error (c.par.M.Cp i) _ _ _ ((c.par.M.Dp i * fluxP c / diffusionP c : ℚ) : ℝ) rP
    unfold SPM.nodeP exactNode
    rw [ejp, eDp, ep]
    rw [← Rat.cast_add] at this
    exact this
  · have := sum_error (c.par.M.Cn i) _ _ _ ((c.par.M.Dn i * fluxN c / diffusionN c : ℚ) : ℝ) rN
    unfold SPM.nodeN exactNode
    rw [ejn, eDn, ep]
    rw [← Rat.cast_add] at this
    exact this

/-- The equation `x' = l x + b` has a solution from every start. -/
theorem linear_exists (l b x0 : ℝ) : ∃ x : ℝ → ℝ, x 0 = x0 ∧ ∀ t, HasDerivAt x (l * x t + b) t := by
  by_cases hl : l = 0
  · refine ⟨fun t => x0 + b * t, by simp, fun t => ?_⟩
    have h : HasDerivAt (fun t => x0 + b * t) (b * 1) t := ((hasDerivAt_id t).const_mul b).const_add x0
    have e : b * 1 = l * (x0 + b * t) + b := by rw [hl]; ring
    exact e ▸ h
  · refine ⟨fun t => (Real.exp (l * t) * (l * x0 + b) - b) / l, by simp; field_simp, fun t => ?_⟩
    have h1 : HasDerivAt (fun t => l * t) (l * 1) t := (hasDerivAt_id t).const_mul l
    have h2 : HasDerivAt (fun t => (Real.exp (l * t) * (l * x0 + b) - b) / l)
        (Real.exp (l * t) * (l * 1) * (l * x0 + b) / l) t := ((h1.exp.mul_const (l * x0 + b)).sub_const b).div_const l
    have e : Real.exp (l * t) * (l * 1) * (l * x0 + b) / l =
        l * ((Real.exp (l * t) * (l * x0 + b) - b) / l) + b := by field_simp; ring
    exact e ▸ h2

/-- The exact course of diffusion exists. -/
theorem exactDiffusion_exists (c : SPM N) : ∃ zp zn, ExactDiffusion c zp zn := by
  choose zp h1 h2 using fun j => linear_exists ((diffusionP c * c.par.M.Ap j : ℚ) : ℝ)
    ((c.par.M.Bp j * fluxP c : ℚ) : ℝ) (c.st.zp j)
  choose zn h3 h4 using fun j => linear_exists ((diffusionN c * c.par.M.An j : ℚ) : ℝ)
    ((c.par.M.Bn j * fluxN c : ℚ) : ℝ) (c.st.zn j)
  exact ⟨zp, zn, h1, h3, h2, h4⟩

/-- `spmBv` with a mode that decays and blocked degradation: 1 A for 10 s in steps of 1 s. -/
def spmDecay : SPM 1 :=
  { spmBv with
    par := { spmBv.par with M := { spmBv.par.M with Ap := fun _ => -1 / 10, An := fun _ => -1 / 10 } }, block := true }

example : ∃ zp zn, ExactDiffusion spmDecay zp zn ∧
    |((spmDecay.timeStep 1 (10 : ℕ)).2.nodeP 0 : ℝ) - exactNode (spmDecay.par.M.Cp 0) (spmDecay.par.M.Dp 0) (fluxP spmDecay)
      (diffusionP spmDecay) (fun j => zp j ((10 : ℕ) * (1 : ℚ)))| ≤ ((1 / 10 : ℚ) : ℝ) := by
  obtain ⟨zp, zn, hx⟩ := exactDiffusion_exists spmDecay
  refine ⟨zp, zn, hx, ?_⟩
  have := (diffusion_error (k := 10) (dt := 1) hx (.inl rfl) (by decide +kernel) (by decide +kernel)
    (by decide +kernel) 0).1
  have h2 : (∑ j, |spmDecay.par.M.Cp 0 j| * ((10 : ℕ) * 1 * 1 / 2 * (-(diffusionP spmDecay * spmDecay.par.M.Ap j) *
      |diffusionP spmDecay * spmDecay.par.M.Ap j * spmDecay.st.zp j + spmDecay.par.M.Bp j * fluxP spmDecay|)) : ℚ) ≤
      1 / 10 := by decide +kernel
  exact this.trans (Rat.cast_le.mpr h2)

end Slide

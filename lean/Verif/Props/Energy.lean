import Verif.Spec.Energy
import Verif.Lemmas.ECM
import Mathlib.Order.Monotone.Extension
import Mathlib.MeasureTheory.Integral.IntervalIntegral.Basic

/-!
# C132: no cell gives back more energy than it got
-/

namespace Slide
open Spec

variable {n : ℕ}

/-! ## Helper lemmas -/

/-- The area under a rising curve is at least the left height times the width, in both directions. -/
theorem area_ge {f : ℝ → ℝ} (hf : Monotone f) (a b : ℝ) : f a * (b - a) ≤ ∫ z in a..b, f z := by
  rcases le_total a b with h | h
  · have := intervalIntegral.integral_mono_on (μ := MeasureTheory.volume) h (intervalIntegrable_const (c := f a))
      (hf.intervalIntegrable) (fun x hx => hf hx.1)
    rw [intervalIntegral.integral_const, smul_eq_mul] at this
    linarith
  · have := intervalIntegral.integral_mono_on (μ := MeasureTheory.volume) h (hf.intervalIntegrable)
      (intervalIntegrable_const (c := f a)) (fun x hx => hf hx.2)
    rw [intervalIntegral.integral_const, smul_eq_mul, intervalIntegral.integral_symm] at this
    linarith

theorem area_diff {f : ℝ → ℝ} (hf : Monotone f) (a b : ℝ) :
    (∫ z in (0 : ℝ)..b, f z) - (∫ z in (0 : ℝ)..a, f z) = ∫ z in a..b, f z :=
  intervalIntegral.integral_interval_sub_left hf.intervalIntegrable hf.intervalIntegrable

/-- One RC pair: with a step of at most twice the time constant, what is taken up covers the gain of the capacitor. -/
theorem rc_uptake {R w x i dt : ℚ} (hR : 0 ≤ R) (hw : 0 < w) (hdt : 0 ≤ dt) (h2 : dt * w ≤ 2) :
    let y := x + dt * w * (i - x)
    R * y ^ 2 / (2 * w) - R * x ^ 2 / (2 * w) ≤ R * y * i * dt := by
  intro y
  have hw' : w ≠ 0 := hw.ne'
  have e : R * y * i * dt - (R * y ^ 2 / (2 * w) - R * x ^ 2 / (2 * w)) =
      R * (2 - dt * w) / (4 * w) * (y - x) ^ 2 + R * dt / 4 * (y + x) ^ 2 := by
    have : y = x + dt * w * (i - x) := rfl
    rw [this]
    field_simp
    ring
  have : 0 ≤ R * (2 - dt * w) / (4 * w) * (y - x) ^ 2 + R * dt / 4 * (y + x) ^ 2 := by
    have : 0 ≤ 2 - dt * w := by linarith
    positivity
  linarith

/-- Energy delivered by a single step. -/
def netWh (c d : ECM n) : ℚ := (if 0 < c.st.I then d.st.Wh - c.st.Wh else 0) - (if c.st.I < 0 then d.st.Wh - c.st.Wh else 0)

theorem netWh_step1 (c : ECM n) {dt : ℚ} (hdt : 0 ≤ dt) (hV : 0 ≤ (c.step1 dt).V) :
    netWh c (c.step1 dt) = c.st.I * (dt / 3600) * (c.step1 dt).V := by
  have e : (c.step1 dt).st.Wh = c.st.Wh + |c.st.I * (dt / 3600) * (c.step1 dt).V| := rfl
  unfold netWh
  rw [e]
  generalize (c.step1 dt).V = v at hV ⊢
  have hd : 0 ≤ dt / 3600 * v := by positivity
  rcases lt_trichotomy c.st.I 0 with h | h | h
  · rw [if_neg h.not_gt, if_pos h, abs_of_nonpos (by rw [mul_assoc]; exact mul_nonpos_of_nonpos_of_nonneg h.le hd)]
    ring
  · rw [h]; norm_num
  · rw [if_pos h, if_neg h.not_gt, abs_of_nonneg (by rw [mul_assoc]; exact mul_nonneg h.le hd)]
    ring

/-- The energy balance of a single step. -/
theorem step1_energy (c : ECM n) {f : ℝ → ℝ} {dt : ℚ} (hp : PassiveCell c.par) (hf : OcvThrough c.par f) (hdt : 0 ≤ dt)
    (h2 : ∀ i, dt * c.par.invTau i ≤ 2) (hz0 : 0 ≤ (c.step1 dt).st.SOC) (hz1 : (c.step1 dt).st.SOC ≤ 1)
    (hV : 0 ≤ (c.step1 dt).V) :
    ((netWh c (c.step1 dt) + c.par.Rdc * c.st.I ^ 2 * dt / 3600 : ℚ) : ℝ) ≤ cellEnergy f c - cellEnergy f (c.step1 dt) := by
  obtain ⟨o, ho⟩ := hp.known _ hz0 hz1
  rw [netWh_step1 c hdt hV]
  have ev : (c.step1 dt).V = o - c.par.Rdc * c.st.I - ∑ i, c.par.Rp i * (c.step1 dt).st.Ir i := by
    unfold ECM.V
    have : (c.step1 dt).par.ocv (c.step1 dt).st.SOC = some o := ho
    rw [this]; rfl
  rw [ev]
  have e1 : c.st.I * (dt / 3600) = c.par.cap * (c.st.SOC - (c.step1 dt).st.SOC) := by
    show _ = c.par.cap * (c.st.SOC - (c.st.SOC - c.st.I * (dt / 3600) / c.par.cap))
    have := hp.cap.ne'
    field_simp; ring
  have e2 : (c.st.I * (dt / 3600) * (o - c.par.Rdc * c.st.I - ∑ i, c.par.Rp i * (c.step1 dt).st.Ir i) +
      c.par.Rdc * c.st.I ^ 2 * dt / 3600 : ℚ) =
      c.par.cap * (o * (c.st.SOC - (c.step1 dt).st.SOC)) -
        ∑ i, c.par.Rp i * (c.step1 dt).st.Ir i * c.st.I * dt / 3600 := by
    have : ∑ i, c.par.Rp i * (c.step1 dt).st.Ir i * c.st.I * dt / 3600 =
        c.st.I * (dt / 3600) * ∑ i, c.par.Rp i * (c.step1 dt).st.Ir i := by
      rw [Finset.mul_sum]; exact Finset.sum_congr rfl (fun i _ => by ring)
    rw [this]
    linear_combination o * e1
  rw [e2]
  have h3 : ∑ i, (c.par.Rp i * (c.step1 dt).st.Ir i ^ 2 / (2 * c.par.invTau i) / 3600 -
      c.par.Rp i * c.st.Ir i ^ 2 / (2 * c.par.invTau i) / 3600) ≤
      ∑ i, c.par.Rp i * (c.step1 dt).st.Ir i * c.st.I * dt / 3600 := by
    refine Finset.sum_le_sum (fun i _ => ?_)
    have := rc_uptake (x := c.st.Ir i) (i := c.st.I) (hp.Rp i) (hp.tau i) hdt (h2 i)
    have h : c.par.Rp i * (c.step1 dt).st.Ir i ^ 2 / (2 * c.par.invTau i) - c.par.Rp i * c.st.Ir i ^ 2 / (2 * c.par.invTau i) ≤
      c.par.Rp i * (c.step1 dt).st.Ir i * c.st.I * dt := this
    linarith
  rw [Finset.sum_sub_distrib] at h3
  have h4 : (c.par.cap : ℝ) * (f (c.step1 dt).st.SOC * (c.st.SOC - (c.step1 dt).st.SOC)) ≤
      c.par.cap * ((∫ z in (0 : ℝ)..c.st.SOC, f z) - ∫ z in (0 : ℝ)..(c.step1 dt).st.SOC, f z) := by
    rw [area_diff hf.mono]
    exact mul_le_mul_of_nonneg_left (area_ge hf.mono _ _) (by exact_mod_cast hp.cap.le)
  rw [hf.through _ o hz0 hz1 ho] at h4
  have h5 := (Rat.cast_le (K := ℝ)).mpr h3
  push_cast at h5 ⊢
  have hc : (c.step1 dt).par = c.par := rfl
  unfold cellEnergy
  rw [hc]
  push_cast
  linarith

theorem steps_succ_last (c : ECM n) (dt : ℚ) (k : ℕ) : c.steps dt (k + 1) = (c.steps dt k).step1 dt := by
  rw [ECM.steps_add]; rfl

theorem netWh_add (c d e : ECM n) (h : d.st.I = c.st.I) : netWh c e = netWh c d + netWh d e := by
  unfold netWh
  rw [h]
  rcases lt_trichotomy c.st.I 0 with h | h | h
  · rw [if_neg h.not_gt, if_pos h, if_neg h.not_gt, if_neg h.not_gt, if_pos h, if_pos h]; ring
  · rw [h]; norm_num
  · rw [if_neg h.not_gt, if_pos h, if_neg h.not_gt, if_neg h.not_gt, if_pos h, if_pos h]; ring

theorem steps_energy (c : ECM n) {f : ℝ → ℝ} {dt : ℚ} (hp : PassiveCell c.par) (hf : OcvThrough c.par f) (hdt : 0 ≤ dt)
    (h2 : ∀ i, dt * c.par.invTau i ≤ 2) (k : ℕ)
    (hin : ∀ j ≤ k, 0 ≤ (c.steps dt j).st.SOC ∧ (c.steps dt j).st.SOC ≤ 1 ∧ 0 ≤ (c.steps dt j).V) :
    ((netWh c (c.steps dt k) + c.par.Rdc * c.st.I ^ 2 * (k * dt) / 3600 : ℚ) : ℝ) ≤ cellEnergy f c - cellEnergy f (c.steps dt k) := by
  induction k with
  | zero => simp [ECM.steps, netWh]
  | succ k ih =>
    have h := ih (fun j hj => hin j (Nat.le_succ_of_le hj))
    obtain ⟨i1, i2, i3⟩ := hin (k + 1) le_rfl
    rw [steps_succ_last] at i1 i2 i3 ⊢
    have h' := step1_energy (c.steps dt k) (f := f) (dt := dt) (by rw [ECM.steps_par]; exact hp)
      (by rw [ECM.steps_par]; exact hf) hdt (by rw [ECM.steps_par]; exact h2) i1 i2 i3
    rw [ECM.steps_par, ECM.steps_I] at h'
    rw [netWh_add c (c.steps dt k) _ (ECM.steps_I c dt k)]
    push_cast at h h' ⊢
    linarith

theorem apply_par_energy (c : ECM n) (o : ECM.Op) : (c.apply o).par = c.par := by
  cases o with
  | setCurrent i b => simp only [ECM.apply, ECM.setCurrent]; split <;> rfl
  | setVoltage v b =>
    simp only [ECM.apply, ECM.setVoltage]
    split
    · rfl
    · split
      · rfl
      · split <;> rfl
  | setT t => rfl
  | step dt k => simp only [ECM.apply, ECM.timeStep]; split <;> simp

/-- Calls other than time steps leave everything but current and temperature alone. -/
theorem apply_other (c : ECM n) (o : ECM.Op) (ho : ∀ dt k, o ≠ .step dt k) :
    (c.apply o).st.SOC = c.st.SOC ∧ (c.apply o).st.Ir = c.st.Ir ∧ (c.apply o).st.Wh = c.st.Wh ∧
    (c.apply o).st.Ah = c.st.Ah ∧ (c.apply o).st.time = c.st.time := by
  cases o with
  | setCurrent i b => simp only [ECM.apply, ECM.setCurrent]; split <;> exact ⟨rfl, rfl, rfl, rfl, rfl⟩
  | setVoltage v b =>
    simp only [ECM.apply, ECM.setVoltage]
    split
    · exact ⟨rfl, rfl, rfl, rfl, rfl⟩
    · split
      · exact ⟨rfl, rfl, rfl, rfl, rfl⟩
      · split <;> exact ⟨rfl, rfl, rfl, rfl, rfl⟩
  | setT t => exact ⟨rfl, rfl, rfl, rfl, rfl⟩
  | step dt k => exact absurd rfl (ho dt k)

theorem whNet_cons (c : ECM n) (o : ECM.Op) (os : List ECM.Op) :
    whOut c (o :: os) - whIn c (o :: os) = netWh c (c.apply o) + (whOut (c.apply o) os - whIn (c.apply o) os) := by
  simp only [whOut, whIn, counted, netWh, decide_eq_true_eq]
  ring

theorem apply_energy (c : ECM n) (o : ECM.Op) {f : ℝ → ℝ} (hp : PassiveCell c.par) (hf : OcvThrough c.par f)
    (hin : ∀ dt k, o = .step dt k → (∀ i, dt * c.par.invTau i ≤ 2) ∧
      ∀ j ≤ k, let d := (c.timeStep dt j).2; 0 ≤ d.st.SOC ∧ d.st.SOC ≤ 1 ∧ 0 ≤ d.V) :
    ((netWh c (c.apply o) + c.par.Rdc * c.st.I ^ 2 * ((c.apply o).st.time - c.st.time) / 3600 : ℚ) : ℝ) ≤
      cellEnergy f c - cellEnergy f (c.apply o) := by
  by_cases ho : ∃ dt k, o = .step dt k
  · obtain ⟨dt, k, rfl⟩ := ho
    obtain ⟨h2, hin⟩ := hin dt k rfl
    by_cases hdt : dt < 0
    · have : c.apply (.step dt k) = c := by simp [ECM.apply, ECM.timeStep, hdt]
      rw [this]; simp [netWh]
    · have e : ∀ j, (c.timeStep dt j).2 = c.steps dt j := fun j => by simp [ECM.timeStep, hdt]
      have : c.apply (.step dt k) = c.steps dt k := e k
      rw [this, ECM.steps_time, add_sub_cancel_left]
      exact steps_energy c hp hf (not_lt.mp hdt) h2 k (fun j hj => by have := hin j hj; rwa [e] at this)
  · obtain ⟨h1, h2, h3, -, h5⟩ := apply_other c o (fun dt k h => ho ⟨dt, k, h⟩)
    have e : cellEnergy f (c.apply o) = cellEnergy f c := by
      unfold cellEnergy; rw [apply_par_energy, h1, h2]
    rw [e, h5]
    simp [netWh, h3]

/-! ## C132 -/

/-- **C132.**  Over any history of calls the watt hours that left the cell and the heat in its DC resistance are covered
by the watt hours that went in and the energy that was stored. -/
theorem energy_balance {f : ℝ → ℝ} (os : List ECM.Op) : ∀ (c : ECM n), PassiveCell c.par → OcvThrough c.par f →
    StaysInside c os →
    ((whOut c os + dcHeat c os : ℚ) : ℝ) ≤ (whIn c os : ℚ) + cellEnergy f c - cellEnergy f (c.run os) := by
  induction os with
  | nil => intro c _ _ _; simp [whOut, whIn, counted, dcHeat, ECM.run]
  | cons o os ih =>
    intro c hp hf hin
    have h := apply_energy c o hp hf hin.1
    have h' := ih (c.apply o) (by rw [apply_par_energy]; exact hp) (by rw [apply_par_energy]; exact hf) hin.2
    have e := congrArg (Rat.cast (K := ℝ)) (whNet_cons c o os)
    have e2 : ECM.run c (o :: os) = ECM.run (c.apply o) os := rfl
    rw [e2]
    unfold dcHeat
    push_cast at h h' e ⊢
    linarith

/-- Such a curve exists for every passive cell. -/
theorem ocvThrough_exists {p : ECMPar n} (hp : PassiveCell p) : ∃ f, OcvThrough p f := by
  classical
  let s : Set ℝ := { x | ∃ z : ℚ, (z : ℝ) = x ∧ 0 ≤ z ∧ z ≤ 1 }
  have hs : ∀ x : s, ∃ z v : ℚ, (z : ℝ) = x ∧ 0 ≤ z ∧ z ≤ 1 ∧ p.ocv z = some v := by
    rintro ⟨x, z, h1, h2, h3⟩
    obtain ⟨v, hv⟩ := hp.known z h2 h3
    exact ⟨z, v, h1, h2, h3, hv⟩
  choose z v hz h0 h1 hv using hs
  let g : ℝ → ℝ := fun x => if h : x ∈ s then (v ⟨x, h⟩ : ℝ) else 0
  have gv : ∀ (q w : ℚ), 0 ≤ q → q ≤ 1 → p.ocv q = some w → g q = w := by
    intro q w hq0 hq1 hw
    have hm : (q : ℝ) ∈ s := ⟨q, rfl, hq0, hq1⟩
    have hq : z ⟨q, hm⟩ = q := Rat.cast_injective (α := ℝ) (hz ⟨q, hm⟩)
    have := hv ⟨q, hm⟩
    rw [hq, hw] at this
    simp only [g, dif_pos hm]
    exact_mod_cast (Option.some.inj this).symm
  have hmono : MonotoneOn g s := by
    rintro x ⟨q, rfl, hq0, hq1⟩ y ⟨r, rfl, hr0, hr1⟩ hxy
    obtain ⟨a, ha⟩ := hp.known q hq0 hq1
    obtain ⟨b, hb⟩ := hp.known r hr0 hr1
    rw [gv q a hq0 hq1 ha, gv r b hr0 hr1 hb]
    exact_mod_cast hp.rising q r a b hq0 (by exact_mod_cast hxy) hr1 ha hb
  obtain ⟨a, ha⟩ := hp.known 0 le_rfl zero_le_one
  obtain ⟨b, hb⟩ := hp.known 1 zero_le_one le_rfl
  have m0 : (0 : ℝ) ∈ s := ⟨0, by norm_num, le_rfl, zero_le_one⟩
  have m1 : (1 : ℝ) ∈ s := ⟨1, by norm_num, zero_le_one, le_rfl⟩
  obtain ⟨f, hf, he⟩ := hmono.exists_monotone_extension
    ⟨g 0, by
      rintro y ⟨x, hx, rfl⟩
      obtain ⟨q, rfl, hq0, hq1⟩ := hx
      exact hmono m0 ⟨q, rfl, hq0, hq1⟩ (by exact_mod_cast hq0)⟩
    ⟨g 1, by
      rintro y ⟨x, hx, rfl⟩
      obtain ⟨q, rfl, hq0, hq1⟩ := hx
      exact hmono ⟨q, rfl, hq0, hq1⟩ m1 (by exact_mod_cast hq1)⟩
  refine ⟨f, hf, fun q w hq0 hq1 hw => ?_⟩
  rw [← he ⟨q, rfl, hq0, hq1⟩]
  exact gv q w hq0 hq1 hw

theorem apply_charge (c : ECM n) (o : ECM.Op) (hc : 0 < c.par.cap) :
    c.par.cap * (c.st.SOC - (c.apply o).st.SOC) =
      (if 0 < c.st.I then (c.apply o).st.Ah - c.st.Ah else 0) - (if c.st.I < 0 then (c.apply o).st.Ah - c.st.Ah else 0) := by
  by_cases ho : ∃ dt k, o = .step dt k
  · obtain ⟨dt, k, rfl⟩ := ho
    by_cases hdt : dt < 0
    · have : c.apply (.step dt k) = c := by simp [ECM.apply, ECM.timeStep, hdt]
      rw [this]; simp
    · have : c.apply (.step dt k) = c.steps dt k := by simp [ECM.apply, ECM.timeStep, hdt]
      rw [this, ECM.steps_SOC, ECM.steps_Ah, add_sub_cancel_left]
      have hd : 0 ≤ (dt / 3600 : ℚ) := by have := not_lt.mp hdt; positivity
      have := hc.ne'
      rcases lt_trichotomy c.st.I 0 with h | h | h
      · rw [if_neg h.not_gt, if_pos h, abs_of_nonpos (mul_nonpos_of_nonpos_of_nonneg h.le hd)]
        field_simp; ring
      · rw [h]; simp
      · rw [if_pos h, if_neg h.not_gt, abs_of_nonneg (mul_nonneg h.le hd)]
        field_simp; ring
  · obtain ⟨h1, -, -, h4, -⟩ := apply_other c o (fun dt k h => ho ⟨dt, k, h⟩)
    rw [h1, h4]; simp

theorem charge_balance (os : List ECM.Op) : ∀ (c : ECM n), 0 < c.par.cap →
    c.par.cap * (c.st.SOC - (c.run os).st.SOC) = ahOut c os - ahIn c os := by
  induction os with
  | nil => intro c _; simp [ahOut, ahIn, counted, ECM.run]
  | cons o os ih =>
    intro c hc
    have h := apply_charge c o hc
    have h' := ih (c.apply o) (by rw [apply_par_energy]; exact hc)
    rw [apply_par_energy] at h'
    have e2 : ECM.run c (o :: os) = ECM.run (c.apply o) os := rfl
    rw [e2]
    simp only [ahOut, ahIn, counted, decide_eq_true_eq] at h' ⊢
    linarith

/-- **C132, efficiency.**  A rested cell from which as much charge was taken as was put into it gave back less energy
than it got, by at least the heat of its DC resistance. -/
theorem round_trip (c : ECM n) (os : List ECM.Op) (hp : PassiveCell c.par) (hin : StaysInside c os)
    (hrest : ∀ i, c.st.Ir i = 0) (hAh : ahOut c os = ahIn c os) : whOut c os + dcHeat c os ≤ whIn c os := by
  obtain ⟨f, hf⟩ := ocvThrough_exists hp
  have h := energy_balance os c hp hf hin
  have hz : (c.run os).st.SOC = c.st.SOC := by
    have h1 := charge_balance os c hp.cap
    rw [hAh, sub_self] at h1
    have := (mul_eq_zero.mp h1).resolve_left hp.cap.ne'
    linarith
  have hpar : (c.run os).par = c.par := by
    clear h hz hAh hin hrest hp hf
    induction os generalizing c with
    | nil => rfl
    | cons o os ih => exact (ih (c.apply o)).trans (apply_par_energy c o)
  have e : cellEnergy f c ≤ cellEnergy f (c.run os) := by
    unfold cellEnergy
    rw [hz, hpar]
    refine add_le_add le_rfl (Rat.cast_le.mpr (Finset.sum_le_sum (fun i _ => ?_)))
    rw [hrest i]
    have := hp.Rp i
    have := (hp.tau i).le
    have : 0 ≤ c.par.Rp i * (c.run os).st.Ir i ^ 2 / (2 * c.par.invTau i) / 3600 := by positivity
    simpa using this
  have : ((whOut c os + dcHeat c os : ℚ) : ℝ) ≤ (whIn c os : ℚ) := by linarith
  exact_mod_cast this

/-- A rested half full cell of 1 Ah with one RC pair with a time constant of 100 s. -/
def tripCell : ECM 1 where
  par := { cap := 1, Rdc := 1 / 100, Rp := ![1 / 100], invTau := ![1 / 100],
           ocv := fun z => if 0 ≤ z ∧ z ≤ 1 then some (3 + z) else none }
  st := { T := 288, SOC := 1 / 2, I := 0, Ir := ![0], time := 0, Ah := 0, Wh := 0 }

theorem tripCell_passive : PassiveCell tripCell.par where
  known z h0 h1 := ⟨3 + z, if_pos ⟨h0, h1⟩⟩
  rising y z v w h0 h1 h2 hv hw := by
    have e1 : tripCell.par.ocv y = some (3 + y) := if_pos ⟨h0, h1.trans h2⟩
    have e2 : tripCell.par.ocv z = some (3 + z) := if_pos ⟨h0.trans h1, h2⟩
    rw [e1] at hv
    rw [e2] at hw
    have := Option.some.inj hv
    have := Option.some.inj hw
    linarith
  cap := by decide +kernel
  Rdc := by decide +kernel
  Rp := by decide +kernel
  tau := by decide +kernel

/-- Charging and discharging for 360 s at 1 A, in steps of 10 s. -/
def tripOps : List ECM.Op := [.setCurrent (-1) true, .step 10 36, .setCurrent 1 true, .step 10 36]

theorem tripCell_inside : StaysInside tripCell tripOps := by
  refine ⟨fun _ _ h => (by cases h), fun _ _ h => ?_, fun _ _ h => (by cases h), fun _ _ h => ?_, trivial⟩
  · cases h; exact ⟨by decide +kernel, by decide +kernel⟩
  · cases h; exact ⟨by decide +kernel, by decide +kernel⟩

/-- The hypotheses of `round_trip` are met, and energy is really lost. -/
example : PassiveCell tripCell.par ∧ StaysInside tripCell tripOps ∧ (∀ i, tripCell.st.Ir i = 0) ∧
    ahOut tripCell tripOps = ahIn tripCell tripOps ∧ ahIn tripCell tripOps = 1 / 10 ∧
    whOut tripCell tripOps + dcHeat tripCell tripOps < whIn tripCell tripOps :=
  ⟨tripCell_passive, tripCell_inside, by decide +kernel, by decide +kernel, by decide +kernel, by decide +kernel⟩

/-- A cell with a flat curve and no other resistance than the RC pair. -/
def flatCell : ECM 1 :=
  { tripCell with par := { tripCell.par with Rdc := 0, ocv := fun z => if 0 ≤ z ∧ z ≤ 1 then some 3 else none } }

theorem flatCell_passive : PassiveCell flatCell.par where
  known z h0 h1 := ⟨3, if_pos ⟨h0, h1⟩⟩
  rising y z v w h0 h1 h2 hv hw := by
    have e1 : flatCell.par.ocv y = some 3 := if_pos ⟨h0, h1.trans h2⟩
    have e2 : flatCell.par.ocv z = some 3 := if_pos ⟨h0.trans h1, h2⟩
    rw [e1] at hv
    rw [e2] at hw
    have := Option.some.inj hv
    have := Option.some.inj hw
    linarith
  cap := by decide +kernel
  Rdc := by decide +kernel
  Rp := by decide +kernel
  tau := by decide +kernel

/-- Steps of three time constants with changing current, then a discharge in small steps. -/
def longOps : List ECM.Op :=
  [.setCurrent (-1) true, .step 300 2, .setCurrent 1 true, .step 300 1, .setCurrent (-1) true, .step 300 1,
   .setCurrent 1 true, .step 300 1, .setCurrent 1 true, .step 10 30]

/-- The limit on the time step is needed: with steps of three time constants the cell gives back more than it got. -/
theorem long_steps_create_energy : PassiveCell flatCell.par ∧ (∀ i, flatCell.st.Ir i = 0) ∧
    ahOut flatCell longOps = ahIn flatCell longOps ∧ whIn flatCell longOps < whOut flatCell longOps :=
  ⟨flatCell_passive, by decide +kernel, by decide +kernel, by decide +kernel⟩

end Slide

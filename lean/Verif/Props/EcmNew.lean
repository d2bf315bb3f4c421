import Verif.Lemmas.ECM
import Verif.Model.EcmNew
import Verif.Spec.EcmNew

/-!
# C135: a new equivalent-circuit cell is what was asked for
-/

namespace Slide
open Spec

variable {n : ℕ}

/-! ## Helper lemmas -/

theorem newCurve_points : (linspaceFix 0 1 3).values = .ok [0, 1 / 2, 1] ∧
    (linspaceFix cellLimits.VMIN cellLimits.VMAX 3).values = .ok [2, 63 / 20, 43 / 10] := by
  constructor <;> decide +kernel

theorem newCurve_eq (s : ℚ) : ECM.newCurve s = if 0 ≤ s ∧ s ≤ 1 then some (2 + 23 / 10 * s) else none := by
  rw [← ECM.defaultOCV_eq]
  unfold ECM.newCurve ECM.defaultOCV
  rw [newCurve_points.1, newCurve_points.2]
  rfl

/-- The cell that the constructor makes. -/
def made (n : ℕ) (cap soc Rdc : ℚ) (R tau : Fin n → ℚ) : ECM n where
  par := { (ECM.new0 n).par with cap := cap, Rdc := Rdc, Rp := R, invTau := fun i => 1 / tau i }
  st := { (ECM.new0 n).st with SOC := soc }

theorem checkSOC_iff (s : ℚ) : checkSOC s = true ↔ 0 ≤ s ∧ s ≤ 1 := by
  unfold checkSOC
  simp

theorem new2_ok {cap soc : ℚ} {c : ECM n} (h : ECM.new2 n cap soc = .ok c) :
    (0 ≤ soc ∧ soc ≤ 1) ∧
      c = { par := { (ECM.new0 n).par with cap := cap }, st := { (ECM.new0 n).st with SOC := soc } } := by
  unfold ECM.new2 at h
  rcases hs : checkSOC soc
  · rw [hs] at h; simp at h
  · rw [hs] at h
    simp only [Bool.not_true, Bool.false_eq_true, if_false, Outcome.ok.injEq] at h
    exact ⟨(checkSOC_iff soc).mp hs, h.symm⟩

/-! ## C135 -/

/-- **C135, new cells.**  A cell can be made exactly when the state of charge is between 0 and 1; otherwise 10 is thrown.
It has never been used, has the capacity and the state of charge asked for, valid states, and the voltage of the straight
curve. -/
theorem ecm_new (cap soc Rdc : ℚ) (R tau : Fin n → ℚ) :
    ((0 ≤ soc ∧ soc ≤ 1) → ∃ c : ECM n, ECM.new5 n cap soc Rdc R (fun i => 1 / tau i) = .ok c ∧ Unused cap soc c ∧
      HasCircuit Rdc R tau c ∧ c.V = straightOcv soc ∧ c.validStates = true ∧ c.checkV = .Success) ∧
    (¬ (0 ≤ soc ∧ soc ≤ 1) → ECM.new5 n cap soc Rdc R (fun i => 1 / tau i) = .throw 10) := by
  constructor
  · intro h
    have hs := (checkSOC_iff soc).mpr h
    have e : ECM.new5 n cap soc Rdc R (fun i => 1 / tau i) = .ok (made n cap soc Rdc R tau) := by
      unfold ECM.new5 ECM.new2
      rw [hs]; rfl
    refine ⟨_, e, ⟨rfl, rfl, rfl, fun _ => rfl, rfl, rfl, rfl, rfl⟩, ⟨rfl, fun _ => rfl, fun _ => rfl⟩, ?_⟩
    have hV : (made n cap soc Rdc R tau).V = straightOcv soc := by
      have ho : (made n cap soc Rdc R tau).par.ocv (made n cap soc Rdc R tau).st.SOC = some (2 + 23 / 10 * soc) := by
        show ECM.newCurve soc = _
        rw [newCurve_eq, if_pos h]
      unfold ECM.V
      rw [ho]
      have z : (made n cap soc Rdc R tau).st.I = 0 := rfl
      have zr : ∀ i, (made n cap soc Rdc R tau).st.Ir i = 0 := fun _ => rfl
      simp only [z, zr, mul_zero, Finset.sum_const_zero, sub_zero]
      rfl
    refine ⟨hV, ?_, ?_⟩
    · have hT : (made n cap soc Rdc R tau).st.T = 288 := by show (273 + 15 : ℚ) = 288; norm_num
      have hS : (made n cap soc Rdc R tau).st.SOC = soc := rfl
      unfold ECM.validStates
      rw [hT, hS, hs]
      decide +kernel
    · have z : (made n cap soc Rdc R tau).st.I = 0 := rfl
      unfold ECM.checkV
      rw [hV, z]
      unfold checkVoltage straightOcv
      dsimp only
      rw [if_neg (by linarith [h.1])]
      simp
  · intro h
    have hs : checkSOC soc = false := by
      rcases hc : checkSOC soc
      · rfl
      · exact absurd ((checkSOC_iff soc).mp hc) h
    unfold ECM.new5 ECM.new2
    rw [hs]; rfl

/-- **C135, default cells.**  The same for a cell with the default circuit: 2 mOhm; with RC pairs, the first one has
15.8 mOhm and 600.4 s; with two RC pairs, the second one has 2.5 mOhm and 100 s.  The default cell has 16 Ah and is half
full. -/
theorem ecm_new_default (cap soc : ℚ) (R tau : Fin n → ℚ) (h0 : ∀ i : Fin n, i.val = 0 → R i = 158 / 10000 ∧ tau i = 6004 / 10)
    (h1 : ∀ i : Fin n, i.val = 1 → R i = 25 / 10000 ∧ tau i = 100) (hn : n ≤ 2) :
    ECM.new2 n cap soc = ECM.new5 n cap soc (2 / 1000) R (fun i => 1 / tau i) ∧
      ECM.new2 n 16 (1 / 2) = .ok (ECM.new0 n) := by
  have eR : ECM.newRp n = R := by
    funext i
    unfold ECM.newRp
    by_cases hi : i.val = 0
    · rw [if_pos hi, (h0 i hi).1]
    · have : i.val = 1 := by have := i.isLt; omega
      rw [if_neg hi, if_pos ⟨by have := i.isLt; omega, this⟩, (h1 i this).1]
  have eT : ECM.newInvTau n = fun i => 1 / tau i := by
    funext i
    unfold ECM.newInvTau
    by_cases hi : i.val = 0
    · rw [if_pos hi, (h0 i hi).2]; norm_num
    · have : i.val = 1 := by have := i.isLt; omega
      rw [if_neg hi, if_pos ⟨by have := i.isLt; omega, this⟩, (h1 i this).2]
  constructor
  · unfold ECM.new5 ECM.new2
    by_cases hs : checkSOC soc = true
    · rw [hs]
      rw [← eT, ← eR]
      rfl
    · rw [Bool.not_eq_true] at hs
      rw [hs]; rfl
  · have : checkSOC (1 / 2) = true := by decide +kernel
    unfold ECM.new2
    rw [this]
    rfl

/-- **C135, first pulse.**  The voltage of a new cell after a pulse of any current and any number of time steps has a
closed form as long as the cell is between empty and full; outside, the voltage is reported as 0. -/
theorem ecm_first_pulse {cap soc Rdc i dt : ℚ} {R tau : Fin n → ℚ} {c : ECM n} (k : ℕ) (hdt : 0 ≤ dt)
    (h : ECM.new5 n cap soc Rdc R (fun j => 1 / tau j) = .ok c) :
    ((c.setCurrent i false).2.timeStep dt k).1 = .ok () ∧
    ((c.setCurrent i false).2.timeStep dt k).2.V =
      (let z := soc - i * (k * dt) / 3600 / cap
       if 0 ≤ z ∧ z ≤ 1 then pulseVoltage cap soc Rdc R tau i dt k else 0) := by
  have hc : c = made n cap soc Rdc R tau := by
    unfold ECM.new5 at h
    rcases h2 : ECM.new2 n cap soc with d | e | w
    · rw [h2] at h
      have h' := Outcome.ok.inj h
      rw [← h', (new2_ok h2).2]; rfl
    · rw [h2] at h; cases h
    · rw [h2] at h; cases h
  have es : (c.setCurrent i false).2 = c.withI i := by
    unfold ECM.setCurrent ECM.checkCurrent
    rfl
  have et : (c.withI i).timeStep dt k = (.ok (), (c.withI i).steps dt k) := by
    unfold ECM.timeStep
    rw [if_neg hdt.not_gt]
  rw [es, et]
  refine ⟨rfl, ?_⟩
  dsimp only
  have ep : ((c.withI i).steps dt k).par = c.par := by rw [ECM.steps_par]; rfl
  have eI : ((c.withI i).steps dt k).st.I = i := by rw [ECM.steps_I]; rfl
  have ez : ((c.withI i).steps dt k).st.SOC = soc - i * (k * dt) / 3600 / cap := by
    rw [ECM.steps_SOC, hc]
    show soc - k * (i * (dt / 3600) / cap) = _
    ring
  have er : ∀ j, ((c.withI i).steps dt k).st.Ir j = (1 - (1 - dt / tau j) ^ k) * i := by
    intro j
    have h := ECM.steps_Ir (c.withI i) dt k j
    have h0 : (c.withI i).st.Ir j = 0 := by rw [hc]; rfl
    have h1 : (c.withI i).st.I = i := rfl
    have h2 : dt * (c.withI i).par.invTau j = dt / tau j := by
      rw [hc]; show dt * (1 / tau j) = _; ring
    rw [h0, h1, h2] at h
    linarith
  unfold ECM.V
  rw [ep, ez]
  have eo : c.par.ocv = ECM.newCurve := by rw [hc]; rfl
  rw [eo, newCurve_eq]
  by_cases hz : 0 ≤ soc - i * (k * dt) / 3600 / cap ∧ soc - i * (k * dt) / 3600 / cap ≤ 1
  · rw [if_pos hz, if_pos hz]
    dsimp only
    rw [eI]
    have e1 : c.par.Rdc = Rdc := by rw [hc]; rfl
    have e2 : c.par.Rp = R := by rw [hc]; rfl
    rw [e1, e2]
    unfold pulseVoltage straightOcv
    congr 1
    exact Finset.sum_congr rfl fun j _ => by rw [er]; ring
  · rw [if_neg hz, if_neg hz]

/-- The capacity is not checked: a cell of 0 Ah is accepted. -/
theorem not_badCapacityRefused : ¬ BadCapacityRefused := by
  intro h
  obtain ⟨e, he⟩ := h 1 0 (1 / 2) le_rfl
  have : ECM.new2 1 0 (1 / 2) = .ok { par := { (ECM.new0 1).par with cap := 0 }, st := (ECM.new0 1).st } := by
    have : checkSOC (1 / 2) = true := by decide +kernel
    unfold ECM.new2
    rw [this]; rfl
  rw [this] at he
  cases he

/-- A cell with a negative capacity is accepted as well, and discharging fills it. -/
theorem negative_capacity_fills {cap soc i dt : ℚ} {c : ECM n} {k : ℕ} (hc : cap < 0) (hi : 0 < i) (hdt : 0 < dt) (hk : 0 < k)
    (h : ECM.new2 n cap soc = .ok c) : soc < ((c.setCurrent i false).2.timeStep dt k).2.st.SOC := by
  have hc' := (new2_ok h).2
  have es : (c.setCurrent i false).2 = c.withI i := by
    unfold ECM.setCurrent ECM.checkCurrent
    rfl
  rw [es]
  unfold ECM.timeStep
  rw [if_neg hdt.le.not_gt]
  dsimp only
  rw [ECM.steps_SOC, hc']
  show soc < soc - k * (i * (dt / 3600) / cap)
  have h1 : 0 < i * (dt / 3600) := by positivity
  have h2 : i * (dt / 3600) / cap < 0 := div_neg_of_pos_of_neg h1 hc
  have hk' : (0 : ℚ) < k := by exact_mod_cast hk
  have := mul_neg_of_pos_of_neg hk' h2
  linarith

/-- **C135, RC current (partial: cells with an RC pair).**  The current reported for the parallel resistance is that of
the first RC pair. -/
theorem getIr_partial (c : ECM (n + 1)) : c.getIr = .ok (c.st.Ir 0) := by
  unfold ECM.getIr readAt ECM.getStates
  simp [List.ofFn_succ]

/-- What a cell without RC pairs reports instead: the time. -/
theorem getIr_bucket (c : ECM 0) : c.getIr = .ok c.st.time := by
  unfold ECM.getIr readAt ECM.getStates
  simp

/-- The full statement is false for cells without RC pairs. -/
theorem not_reportsRcCurrent : ¬ ReportsRcCurrent := by
  intro h
  obtain ⟨h0, -⟩ := h 0 (ECM.new0 0) 0 (getIr_bucket _)
  exact absurd h0 (lt_irrefl 0)

/-- The hypotheses are met: a cell of 5 Ah, 80 % full, with two RC pairs, and 10 steps of 6 s at 5 A. -/
example : ∃ c : ECM 2, ECM.new5 2 5 (4 / 5) (1 / 1000) ![1 / 100, 1 / 200] (fun j => 1 / ![600, 100] j) = .ok c ∧
    ((c.setCurrent 5 false).2.timeStep 6 10).2.V = pulseVoltage 5 (4 / 5) (1 / 1000) ![1 / 100, 1 / 200] ![600, 100] 5 6 10 := by
  obtain ⟨c, hc, -⟩ := (ecm_new 5 (4 / 5) (1 / 1000) ![1 / 100, 1 / 200] ![600, 100]).1 (by norm_num)
  refine ⟨c, hc, ?_⟩
  rw [(ecm_first_pulse 10 (by norm_num) hc).2]
  norm_num

/-- Default circuits with one and with two RC pairs meet the hypotheses of `ecm_new_default`. -/
example : (∀ i : Fin 2, i.val = 0 → (![158 / 10000, 25 / 10000] : Fin 2 → ℚ) i = 158 / 10000 ∧ (![6004 / 10, 100] : Fin 2 → ℚ) i = 6004 / 10) ∧
    (∀ i : Fin 2, i.val = 1 → (![158 / 10000, 25 / 10000] : Fin 2 → ℚ) i = 25 / 10000 ∧ (![6004 / 10, 100] : Fin 2 → ℚ) i = 100) := by
  constructor <;> decide +kernel

/-- A cell with a negative capacity exists. -/
example : ∃ c : ECM 1, ECM.new2 1 (-16) (1 / 2) = .ok c := by
  have : checkSOC (1 / 2) = true := by decide +kernel
  unfold ECM.new2
  rw [this]
  exact ⟨_, rfl⟩

end Slide

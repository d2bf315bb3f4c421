import Verif.Spec.SideReactions
import Verif.Props.Reference
import Verif.Props.SPMAge

/-! C120 and C121: how fast the side reactions may run. -/

namespace Slide
open Spec SPM

variable {N : ℕ}

/-! ### Diffusion through the layer -/

theorem Spec.ThroughLayer.nonneg {n k D c0 δ j : ℚ} (h : ThroughLayer n k D c0 δ j) (hn : 0 ≤ n) (hk : 0 ≤ k) : 0 ≤ j := by
  obtain ⟨s, h0, -, h2, -⟩ := h
  rw [h2]; exact mul_nonneg (mul_nonneg (mul_nonneg hn (by norm_num)) hk) h0

/-- A slower reaction, a lower concentration outside or a thicker layer make the current smaller. -/
theorem Spec.ThroughLayer.mono {n k k' D c0 c0' δ δ' j j' : ℚ} (h : ThroughLayer n k D c0 δ j)
    (h' : ThroughLayer n k' D c0' δ' j') (hn : 0 < n) (hk : 0 ≤ k') (hkk : k' ≤ k) (hD : 0 ≤ D) (hc : c0' ≤ c0)
    (hδ : 0 < δ) (hδδ : δ ≤ δ') : j' ≤ j := by
  by_contra hlt
  have hlt := not_le.mp hlt
  have hj := h.nonneg hn.le (hk.trans hkk)
  obtain ⟨s, h0, h1, h2, h3⟩ := h
  obtain ⟨s', h0', h1', h2', h3'⟩ := h'
  have hF : (0 : ℚ) < n * 96487 := mul_pos hn (by norm_num)
  have e1 : s < s' := by
    by_contra hs
    have hs := not_lt.mp hs
    have : n * 96487 * k' * s' ≤ n * 96487 * k * s :=
      mul_le_mul (mul_le_mul_of_nonneg_left hkk hF.le) hs h0' (mul_nonneg hF.le (hk.trans hkk))
    rw [← h2, ← h2'] at this
    exact absurd this (not_le.mpr hlt)
  have e2 : δ * j < δ' * j' :=
    lt_of_lt_of_le (mul_lt_mul_of_pos_left hlt hδ) (mul_le_mul_of_nonneg_right hδδ (hj.trans hlt.le))
  rw [h3, h3'] at e2
  have e3 : n * 96487 * D * (c0' - s') ≤ n * 96487 * D * (c0 - s) :=
    mul_le_mul_of_nonneg_left (by linarith) (mul_nonneg hF.le hD)
  exact absurd e2 (not_lt.mpr e3)

/-- The two equations leave no choice. -/
theorem Spec.ThroughLayer.unique {n k D c0 δ j j' : ℚ} (h : ThroughLayer n k D c0 δ j) (h' : ThroughLayer n k D c0 δ j')
    (hn : 0 < n) (hk : 0 ≤ k) (hD : 0 ≤ D) (hδ : 0 < δ) : j = j' :=
  le_antisymm (h'.mono h hn hk le_rfl hD le_rfl hδ le_rfl) (h.mono h' hn hk le_rfl hD le_rfl hδ le_rfl)

/-- C120: the current is limited by the reaction and by the diffusion. -/
theorem Spec.ThroughLayer.limits {n k D c0 δ j : ℚ} (h : ThroughLayer n k D c0 δ j) (hn : 0 < n) (hk : 0 ≤ k)
    (hD : 0 ≤ D) : j ≤ n * 96487 * k * c0 ∧ δ * j ≤ n * 96487 * D * c0 := by
  obtain ⟨s, h0, h1, h2, h3⟩ := h
  have hF : (0 : ℚ) ≤ n * 96487 := (mul_pos hn (by norm_num)).le
  constructor
  · rw [h2]; exact mul_le_mul_of_nonneg_left h1 (mul_nonneg hF hk)
  · rw [h3]; exact mul_le_mul_of_nonneg_left (by linarith) (mul_nonneg hF hD)

theorem seriesRate_layer {n k D c0 δ x : ℚ} (hn : 0 < n) (hk : 0 ≤ k) (hD : 0 ≤ D) (hc : 0 ≤ c0) (hδ : 0 < δ)
    (h : seriesRate c0 (n * Faraday * k) δ (n * Faraday * D) = .ok x) : ThroughLayer n k D c0 δ x := by
  have hF : (0 : ℚ) < n * 96487 := mul_pos hn (by norm_num)
  unfold seriesRate at h
  rw [show Faraday = 96487 from rfl] at h
  by_cases hd : n * 96487 * D = 0
  · have hD0 : D = 0 := by rcases mul_eq_zero.mp hd with h | h; exact absurd h hF.ne'; exact h
    rw [if_pos hd, if_neg hδ.ne'] at h
    rw [← Outcome.ok.inj h, hD0]
    exact ⟨0, le_rfl, hc, by ring, by ring⟩
  · rw [if_neg hd] at h
    by_cases ha : n * 96487 * k = 0
    · have hk0 : k = 0 := by rcases mul_eq_zero.mp ha with h | h; exact absurd h hF.ne'; exact h
      rw [if_pos ha] at h
      rw [← Outcome.ok.inj h, hk0]
      exact ⟨c0, hc, le_rfl, by ring, by ring⟩
    · rw [if_neg ha] at h
      have hk1 : 0 < k := lt_of_le_of_ne hk (fun e => ha (by rw [← e]; ring))
      have hD1 : 0 < D := lt_of_le_of_ne hD (fun e => hd (by rw [← e]; ring))
      have hsum : (0 : ℚ) < 1 / (n * 96487 * k) + δ / (n * 96487 * D) :=
        add_pos (div_pos one_pos (mul_pos hF hk1)) (div_pos hδ (mul_pos hF hD1))
      rw [if_neg hsum.ne'] at h
      have hx := Outcome.ok.inj h
      have hden : (0 : ℚ) < D + δ * k := add_pos hD1 (mul_pos hδ hk1)
      refine ⟨c0 * D / (D + δ * k), div_nonneg (mul_nonneg hc hD) hden.le, ?_, ?_, ?_⟩
      · rw [div_le_iff₀ hden]
        nlinarith [mul_nonneg hc (mul_nonneg hδ.le hk)]
      · rw [← hx]
        have := hn.ne'; have := hk1.ne'; have := hD1.ne'; have := hden.ne'
        have hs' := hsum.ne'
        rw [div_eq_iff hs']
        field_simp
      · rw [← hx]
        have := hn.ne'; have := hk1.ne'; have := hD1.ne'; have := hden.ne'
        have hs' := hsum.ne'
        rw [← mul_div_assoc, div_eq_iff hs']
        field_simp
        ring

theorem Spec.SpmPhysical.atTemp {c : SPM N} (hp : SpmPhysical c.par) {k : ℚ} (hk : 0 ≤ k) (E : ℚ) :
    0 ≤ atTemperature c k E := mul_nonneg hk (hp.exp _)

/-- C120: every model of SEI growth gives the current density of its equations, and only that. -/
theorem sei_law {c : SPM N} (hp : SpmPhysical c.par) (hδ : 0 < c.st.delta) (o : ℚ) (i : ℕ) (j : ℚ) :
    c.seiModel o i = .ok j ↔ SeiLaw c o i j := by
  have key : ∀ {k D c0 : ℚ}, 0 ≤ k → 0 ≤ D → 0 ≤ c0 →
      (seriesRate c0 (c.par.nsei * Faraday * k) c.st.delta (c.par.nsei * Faraday * D) = .ok j ↔
        ThroughLayer c.par.nsei k D c0 c.st.delta j) := by
    intro k D c0 hk hD hc
    refine ⟨seriesRate_layer hp.nsei hk hD hc hδ, fun h => ?_⟩
    obtain ⟨x, hx⟩ : ∃ x, seriesRate c0 (c.par.nsei * Faraday * k) c.st.delta (c.par.nsei * Faraday * D) = .ok x := by
      have hF : (0 : ℚ) < c.par.nsei * Faraday := mul_pos hp.nsei faraday_pos
      unfold seriesRate
      by_cases hd : c.par.nsei * Faraday * D = 0
      · rw [if_pos hd, if_neg hδ.ne']; exact ⟨_, rfl⟩
      rw [if_neg hd]
      by_cases ha : c.par.nsei * Faraday * k = 0
      · rw [if_pos ha]; exact ⟨_, rfl⟩
      have hD1 : 0 < c.par.nsei * Faraday * D := lt_of_le_of_ne (mul_nonneg hF.le hD) (Ne.symm hd)
      have hk1 : 0 < c.par.nsei * Faraday * k := lt_of_le_of_ne (mul_nonneg hF.le hk) (Ne.symm ha)
      rw [if_neg ha, if_neg (add_pos (div_pos one_pos hk1) (div_pos hδ hD1)).ne']
      exact ⟨_, rfl⟩
    rw [hx, (seriesRate_layer hp.nsei hk hD hc hδ hx).unique h hp.nsei hk hD hδ]
  have hF : Faraday = 96487 := rfl
  have harr : ∀ k E, k * c.par.exp (E * c.arrh) = atTemperature c k E := fun _ _ => rfl
  have htaf : ∀ eta, c.par.exp (-c.par.nsei * Faraday / (Rgas * c.st.T) * c.par.alphasei * eta) =
      tafel c c.par.nsei c.par.alphasei eta := fun _ => rfl
  have hnum : ∀ eta, c.par.exp (-c.par.nsei * Faraday * eta / (Rgas * c.st.T)) = tafel c c.par.nsei 1 eta := by
    intro eta
    unfold tafel
    rw [show Rgas = 8314 / 1000 from rfl, hF]
    congr 1
    ring
  have hover : c.etaSei o = seiOver c o := rfl
  have hnn : ∀ eta, (0 : ℚ) ≤ 134461 / 1000000 * tafel c c.par.nsei 1 eta := fun eta =>
    mul_nonneg (by norm_num) (hp.exp _)
  match i with
  | 0 =>
    show (Outcome.ok (0 : ℚ) = .ok j) ↔ j = 0
    rw [Outcome.ok.injEq]; exact eq_comm
  | 1 =>
    unfold seiModel SeiLaw
    simp only
    rw [harr, htaf, hover, Outcome.ok.injEq, hF, mul_assoc (c.par.nsei * 96487)]
    exact eq_comm
  | 2 =>
    unfold seiModel SeiLaw
    simp only
    rw [harr, harr, htaf, hover, mul_assoc (c.par.nsei * Faraday)]
    exact key (mul_nonneg (hp.atTemp hp.k2 _) (hp.exp _)) (hp.atTemp hp.D2 _) hp.c_elec0
  | 3 =>
    unfold seiModel SeiLaw
    simp only
    rw [harr, harr, htaf, hnum, mul_assoc (c.par.nsei * Faraday), show aLK = 134461 / 1000000 from rfl]
    exact key (mul_nonneg (hp.atTemp hp.k3 _) (hp.exp _)) (hp.atTemp hp.D3 _) (hnn _)
  | 4 =>
    unfold seiModel SeiLaw
    simp only
    rw [harr, harr, htaf, hnum, mul_assoc (c.par.nsei * Faraday), show aLK = 134461 / 1000000 from rfl]
    exact key (mul_nonneg (hp.atTemp hp.k4 _) (hp.exp _)) (hp.atTemp hp.D4 _) (hnn _)
  | _ + 5 =>
    show (Outcome.throw 106 = .ok j) ↔ False
    simp

/-! ### Runs -/

theorem askedOp_nonneg {o : SpmOp N} (ho : ordinary o) : 0 ≤ askedOp o := by
  cases o with
  | step dt n =>
    show 0 ≤ if dt < 0 then (0 : ℚ) else dt * n
    by_cases h : dt < 0
    · rw [if_pos h]
    · rw [if_neg h]
      exact mul_nonneg (not_lt.mp h) (by exact_mod_cast (ho : 0 ≤ n))
  | _ => exact le_refl (0 : ℚ)

theorem asked_nonneg {ops : List (SpmOp N)} (ho : ∀ o ∈ ops, ordinary o) : 0 ≤ asked ops := by
  unfold asked
  apply List.sum_nonneg
  intro x hx
  obtain ⟨o, h1, rfl⟩ := List.mem_map.mp hx
  exact askedOp_nonneg (ho o h1)

/-- An operation of ordinary use changes no degradation state, or is a time step which adds the degradation rates of a cell
of the same age and current, over the time asked for. -/
theorem ordinary_timed {c : SPM N} (o : SpmOp N) (ho : ordinary o) :
    SameAge c (spmAfter c o) ∨ ∃ c1 d, SameAge c c1 ∧ c1.st.I = c.st.I ∧ c1.degRate = .ok d ∧
      spmAfter c o = c1.addRate d (askedOp o) := by
  by_cases hs : ∃ dt n, o = .step dt n
  · obtain ⟨dt, n, rfl⟩ := hs
    rcases timeStep_age c dt n with h | ⟨hdt, c1, d, h1, h2, h3, h4, h5⟩
    · exact .inl h
    · refine .inr ⟨c1, d, h1, h2, h4, ?_⟩
      show (c.timeStep dt n).2 = c1.addRate d (if dt < 0 then 0 else dt * n)
      rw [if_neg (not_lt.mpr hdt)]; exact h5
  · exact .inl (sameAge_ordinary o ho (fun dt n e => hs ⟨dt, n, e⟩))

theorem sumModels_single {f : ℕ → Outcome ℚ} {i : ℕ} {x : ℚ} (h : sumModels f [i] = .ok x) : f i = .ok x := by
  unfold sumModels at h
  obtain ⟨a, ha, h⟩ := Outcome.bind_eq_ok.mp h
  unfold sumModels at h
  rw [Outcome.ok_bind] at h
  rw [ha, ← Outcome.ok.inj h, add_zero]

/-- C120: rates of ageing are only computed when every division in them is one by a number other than 0: the exchange
current density of neither electrode may vanish. -/
theorem degRate_divides {c : SPM N} {d : DegRate N} (h : c.degRate = .ok d) :
    c.i0p ≠ 0 ∧ c.i0n ≠ 0 ∧ c.par.nsei ≠ 0 ∧ c.par.npl ≠ 0 ∧ c.par.rhosei ≠ 0 ∧ c.par.rhopl ≠ 0 ∧ c.par.Rp ≠ 0 ∧
      c.par.Rn ≠ 0 := by
  unfold degRate at h
  dsimp only at h
  by_cases h1 : (!c.finite) = true
  · rw [if_pos h1] at h; cases h
  rw [if_neg h1] at h
  by_cases h2 : (!c.concOk) = true
  · rw [if_pos h2] at h; cases h
  rw [if_neg h2] at h
  by_cases h3 : (c.i0p = 0 || c.i0n = 0 || c.par.nsei = 0 || c.par.npl = 0 || c.par.rhosei = 0 || c.par.rhopl = 0 ||
      c.par.Rp = 0 || c.par.Rn = 0) = true
  · rw [if_pos h3] at h; cases h
  simp only [Bool.or_eq_true, decide_eq_true_eq, not_or] at h3
  tauto

/-- The rate of growth of the layer by model 2, times its thickness, is limited by the diffusion. -/
theorem layer_rate {c : SPM N} {d : DegRate N} (hd : c.degRate = .ok d) (hp : SpmPhysical c.par) (hδ : 0 < c.st.delta)
    (h2 : c.deg.SEI = [2]) :
    0 ≤ d.delta ∧ c.st.delta * d.delta ≤
      atTemperature c c.par.sei.D2 c.par.sei.D2_T * c.par.c_elec0 / c.par.rhosei := by
  refine ⟨(degRate_nonneg hd hp hδ.le).1, ?_⟩
  obtain ⟨-, o, sei, cr, l, ipl, h1, -, -, -, e1, -⟩ := degRate_spec hd
  have hs := (SEI_spec h1).1
  rw [h2] at hs
  have hl := ((sei_law hp hδ o 2 _).mp (sumModels_single hs)).limits hp.nsei
    (mul_nonneg (hp.atTemp hp.k2 _) (hp.exp _)) (hp.atTemp hp.D2 _)
  have hF : (0 : ℚ) < c.par.nsei * 96487 := mul_pos hp.nsei (by norm_num)
  rw [e1, show Faraday = 96487 from rfl, ← mul_div_assoc, div_le_div_iff₀ (mul_pos hF hp.rhosei) hp.rhosei]
  have := mul_le_mul_of_nonneg_right hl.2 hp.rhosei.le
  calc _ ≤ _ := this
    _ = _ := by ring

/-- C120: growth limited by diffusion through the layer follows the square root of time.  Whatever is done with the cell in
ordinary use – any currents, any temperatures with the diffusion constant below `D`, however the operations end –, the
square of the thickness grows at most linearly with the simulated time; the last term is the error of the explicit time
integration, which vanishes with the length `H` of the calls. -/
theorem layer_squareRoot {D H δ₀ : ℚ} (hδ : 0 < δ₀) (hH : 0 ≤ H) (ops : List (SpmOp N)) : ∀ (c : SPM N), SpmPhysical c.par →
    δ₀ ≤ c.st.delta → c.deg.SEI = [2] → (∀ o ∈ ops, ordinary o) → StepsAtMost H ops →
    throughout (fun a => atTemperature a a.par.sei.D2 a.par.sei.D2_T ≤ D) c ops →
    (spmRun c ops).st.delta ^ 2 ≤ c.st.delta ^ 2 +
      (2 * (D * c.par.c_elec0 / c.par.rhosei) + H * (D * c.par.c_elec0 / c.par.rhosei / δ₀) ^ 2) * asked ops := by
  induction ops with
  | nil =>
    intro c _ _ _ _ _ _
    show c.st.delta ^ 2 ≤ c.st.delta ^ 2 + _ * (0 : ℚ)
    rw [mul_zero, add_zero]
  | cons o os ih =>
    intro c hp h0 h2 ho hH' hD
    have hoo := ho o (List.mem_cons_self ..)
    have hh := askedOp_nonneg hoo
    have hhH := hH' o (List.mem_cons_self ..)
    have hos := fun o' h' => ho o' (List.mem_cons_of_mem o h')
    obtain ⟨K, hK⟩ : ∃ K, K = D * c.par.c_elec0 / c.par.rhosei := ⟨_, rfl⟩
    have hK0 : 0 ≤ K := by
      rw [hK]; exact div_nonneg (mul_nonneg ((hp.atTemp hp.D2 _).trans hD.1) hp.c_elec0) hp.rhosei.le
    have hDD : throughout (fun a => atTemperature a a.par.sei.D2 a.par.sei.D2_T ≤ D) (spmAfter c o) os := hD.2
    have step : (spmAfter c o).st.delta ^ 2 ≤ c.st.delta ^ 2 + (2 * K + H * (K / δ₀) ^ 2) * askedOp o ∧
        c.st.delta ≤ (spmAfter c o).st.delta ∧ (spmAfter c o).par = c.par ∧ (spmAfter c o).deg = c.deg := by
      rcases ordinary_timed (c := c) o hoo with h | ⟨c1, d, s, -, hd, e⟩
      · refine ⟨?_, h.delta.ge, h.par, h.deg⟩
        rw [h.delta]
        exact le_add_of_nonneg_right (mul_nonneg (add_nonneg (mul_nonneg (by norm_num) hK0)
          (mul_nonneg hH (sq_nonneg _))) hh)
      · have hDa : atTemperature (spmAfter c o) (spmAfter c o).par.sei.D2 (spmAfter c o).par.sei.D2_T ≤ D := by
          cases os with
          | nil => exact hDD
          | cons _ _ => exact hDD.1
        rw [e] at hDa
        have hδ1 : 0 < c1.st.delta := by rw [s.delta]; exact lt_of_lt_of_le hδ h0
        obtain ⟨r0, r1⟩ := layer_rate hd (s.par ▸ hp) hδ1 (by rw [s.deg]; exact h2)
        have hDc : atTemperature c1 c1.par.sei.D2 c1.par.sei.D2_T ≤ D := hDa
        have r2 : c.st.delta * d.delta ≤ K := by
          rw [← s.delta]
          refine r1.trans ?_
          rw [hK, s.par]
          rw [s.par] at hDc
          exact div_le_div_of_nonneg_right (mul_le_mul_of_nonneg_right hDc hp.c_elec0) hp.rhosei.le
        have r3 : d.delta ≤ K / δ₀ := by
          rw [le_div_iff₀ hδ]
          calc d.delta * δ₀ ≤ d.delta * c.st.delta := mul_le_mul_of_nonneg_left h0 r0
            _ = c.st.delta * d.delta := mul_comm _ _
            _ ≤ K := r2
        have e1 : (spmAfter c o).st.delta = c.st.delta + d.delta * askedOp o := by
          rw [e, ← s.delta]; rfl
        refine ⟨?_, by rw [e1]; exact le_add_of_nonneg_right (mul_nonneg r0 hh), by rw [e]; exact s.par,
          by rw [e]; exact s.deg⟩
        rw [e1]
        have q1 : askedOp o * (c.st.delta * d.delta) ≤ askedOp o * K := mul_le_mul_of_nonneg_left r2 hh
        have q2 : d.delta ^ 2 ≤ (K / δ₀) ^ 2 := pow_le_pow_left₀ r0 r3 2
        have q3 : askedOp o * askedOp o * d.delta ^ 2 ≤ askedOp o * H * (K / δ₀) ^ 2 :=
          mul_le_mul (mul_le_mul_of_nonneg_left hhH hh) q2 (sq_nonneg _) (mul_nonneg hh hH)
        nlinarith
    obtain ⟨s1, s2, s3, s4⟩ := step
    have := ih (spmAfter c o) (by rw [s3]; exact hp) (h0.trans s2) (by rw [s4]; exact h2) hos
      (fun o' h' => hH' o' (List.mem_cons_of_mem o h')) hDD
    rw [s3, ← hK] at this
    rw [← hK]
    show (spmRun (spmAfter c o) os).st.delta ^ 2 ≤ _
    have ea : asked (o :: os) = askedOp o + asked os := rfl
    rw [ea, mul_add]
    linarith

/-! ### Protection by the layer -/

/-- The rate of growth of the layer, with the open-circuit potential of the anode at which it is computed. -/
theorem degRate_layer {c : SPM N} {d : DegRate N} (h : c.degRate = .ok d) :
    ∃ q n is, look c.par.dNeg (c.cps / c.par.Cmaxpos) = .ok q ∧ look c.par.ocvN (c.cns / c.par.Cmaxneg) = .ok n ∧
      sumModels (c.seiModel (n + (c.st.T - c.par.T_ref) * q)) c.deg.SEI = .ok is ∧
      d.delta = is / (c.par.nsei * Faraday * c.par.rhosei) := by
  unfold degRate at h
  simp only at h
  split at h
  · simp at h
  · split at h
    · simp at h
    · split at h
      · simp at h
      · obtain ⟨q, hq, h⟩ := Outcome.bind_eq_ok.mp h
        obtain ⟨n, hn, h⟩ := Outcome.bind_eq_ok.mp h
        obtain ⟨sei, hsei, h⟩ := Outcome.bind_eq_ok.mp h
        obtain ⟨cr, hcr, h⟩ := Outcome.bind_eq_ok.mp h
        obtain ⟨l, hl, h⟩ := Outcome.bind_eq_ok.mp h
        obtain ⟨ipl, hpl, h⟩ := Outcome.bind_eq_ok.mp h
        have h := Outcome.ok.inj h
        exact ⟨q, n, sei.1, hq, hn, (SEI_spec hsei).1, by rw [← h]⟩

theorem sumModels_le {f g : ℕ → Outcome ℚ} {l : List ℕ} (h : ∀ i ∈ l, ∀ x y, f i = .ok x → g i = .ok y → x ≤ y) :
    ∀ {x y}, sumModels f l = .ok x → sumModels g l = .ok y → x ≤ y := by
  induction l with
  | nil =>
    intro x y hx hy
    unfold sumModels at hx hy
    rw [← Outcome.ok.inj hx, ← Outcome.ok.inj hy]
  | cons i l ih =>
    intro x y hx hy
    unfold sumModels at hx hy
    obtain ⟨a, ha, hx⟩ := Outcome.bind_eq_ok.mp hx
    obtain ⟨r, hr, hx⟩ := Outcome.bind_eq_ok.mp hx
    obtain ⟨a', ha', hy⟩ := Outcome.bind_eq_ok.mp hy
    obtain ⟨r', hr', hy⟩ := Outcome.bind_eq_ok.mp hy
    rw [← Outcome.ok.inj hx, ← Outcome.ok.inj hy]
    exact add_le_add (h i (List.mem_cons_self ..) _ _ ha ha')
      (ih (fun i' h' => h i' (List.mem_cons_of_mem _ h')) hr hr')

/-- C120 (partial): a thicker layer does not grow faster, on discharge and at rest, and for model 4 always.  Missing: on
charge the drop over the layer drives models 1 to 3, so that a thicker layer may grow faster (`not_layerProtects`). -/
theorem layerProtects_partial (c : SPM N) (δ₁ δ₂ : ℚ) (d₁ d₂ : DegRate N) (hp : SpmPhysical c.par) (hm : SeiMonotone c.par)
    (hT : 0 < c.st.T) (h0 : 0 < δ₁) (hle : δ₁ ≤ δ₂) (h1 : (withLayer c δ₁).degRate = .ok d₁)
    (h2 : (withLayer c δ₂).degRate = .ok d₂) (hI : 0 ≤ c.st.I ∨ ∀ i ∈ c.deg.SEI, i = 0 ∨ i = 4) :
    d₂.delta ≤ d₁.delta := by
  obtain ⟨q, n, is, hq, hn, hs, e⟩ := degRate_layer h1
  obtain ⟨q', n', is', hq', hn', hs', e'⟩ := degRate_layer h2
  have eq : q' = q := by
    have : look c.par.dNeg (c.cps / c.par.Cmaxpos) = .ok q := hq
    have h' : look c.par.dNeg (c.cps / c.par.Cmaxpos) = .ok q' := hq'
    rw [this] at h'; exact (Outcome.ok.inj h').symm
  have en : n' = n := by
    have : look c.par.ocvN (c.cns / c.par.Cmaxneg) = .ok n := hn
    have h' : look c.par.ocvN (c.cns / c.par.Cmaxneg) = .ok n' := hn'
    rw [this] at h'; exact (Outcome.ok.inj h').symm
  subst eq en
  obtain ⟨o, ho⟩ : ∃ o, o = n' + (c.st.T - c.par.T_ref) * q' := ⟨_, rfl⟩
  have hs1 : sumModels ((withLayer c δ₁).seiModel o) c.deg.SEI = .ok is := by rw [ho]; exact hs
  have hs2 : sumModels ((withLayer c δ₂).seiModel o) c.deg.SEI = .ok is' := by rw [ho]; exact hs'
  have hrate : is' ≤ is := by
    refine sumModels_le ?_ hs2 hs1
    intro i hi x y hx hy
    have hp1 : SpmPhysical (withLayer c δ₁).par := hp
    have hp2 : SpmPhysical (withLayer c δ₂).par := hp
    have hx := (sei_law hp2 (lt_of_lt_of_le h0 hle) o i x).mp hx
    have hy := (sei_law hp1 h0 o i y).mp hy
    -- the Tafel factor falls with the overpotential
    have taf : ∀ {alpha a b : ℚ}, 0 ≤ alpha → a ≤ b → tafel c c.par.nsei alpha b ≤ tafel c c.par.nsei alpha a := by
      intro alpha a b hal hab
      apply hm.exp
      have : -c.par.nsei * 96487 / (8314 / 1000 * c.st.T) * alpha ≤ 0 := by
        apply mul_nonpos_of_nonpos_of_nonneg _ hal
        apply div_nonpos_of_nonpos_of_nonneg
        · have := hp.nsei; nlinarith
        · exact mul_nonneg (by norm_num) hT.le
      exact mul_le_mul_of_nonpos_left hab this
    have drop : 0 ≤ c.st.I → c.par.rsei * δ₁ * c.st.I ≤ c.par.rsei * δ₂ * c.st.I := fun h =>
      mul_le_mul_of_nonneg_right (mul_le_mul_of_nonneg_left hle hm.rsei) h
    have over : 0 ≤ c.st.I → seiOver (withLayer c δ₁) o ≤ seiOver (withLayer c δ₂) o := by
      intro h
      show o + c.etan - c.par.OCVsei + c.par.rsei * δ₁ * c.st.I ≤ o + c.etan - c.par.OCVsei + c.par.rsei * δ₂ * c.st.I
      linarith [drop h]
    have hF : (0 : ℚ) ≤ c.par.nsei * 96487 := (mul_pos hp.nsei (by norm_num)).le
    by_cases h4 : i = 0 ∨ i = 4
    · rcases h4 with rfl | rfl
      · rw [show x = 0 from hx, show y = 0 from hy]
      · exact Spec.ThroughLayer.mono hy hx hp.nsei (mul_nonneg (hp1.atTemp hp.k4 _) (hp.exp _)) le_rfl
          (hp1.atTemp hp.D4 _) le_rfl h0 hle
    · have hI0 : 0 ≤ c.st.I := hI.resolve_right (fun h => h4 (h i hi))
      match i, h4 with
      | 0, h4 => exact absurd (.inl rfl) h4
      | 1, _ =>
        have ex : x = c.par.nsei * 96487 * (atTemperature c c.par.sei.k1 c.par.sei.k1_T *
          tafel c c.par.nsei c.par.alphasei (seiOver (withLayer c δ₂) o)) := hx
        have ey : y = c.par.nsei * 96487 * (atTemperature c c.par.sei.k1 c.par.sei.k1_T *
          tafel c c.par.nsei c.par.alphasei (seiOver (withLayer c δ₁) o)) := hy
        rw [ex, ey]
        exact mul_le_mul_of_nonneg_left (mul_le_mul_of_nonneg_left (taf hm.alpha (over hI0)) (hp.atTemp hp.k1 _)) hF
      | 2, _ =>
        exact Spec.ThroughLayer.mono hy hx hp.nsei (mul_nonneg (hp2.atTemp hp.k2 _) (hp.exp _))
          (mul_le_mul_of_nonneg_left (taf hm.alpha (over hI0)) (hp.atTemp hp.k2 _)) (hp1.atTemp hp.D2 _) le_rfl h0 hle
      | 3, _ =>
        refine Spec.ThroughLayer.mono hy hx hp.nsei (mul_nonneg (hp1.atTemp hp.k3 _) (hp.exp _)) le_rfl
          (hp1.atTemp hp.D3 _) ?_ h0 hle
        refine mul_le_mul_of_nonneg_left (taf zero_le_one ?_) (by norm_num)
        show c.etan + c.par.rsei * δ₁ * c.st.I ≤ c.etan + c.par.rsei * δ₂ * c.st.I
        linarith [drop hI0]
      | 4, h4 => exact absurd (.inr rfl) h4
      | _ + 5, _ => exact hx.elim
  rw [e, e']
  have : (0 : ℚ) < c.par.nsei * Faraday * c.par.rhosei := mul_pos (mul_pos hp.nsei faraday_pos) hp.rhosei
  exact div_le_div_of_nonneg_right hrate this.le

theorem growing_pos (x : ℚ) : 0 < growing x := by
  unfold growing
  by_cases h : x ≤ 0
  · rw [if_pos h]; exact div_pos one_pos (by linarith)
  · rw [if_neg h]; linarith [not_le.mp h]

theorem growing_mono (x y : ℚ) (h : x ≤ y) : growing x ≤ growing y := by
  unfold growing
  by_cases hy : y ≤ 0
  · rw [if_pos hy, if_pos (h.trans hy)]
    exact one_div_le_one_div_of_le (by linarith) (by linarith)
  · rw [if_neg hy]
    by_cases hx : x ≤ 0
    · rw [if_pos hx]
      have : 1 / (1 - x) ≤ 1 := by rw [div_le_one (by linarith)]; linarith
      linarith [not_le.mp hy]
    · rw [if_neg hx]; linarith

theorem spmPot_physical : SpmPhysical spmPot.par :=
  ⟨fun x => (growing_pos x).le, fun x => le_max_right _ _, by decide +kernel, by decide +kernel,
   by decide +kernel, by decide +kernel, by decide +kernel, by decide +kernel, by decide +kernel, by decide +kernel,
   by decide +kernel, by decide +kernel, by decide +kernel, by decide +kernel, by decide +kernel, by decide +kernel,
   by decide +kernel, by decide +kernel, by decide +kernel, by decide +kernel, by decide +kernel⟩

theorem spmPot_monotone : SeiMonotone spmPot.par := ⟨growing_mono, by decide +kernel, by decide +kernel⟩

/-- The cell of the examples, charged. -/
def spmCharged : SPM 1 := { spmPot with st := { spmPot.st with I := -1 }, deg := { spmPot.deg with SEI := [1] } }

def layerRate (r : Outcome (DegRate 1)) : Option ℚ :=
  match r with
  | .ok d => some d.delta
  | _ => none

/-- C120: the full statement is false: on charge a thicker layer grows faster by model 1. -/
theorem not_layerProtects : ¬ LayerProtects 1 := by
  intro h
  have h1 : ∃ a b, layerRate (withLayer spmCharged 1).degRate = some a ∧
      layerRate (withLayer spmCharged 2).degRate = some b ∧ a < b := by
    refine ⟨(layerRate (withLayer spmCharged 1).degRate).getD 0, (layerRate (withLayer spmCharged 2).degRate).getD 0, ?_⟩
    decide +kernel
  obtain ⟨a, b, ha, hb, hab⟩ := h1
  rcases k1 : (withLayer spmCharged 1).degRate with d₁ | e | w
  · rcases k2 : (withLayer spmCharged 2).degRate with d₂ | e | w
    · rw [k1] at ha; rw [k2] at hb
      have := h spmCharged 1 2 d₁ d₂ spmPot_physical spmPot_monotone (by decide +kernel) (by norm_num) (by norm_num) k1 k2
      have e1 : d₁.delta = a := Option.some.inj ha
      have e2 : d₂.delta = b := Option.some.inj hb
      rw [e1, e2] at this
      exact absurd hab (not_lt.mpr this)
    · rw [k2] at hb; exact absurd hb (by unfold layerRate; simp)
    · rw [k2] at hb; exact absurd hb (by unfold layerRate; simp)
  · rw [k1] at ha; exact absurd ha (by unfold layerRate; simp)
  · rw [k1] at ha; exact absurd ha (by unfold layerRate; simp)

/-- A thicker layer does grow more slowly in the discharged cell of the examples, by all four models together. -/
example : let c : SPM 1 := { spmPot with st := { spmPot.st with I := 1 } }
    ∃ a b, layerRate (withLayer c 1).degRate = some a ∧ layerRate (withLayer c 2).degRate = some b ∧ 0 < b ∧ b < a := by
  refine ⟨(layerRate (withLayer { spmPot with st := { spmPot.st with I := 1 } } 1).degRate).getD 0,
    (layerRate (withLayer { spmPot with st := { spmPot.st with I := 1 } } 2).degRate).getD 0, ?_⟩
  decide +kernel

/-- A cell whose layer grows by diffusion of the solvent. -/
def spmSolvent : SPM 1 := { spmPot with deg := { spmPot.deg with SEI := [2], CS := [], LAM := [], pl := 0 } }

def solventOps : List (SpmOp 1) := [.setCurrent (-1 / 100) true, .step (1 / 1000) 2, .setCurrent 0 true, .step (1 / 1000) 3]

/-- All hypotheses of the square-root law are met, and the layer grows. -/
example : SpmPhysical spmSolvent.par ∧ spmSolvent.deg.SEI = [2] ∧ (∀ o ∈ solventOps, ordinary o) ∧
    StepsAtMost (3 / 1000) solventOps ∧
    throughout (fun a => atTemperature a a.par.sei.D2 a.par.sei.D2_T ≤ 1) spmSolvent solventOps ∧
    asked solventOps = 5 / 1000 ∧ spmSolvent.st.delta < (spmRun spmSolvent solventOps).st.delta := by
  refine ⟨spmPot_physical, rfl, ?_, ?_, ?_, by decide +kernel, by decide +kernel⟩
  · intro o ho
    simp only [solventOps, List.mem_cons, List.not_mem_nil, or_false] at ho
    rcases ho with rfl | rfl | rfl | rfl
    · trivial
    · show (0 : ℤ) ≤ 2; norm_num
    · trivial
    · show (0 : ℤ) ≤ 3; norm_num
  · unfold StepsAtMost; decide +kernel
  · unfold solventOps throughout
    refine ⟨by decide +kernel, ?_⟩
    unfold throughout
    refine ⟨by decide +kernel, ?_⟩
    unfold throughout
    refine ⟨by decide +kernel, ?_⟩
    unfold throughout
    refine ⟨by decide +kernel, ?_⟩
    unfold throughout
    decide +kernel

end Slide

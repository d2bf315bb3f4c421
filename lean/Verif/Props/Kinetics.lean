import Verif.Spec.Kinetics
import Verif.Lemmas.SPM
import Mathlib.Tactic.Linarith
import Mathlib.Tactic.FieldSimp
import Mathlib.Tactic.Ring
import Mathlib.Tactic.NormNum

/-!
# C129: the voltage of a single-particle cell obeys Butler–Volmer kinetics
-/

namespace Slide

open Spec

variable {N : ℕ}

/-! ## Helper lemmas -/

theorem bv_sign {exp : ℚ → ℚ} (hm : StrictMono exp) {n T i0 i η : ℚ} (hn : 0 < n) (hT : 0 < T) (h0 : 0 < i0)
    (h : ButlerVolmer exp n T i0 i η) : (0 < i → 0 < η) ∧ (i < 0 → η < 0) ∧ (i = 0 → η = 0) := by
  unfold ButlerVolmer at h
  have hk : ∀ z : ℚ, 1 / 2 * n * 96487 * z / (8314 / 1000 * T) = z * (1 / 2 * n * 96487 / (8314 / 1000 * T)) := by
    intro z; ring
  have hp : 0 < 1 / 2 * n * 96487 / (8314 / 1000 * T) := by positivity
  rw [hk] at h
  generalize 1 / 2 * n * 96487 / (8314 / 1000 * T) = k at h hp
  rcases lt_trichotomy η 0 with he | he | he
  · have h1 : exp (η * k) < exp (-(η * k)) := hm (by nlinarith)
    have h2 : i < 0 := by rw [h]; nlinarith
    exact ⟨fun h3 => absurd h2 (by linarith), fun _ => he, fun h3 => absurd h2 (by linarith)⟩
  · subst he
    have h2 : i = 0 := by rw [h]; simp
    exact ⟨fun h3 => absurd h2 (by linarith), fun h3 => absurd h2 (by linarith), fun _ => rfl⟩
  · have h1 : exp (-(η * k)) < exp (η * k) := hm (by nlinarith)
    have h2 : 0 < i := by rw [h]; nlinarith
    exact ⟨fun _ => he, fun h3 => absurd h2 (by linarith), fun h3 => absurd h2 (by linarith)⟩

theorem bv_unique {exp : ℚ → ℚ} (hm : StrictMono exp) {n T i0 i η η' : ℚ} (hn : 0 < n) (hT : 0 < T) (h0 : 0 < i0)
    (h : ButlerVolmer exp n T i0 i η) (h' : ButlerVolmer exp n T i0 i η') : η = η' := by
  unfold ButlerVolmer at h h'
  have hk : ∀ z : ℚ, 1 / 2 * n * 96487 * z / (8314 / 1000 * T) = z * (1 / 2 * n * 96487 / (8314 / 1000 * T)) := by
    intro z; ring
  have hp : 0 < 1 / 2 * n * 96487 / (8314 / 1000 * T) := by positivity
  rw [hk] at h h'
  generalize 1 / 2 * n * 96487 / (8314 / 1000 * T) = k at h h' hp
  rcases lt_trichotomy η η' with he | he | he
  · have h1 : exp (η * k) < exp (η' * k) := hm (by nlinarith)
    have h2 : exp (-(η' * k)) < exp (-(η * k)) := hm (by nlinarith)
    exfalso; nlinarith
  · exact he
  · have h1 : exp (η' * k) < exp (η * k) := hm (by nlinarith)
    have h2 : exp (-(η * k)) < exp (-(η' * k)) := hm (by nlinarith)
    exfalso; nlinarith

theorem exchange_unique {exp : ℚ → ℚ} {n k kT T Tref ce x xm a b : ℚ}
    (ha : ExchangeCurrent exp n k kT T Tref ce x xm a) (hb : ExchangeCurrent exp n k kT T Tref ce x xm b) : a = b := by
  have h := ha.2.trans hb.2.symm
  exact (pow_left_inj₀ ha.1 hb.1 (by norm_num)).mp h

theorem calcV_some {c : SPM N} {v : ℚ} (h : c.calcV = .ok (some v)) :
    ∃ u, c.getOCV = .ok u ∧ v = u + (c.etap - c.etan) - c.Rdc * c.st.I ∧ c.i0p ≠ 0 ∧ c.i0n ≠ 0 := by
  unfold SPM.calcV at h
  unfold SPM.getOCV
  by_cases hf : (!c.finite) = true
  · rw [if_pos hf] at h; cases h
  rw [if_neg hf] at h ⊢
  by_cases hc : (!c.concOk) = true
  · rw [if_pos hc] at h; cases h
  rw [if_neg hc] at h
  obtain ⟨d, hd, h⟩ := Outcome.bind_eq_ok.mp h
  obtain ⟨n, hn, h⟩ := Outcome.bind_eq_ok.mp h
  obtain ⟨p, hp, h⟩ := Outcome.bind_eq_ok.mp h
  rw [hd, hn, hp]
  by_cases h0 : (c.i0p = 0 || c.i0n = 0) = true
  · rw [if_pos h0] at h; cases h
  rw [if_neg h0] at h
  have h1 := Option.some.inj (Outcome.ok.inj h)
  simp only [Bool.or_eq_true, decide_eq_true_eq, not_or] at h0
  exact ⟨_, rfl, h1.symm, h0.1, h0.2⟩

theorem i0p_exchange {c : SPM N} (hm : LibmRight c) (hp : PhysicalCell c) :
    ExchangeCurrent c.par.exp c.par.n c.par.kp c.par.kp_T c.st.T c.par.T_ref c.par.C_elec c.cps c.par.Cmaxpos c.i0p := by
  obtain ⟨s1, s2⟩ := hm.sqrt _ (Or.inl rfl)
  have e1 := hm.expPos (c.par.kp_T * c.arrh)
  have k1 := hp.kp
  have n1 := hp.n
  have ea : c.par.kp_T * c.arrh = c.par.kp_T / (8314 / 1000) * (1 / c.par.T_ref - 1 / c.st.T) := by
    unfold SPM.arrh Rgas; ring
  unfold ExchangeCurrent SPM.i0p
  constructor
  · unfold Faraday; positivity
  · rw [mul_pow, s2, ea]; unfold Faraday; ring

theorem i0n_exchange {c : SPM N} (hm : LibmRight c) (hp : PhysicalCell c) :
    ExchangeCurrent c.par.exp c.par.n c.par.kn c.par.kn_T c.st.T c.par.T_ref c.par.C_elec c.cns c.par.Cmaxneg c.i0n := by
  obtain ⟨s1, s2⟩ := hm.sqrt _ (Or.inr rfl)
  have e1 := hm.expPos (c.par.kn_T * c.arrh)
  have k1 := hp.kn
  have n1 := hp.n
  have ea : c.par.kn_T * c.arrh = c.par.kn_T / (8314 / 1000) * (1 / c.par.T_ref - 1 / c.st.T) := by
    unfold SPM.arrh Rgas; ring
  unfold ExchangeCurrent SPM.i0n
  constructor
  · unfold Faraday; positivity
  · rw [mul_pow, s2, ea]; unfold Faraday; ring

theorem etap_bv {c : SPM N} (hm : LibmRight c) (hp : PhysicalCell c) (h0 : c.i0p ≠ 0) :
    ButlerVolmer c.par.exp c.par.n c.st.T c.i0p (-c.st.I / activeSurface c.st.ap c.par.elecSurf c.st.thickp) c.etap := by
  have n1 := hp.n.ne'
  have t1 := hp.T.ne'
  have a1 := hp.ap.ne'
  have a2 := hp.thickp.ne'
  have a3 := hp.surf.ne'
  have he : 1 / 2 * c.par.n * 96487 * c.etap / (8314 / 1000 * c.st.T) =
      c.par.asinh (-1 / 2 * c.iApp / (c.st.ap * c.st.thickp) / c.i0p) := by
    unfold SPM.etap Rgas Faraday; field_simp
  unfold ButlerVolmer
  rw [he, hm.asinh]
  unfold activeSurface SPM.iApp
  field_simp

theorem etan_bv {c : SPM N} (hm : LibmRight c) (hp : PhysicalCell c) (h0 : c.i0n ≠ 0) :
    ButlerVolmer c.par.exp c.par.n c.st.T c.i0n (c.st.I / activeSurface c.st.an c.par.elecSurf c.st.thickn) c.etan := by
  have n1 := hp.n.ne'
  have t1 := hp.T.ne'
  have a1 := hp.an.ne'
  have a2 := hp.thickn.ne'
  have a3 := hp.surf.ne'
  have he : 1 / 2 * c.par.n * 96487 * c.etan / (8314 / 1000 * c.st.T) =
      c.par.asinh (1 / 2 * c.iApp / (c.st.an * c.st.thickn) / c.i0n) := by
    unfold SPM.etan Rgas Faraday; field_simp
  unfold ButlerVolmer
  rw [he, hm.asinh]
  unfold activeSurface SPM.iApp
  field_simp

theorem V_calc {c : SPM N} {v : ℚ} (hv : c.valid = false) (hc : c.concOk = true) (h : c.V.1 = .ok v) :
    c.calcV = .ok (some v) := by
  unfold SPM.V at h
  rw [hv] at h
  rcases hk : c.calcV with (_ | w) | e | w
  · exfalso
    unfold SPM.calcV at hk
    by_cases hf : (!c.finite) = true
    · rw [if_pos hf] at hk; cases hk
    rw [if_neg hf, hc] at hk
    obtain ⟨d, hd, hk⟩ := Outcome.bind_eq_ok.mp hk
    obtain ⟨n, hn, hk⟩ := Outcome.bind_eq_ok.mp hk
    obtain ⟨p, hp, hk⟩ := Outcome.bind_eq_ok.mp hk
    by_cases h0 : (c.i0p = 0 || c.i0n = 0) = true
    · rw [if_pos h0] at hk; cases hk
    · rw [if_neg h0] at hk; cases hk
  · rw [hk] at h
    have := Outcome.ok.inj h
    subst this; rfl
  · rw [hk] at h; cases h
  · rw [hk] at h; cases h

/-! ## The property -/

/-- **C129.**  Whenever a cell whose concentrations are within bounds computes its voltage, the Butler–Volmer
equations of its two electrodes have a solution, and the voltage is the open-circuit voltage it reports less *the*
overpotentials that solve them and less the ohmic loss. -/
theorem voltage_kinetics {c : SPM N} {v : ℚ} (hm : LibmRight c) (hp : PhysicalCell c) (hv : c.valid = false)
    (hc : c.concOk = true) (h : c.V.1 = .ok v) :
    ∃ u, c.getOCV = .ok u ∧ KineticsSolvable c ∧ ObeysKinetics c u v := by
  obtain ⟨u, hu, e, z1, z2⟩ := calcV_some (V_calc hv hc h)
  refine ⟨u, hu, ⟨c.i0p, c.i0n, c.etap, c.etan, i0p_exchange hm hp, i0n_exchange hm hp, etap_bv hm hp z1,
    etan_bv hm hp z2⟩, fun a b p n ha hb h1 h2 => ?_⟩
  have hA := exchange_unique ha (i0p_exchange hm hp)
  have hB := exchange_unique hb (i0n_exchange hm hp)
  subst hA; subst hB
  have g1 : 0 < c.i0p := lt_of_le_of_ne ha.1 z1.symm
  have g2 : 0 < c.i0n := lt_of_le_of_ne hb.1 z2.symm
  have q1 := bv_unique hm.expMono hp.n hp.T g1 h1 (etap_bv hm hp z1)
  have q2 := bv_unique hm.expMono hp.n hp.T g2 h2 (etan_bv hm hp z2)
  subst q1; subst q2
  rw [e]
  have a1 := hp.ap.ne'
  have a2 := hp.thickp.ne'
  have a3 := hp.surf.ne'
  have a4 := hp.an.ne'
  have a5 := hp.thickn.ne'
  unfold SPM.Rdc activeSurface
  field_simp
  ring

/-- **C129.**  At rest the voltage is the open-circuit voltage, a discharging cell is strictly below it, and a
charging cell strictly above it. -/
theorem voltage_side {c : SPM N} {v : ℚ} (hm : LibmRight c) (hp : PhysicalCell c) (hv : c.valid = false)
    (hc : c.concOk = true) (h : c.V.1 = .ok v) :
    ∃ u, c.getOCV = .ok u ∧ (c.st.I = 0 → v = u) ∧ (0 < c.st.I → v < u) ∧ (c.st.I < 0 → u < v) := by
  obtain ⟨u, hu, ⟨a, b, p, n, ha, hb, h1, h2⟩, hk⟩ := voltage_kinetics hm hp hv hc h
  obtain ⟨_, _, _, z1, z2⟩ := calcV_some (V_calc hv hc h)
  have e := hk a b p n ha hb h1 h2
  have hA := exchange_unique ha (i0p_exchange hm hp)
  have hB := exchange_unique hb (i0n_exchange hm hp)
  subst hA; subst hB
  have g1 : 0 < c.i0p := lt_of_le_of_ne ha.1 z1.symm
  have g2 : 0 < c.i0n := lt_of_le_of_ne hb.1 z2.symm
  obtain ⟨p1, p2, p3⟩ := bv_sign hm.expMono hp.n hp.T g1 h1
  obtain ⟨n1, n2, n3⟩ := bv_sign hm.expMono hp.n hp.T g2 h2
  have A1 : 0 < activeSurface c.st.ap c.par.elecSurf c.st.thickp := mul_pos hp.ap (mul_pos hp.surf hp.thickp)
  have A2 : 0 < activeSurface c.st.an c.par.elecSurf c.st.thickn := mul_pos hp.an (mul_pos hp.surf hp.thickn)
  have hR : 0 ≤ (c.st.delta * c.par.rsei + c.st.rDCn) / activeSurface c.st.an c.par.elecSurf c.st.thickn +
        c.st.rDCp / activeSurface c.st.ap c.par.elecSurf c.st.thickp + c.st.rDCcc / c.par.elecSurf :=
    add_nonneg (add_nonneg (div_nonneg (add_nonneg hp.rsei hp.rn) A2.le) (div_nonneg hp.rp A1.le))
      (div_nonneg hp.rcc hp.surf.le)
  generalize (c.st.delta * c.par.rsei + c.st.rDCn) / activeSurface c.st.an c.par.elecSurf c.st.thickn +
        c.st.rDCp / activeSurface c.st.ap c.par.elecSurf c.st.thickp + c.st.rDCcc / c.par.elecSurf = R at e hR
  refine ⟨u, hu, fun hI => ?_, fun hI => ?_, fun hI => ?_⟩
  · rw [e, p3 (by rw [hI]; simp), n3 (by rw [hI]; simp), hI]; ring
  · have := p2 (div_neg_of_neg_of_pos (by linarith) A1)
    have := n1 (div_pos hI A2)
    have := mul_nonneg hI.le hR
    linarith
  · have := p1 (div_pos (by linarith) A1)
    have := n2 (div_neg_of_neg_of_pos hI A2)
    have := mul_nonneg (neg_nonneg.mpr hI.le) hR
    linarith

/-! ## The hypotheses are met -/

/-- An increasing positive function whose "hyperbolic sine" is the identity. -/
def bvExp (x : ℚ) : ℚ := if 0 ≤ x then 2 * x + 1 / (1 + x) else 1 / (1 - x)

theorem bvExp_pos (x : ℚ) : 0 < bvExp x := by
  unfold bvExp
  by_cases h : 0 ≤ x
  · rw [if_pos h]; positivity
  · rw [if_neg h]; exact one_div_pos.mpr (by linarith)

theorem bvExp_mono : StrictMono bvExp := by
  intro x y h
  unfold bvExp
  by_cases hx : 0 ≤ x
  · have hy : 0 ≤ y := by linarith
    rw [if_pos hx, if_pos hy]
    have h1 : 1 / (1 + x) - 1 / (1 + y) = (y - x) / ((1 + x) * (1 + y)) := by
      have : 1 + x ≠ 0 := by linarith
      have : 1 + y ≠ 0 := by linarith
      field_simp; ring
    have h2 : (y - x) / ((1 + x) * (1 + y)) ≤ y - x := div_le_self (by linarith) (by nlinarith)
    linarith
  · rw [if_neg hx]
    by_cases hy : 0 ≤ y
    · rw [if_pos hy]
      have h1 : 1 / (1 - x) < 1 := by rw [div_lt_one (by linarith)]; linarith
      have h2 : 1 - 1 / (1 + y) ≤ y := by
        have : 1 - 1 / (1 + y) = y / (1 + y) := by
          have : 1 + y ≠ 0 := by linarith
          field_simp; ring
        rw [this]; exact div_le_self hy (by linarith)
      linarith
    · rw [if_neg hy]
      exact one_div_lt_one_div_of_lt (by linarith) (by linarith)

theorem bvExp_sinh (x : ℚ) : bvExp x - bvExp (-x) = 2 * x := by
  unfold bvExp
  rcases lt_trichotomy x 0 with h | h | h
  · rw [if_neg (by linarith), if_pos (by linarith), sub_eq_add_neg 1 x]; ring
  · subst h; norm_num
  · rw [if_pos h.le, if_neg (by linarith), sub_neg_eq_add]; ring

/-- `spm1` with that exponential, discharged at 1 A. -/
def spmBv : SPM 1 :=
  { spm1 with par := { spm1.par with exp := bvExp }, st := { spm1.st with I := 1 } }

theorem libmRight_spmBv : LibmRight spmBv where
  expPos := bvExp_pos
  expMono := bvExp_mono
  asinh := bvExp_sinh
  sqrt := by
    have h1 : spmBv.par.C_elec * spmBv.cps * (spmBv.par.Cmaxpos - spmBv.cps) = 1 := by decide +kernel
    have h2 : spmBv.par.C_elec * spmBv.cns * (spmBv.par.Cmaxneg - spmBv.cns) = 1 := by decide +kernel
    intro x hx
    rw [h1, h2, or_self] at hx
    subst hx
    exact ⟨by decide +kernel, by decide +kernel⟩

theorem physical_spmBv : PhysicalCell spmBv := by
  constructor <;> decide +kernel

theorem spmBv_V : spmBv.V.1 = .ok (13266379927039 / 6982305876750) := by decide +kernel

/-- All hypotheses hold of a discharging cell: its voltage is below its open-circuit voltage. -/
example : ∃ u, spmBv.getOCV = .ok u ∧ 13266379927039 / 6982305876750 < u ∧ KineticsSolvable spmBv := by
  obtain ⟨u, hu, -, h, -⟩ := voltage_side libmRight_spmBv physical_spmBv rfl (by decide +kernel) spmBv_V
  obtain ⟨_, _, hs, _⟩ := voltage_kinetics libmRight_spmBv physical_spmBv rfl (by decide +kernel) spmBv_V
  exact ⟨u, hu, h (by decide +kernel), hs⟩

end Slide

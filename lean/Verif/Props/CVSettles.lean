import Verif.Lemmas.CyclerRecords
import Verif.Lemmas.ECM
import Verif.Lemmas.CellCycler
import Verif.Props.CapacityMeasured
import Verif.Props.CyclerLimits
import Verif.Spec.CVSettles

/-!
# C146: a constant-voltage phase ends, at its current limit, without passing its target
-/

namespace Slide
open StorageUnit Spec Cyc

variable {n : ℕ}

/-! ## Helper lemmas -/

/-- The curve between the target and the start, seen in the direction of the current. -/
theorem curve_directed {p : ECMPar n} {M s0 t σ : ℚ} (hσ : σ = 1 ∨ σ = -1) (hc : CurveBetween p M (min s0 t) (max s0 t))
    {y z : ℚ} (h0 : σ * t ≤ σ * z) (h1 : σ * z ≤ σ * y) (h2 : σ * y ≤ σ * s0) :
    ∃ v w, p.ocv y = some v ∧ p.ocv z = some w ∧ 0 ≤ σ * (v - w) ∧ σ * (v - w) ≤ M * (σ * (y - z)) := by
  rcases hσ with rfl | rfl
  · obtain ⟨w, v, hw, hv, h3, h4⟩ := hc z y ((min_le_right _ _).trans (by linarith)) (by linarith)
      (le_trans (by linarith) (le_max_left _ _))
    exact ⟨v, w, hv, hw, by linarith, by linarith⟩
  · obtain ⟨v, w, hv, hw, h3, h4⟩ := hc y z ((min_le_left _ _).trans (by linarith)) (by linarith)
      (le_trans (by linarith) (le_max_right _ _))
    exact ⟨v, w, hv, hw, by linarith, by linarith⟩

theorem sq_dir {σ : ℚ} (hσ : σ = 1 ∨ σ = -1) : σ * σ = 1 := by rcases hσ with rfl | rfl <;> norm_num

theorem abs_dir {σ : ℚ} (hσ : σ = 1 ∨ σ = -1) (x : ℚ) : |σ * x| = |x| := by
  rcases hσ with rfl | rfl
  · rw [one_mul]
  · rw [neg_one_mul, abs_neg]

/-- The voltage asked for is set, if it is in the operating range. -/
theorem setVoltage_in_range {u : ECM n} {Vset o : ℚ} (hR : u.par.Rdc ≠ 0) (h0 : 27/10 ≤ Vset) (h1 : Vset ≤ 42/10)
    (ho : u.par.ocv u.st.SOC = some o) :
    VoltageUnit.setVoltage u Vset =
      (.ok .Success, u.withI ((o - Vset - ∑ i, u.par.Rp i * u.st.Ir i) / u.par.Rdc)) := by
  show u.setVoltage Vset true = _
  unfold ECM.setVoltage
  rw [ho]
  dsimp only
  rw [if_neg hR]
  have hv : (u.withI ((o - Vset - ∑ i, u.par.Rp i * u.st.Ir i) / u.par.Rdc)).V = Vset := by
    unfold ECM.V ECM.withI
    dsimp only
    rw [ho]
    dsimp only
    field_simp
    ring
  have hc : (u.withI ((o - Vset - ∑ i, u.par.Rp i * u.st.Ir i) / u.par.Rdc)).checkCurrent true = .Success := by
    unfold ECM.checkCurrent ECM.checkV
    rw [if_pos rfl, hv]
    unfold checkVoltage
    dsimp only
    rw [if_neg (by linarith), if_pos ⟨by unfold cellLimits P_V_ABSTOL; norm_num; linarith, by
      unfold cellLimits P_V_ABSTOL; norm_num; linarith⟩]
  rw [hc, if_neg (by decide)]

/-- One time step at the set voltage: what is left to do shrinks by the charge that flowed and keeps its direction. -/
theorem towards_step {u : ECM n} {σ Vset t s0 M dt ε dti o o0 : ℚ} (hσ : σ = 1 ∨ σ = -1)
    (hcap : 0 < u.par.cap) (hR : 0 < u.par.Rdc) (hRp : ∀ i, 0 ≤ u.par.Rp i) (hta : ∀ i, 0 ≤ u.par.invTau i) (hM : 0 ≤ M)
    (hcurve : CurveBetween u.par M (min s0 t) (max s0 t)) (hshort : CellShortStep u.par M dt ε) (hd0 : 0 ≤ dti) (hd1 : dti ≤ dt)
    (ht : u.par.ocv t = some Vset) (h0 : u.par.ocv s0 = some o0)
    (ho : u.par.ocv u.st.SOC = some o) (hs : σ * u.st.SOC ≤ σ * s0) (h : Towards σ Vset t u) :
    let i := (o - Vset - ∑ j, u.par.Rp j * u.st.Ir j) / u.par.Rdc
    let u' := (u.withI i).step1 dti
    0 ≤ σ * i ∧ Towards σ Vset t u' ∧ σ * (u.st.SOC - u'.st.SOC) = σ * i * dti / (3600 * u.par.cap) ∧
      |u'.V - Vset| ≤ ε * |o0 - Vset| ∧
      ∃ o', u.par.ocv u'.st.SOC = some o' ∧ |o' - Vset| ≤ |o - Vset| := by
  intro i u'
  obtain ⟨⟨o1, ho1, hdir⟩, hIr, hside⟩ := h
  obtain rfl : o1 = o := by rw [ho] at ho1; exact (Option.some.inj ho1).symm
  have hss := sq_dir hσ
  set S := ∑ j, u.par.Rp j * u.st.Ir j with hS
  set A := ∑ j, u.par.Rp j * u.par.invTau j with hA
  set B := ∑ j, u.par.Rp j * u.par.invTau j * (σ * u.st.Ir j) with hB
  have hRi : u.par.Rdc * i = o1 - Vset - S := by
    show u.par.Rdc * ((o1 - Vset - S) / u.par.Rdc) = _
    field_simp
  have hJ : 0 ≤ σ * i := by
    have : σ * i = σ * (o1 - Vset - S) / u.par.Rdc := by rw [← hRi]; field_simp
    rw [this]; exact div_nonneg hdir hR.le
  have hRJ : u.par.Rdc * (σ * i) = σ * (o1 - Vset - S) := by rw [← hRi]; ring
  have hA0 : 0 ≤ A := Finset.sum_nonneg fun j _ => mul_nonneg (hRp j) (hta j)
  have hB0 : 0 ≤ B := Finset.sum_nonneg fun j _ => mul_nonneg (mul_nonneg (hRp j) (hta j)) (hIr j)
  have hS0 : 0 ≤ σ * S := by
    rw [hS, Finset.mul_sum]
    refine Finset.sum_nonneg fun j _ => ?_
    have := mul_nonneg (hRp j) (hIr j)
    linarith [this, mul_left_comm σ (u.par.Rp j) (u.st.Ir j)]
  have hq : 0 ≤ dt * (M / (3600 * u.par.cap) + A) := by
    have : 0 ≤ M / (3600 * u.par.cap) := by positivity
    have hdt : 0 ≤ dt := hd0.trans hd1
    positivity
  have hε0 : 0 ≤ ε * u.par.Rdc := hq.trans hshort.charge
  have hε : 0 ≤ ε := by
    by_contra hn
    have := mul_neg_of_neg_of_pos (not_le.mp hn) hR
    linarith
  -- the charge does not go past the target
  have e1 : σ * (u.st.SOC - u'.st.SOC) = σ * i * dti / (3600 * u.par.cap) := by
    show σ * (u.st.SOC - (u.st.SOC - i * (dti / 3600) / u.par.cap)) = _
    field_simp
    ring
  obtain ⟨vo, vt, hvo, hvt, hc1, hc2⟩ := curve_directed hσ hcurve (y := u.st.SOC) (z := t) le_rfl (by linarith) hs
  obtain rfl : vo = o1 := by rw [ho] at hvo; exact (Option.some.inj hvo).symm
  obtain rfl : vt = Vset := by rw [ht] at hvt; exact (Option.some.inj hvt).symm
  have hstep : dti * (M / (3600 * u.par.cap) + A) ≤ ε * u.par.Rdc := by
    have : 0 ≤ M / (3600 * u.par.cap) + A := by positivity
    exact (mul_le_mul_of_nonneg_right hd1 this).trans hshort.charge
  have hstepM : dti * (M / (3600 * u.par.cap)) ≤ u.par.Rdc := by
    have h1 : 0 ≤ dti * A := by positivity
    have h2 : ε * u.par.Rdc ≤ 1 * u.par.Rdc := mul_le_mul_of_nonneg_right hshort.le_one hR.le
    linarith [mul_add dti (M / (3600 * u.par.cap)) A]
  have hδ : σ * i * dti / (3600 * u.par.cap) ≤ σ * (u.st.SOC - t) := by
    have h1 : u.par.Rdc * (σ * i) ≤ M * (σ * (u.st.SOC - t)) := by
      rw [hRJ]; linarith [mul_sub σ (vo - vt) S]
    have hcc : 0 < 3600 * u.par.cap := by positivity
    have h2 : dti * M ≤ u.par.Rdc * (3600 * u.par.cap) := by
      rw [← mul_div_assoc, div_le_iff₀ hcc] at hstepM
      exact hstepM
    rw [div_le_iff₀ hcc]
    -- R J dti ≤ dti M D ≤ R 3600cap D
    have h3 : u.par.Rdc * (σ * i * dti) ≤ u.par.Rdc * (σ * (u.st.SOC - t) * (3600 * u.par.cap)) := by
      calc u.par.Rdc * (σ * i * dti) = dti * (u.par.Rdc * (σ * i)) := by ring
        _ ≤ dti * (M * (σ * (u.st.SOC - t))) := mul_le_mul_of_nonneg_left h1 hd0
        _ = (dti * M) * (σ * (u.st.SOC - t)) := by ring
        _ ≤ (u.par.Rdc * (3600 * u.par.cap)) * (σ * (u.st.SOC - t)) := mul_le_mul_of_nonneg_right h2 hside
        _ = _ := by ring
    exact le_of_mul_le_mul_left h3 hR
  have hδ0 : 0 ≤ σ * i * dti / (3600 * u.par.cap) := by positivity
  obtain ⟨va, vb, hva, hvb, hc3, hc4⟩ := curve_directed hσ hcurve (y := u.st.SOC) (z := u'.st.SOC)
    (by linarith [mul_sub σ u.st.SOC u'.st.SOC, mul_sub σ u.st.SOC t])
    (by linarith [mul_sub σ u.st.SOC u'.st.SOC]) hs
  obtain rfl : va = vo := by rw [ho] at hva; exact (Option.some.inj hva).symm
  obtain ⟨v0, vc, hv0, hvc, hc5, -⟩ := curve_directed hσ hcurve (y := s0) (z := u.st.SOC) (by linarith) hs le_rfl
  obtain rfl : v0 = o0 := by rw [h0] at hv0; exact (Option.some.inj hv0).symm
  obtain rfl : vc = va := by rw [ho] at hvc; exact (Option.some.inj hvc).symm
  obtain ⟨vd, ve, hvd, hve, hc6, -⟩ := curve_directed hσ hcurve (y := u'.st.SOC) (z := t) le_rfl
    (by linarith [mul_sub σ u.st.SOC u'.st.SOC, mul_sub σ u.st.SOC t])
    (by linarith [mul_sub σ u.st.SOC u'.st.SOC])
  obtain rfl : vd = vb := by rw [hvb] at hvd; exact (Option.some.inj hvd).symm
  obtain rfl : ve = vt := by rw [ht] at hve; exact (Option.some.inj hve).symm
  rw [e1] at hc4
  -- the RC pairs
  have eIr : ∀ j, u'.st.Ir j = u.st.Ir j + dti * u.par.invTau j * (i - u.st.Ir j) := fun _ => rfl
  have eS : σ * ∑ j, u.par.Rp j * u'.st.Ir j = σ * S + dti * A * (σ * i) - dti * B := by
    simp only [eIr, hS, hA, hB, Finset.mul_sum, Finset.sum_mul, ← Finset.sum_add_distrib, ← Finset.sum_sub_distrib]
    exact Finset.sum_congr rfl fun j _ => by ring
  have hdrop : M * (σ * i * dti / (3600 * u.par.cap)) + dti * A * (σ * i) ≤ ε * (u.par.Rdc * (σ * i)) := by
    have := mul_le_mul_of_nonneg_right hstep hJ
    calc _ = dti * (M / (3600 * u.par.cap) + A) * (σ * i) := by field_simp
      _ ≤ _ := this
      _ = _ := by ring
  have hεJ : ε * (u.par.Rdc * (σ * i)) ≤ u.par.Rdc * (σ * i) := by
    have := mul_le_mul_of_nonneg_right hshort.le_one (mul_nonneg hR.le hJ)
    linarith
  have hdB : 0 ≤ dti * B := by positivity
  have hpair : ∀ j, 0 ≤ σ * u'.st.Ir j := by
    intro j
    rw [eIr]
    have h1 : 0 ≤ dti * u.par.invTau j := mul_nonneg hd0 (hta j)
    have h2 : dti * u.par.invTau j ≤ 1 :=
      ((mul_le_mul_of_nonneg_right hd1 (hta j)).trans (hshort.pairs j)).trans hshort.le_one
    have : σ * (u.st.Ir j + dti * u.par.invTau j * (i - u.st.Ir j)) =
        (1 - dti * u.par.invTau j) * (σ * u.st.Ir j) + dti * u.par.invTau j * (σ * i) := by ring
    rw [this]
    exact add_nonneg (mul_nonneg (by linarith) (hIr j)) (mul_nonneg h1 hJ)
  have hBle : dti * B ≤ ε * (σ * S) := by
    rw [hB, hS, Finset.mul_sum, Finset.mul_sum, Finset.mul_sum]
    refine Finset.sum_le_sum fun j _ => ?_
    have h1 := (mul_le_mul_of_nonneg_right hd1 (hta j)).trans (hshort.pairs j)
    have h2 := mul_le_mul_of_nonneg_right h1 (mul_nonneg (hRp j) (hIr j))
    calc dti * (u.par.Rp j * u.par.invTau j * (σ * u.st.Ir j)) = dti * u.par.invTau j * (u.par.Rp j * (σ * u.st.Ir j)) := by ring
      _ ≤ _ := h2
      _ = _ := by ring
  have hV : u'.V = vd - u.par.Rdc * i - ∑ j, u.par.Rp j * u'.st.Ir j := by
    have : u'.V = match u.par.ocv u'.st.SOC with
      | some o => o - u.par.Rdc * i - ∑ j, u.par.Rp j * u'.st.Ir j
      | none => 0 := rfl
    rw [this, hvb]
  have hsV : σ * (u'.V - ve) = -(σ * (vc - vd)) - dti * A * (σ * i) + dti * B := by
    rw [hV, hRi]
    linear_combination eS * (-1)
  have hD : σ * (vc - ve) = |vc - ve| := by
    rw [← abs_dir hσ]; exact (abs_of_nonneg hc1).symm
  have hD0 : σ * (v0 - ve) = |v0 - ve| := by
    rw [← abs_dir hσ]; exact (abs_of_nonneg (by linarith [mul_sub σ v0 vc, mul_sub σ v0 ve, mul_sub σ vc ve])).symm
  have hDle : σ * (vc - ve) ≤ σ * (v0 - ve) := by linarith [mul_sub σ v0 vc, mul_sub σ v0 ve, mul_sub σ vc ve]
  have hRJD : u.par.Rdc * (σ * i) ≤ σ * (vc - ve) := by rw [hRJ]; linarith [mul_sub σ (vc - ve) S]
  have hSD : σ * S ≤ σ * (vc - ve) := by linarith [mul_sub σ (vc - ve) S]
  refine ⟨hJ, ⟨⟨vd, hvb, ?_⟩, hpair, ?_⟩, e1, ?_, vd, hvb, ?_⟩
  · show 0 ≤ σ * (vd - ve - ∑ j, u.par.Rp j * u'.st.Ir j)
    have : σ * (vd - ve - ∑ j, u.par.Rp j * u'.st.Ir j) =
        u.par.Rdc * (σ * i) - σ * (vc - vd) - dti * A * (σ * i) + dti * B := by
      rw [hRJ]; linear_combination eS * (-1)
    rw [this]
    linarith
  · linarith [mul_sub σ u.st.SOC u'.st.SOC, mul_sub σ u.st.SOC t, mul_sub σ u'.st.SOC t]
  · rw [← abs_dir hσ, hsV, ← hD0, abs_le]
    constructor
    · have h1 := mul_le_mul_of_nonneg_left (hRJD.trans hDle) hε
      linarith
    · have h1 := mul_le_mul_of_nonneg_left (hSD.trans hDle) hε
      have h2 : 0 ≤ dti * A * (σ * i) := by positivity
      linarith
  · rw [← hD, ← abs_dir hσ, abs_of_nonneg hc6]
    linarith [mul_sub σ vc vd, mul_sub σ vd ve, mul_sub σ vc ve]

/-- One iteration: either the current limit has been reached, or more than the current limit has flowed. -/
theorem cvBody_towards {σ Vset t s0 M dt ε Ilim tlim ttot : ℚ} {nt i : ℕ} {ndt : ℤ} {c : Cyc (ECM n)} {th : Thr} {p : ECMPar n}
    (hp : c.su.par = p) (H : HoldSetting p σ Vset t s0 M dt ε) (hI : 1/1000000 ≤ Ilim)
    (hd0 : 0 ≤ (if i + 1 = nt then tlim - dt * ((nt : ℚ) - 1) else dt))
    (hd1 : (if i + 1 = nt then tlim - dt * ((nt : ℚ) - 1) else dt) ≤ dt)
    (hs : σ * c.su.st.SOC ≤ σ * s0) (h : Towards σ Vset t c.su) :
    ∃ (b : Option Bool) (c' : Cyc (ECM n)) (th' : Thr),
      cvBody Vset Ilim tlim dt nt ndt i c ttot th =
        (.ok (.inr b), c', ttot + (if i + 1 = nt then tlim - dt * ((nt : ℚ) - 1) else dt), th') ∧
      c'.su.par = p ∧ Towards σ Vset t c'.su ∧ σ * c'.su.st.SOC ≤ σ * c.su.st.SOC ∧
      c'.su.st.time = c.su.st.time + (if i + 1 = nt then tlim - dt * ((nt : ℚ) - 1) else dt) ∧
      |c'.su.V - Vset| < 1/100 ∧
      ((b = some true ∧ |c'.su.st.I| < Ilim ∧
          (n = 0 → ∀ o', p.ocv c'.su.st.SOC = some o' → |o' - Vset| < p.Rdc * Ilim)) ∨
        (b = none ∧ Ilim * (if i + 1 = nt then tlim - dt * ((nt : ℚ) - 1) else dt) / (3600 * p.cap) ≤
          σ * (c.su.st.SOC - c'.su.st.SOC))) := by
  subst hp
  obtain ⟨o, ho, -⟩ := id h.known
  obtain ⟨o0, h0, htol⟩ := H.tol
  have hk := towards_step H.dir H.cap H.Rdc H.Rp H.tau H.slope H.curve H.short hd0 hd1 H.target h0 ho hs h
  unfold cvBody
  rw [setVoltage_in_range H.Rdc.ne' H.low H.high ho]
  dsimp only at hk ⊢
  generalize (if i + 1 = nt then tlim - dt * ((nt : ℚ) - 1) else dt) = dti at hd0 hd1 hk ⊢
  have hRi : c.su.par.Rdc * ((o - Vset - ∑ j, c.su.par.Rp j * c.su.st.Ir j) / c.su.par.Rdc) =
      o - Vset - ∑ j, c.su.par.Rp j * c.su.st.Ir j := by
    have := H.Rdc.ne'
    field_simp
  generalize (o - Vset - ∑ j, c.su.par.Rp j * c.su.st.Ir j) / c.su.par.Rdc = J at hk hRi ⊢
  obtain ⟨hJ, hT, hδ, hV, o', ho', hoo⟩ := hk
  have e : StorageUnit.timeStep (c.su.withI J) dti 1 = (.ok (), (c.su.withI J).step1 dti) := by
    show ECM.timeStep (c.su.withI J) dti 1 = _
    unfold ECM.timeStep
    rw [if_neg hd0.not_gt]
    rfl
  rw [e]
  dsimp only
  have ePar : ((c.su.withI J).step1 dti).par = c.su.par := rfl
  have eI : ((c.su.withI J).step1 dti).st.I = J := rfl
  have eI' : StorageUnit.I ((c.su.withI J).step1 dti) = J := rfl
  have eV' : StorageUnit.V ((c.su.withI J).step1 dti) = ((c.su.withI J).step1 dti).V := rfl
  have eT : ((c.su.withI J).step1 dti).st.time = c.su.st.time + dti := rfl
  have eL : StorageUnit.lim ((c.su.withI J).step1 dti) = cellLimits := rfl
  have hdir := H.dir
  have hcap := H.cap
  have hlow := H.low
  have hhigh := H.high
  generalize (c.su.withI J).step1 dti = u' at *
  have hV1 : |u'.V - Vset| < 1/100 := hV.trans_lt htol
  rw [eI', eV', eL]
  have hsafe : checkSafety (cellLimits.VMIN * (99/100)) (cellLimits.VMAX * (101/100)) u'.V = .SafeVoltage := by
    rw [abs_lt] at hV1
    unfold checkSafety cellLimits
    rw [if_neg (by norm_num; linarith), if_neg (by norm_num; linarith)]
  rw [hsafe, if_neg (fun h => h rfl)]
  have hvl : vLimit u'.V Vset = true := by unfold vLimit; rw [decide_eq_true hV1]; rfl
  rw [hvl]
  have hmono : σ * u'.st.SOC ≤ σ * c.su.st.SOC := by
    have : 0 ≤ σ * J * dti / (3600 * c.su.par.cap) := by positivity
    linarith [mul_sub σ c.su.st.SOC u'.st.SOC]
  have eJ : |J| = σ * J := by rw [← abs_dir hdir J, abs_of_nonneg hJ]
  by_cases hl : |J| < Ilim
  · rw [if_pos ⟨hl, rfl⟩]
    refine ⟨some true, _, _, rfl, ?_⟩
    rw [storeIf_su, withSU_su]
    refine ⟨ePar, hT, hmono, eT, hV1, .inl ⟨rfl, by rw [eI]; exact hl, ?_⟩⟩
    intro hn o2 ho2
    subst hn
    rw [ho'] at ho2
    obtain rfl := Option.some.inj ho2
    refine hoo.trans_lt ?_
    rw [Finset.univ_eq_empty, Finset.sum_empty, sub_zero] at hRi
    rw [← hRi, abs_mul, abs_of_pos H.Rdc]
    exact mul_lt_mul_of_pos_left hl H.Rdc
  · rw [if_neg (fun h => hl h.1), if_neg (by
      rw [not_lt] at hl
      rw [not_or, not_lt, not_lt]
      constructor <;> linarith)]
    refine ⟨none, _, _, rfl, ?_⟩
    rw [storeIf_su, withSU_su]
    refine ⟨ePar, hT, hmono, eT, hV1, .inr ⟨rfl, ?_⟩⟩
    rw [hδ, ← eJ]
    have h1 := not_lt.mp hl
    gcongr

theorem cvLoop_towards {σ Vset t s0 M dt ε Ilim tlim : ℚ} {nt : ℕ} {ndt : ℤ} {p : ECMPar n}
    (H : HoldSetting p σ Vset t s0 M dt ε) (hI : 1/1000000 ≤ Ilim) (hn1 : dt * ((nt : ℚ) - 1) < tlim) (hn2 : tlim ≤ dt * nt) :
    ∀ (left i : ℕ) (c : Cyc (ECM n)) (ttot : ℚ) (th : Thr), i + left = nt → (left ≠ 0 → ttot = i * dt) →
      (left = 0 → ttot = tlim) → c.su.par = p → σ * c.su.st.SOC ≤ σ * s0 → Towards σ Vset t c.su →
    ∃ (b : Option Bool) (c' : Cyc (ECM n)) (ttot' : ℚ) (th' : Thr),
      cvLoop Vset Ilim tlim dt nt ndt left i c ttot th = (.ok (.inr b), c', ttot', th') ∧ ttot' ≤ tlim ∧
      c'.su.par = p ∧ Towards σ Vset t c'.su ∧ σ * c'.su.st.SOC ≤ σ * c.su.st.SOC ∧
      c'.su.st.time = c.su.st.time + (ttot' - ttot) ∧ ttot ≤ ttot' ∧
      ((b = some true ∧ |c'.su.st.I| < Ilim ∧ |c'.su.V - Vset| < 1/100 ∧
          (n = 0 → ∀ o', p.ocv c'.su.st.SOC = some o' → |o' - Vset| < p.Rdc * Ilim) ∧
          Ilim * (ttot' - ttot - dt) / (3600 * p.cap) ≤ σ * (c.su.st.SOC - c'.su.st.SOC)) ∨
        (b = none ∧ ttot' = tlim ∧ Ilim * (ttot' - ttot) / (3600 * p.cap) ≤ σ * (c.su.st.SOC - c'.su.st.SOC))) := by
  intro left
  have hdt := H.dt
  have hcap := H.cap
  have hI0 : 0 < Ilim := lt_of_lt_of_le (by norm_num) hI
  induction left with
  | zero =>
    intro i c ttot th hi _ hz hp hs hT
    exact ⟨none, c, ttot, th, rfl, (hz rfl).le, hp, hT, le_rfl, by ring, le_rfl,
      .inr ⟨rfl, hz rfl, by simp⟩⟩
  | succ left ih =>
    intro i c ttot th hi hnz _ hp hs hT
    have htt := hnz (Nat.succ_ne_zero _)
    have hb : 0 ≤ (if i + 1 = nt then tlim - dt * ((nt : ℚ) - 1) else dt) ∧
        (if i + 1 = nt then tlim - dt * ((nt : ℚ) - 1) else dt) ≤ dt := by
      by_cases h : i + 1 = nt
      · rw [if_pos h]; constructor <;> linarith
      · rw [if_neg h]; exact ⟨hdt.le, le_rfl⟩
    obtain ⟨b, c1, th1, e, hp1, hT1, hs1, ht1, hV1, hcase⟩ :=
      cvBody_towards (i := i) (nt := nt) (tlim := tlim) (ttot := ttot) (ndt := ndt) (th := th) hp H hI hb.1 hb.2 hs hT
    have hend : left = 0 → ttot + (if i + 1 = nt then tlim - dt * ((nt : ℚ) - 1) else dt) = tlim := by
      intro hl
      have h : i + 1 = nt := by omega
      rw [if_pos h, htt, ← h]
      push_cast; ring
    have hmid : left ≠ 0 → ttot + (if i + 1 = nt then tlim - dt * ((nt : ℚ) - 1) else dt) = ((i + 1 : ℕ) : ℚ) * dt := by
      intro hl
      rw [if_neg (by omega), htt]
      push_cast; ring
    have hle : ttot + (if i + 1 = nt then tlim - dt * ((nt : ℚ) - 1) else dt) ≤ tlim := by
      by_cases hl : left = 0
      · exact (hend hl).le
      · rw [hmid hl]
        have : i + 1 ≤ nt - 1 := by omega
        have h2 : ((i + 1 : ℕ) : ℚ) ≤ (nt : ℚ) - 1 := by
          have h3 : ((i + 1 : ℕ) : ℚ) + 1 ≤ nt := by exact_mod_cast (by omega : i + 1 + 1 ≤ nt)
          linarith
        have := mul_le_mul_of_nonneg_right h2 hdt.le
        linarith [mul_comm dt ((nt : ℚ) - 1)]
    generalize (if i + 1 = nt then tlim - dt * ((nt : ℚ) - 1) else dt) = dti at *
    unfold cvLoop
    rw [e]
    rcases hcase with ⟨rfl, h1, h2⟩ | ⟨rfl, h1⟩
    · refine ⟨some true, c1, _, th1, rfl, hle, hp1, hT1, hs1, by rw [ht1]; ring, by linarith [hb.1],
        .inl ⟨rfl, h1, hV1, h2, ?_⟩⟩
      have h3 : Ilim * (ttot + dti - ttot - dt) / (3600 * p.cap) ≤ 0 :=
        div_nonpos_of_nonpos_of_nonneg (mul_nonpos_of_nonneg_of_nonpos hI0.le (by linarith [hb.2])) (by positivity)
      linarith [mul_sub σ c.su.st.SOC c1.su.st.SOC]
    · dsimp only
      obtain ⟨b, c2, tt2, th2, e2, hle2, hp2, hT2, hs2, ht2, hge2, hc2⟩ :=
        ih (i + 1) c1 (ttot + dti) th1 (by omega) hmid hend hp1 (hs1.trans hs) hT1
      refine ⟨b, c2, tt2, th2, e2, hle2, hp2, hT2, hs2.trans hs1, by rw [ht2, ht1]; ring, by linarith [hb.1], ?_⟩
      have hsum : ∀ x, Ilim * (x - ttot) / (3600 * p.cap) =
          Ilim * (x - (ttot + dti)) / (3600 * p.cap) + Ilim * dti / (3600 * p.cap) := by intro x; ring
      have hsum' : ∀ x, Ilim * (x - ttot - dt) / (3600 * p.cap) =
          Ilim * (x - (ttot + dti) - dt) / (3600 * p.cap) + Ilim * dti / (3600 * p.cap) := by intro x; ring
      rcases hc2 with ⟨rfl, k1, k2, k3, k4⟩ | ⟨rfl, k1, k2⟩
      · refine .inl ⟨rfl, k1, k2, k3, ?_⟩
        rw [hsum']
        linarith [mul_sub σ c.su.st.SOC c1.su.st.SOC, mul_sub σ c1.su.st.SOC c2.su.st.SOC, mul_sub σ c.su.st.SOC c2.su.st.SOC]
      · refine .inr ⟨rfl, k1, ?_⟩
        rw [hsum]
        linarith [mul_sub σ c.su.st.SOC c1.su.st.SOC, mul_sub σ c1.su.st.SOC c2.su.st.SOC, mul_sub σ c.su.st.SOC c2.su.st.SOC]

theorem cv_towards (c : Cyc (ECM n)) (σ Vset t M dt ε Ilim tlim : ℚ) (ndt : ℤ) (th : Thr)
    (H : HoldSetting c.su.par σ Vset t c.su.st.SOC M dt ε) (h : Towards σ Vset t c.su) (hI : 1/1000000 ≤ Ilim) (ht : 0 ≤ tlim) :
    ∃ (st : Status) (c' : Cyc (ECM n)) (th' : Thr) (τ : ℚ),
      CV c Vset Ilim tlim dt ndt th = (.ok st, c', th') ∧ c'.su.par = c.su.par ∧
      c'.su.st.time = c.su.st.time + τ ∧ 0 ≤ τ ∧ τ ≤ tlim ∧
      τ ≤ 3600 * c.su.par.cap * |c.su.st.SOC - t| / Ilim + dt ∧
      0 ≤ σ * (c.su.st.SOC - c'.su.st.SOC) ∧ Towards σ Vset t c'.su ∧
      (st = .ReachedTimeLimit ∧ tlim ≤ 3600 * c.su.par.cap * |c.su.st.SOC - t| / Ilim + dt ∨ st = .ReachedCurrentLimit) ∧
      (st = .ReachedCurrentLimit → |c'.su.st.I| < Ilim ∧ |c'.su.V - Vset| < 1/100 ∧
        (c'.su = c.su ∨ (n = 0 → ∀ o', c.su.par.ocv c'.su.st.SOC = some o' → |o' - Vset| < c.su.par.Rdc * Ilim))) := by
  have hI0 : 0 < Ilim := lt_of_lt_of_le (by norm_num) hI
  have hdt := H.dt
  have hcap := H.cap
  have hT0 : 0 ≤ 3600 * c.su.par.cap * |c.su.st.SOC - t| / Ilim := by positivity
  have hside : |c.su.st.SOC - t| = σ * (c.su.st.SOC - t) := by rw [← abs_dir H.dir, abs_of_nonneg h.side]
  unfold CV
  dsimp only
  by_cases h1 : |StorageUnit.I (storeIf (decide (0 < ndt)) c).su| < Ilim ∧ vLimit (V (storeIf (decide (0 < ndt)) c).su) Vset = true
  · rw [if_pos h1]
    refine ⟨_, _, _, 0, rfl, ?_⟩
    rw [storeIf_su] at h1 ⊢
    refine ⟨rfl, by ring, le_rfl, ht, by linarith, by simp, h, .inr rfl, fun _ => ⟨h1.1, ?_, .inl rfl⟩⟩
    have h2 := h1.2
    unfold vLimit at h2
    simp only [Bool.or_eq_true, decide_eq_true_eq] at h2
    rcases h2 with h2 | h2
    · exact h2
    · have hv0 : 0 < Vset := by linarith [H.low]
      rw [div_lt_iff₀ hv0] at h2
      have : |c.su.V - Vset| < 1 / 1000 * Vset := h2
      linarith [H.high]
  · rw [if_neg h1]
    have hc0 : 0 ≤ tlim / dt := by positivity
    have hceil : (0 : ℤ) ≤ ⌈tlim / dt⌉ := Int.ceil_nonneg hc0
    rw [if_neg (by rw [not_or]; exact ⟨hdt.ne', by omega⟩)]
    have hcast : ((⌈tlim / dt⌉.toNat : ℕ) : ℚ) = (⌈tlim / dt⌉ : ℤ) := by
      have : ((⌈tlim / dt⌉.toNat : ℕ) : ℤ) = ⌈tlim / dt⌉ := Int.toNat_of_nonneg hceil
      exact_mod_cast this
    have hn1 : dt * (((⌈tlim / dt⌉.toNat : ℕ) : ℚ) - 1) < tlim := by
      rw [hcast]
      have := Int.ceil_lt_add_one (tlim / dt)
      have h3 : ((⌈tlim / dt⌉ : ℤ) : ℚ) - 1 < tlim / dt := by linarith
      rw [lt_div_iff₀ hdt] at h3
      linarith
    have hn2 : tlim ≤ dt * ((⌈tlim / dt⌉.toNat : ℕ) : ℚ) := by
      rw [hcast]
      have h3 := Int.le_ceil (tlim / dt)
      rw [div_le_iff₀ hdt] at h3
      linarith
    generalize ⌈tlim / dt⌉.toNat = nt at *
    obtain ⟨b, c1, tt, th1, e, hle, hp1, hT1, hs1, ht1, htt0, hcase⟩ :=
      cvLoop_towards (ndt := ndt) H hI hn1 hn2 nt 0 (storeIf (decide (0 < ndt)) c) 0 th (by omega) (by simp)
        (by intro h0; subst h0; simp at hn2; linarith) (by rw [storeIf_su]) (by rw [storeIf_su]) (by rw [storeIf_su]; exact h)
    rw [e]
    dsimp only
    rw [storeIf_su] at hs1 ht1 hcase
    rw [sub_zero] at ht1
    have hmove : σ * (c.su.st.SOC - c1.su.st.SOC) ≤ σ * (c.su.st.SOC - t) := by
      linarith [hT1.side, mul_sub σ c1.su.st.SOC t, mul_sub σ c.su.st.SOC t, mul_sub σ c.su.st.SOC c1.su.st.SOC]
    have hbound : ∀ x, Ilim * x / (3600 * c.su.par.cap) ≤ σ * (c.su.st.SOC - c1.su.st.SOC) →
        x ≤ 3600 * c.su.par.cap * |c.su.st.SOC - t| / Ilim := by
      intro x hx
      rw [hside, le_div_iff₀ hI0]
      have := hx.trans hmove
      rw [div_le_iff₀ (by positivity)] at this
      linarith
    have hmono : 0 ≤ σ * (c.su.st.SOC - c1.su.st.SOC) := by linarith [mul_sub σ c.su.st.SOC c1.su.st.SOC]
    rcases hcase with ⟨rfl, k1, k2, k3, k4⟩ | ⟨rfl, k1, k2⟩
    · rw [sub_zero] at k4
      have hb := hbound _ k4
      by_cases hge : tt ≥ tlim
      · rw [if_pos hge]
        refine ⟨_, _, _, tt, rfl, ?_⟩
        rw [storeIf_su]
        exact ⟨hp1, ht1, htt0, hle, by linarith, hmono, hT1, .inl ⟨rfl, by linarith⟩, fun h => by cases h⟩
      · rw [if_neg hge]
        refine ⟨_, _, _, tt, rfl, ?_⟩
        rw [storeIf_su]
        exact ⟨hp1, ht1, htt0, hle, by linarith, hmono, hT1, .inr rfl, fun _ => ⟨k1, k2, .inr k3⟩⟩
    · rw [sub_zero] at k2
      have hb := hbound _ k2
      rw [if_pos k1.ge]
      refine ⟨_, _, _, tt, rfl, ?_⟩
      rw [storeIf_su]
      exact ⟨hp1, ht1, by linarith, hle, by linarith, hmono, hT1, .inl ⟨rfl, by linarith⟩, fun h => by cases h⟩

/-! ## Properties -/

/-- C146: a constant-voltage phase of a cell that has to be charged (`σ = -1`) or discharged (`σ = 1`) to reach the set
voltage, with a time step that is short for the cell, simulates at most the time limit and ends at the current limit or
the time limit; it never reports a voltage outside the safe range, an exception or any other status.  The state of charge
moves only towards the one with this open-circuit voltage and never past it.  If the time limit allows the missing charge
to flow with the limit current, it is the current limit that is reported, within that time, with less than this current
and the set voltage at the terminals; the open-circuit voltage differs from it by at most the drop over the resistances. -/
theorem cv_settles (c : Cyc (ECM n)) (σ Vset t M dt ε Ilim tlim : ℚ) (ndt : ℤ) (th : Thr)
    (H : HoldSetting c.su.par σ Vset t c.su.st.SOC M dt ε) (h : Towards σ Vset t c.su) (hI : 1/1000000 ≤ Ilim) (ht : 0 ≤ tlim) :
    ∃ (st : Status) (c' : Cyc (ECM n)) (th' : Thr) (τ : ℚ),
      CV c Vset Ilim tlim dt ndt th = (.ok st, c', th') ∧ c'.su.par = c.su.par ∧
      c'.su.st.time = c.su.st.time + τ ∧ 0 ≤ τ ∧ τ ≤ tlim ∧
      τ ≤ 3600 * c.su.par.cap * |c.su.st.SOC - t| / Ilim + dt ∧
      0 ≤ σ * (c.su.st.SOC - c'.su.st.SOC) ∧ 0 ≤ σ * (c'.su.st.SOC - t) ∧
      (st = .ReachedTimeLimit ∨ st = .ReachedCurrentLimit) ∧
      (3600 * c.su.par.cap * |c.su.st.SOC - t| / Ilim + dt < tlim → st = .ReachedCurrentLimit) ∧
      (st = .ReachedCurrentLimit → |c'.su.st.I| < Ilim ∧ |c'.su.V - Vset| < 1/100 ∧
        ∃ o, c'.su.par.ocv c'.su.st.SOC = some o ∧
          |o - Vset| < 1/100 + c.su.par.Rdc * Ilim + ∑ i, c.su.par.Rp i * |c'.su.st.Ir i|) := by
  obtain ⟨st, c', th', τ, e, hp, h1, h2, h3, h4, h5, h6, h7, h8⟩ := cv_towards c σ Vset t M dt ε Ilim tlim ndt th H h hI ht
  refine ⟨st, c', th', τ, e, hp, h1, h2, h3, h4, h5, h6.side, ?_, ?_, ?_⟩
  · rcases h7 with h7 | h7
    · exact .inl h7.1
    · exact .inr h7
  · intro hlt
    rcases h7 with h7 | h7
    · linarith [h7.2]
    · exact h7
  · intro hst
    obtain ⟨k1, k2, -⟩ := h8 hst
    obtain ⟨o, ho, -⟩ := h6.known
    refine ⟨k1, k2, o, ho, ?_⟩
    have e1 : o - Vset = (c'.su.V - Vset) + (c'.su.par.Rdc * c'.su.st.I + ∑ i, c'.su.par.Rp i * c'.su.st.Ir i) := by
      unfold ECM.V; rw [ho]; ring
    rw [e1, hp]
    refine (abs_add_le _ _).trans_lt ?_
    have e2 := abs_add_le (c.su.par.Rdc * c'.su.st.I) (∑ i, c.su.par.Rp i * c'.su.st.Ir i)
    have e3 : |c.su.par.Rdc * c'.su.st.I| ≤ c.su.par.Rdc * Ilim := by
      rw [abs_mul, abs_of_pos H.Rdc]; exact mul_le_mul_of_nonneg_left k1.le H.Rdc.le
    have e4 : |∑ i, c.su.par.Rp i * c'.su.st.Ir i| ≤ ∑ i, c.su.par.Rp i * |c'.su.st.Ir i| := by
      refine (Finset.abs_sum_le_sum_abs _ _).trans (Finset.sum_le_sum fun i _ => ?_)
      rw [abs_mul, abs_of_nonneg (H.Rp i)]
    linarith

/-- C146, how full the cell is afterwards: a cell without RC pairs that was not already at its limits has an open-circuit
voltage within `R` times the limit current of the set voltage, wherever it started; with a curve that rises by at least
`m` volt per unit of state of charge this determines the state of charge up to `R Ilim / m`. -/
theorem cv_fills (c c' : Cyc (ECM 0)) (σ Vset t M dt ε Ilim tlim : ℚ) (ndt : ℤ) (th th' : Thr)
    (H : HoldSetting c.su.par σ Vset t c.su.st.SOC M dt ε) (h : Towards σ Vset t c.su) (hI : 1/1000000 ≤ Ilim) (ht : 0 ≤ tlim)
    (hfar : ¬ (|c.su.st.I| < Ilim ∧ |c.su.V - Vset| < 1/100))
    (hcv : CV c Vset Ilim tlim dt ndt th = (.ok .ReachedCurrentLimit, c', th')) :
    (∃ o, c'.su.par.ocv c'.su.st.SOC = some o ∧ |o - Vset| < c.su.par.Rdc * Ilim) ∧
      ∀ m, SlopeAtLeast c.su.par m → m * |c'.su.st.SOC - t| < c.su.par.Rdc * Ilim := by
  obtain ⟨st, c1, th1, τ, e, hp, h1, h2, h3, h4, h5, h6, h7, h8⟩ := cv_towards c σ Vset t M dt ε Ilim tlim ndt th H h hI ht
  rw [hcv] at e
  simp only [Prod.mk.injEq, Outcome.ok.injEq] at e
  obtain ⟨rfl, rfl, rfl⟩ := e
  obtain ⟨k1, k2, k3⟩ := h8 rfl
  obtain ⟨o, ho, -⟩ := h6.known
  have hno : |o - Vset| < c.su.par.Rdc * Ilim := by
    rcases k3 with k3 | k3
    · rw [k3] at k1 k2; exact absurd ⟨k1, k2⟩ hfar
    · exact k3 rfl o (by rw [← hp]; exact ho)
  refine ⟨⟨o, ho, hno⟩, fun m hm => lt_of_le_of_lt ?_ hno⟩
  rw [hp] at ho
  rcases le_total c'.su.st.SOC t with hle | hle
  · have := hm _ _ _ _ hle ho H.target
    rw [abs_sub_comm, abs_of_nonneg (sub_nonneg.mpr hle), abs_sub_comm]
    exact this.trans (le_abs_self _)
  · have := hm _ _ _ _ hle H.target ho
    rw [abs_of_nonneg (sub_nonneg.mpr hle)]
    exact this.trans (le_abs_self _)

/-- The time step matters: held at 3.2 V with steps of 1000 s the half-full 1 Ah cell is charged past the target
(`s = 12/23`, 3.2 V open-circuit voltage). -/
theorem cv_long_step_passes : 12/23 < (CV { su := resCell 0 } (32/10) (1/10) 1000 1000 0 Thr.zero).2.1.su.st.SOC := by
  decide +kernel

/-- A half-full 1 Ah cell with 0.1 Ω held at 3.2 V with steps of one second. -/
theorem resCell_holds : HoldSetting (resCell 0).par (-1) (32/10) (12/23) (resCell 0).st.SOC (23/10) 1 (1/100) ∧
    Towards (-1) (32/10) (12/23) (resCell 0) := by
  have hk : ∀ s, (resCell 0).par.ocv s = if 0 ≤ s ∧ s ≤ 1 then some (2 + 23/10 * s) else none := ECM.defaultOCV_eq
  have hsoc : (resCell 0).st.SOC = 1/2 := rfl
  refine ⟨⟨.inr rfl, by norm_num [resCell], by norm_num [resCell], fun i => i.elim0, fun i => i.elim0, by norm_num, ?_,
    ⟨by norm_num, by norm_num [resCell], fun i => i.elim0⟩, by norm_num, by rw [hk]; norm_num, by norm_num, by norm_num,
    ⟨63/20, by rw [hk, hsoc]; norm_num, by norm_num [abs_of_neg]⟩⟩, ⟨⟨63/20, by rw [hk, hsoc]; norm_num, by simp; norm_num⟩,
    fun i => i.elim0, by rw [hsoc]; norm_num⟩⟩
  intro y z h0 h1 h2
  rw [hsoc] at h0 h2
  norm_num at h0 h2
  exact ⟨2 + 23/10 * y, 2 + 23/10 * z, by rw [hk, if_pos ⟨by linarith, by linarith⟩], by
    rw [hk, if_pos ⟨by linarith, by linarith⟩], by linarith, by linarith⟩

/-- The hypotheses are met, and the phase ends at the current limit of 0.1 A. -/
example : ∃ c' th', CV { su := resCell 0 } (32/10) (1/10) 3600 1 0 Thr.zero = (.ok .ReachedCurrentLimit, c', th') ∧
    ∃ o, c'.su.par.ocv c'.su.st.SOC = some o ∧ |o - 32/10| < 1/100 := by
  obtain ⟨st, c', th', τ, e, -, -, -, -, -, -, -, -, h1, -⟩ := cv_settles { su := resCell 0 } (-1) (32/10) (12/23) (23/10) 1 (1/100)
    (1/10) 3600 0 Thr.zero resCell_holds.1 resCell_holds.2 (by norm_num) (by norm_num)
  obtain rfl := h1 (by norm_num [resCell, abs_of_neg])
  refine ⟨c', th', e, ?_⟩
  obtain ⟨⟨o, ho, h2⟩, -⟩ := cv_fills { su := resCell 0 } c' (-1) (32/10) (12/23) (23/10) 1 (1/100) (1/10) 3600 0 Thr.zero th'
    resCell_holds.1 resCell_holds.2 (by norm_num) (by norm_num) (fun h => absurd h.2 (by decide +kernel)) e
  exact ⟨o, ho, h2.trans_le (by norm_num [resCell])⟩

/-- A cell with one RC pair of 50 mΩ and 20 s that still carries 0.1 A from charging. -/
def rcCharging : ECM 1 := ⟨⟨1, 1/10, fun _ => 1/20, fun _ => 1/20, ECM.defaultOCV⟩, ⟨293, 1/2, 0, fun _ => -1/10, 0, 0, 0⟩⟩

/-- The hypotheses are also met by a cell with an RC pair. -/
example : HoldSetting rcCharging.par (-1) (32/10) (12/23) rcCharging.st.SOC (23/10) 1 (1/10) ∧
    Towards (-1) (32/10) (12/23) rcCharging := by
  have hk : ∀ s, rcCharging.par.ocv s = if 0 ≤ s ∧ s ≤ 1 then some (2 + 23/10 * s) else none := ECM.defaultOCV_eq
  have hsoc : rcCharging.st.SOC = 1/2 := rfl
  refine ⟨⟨.inr rfl, by norm_num [rcCharging], by norm_num [rcCharging], fun i => by norm_num [rcCharging],
    fun i => by norm_num [rcCharging], by norm_num, ?_,
    ⟨by norm_num, by norm_num [rcCharging], fun i => by norm_num [rcCharging]⟩, by norm_num, by rw [hk]; norm_num,
    by norm_num, by norm_num, ⟨63/20, by rw [hk, hsoc]; norm_num, by norm_num [abs_of_neg]⟩⟩,
    ⟨⟨63/20, by rw [hk, hsoc]; norm_num, by norm_num [rcCharging]⟩, fun i => by norm_num [rcCharging], by rw [hsoc]; norm_num⟩⟩
  intro y z h0 h1 h2
  rw [hsoc] at h0 h2
  norm_num at h0 h2
  exact ⟨2 + 23/10 * y, 2 + 23/10 * z, by rw [hk, if_pos ⟨by linarith, by linarith⟩], by
    rw [hk, if_pos ⟨by linarith, by linarith⟩], by linarith, by linarith⟩

end Slide

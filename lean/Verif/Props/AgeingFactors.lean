import Verif.Props.AgeingLaws

/-!
# C123: factors on the parameters of the ageing models
-/

namespace Slide
open Spec SPM

variable {N : ℕ}

theorem fasterBy_physical {f : ℚ} (g : ℚ) {c : SPM N} (hf : 0 < f) (hp : SpmPhysical c.par) :
    SpmPhysical (fasterBy f g c).par :=
  ⟨hp.exp, hp.sqrt, hp.nsei, hp.npl, hp.rhosei, hp.rhopl, hp.elecSurf, hp.c_elec0, mul_nonneg hp.k1 hf.le,
    mul_nonneg hp.k2 hf.le, mul_nonneg hp.k3 hf.le, mul_nonneg hp.k4 hf.le, mul_nonneg hp.D2 hf.le, mul_nonneg hp.D3 hf.le,
    mul_nonneg hp.D4 hf.le, mul_nonneg hp.a1 hf.le, mul_nonneg hp.a2 hf.le, mul_nonneg hp.a3 hf.le, mul_nonneg hp.a4 hf.le,
    mul_nonneg hp.k5 hf.le, mul_nonneg hp.kpl hf.le⟩

theorem fasterBy_same (f g : ℚ) (c : SPM N) : (fasterBy f g c).cns = c.cns ∧ (fasterBy f g c).cps = c.cps ∧
    (fasterBy f g c).etan = c.etan ∧ (fasterBy f g c).etap = c.etap ∧ (fasterBy f g c).centreN = c.centreN ∧
    (fasterBy f g c).jp = c.jp ∧ (fasterBy f g c).jn = c.jn ∧ (fasterBy f g c).arrh = c.arrh :=
  ⟨rfl, rfl, rfl, rfl, rfl, rfl, rfl, rfl⟩

theorem arrh_ref {c : SPM N} (hT : c.st.T = c.par.T_ref) : c.arrh = 0 := by
  unfold arrh; rw [hT, sub_self, zero_div]

theorem sumModels_scale {f : ℚ} {F G : ℕ → Outcome ℚ} {l : List ℕ} (h : ∀ i ∈ l, ∀ x, F i = .ok x → G i = .ok (f * x)) :
    ∀ x, sumModels F l = .ok x → sumModels G l = .ok (f * x) := by
  induction l with
  | nil => intro x hx; rw [← Outcome.ok.inj hx, mul_zero]; rfl
  | cons i is ih =>
    intro x hx
    unfold sumModels at hx ⊢
    obtain ⟨a, ha, hx⟩ := Outcome.bind_eq_ok.mp hx
    obtain ⟨r, hr, hx⟩ := Outcome.bind_eq_ok.mp hx
    rw [h i (List.mem_cons_self ..) a ha, Outcome.ok_bind, ih (fun j hj => h j (List.mem_cons_of_mem _ hj)) r hr,
      Outcome.ok_bind, ← Outcome.ok.inj hx, mul_add]

/-- The reaction and the diffusion through the layer `f` times as fast. -/
theorem Spec.ThroughLayer.scale {n k D c0 δ j : ℚ} (f : ℚ) (h : ThroughLayer n k D c0 δ j) :
    ThroughLayer n (f * k) (f * D) c0 δ (f * j) := by
  obtain ⟨s, h0, h1, h2, h3⟩ := h
  refine ⟨s, h0, h1, by rw [h2]; ring, ?_⟩
  linear_combination f * h3

theorem atTemperature_scale {c : SPM N} (hT : c.st.T = c.par.T_ref) (f g k E : ℚ) :
    atTemperature (fasterBy f g c) (k * f) (E * f) = f * atTemperature c k E ∧
    atTemperature (fasterBy f g c) (k * g) (E * g) = g * atTemperature c k E := by
  have e : (1 / c.par.T_ref - 1 / c.st.T) / (8314 / 1000) = 0 := by rw [hT, sub_self, zero_div]
  constructor
  · show k * f * c.par.exp (E * f * ((1 / c.par.T_ref - 1 / c.st.T) / (8314 / 1000))) =
      f * (k * c.par.exp (E * ((1 / c.par.T_ref - 1 / c.st.T) / (8314 / 1000))))
    rw [e, mul_zero, mul_zero]; ring
  · show k * g * c.par.exp (E * g * ((1 / c.par.T_ref - 1 / c.st.T) / (8314 / 1000))) =
      g * (k * c.par.exp (E * ((1 / c.par.T_ref - 1 / c.st.T) / (8314 / 1000))))
    rw [e, mul_zero, mul_zero]; ring

theorem seiModel_scale {f : ℚ} (g : ℚ) {c : SPM N} (hf : 0 < f) (hp : SpmPhysical c.par) (hδ : 0 < c.st.delta)
    (hT : c.st.T = c.par.T_ref) (o : ℚ) (i : ℕ) (x : ℚ) (h : c.seiModel o i = .ok x) :
    (fasterBy f g c).seiModel o i = .ok (f * x) := by
  have h := (sei_law hp hδ o i x).mp h
  refine (sei_law (fasterBy_physical g hf hp) hδ o i (f * x)).mpr ?_
  have hA := fun k E => (atTemperature_scale hT f g k E).1
  rcases i with _ | _ | _ | _ | _ | i
  · have h : x = 0 := h
    show f * x = 0
    rw [h, mul_zero]
  · have h : x = c.par.nsei * 96487 * (atTemperature c c.par.sei.k1 c.par.sei.k1_T *
      tafel c c.par.nsei c.par.alphasei (seiOver c o)) := h
    show f * x = c.par.nsei * 96487 * (atTemperature (fasterBy f g c) (c.par.sei.k1 * f) (c.par.sei.k1_T * f) *
      tafel c c.par.nsei c.par.alphasei (seiOver c o))
    rw [hA, h]; ring
  · have h : ThroughLayer c.par.nsei
      (atTemperature c c.par.sei.k2 c.par.sei.k2_T * tafel c c.par.nsei c.par.alphasei (seiOver c o))
      (atTemperature c c.par.sei.D2 c.par.sei.D2_T) c.par.c_elec0 c.st.delta x := h
    show ThroughLayer c.par.nsei
      (atTemperature (fasterBy f g c) (c.par.sei.k2 * f) (c.par.sei.k2_T * f) * tafel c c.par.nsei c.par.alphasei (seiOver c o))
      (atTemperature (fasterBy f g c) (c.par.sei.D2 * f) (c.par.sei.D2_T * f)) c.par.c_elec0 c.st.delta (f * x)
    rw [hA, hA, mul_assoc]; exact h.scale f
  · have h : ThroughLayer c.par.nsei
      (atTemperature c c.par.sei.k3 c.par.sei.k3_T * tafel c c.par.nsei c.par.alphasei (o - c.par.OCVsei))
      (atTemperature c c.par.sei.D3 c.par.sei.D3_T)
      (134461 / 1000000 * tafel c c.par.nsei 1 (c.etan + c.par.rsei * c.st.delta * c.st.I)) c.st.delta x := h
    show ThroughLayer c.par.nsei
      (atTemperature (fasterBy f g c) (c.par.sei.k3 * f) (c.par.sei.k3_T * f) *
        tafel c c.par.nsei c.par.alphasei (o - c.par.OCVsei))
      (atTemperature (fasterBy f g c) (c.par.sei.D3 * f) (c.par.sei.D3_T * f))
      (134461 / 1000000 * tafel c c.par.nsei 1 (c.etan + c.par.rsei * c.st.delta * c.st.I)) c.st.delta (f * x)
    rw [hA, hA, mul_assoc]; exact h.scale f
  · have h : ThroughLayer c.par.nsei
      (atTemperature c c.par.sei.k4 c.par.sei.k4_T * tafel c c.par.nsei c.par.alphasei (o - c.par.OCVsei))
      (atTemperature c c.par.sei.D4 c.par.sei.D4_T) (134461 / 1000000 * tafel c c.par.nsei 1 c.etan) c.st.delta x := h
    show ThroughLayer c.par.nsei
      (atTemperature (fasterBy f g c) (c.par.sei.k4 * f) (c.par.sei.k4_T * f) *
        tafel c c.par.nsei c.par.alphasei (o - c.par.OCVsei))
      (atTemperature (fasterBy f g c) (c.par.sei.D4 * f) (c.par.sei.D4_T * f))
      (134461 / 1000000 * tafel c c.par.nsei 1 c.etan) c.st.delta (f * x)
    rw [hA, hA, mul_assoc]; exact h.scale f
  · exact h.elim

theorem csModel_scale (f g : ℚ) {c : SPM N} (hT : c.st.T = c.par.T_ref) (o : ℚ) (i : ℕ) (h4 : i ≠ 4) (x : ℚ)
    (h : c.csModel o i = .ok x) : (fasterBy f g c).csModel o i = .ok (f * x) := by
  have e0 : 1 / c.par.T_ref - 1 / c.st.T = 0 := by rw [hT, sub_self]
  unfold csModel at h ⊢
  dsimp only at h ⊢
  rcases i with _ | _ | _ | _ | _ | _ | i
  · rw [← Outcome.ok.inj h, mul_zero]; rfl
  · change (if (!c.stress.laresUpd) = true then Outcome.throw 108 else if c.stress.dt = 0 then .ub "division by zero" else
      .ok (c.par.cs.a1 * c.par.sqrt (|c.stress.laresN - c.stress.laresNprev| / c.stress.dt))) = _ at h
    show (if (!c.stress.laresUpd) = true then Outcome.throw 108 else if c.stress.dt = 0 then .ub "division by zero" else
      .ok (c.par.cs.a1 * f * c.par.sqrt (|c.stress.laresN - c.stress.laresNprev| / c.stress.dt))) = _
    by_cases h1 : (!c.stress.laresUpd) = true
    · rw [if_pos h1] at h; cases h
    rw [if_neg h1] at h ⊢
    by_cases h2 : c.stress.dt = 0
    · rw [if_pos h2] at h; cases h
    rw [if_neg h2] at h ⊢
    rw [← Outcome.ok.inj h]; congr 1; ring
  · change (if (!c.stress.daiUpd) = true then Outcome.throw 108 else if c.stress.dt = 0 then .ub "division by zero" else
      .ok (c.par.cs.a2 * c.par.sqrt (|c.stress.daiN - c.stress.daiNprev| / c.stress.dt))) = _ at h
    show (if (!c.stress.daiUpd) = true then Outcome.throw 108 else if c.stress.dt = 0 then .ub "division by zero" else
      .ok (c.par.cs.a2 * f * c.par.sqrt (|c.stress.daiN - c.stress.daiNprev| / c.stress.dt))) = _
    by_cases h1 : (!c.stress.daiUpd) = true
    · rw [if_pos h1] at h; cases h
    rw [if_neg h1] at h ⊢
    by_cases h2 : c.stress.dt = 0
    · rw [if_pos h2] at h; cases h
    rw [if_neg h2] at h ⊢
    rw [← Outcome.ok.inj h]; congr 1; ring
  · have h : c.par.cs.a3 * ((c.nodeN 0 - c.centreN) / c.par.Cmaxneg) ^ 2 = x := Outcome.ok.inj h
    show Outcome.ok (c.par.cs.a3 * f * ((c.nodeN 0 - c.centreN) / c.par.Cmaxneg) ^ 2) = _
    rw [← h]; congr 1; ring
  · exact absurd rfl h4
  · have h : c.par.nsei * Faraday * c.kcr * c.par.exp (-c.par.alphasei * c.par.nsei * Faraday / (Rgas * c.st.T) *
      c.etaSei o) = x := Outcome.ok.inj h
    show Outcome.ok (c.par.nsei * Faraday * (fasterBy f g c).kcr * c.par.exp (-c.par.alphasei * c.par.nsei * Faraday /
      (Rgas * c.st.T) * c.etaSei o)) = _
    have ek : (fasterBy f g c).kcr = f * c.kcr := by
      show (if c.st.I > 0 then 0
        else if c.cns / c.par.Cmaxneg < 3 / 10 then
          2 * (c.par.cs.k5 * f) * c.par.exp (c.par.cs.k5_T * f / Rgas * (1 / c.par.T_ref - 1 / c.st.T))
        else if c.cns / c.par.Cmaxneg < 7 / 10 then 0
        else c.par.cs.k5 * f * c.par.exp (c.par.cs.k5_T * f / Rgas * (1 / c.par.T_ref - 1 / c.st.T))) = _
      unfold kcr
      rw [e0, mul_zero, mul_zero]
      by_cases q1 : c.st.I > 0
      · rw [if_pos q1, if_pos q1, mul_zero]
      rw [if_neg q1, if_neg q1]
      by_cases q2 : c.cns / c.par.Cmaxneg < 3 / 10
      · rw [if_pos q2, if_pos q2]; ring
      rw [if_neg q2, if_neg q2]
      by_cases q3 : c.cns / c.par.Cmaxneg < 7 / 10
      · rw [if_pos q3, if_pos q3, mul_zero]
      rw [if_neg q3, if_neg q3]; ring
    rw [ek, ← h]; congr 1; ring
  · cases h

/-- All quantities multiplied. -/
def SPM.LamOut.times (g : ℚ) (a : LamOut) : LamOut :=
  { thickp := g * a.thickp, thickn := g * a.thickn, ap := g * a.ap, an := g * a.an, ep := g * a.ep, en := g * a.en }

theorem lamModel_scale (f g : ℚ) {c : SPM N} (hT : c.st.T = c.par.T_ref) (i : ℕ) (h3 : i ≠ 3) (x : LamOut)
    (h : c.lamModel i = .ok x) : (fasterBy f g c).lamModel i = .ok (x.times g) := by
  unfold lamModel at h ⊢
  dsimp only at h ⊢
  rcases i with _ | _ | _ | _ | _ | i
  · rw [← Outcome.ok.inj h]
    show Outcome.ok (LamOut.mk 0 0 0 0 0 0) = Outcome.ok (LamOut.mk _ _ _ _ _ _)
    congr 1
    congr 1 <;> exact (mul_zero g).symm
  · change (if (!c.stress.daiUpd) = true then Outcome.throw 108 else if c.stress.dt = 0 then .ub "division by zero" else
      .ok _) = _ at h
    show (if (!c.stress.daiUpd) = true then Outcome.throw 108 else if c.stress.dt = 0 then .ub "division by zero" else
      .ok _) = _
    by_cases h1 : (!c.stress.daiUpd) = true
    · rw [if_pos h1] at h; cases h
    rw [if_neg h1] at h ⊢
    by_cases h2 : c.stress.dt = 0
    · rw [if_pos h2] at h; cases h
    rw [if_neg h2] at h ⊢
    rw [← Outcome.ok.inj h]; congr 1
    show LamOut.mk (-(c.par.lam.p1 * g) * |c.stress.daiP - c.stress.daiPprev| / c.stress.dt)
      (-(c.par.lam.n1 * g) * |c.stress.daiN - c.stress.daiNprev| / c.stress.dt) 0 0 0 0 = LamOut.mk _ _ _ _ _ _
    congr 1 <;> first | exact (mul_zero g).symm | ring
  · have h := Outcome.ok.inj h
    rw [← h]
    show Outcome.ok (LamOut.mk 0 0 0 0 (c.par.lam.ap2 * g * c.par.exp (c.par.lam.t2 * g * c.arrh) * |c.jp| +
        c.par.lam.bp2 * g * c.par.exp (c.par.lam.t2 * g * c.arrh) * c.par.sqrt |c.jp|)
      (c.par.lam.an2 * g * c.par.exp (c.par.lam.t2 * g * c.arrh) * |c.jn| +
        c.par.lam.bn2 * g * c.par.exp (c.par.lam.t2 * g * c.arrh) * c.par.sqrt |c.jn|)) =
      Outcome.ok (LamOut.mk (g * 0) (g * 0) (g * 0) (g * 0)
        (g * (c.par.lam.ap2 * c.par.exp (c.par.lam.t2 * c.arrh) * |c.jp| +
          c.par.lam.bp2 * c.par.exp (c.par.lam.t2 * c.arrh) * c.par.sqrt |c.jp|))
        (g * (c.par.lam.an2 * c.par.exp (c.par.lam.t2 * c.arrh) * |c.jn| +
          c.par.lam.bn2 * c.par.exp (c.par.lam.t2 * c.arrh) * c.par.sqrt |c.jn|)))
    simp only [arrh_ref hT, mul_zero]
    congr 1
    congr 1 <;> ring
  · exact absurd rfl h3
  · have h := Outcome.ok.inj h
    rw [← h]
    show Outcome.ok (LamOut.mk 0 0 (-(c.par.lam.p4 * g) * c.st.ap) (-(c.par.lam.n4 * g) * c.st.an) 0 0) =
      Outcome.ok (LamOut.mk _ _ _ _ _ _)
    congr 1
    congr 1 <;> first | exact (mul_zero g).symm | ring
  · cases h

theorem lamSum_scale (f g : ℚ) {c : SPM N} (hT : c.st.T = c.par.T_ref) (l : List ℕ) (h3 : 3 ∉ l) (x : LamOut)
    (h : c.lamSum l = .ok x) : (fasterBy f g c).lamSum l = .ok (x.times g) := by
  induction l generalizing x with
  | nil =>
    rw [← Outcome.ok.inj h]
    show Outcome.ok (LamOut.mk 0 0 0 0 0 0) = .ok (LamOut.mk _ _ _ _ _ _)
    congr 1
    congr 1 <;> exact (mul_zero g).symm
  | cons i is ih =>
    unfold lamSum at h ⊢
    obtain ⟨a, ha, h⟩ := Outcome.bind_eq_ok.mp h
    obtain ⟨r, hr, h⟩ := Outcome.bind_eq_ok.mp h
    rw [lamModel_scale f g hT i (fun e => h3 (by rw [e]; exact List.mem_cons_self ..)) a ha, Outcome.ok_bind,
      ih (fun e => h3 (List.mem_cons_of_mem _ e)) r hr, Outcome.ok_bind, ← Outcome.ok.inj h]
    congr 1
    show LamOut.mk _ _ _ _ _ _ = LamOut.mk _ _ _ _ _ _
    congr 1 <;> exact (mul_add g _ _).symm

/-- C123 (partial): at the reference temperature factors multiply the rates of SEI growth, plating, cracks (models 1, 2, 3,
5) and loss of active material (models 1, 2, 4).  Missing: at other temperatures the factor also multiplies the activation
energies (`not_factorsMultiply`); crack model 4 has its largest surface multiplied too, and cathode dissolution is limited. -/
theorem factorsMultiply_partial (c : SPM N) (f g : ℚ) (d d' : DegRate N) (hf : 0 < f) (hp : SpmPhysical c.par)
    (hδ : 0 < c.st.delta) (hs : c.deg.SEIpor = 0) (hT : c.st.T = c.par.T_ref) (h4 : 4 ∉ c.deg.CS) (h3 : 3 ∉ c.deg.LAM)
    (hd : c.degRate = .ok d) (hd' : (fasterBy f g c).degRate = .ok d') : Faster f g d d' := by
  obtain ⟨o, ⟨u, k, a1, a2, a3⟩, sei, cr, l, ipl, m1, m2, m3, m4, e1, e2, e3, e4, e5, e6, e7, e8, e9, e10, -⟩ :=
    degRate_anode hd
  obtain ⟨o', ⟨u', k', a1', a2', a3'⟩, sei', cr', l', ipl', m1', m2', m3', m4', e1', e2', e3', e4', e5', e6', e7', e8', e9',
    e10', -⟩ := degRate_anode hd'
  have eu : u' = u := by
    have : c.par.ocvN (c.cns / c.par.Cmaxneg) = some u' := a1'
    rw [a1] at this; exact (Option.some.inj this).symm
  have ek : k' = k := by
    have : c.par.dNeg (c.cps / c.par.Cmaxpos) = some k' := a2'
    rw [a2] at this; exact (Option.some.inj this).symm
  have eo : o' = o := by
    have : o' = u' + (c.st.T - c.par.T_ref) * k' := a3'
    rw [this, a3, eu, ek]
  rw [eo] at m1' m2' m4'
  have js : sei'.1 = f * sei.1 := by
    have h1 := sumModels_scale (fun i _ x hx => seiModel_scale g hf hp hδ hT o i x hx) _ (SEI_spec m1).1
    have h2 : sumModels ((fasterBy f g c).seiModel o) c.deg.SEI = .ok sei'.1 := (SEI_spec m1').1
    rw [h1] at h2; exact (Outcome.ok.inj h2).symm
  have hz : sei.2 = 0 := (SEI_spec m1).2.2 hs
  have hz' : sei'.2 = 0 := (SEI_spec m1').2.2 hs
  have jc : cr'.2.1 = f * cr.2.1 := by
    have h1 := sumModels_scale (fun i hi x hx => csModel_scale f g hT o i (fun e => h4 (e ▸ hi)) x hx) _ (crack_spec m2).1
    have h2 : sumModels ((fasterBy f g c).csModel o) c.deg.CS = .ok cr'.2.1 := (crack_spec m2').1
    rw [h1] at h2; exact (Outcome.ok.inj h2).symm
  have jm : cr'.1 = cr.1 := by rw [(crack_spec m2).2, (crack_spec m2').2]; rfl
  have jl : l' = l.times g := by
    have h1 := lamSum_scale f g hT _ h3 l m3
    have h2 : (fasterBy f g c).lamSum c.deg.LAM = .ok l' := m3'
    rw [h1] at h2; exact (Outcome.ok.inj h2).symm
  have jp : ipl' = f * ipl := by
    have h1 := plating_law m4
    have h2 : PlatingLaw (fasterBy f g c) o c.deg.pl ipl' := plating_law m4'
    rcases hk : c.deg.pl with _ | _ | q
    · rw [hk] at h1 h2
      have h1 : ipl = 0 := h1
      have h2 : ipl' = 0 := h2
      rw [h1, h2, mul_zero]
    · rw [hk] at h1 h2
      have h1 : ipl = c.par.npl * 96487 * (atTemperature c c.par.pl.k c.par.pl.k_T *
        tafel c c.par.n c.par.alphapl (o + c.etan - c.par.OCVpl + c.par.rsei * c.st.delta * c.st.I)) := h1
      have h2 : ipl' = c.par.npl * 96487 * (atTemperature (fasterBy f g c) (c.par.pl.k * f) (c.par.pl.k_T * f) *
        tafel c c.par.n c.par.alphapl (o + c.etan - c.par.OCVpl + c.par.rsei * c.st.delta * c.st.I)) := h2
      rw [h2, h1, (atTemperature_scale hT f g _ _).1]; ring
    · rw [hk] at h1; exact h1.elim
  refine ⟨?_, ?_, ?_, ?_, ?_, ?_, ?_, ?_, ?_, ?_⟩
  · rw [e1', e1, js]
    show f * sei.1 / (c.par.nsei * 96487 * c.par.rhosei) = _
    ring
  · rw [e2', e2, js, jm, jp]
    show (f * sei.1 + f * sei.1 * cr.1 + f * ipl) * c.par.elecSurf * c.st.thickn * c.st.an = _
    ring
  · rw [e3', e3, jc]
  · rw [e4', e4, jp]
    show f * ipl / (c.par.npl * 96487 * c.par.rhopl) = _
    ring
  · rw [e5', e5, jl]; rfl
  · rw [e6', e6, jl]; rfl
  · rw [e7', e7, jl]; rfl
  · rw [e8', e8, jl, hz, hz', add_zero, add_zero]; rfl
  · rw [e9', e9, jl]
    show g * l.ap + 3 / c.par.Rp * (g * l.ep) = _
    ring
  · rw [e10', e10, jl, hz, hz', add_zero, add_zero]
    show g * l.an + 3 / c.par.Rn * (g * l.en) = _
    ring

/-- The constructor with variation factors multiplies the parameters like this, by the factors of the cell (its arguments
for them are ignored). -/
theorem build_faster (c : SPM N) (deg : DegSel) (a b : ℚ) :
    (c.build deg 1 1 a b).par = (fasterBy c.par.varSEI c.par.varLAM c).par := by
  simp only [build, fasterBy, mul_one]

/-! ### Counterexamples -/

/-- A cell colder than its reference temperature. -/
def spmCold : SPM 1 :=
  { spmPot with
    par := { spmPot.par with sei := { spmPot.par.sei with k1_T := 100000 } }
    st := { spmPot.st with T := spmPot.par.T_ref - 10 }
    deg := { spmPot.deg with SEI := [1], CS := [], LAM := [], pl := 0 } }

theorem spmCold_physical : SpmPhysical spmCold.par :=
  let h := spmPot_physical
  { h with }

theorem layerRate_ok {r : Outcome (DegRate 1)} {x : ℚ} (h : layerRate r = some x) : ∃ d, r = .ok d ∧ d.delta = x := by
  cases r with
  | ok d => exact ⟨d, rfl, Option.some.inj h⟩
  | throw e => cases h
  | ub e => cases h

/-- C123: the full statement is false.  The factor multiplies the activation energies too: a cell below its reference
temperature whose parameters are doubled grows its layer less than twice as fast. -/
theorem not_factorsMultiply : ¬ FactorsMultiply 1 := by
  intro h
  obtain ⟨d, hd, e⟩ := layerRate_ok (show layerRate spmCold.degRate = some (3323919267 / 214192592) by decide +kernel)
  obtain ⟨d', hd', e'⟩ :=
    layerRate_ok (show layerRate (fasterBy 2 1 spmCold).degRate = some (144518229 / 7373752) by decide +kernel)
  have := (h spmCold 2 1 d d' (by norm_num) (by norm_num) spmCold_physical (by decide +kernel) (by decide +kernel)
    (by decide +kernel) hd hd').delta
  rw [e, e'] at this
  norm_num at this

/-- A cell at its reference temperature whose cracks grow towards a largest surface. -/
def spmCracking : SPM 1 :=
  { spmPot with
    par := { spmPot.par with cs := { spmPot.par.cs with a4 := 1, Amax := 2 } }
    st := { spmPot.st with I := 1, CS := 1 }
    deg := { spmPot.deg with SEI := [1], CS := [4], LAM := [], pl := 0 } }

theorem spmCracking_physical : SpmPhysical spmCracking.par :=
  let h := spmPot_physical
  { h with a4 := by decide +kernel }

/-- Rate of growth of the cracks. -/
def crackRate (r : Outcome (DegRate N)) : Option ℚ :=
  match r with
  | .ok d => some d.CS
  | _ => none

theorem crackRate_ok {r : Outcome (DegRate N)} {x : ℚ} (h : crackRate r = some x) : ∃ d, r = .ok d ∧ d.CS = x := by
  cases r with
  | ok d => exact ⟨d, rfl, Option.some.inj h⟩
  | throw e => cases h
  | ub e => cases h

/-- C123: also at the reference temperature: with doubled parameters the largest crack surface of model 4 is doubled as well,
and the cracks grow six times as fast. -/
theorem largestSurface_scaled : spmCracking.st.T = spmCracking.par.T_ref ∧
    ∃ d d', spmCracking.degRate = .ok d ∧ (fasterBy 2 1 spmCracking).degRate = .ok d' ∧ ¬ Faster 2 1 d d' := by
  obtain ⟨d, hd, e⟩ := crackRate_ok (show crackRate spmCracking.degRate = some 1 by decide +kernel)
  obtain ⟨d', hd', e'⟩ := crackRate_ok (show crackRate (fasterBy 2 1 spmCracking).degRate = some 6 by decide +kernel)
  refine ⟨by decide +kernel, d, d', hd, hd', fun h => ?_⟩
  have := h.CS
  rw [e, e'] at this
  norm_num at this

/-- The hypotheses of `factorsMultiply_partial` hold of a cell with all models of the SEI layer, cracks by model 5, loss of
material by model 4, and plating. -/
example : let c : SPM 1 := { spmPot with
      par := { spmPot.par with lam := { spmPot.par.lam with p4 := 1 / 100, n4 := 1 / 100 } }
      deg := { spmPot.deg with LAM := [4] } }
    0 < c.st.delta ∧ c.deg.SEIpor = 0 ∧ c.st.T = c.par.T_ref ∧ 4 ∉ c.deg.CS ∧ 3 ∉ c.deg.LAM ∧ c.deg.SEI = [1, 2, 3, 4] ∧
      c.deg.CS = [5] ∧ c.deg.pl = 1 ∧ (layerRate c.degRate).isSome ∧ (layerRate (fasterBy 2 3 c).degRate).isSome :=
  ⟨by decide +kernel, by decide +kernel, by decide +kernel, by decide +kernel, by decide +kernel, rfl, rfl, rfl,
    by decide +kernel, by decide +kernel⟩

/-- The rates of the example are positive, and doubled by a factor of two. -/
example : layerRate spmPot.degRate = some (33122682841770305933 / 888378385304562500) ∧
    layerRate (fasterBy 2 1 spmPot).degRate = some (33122682841770305933 / 444189192652281250) :=
  ⟨by decide +kernel, by decide +kernel⟩

end Slide

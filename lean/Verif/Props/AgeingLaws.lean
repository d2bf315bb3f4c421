import Verif.Lemmas.AgeingLaws
import Verif.Props.Cracks

/-!
# C122: plating, cracks and loss of active material as published
-/

namespace Slide
open Spec SPM

variable {N : ℕ}

/-- C122 (partial): every successful step of a cell which ages adds the published rates of the selected models.  Missing: the
entropic coefficient of the anode is taken at the lithium fraction of the cathode instead of its own
(`not_ageingAsPublished`). -/
theorem ageingAsPublished_partial (c : SPM N) (dt : ℚ) (n : ℤ) (hp : SpmPhysical c.par) (hδ : 0 < c.st.delta)
    (hk : StressKept c) (hb : c.block = false) (h : (c.timeStep dt n).1 = .ok ()) :
    StepLaws c (beforeAgeing c dt n) (c.timeStep dt n).2
      ((beforeAgeing c dt n).cps / (beforeAgeing c dt n).par.Cmaxpos) (dt * n) := by
  obtain ⟨b, d, e1, e2, e3, e4, s, hs, hd, ea, -⟩ := timeStep_ages h hb
  have ep : b.par = (beforeAgeing c dt n).par := e1.trans e4.symm
  have hphys := hp
  rw [← e1] at hp
  obtain ⟨o, ho, sei, cr, l, ipl, h1, h2, h3, h4, d1, d2, d3, d4, d5, d6, d7, d8, d9, d10, d11⟩ := degRate_anode hd
  have hm : ∀ l : List ℕ, (l.map b.csMult).sum = (l.countP (· ≠ 0)) * (b.st.CS / b.anodeSurf) := by
    intro l
    induction l with
    | nil => simp
    | cons i l ih =>
      rw [List.map_cons, List.sum_cons, ih, List.countP_cons]
      unfold csMult
      by_cases hi : i = 0
      · simp [hi]
      · simp [hi]; ring
  have hfin := (degRate_spec hd).1
  unfold finite at hfin
  simp only [Bool.not_eq_true', Bool.or_eq_false_iff, decide_eq_false_iff_not] at hfin
  refine ⟨o, sei.1, cr.2.1, ipl, l, sei.2, cr.2.2, ?_, ?_, ?_, ?_, ?_, ?_, ?_, ?_⟩
  · rw [← anodePotential_congr ep e3, ← (surface_congr ep e3).2, ← ep]; exact ho
  · rw [← seiLaw_congr ep e3, ← e2]
    exact sumOf_iff (fun i _ x hx => (sei_law hp (s.delta ▸ hδ) o i x).mp hx) _ (SEI_spec h1).1
  · rw [← crackLaw_congr ep e3, ← e2]
    refine sumOf_iff (fun i hi x hx => crack_law hs i (fun q => hk.1 ?_) (fun q => hk.2 (.inl ?_)) hx) _ (crack_spec h2).1
    · rw [e2, q] at hi; exact hi
    · rw [e2, q] at hi; exact hi
  · rw [← platingLaw_congr ep e3, ← e2]; exact plating_law h4
  · rw [← lamLaw_congr ep e3, ← e2]
    refine lamSumOf (fun i hi x hx => lam_law hs i (fun q => hk.2 (.inr ?_)) hx) _ h3
    rw [e2, q] at hi; exact hi
  · rw [← porosityLaw_congr ep e3, ← e2]; exact porosity_law h1
  · rw [← diffusionLaw_congr ep e3, ← e2]; exact diffusion_law h2
  · rw [ea]
    refine ⟨?_, ?_, ?_, ?_, ?_, ?_, ?_, ?_, ?_, ?_, ?_⟩
    · show b.st.delta + d.delta * (dt * n) = _
      rw [s.delta, d1, e1]
    · show b.st.deltaPl + d.deltaPl * (dt * n) = _
      rw [s.deltaPl, d4, e1]
    · show b.st.CS + d.CS * (dt * n) = _
      rw [s.CS, d3]
    · show b.st.LLI + d.LLI * (dt * n) = _
      rw [s.LLI, d2, (crack_spec h2).2, hm, e2]
      unfold anodeSurf
      have q1 : b.st.an ≠ 0 := by tauto
      have q2 : b.st.thickn ≠ 0 := by tauto
      have q3 : b.par.elecSurf ≠ 0 := by tauto
      rw [s.an, s.thickn, s.CS, e1]
      rw [s.an] at q1; rw [s.thickn] at q2; rw [e1] at q3
      field_simp
    · show b.st.thickp + d.thickp * (dt * n) = _
      rw [s.thickp, d5]
    · show b.st.thickn + d.thickn * (dt * n) = _
      rw [s.thickn, d6]
    · show b.st.ep + d.ep * (dt * n) = _
      rw [s.ep, d7]
    · show b.st.en + d.en * (dt * n) = _
      rw [s.en, d8]
    · show b.st.ap + d.ap * (dt * n) = _
      rw [s.ap, d9, e1]
    · show b.st.an + d.an * (dt * n) = _
      rw [s.an, d10, e1]
    · show b.st.Dn + d.Dn * (dt * n) = _
      rw [s.Dn, d11]

/-- C122: the full statement holds when the entropic coefficient of the anode is the same at both lithium fractions. -/
theorem ageing_published_where (c : SPM N) (dt : ℚ) (n : ℤ) (hp : SpmPhysical c.par) (hδ : 0 < c.st.delta)
    (hk : StressKept c) (hb : c.block = false) (h : (c.timeStep dt n).1 = .ok ())
    (he : (beforeAgeing c dt n).par.dNeg ((beforeAgeing c dt n).cps / (beforeAgeing c dt n).par.Cmaxpos) =
      (beforeAgeing c dt n).par.dNeg ((beforeAgeing c dt n).cns / (beforeAgeing c dt n).par.Cmaxneg)) :
    StepLaws c (beforeAgeing c dt n) (c.timeStep dt n).2
      ((beforeAgeing c dt n).cns / (beforeAgeing c dt n).par.Cmaxneg) (dt * n) := by
  obtain ⟨o, js, g, jp, l, e, x, ⟨u, k, h1, h2, h3⟩, hr⟩ := ageingAsPublished_partial c dt n hp hδ hk hb h
  exact ⟨o, js, g, jp, l, e, x, ⟨u, k, h1, he ▸ h2, h3⟩, hr⟩

/-! ### Counterexample -/

/-- A cell which is not at its reference temperature, whose anode has an entropic coefficient that depends on its lithium. -/
def spmEntropic : SPM 1 :=
  { spmPot with
    par := { spmPot.par with
      dNeg := fun z => some (z / 100) }
    st := { spmPot.st with T := spmPot.par.T_ref + 10 }
    deg := { spmPot.deg with SEI := [1], CS := [], LAM := [], pl := 0 } }

theorem spmEntropic_physical : SpmPhysical spmEntropic.par :=
  let h := spmPot_physical
  { h with }

/-- The cell of the counterexample when its rates are computed. -/
def spmEntropicAt : SPM 1 := beforeAgeing spmEntropic (1 / 1000000) 1

/-- C122: the full statement is false: away from the reference temperature the SEI layer grows as if the anode had the
lithium fraction of the cathode. -/
theorem not_ageingAsPublished : ¬ AgeingAsPublished 1 := by
  intro h
  have hk : StressKept spmEntropic := ⟨fun h => absurd h (by decide +kernel), fun h => absurd h (by decide +kernel)⟩
  obtain ⟨o, js, g, jp, l, e, x, ⟨u, k, h1, h2, h3⟩, h4, -, -, -, -, -, h5, -⟩ :=
    h spmEntropic (1 / 1000000) 1 spmEntropic_physical (by decide +kernel) hk (by decide +kernel) (by decide +kernel)
  change spmEntropicAt.par.ocvN (spmEntropicAt.cns / spmEntropicAt.par.Cmaxneg) = some u at h1
  change spmEntropicAt.par.dNeg (spmEntropicAt.cns / spmEntropicAt.par.Cmaxneg) = some k at h2
  change o = u + (spmEntropicAt.st.T - spmEntropicAt.par.T_ref) * k at h3
  change SumOf (SeiLaw spmEntropicAt o) [1] js at h4
  have e1 : u = (spmEntropicAt.par.ocvN (spmEntropicAt.cns / spmEntropicAt.par.Cmaxneg)).getD 0 := by rw [h1]; rfl
  have e2 : k = (spmEntropicAt.par.dNeg (spmEntropicAt.cns / spmEntropicAt.par.Cmaxneg)).getD 0 := by rw [h2]; rfl
  have e3 : js = spmEntropicAt.par.nsei * 96487 * (atTemperature spmEntropicAt spmEntropicAt.par.sei.k1
      spmEntropicAt.par.sei.k1_T * tafel spmEntropicAt spmEntropicAt.par.nsei spmEntropicAt.par.alphasei
      (seiOver spmEntropicAt o)) := by
    rcases h4 with _ | ⟨q, r⟩
    rcases r with _ | _
    rw [add_zero]; exact q
  rw [e3, h3, e1, e2] at h5
  exact absurd h5 (by decide +kernel)

/-! ### Courses of ageing -/

/-- `k` steps of `n` times `dt` seconds, all of which succeed. -/
def Succeeds (c : SPM N) (dt : ℚ) (n : ℤ) (k : ℕ) : Prop :=
  ∀ i < k, ((spmRun c (List.replicate i (.step dt n))).timeStep dt n).1 = .ok ()

theorem spmRun_replicate_succ (c : SPM N) (o : SpmOp N) (k : ℕ) :
    spmRun c (List.replicate (k + 1) o) = spmAfter (spmRun c (List.replicate k o)) o := by
  induction k generalizing c with
  | zero => rfl
  | succ k ih =>
    show spmRun (spmAfter c o) (List.replicate (k + 1) o) = _
    rw [ih]; rfl

/-- What does not change while a cell ages at constant current. -/
theorem steady (c : SPM N) (dt : ℚ) (n : ℤ) (hb : c.block = false) (k : ℕ) (h : Succeeds c dt n k) :
    (spmRun c (List.replicate k (.step dt n))).par = c.par ∧ (spmRun c (List.replicate k (.step dt n))).deg = c.deg ∧
    (spmRun c (List.replicate k (.step dt n))).st.I = c.st.I ∧
    (spmRun c (List.replicate k (.step dt n))).block = false := by
  induction k with
  | zero => exact ⟨rfl, rfl, rfl, hb⟩
  | succ k ih =>
    obtain ⟨i1, i2, i3, i4⟩ := ih fun i hi => h i (by omega)
    rw [spmRun_replicate_succ]
    obtain ⟨b, d, e1, e2, -, -, -, -, -, ea, eI, eb⟩ := timeStep_ages (h k (by omega)) i4
    show ((spmRun c (List.replicate k (.step dt n))).timeStep dt n).2.par = _ ∧ _ ∧ _ ∧ _
    show _ ∧ ((spmRun c (List.replicate k (.step dt n))).timeStep dt n).2.deg = _ ∧
      ((spmRun c (List.replicate k (.step dt n))).timeStep dt n).2.st.I = _ ∧
      ((spmRun c (List.replicate k (.step dt n))).timeStep dt n).2.block = _
    rw [ea]
    exact ⟨e1.trans i1, e2.trans i2, eI.trans i3, eb⟩

/-- C122: at constant current the cracks of Barai's model approach their largest surface exponentially: what is left to
crack after `k` steps is the `k`-th power of what one step leaves. -/
theorem barai_course (c : SPM N) (dt : ℚ) (n : ℤ) (hb : c.block = false) (h4 : c.deg.CS = [4])
    (hA : c.st.CS ≤ c.par.cs.Amax)
    (hq1 : c.par.cs.a4 * |c.st.I| * (dt * n) ≤ 1) (k : ℕ) (h : Succeeds c dt n k) :
    c.par.cs.Amax - (spmRun c (List.replicate k (.step dt n))).st.CS =
      (c.par.cs.Amax - c.st.CS) * (1 - c.par.cs.a4 * |c.st.I| * (dt * n)) ^ k := by
  induction k with
  | zero => rw [pow_zero, mul_one]; rfl
  | succ k ih =>
    have ih := ih fun i hi => h i (by omega)
    obtain ⟨i1, i2, i3, i4⟩ := steady c dt n hb k fun i hi => h i (by omega)
    rw [spmRun_replicate_succ]
    obtain ⟨b, d, e1, e2, -, -, s, -, hd, ea, eI, -⟩ := timeStep_ages (h k (by omega)) i4
    obtain ⟨-, o, sei, cr, l, ipl, -, h2, -, -, -, -, e3, -⟩ := degRate_spec hd
    have hs := (crack_spec h2).1
    rw [e2, i2, h4] at hs
    have hg := Outcome.ok.inj (sumModels_single hs)
    have h0 : 0 ≤ c.par.cs.Amax - (spmRun c (List.replicate k (.step dt n))).st.CS := by
      rw [ih]
      exact mul_nonneg (sub_nonneg.mpr hA) (pow_nonneg (sub_nonneg.mpr hq1) k)
    have hC : b.st.CS ≤ b.par.cs.Amax := by rw [s.CS, e1, i1]; linarith
    rw [max_eq_left hC, s.CS, e1, i1, eI, i3] at hg
    show c.par.cs.Amax - ((spmRun c (List.replicate k (.step dt n))).timeStep dt n).2.st.CS = _
    rw [ea]
    show c.par.cs.Amax - (b.st.CS + d.CS * (dt * n)) = _
    rw [s.CS, e3, ← hg, pow_succ]
    linear_combination (1 - c.par.cs.a4 * |c.st.I| * (dt * n)) * ih

/-- C122: the surface of the electrodes by Narayanrao's model decays exponentially, whatever the current. -/
theorem narayanrao_course (c : SPM N) (dt : ℚ) (n : ℤ) (hb : c.block = false) (h4 : c.deg.LAM = [4])
    (hs : c.deg.SEIpor = 0) (k : ℕ) (h : Succeeds c dt n k) :
    (spmRun c (List.replicate k (.step dt n))).st.ap = c.st.ap * (1 - c.par.lam.p4 * (dt * n)) ^ k ∧
    (spmRun c (List.replicate k (.step dt n))).st.an = c.st.an * (1 - c.par.lam.n4 * (dt * n)) ^ k := by
  induction k with
  | zero => exact ⟨by rw [pow_zero, mul_one]; rfl, by rw [pow_zero, mul_one]; rfl⟩
  | succ k ih =>
    obtain ⟨ih1, ih2⟩ := ih fun i hi => h i (by omega)
    obtain ⟨i1, i2, i3, i4⟩ := steady c dt n hb k fun i hi => h i (by omega)
    rw [spmRun_replicate_succ]
    obtain ⟨b, d, e1, e2, -, -, s, -, hd, ea, eI, -⟩ := timeStep_ages (h k (by omega)) i4
    obtain ⟨-, o, sei, cr, l, ipl, h1, -, h3, -, -, -, -, -, -, -, -, -, d9, d10, -⟩ := degRate_spec hd
    rw [e2, i2, h4] at h3
    have hl : l = ({ ap := -b.par.lam.p4 * b.st.ap, an := -b.par.lam.n4 * b.st.an } : LamOut).add {} :=
      (Outcome.ok.inj h3).symm
    have hz := (SEI_spec h1).2.2 (by rw [e2, i2, hs])
    show ((spmRun c (List.replicate k (.step dt n))).timeStep dt n).2.st.ap = _ ∧
      ((spmRun c (List.replicate k (.step dt n))).timeStep dt n).2.st.an = _
    rw [ea]
    show b.st.ap + d.ap * (dt * n) = _ ∧ b.st.an + d.an * (dt * n) = _
    rw [d9, d10, hz, hl]
    show b.st.ap + ((-b.par.lam.p4 * b.st.ap + 0) + 3 / b.par.Rp * (0 + 0)) * (dt * n) = _ ∧
      b.st.an + ((-b.par.lam.n4 * b.st.an + 0) + 3 / b.par.Rn * (0 + 0 + 0)) * (dt * n) = _
    rw [s.ap, s.an, e1, i1, ih1, ih2, pow_succ, pow_succ]
    constructor <;> ring

/-- Three steps of a cell with both models succeed, and cracks and surfaces have changed. -/
example : let c : SPM 1 := { spmPot with
      par := { spmPot.par with lam := { spmPot.par.lam with p4 := 1 / 100, n4 := 1 / 100 }, cs := { spmPot.par.cs with a4 := 1, Amax := 1 } }
      st := { spmPot.st with I := 1 / 100, CS := 1 / 2 }
      deg := { spmPot.deg with SEI := [], CS := [4], LAM := [4], pl := 0 } }
    Succeeds c (1 / 100) 1 3 ∧ c.st.CS < (spmRun c (List.replicate 3 (.step (1 / 100) 1))).st.CS ∧
      (spmRun c (List.replicate 3 (.step (1 / 100) 1))).st.an < c.st.an := by
  refine ⟨fun i hi => ?_, by decide +kernel, by decide +kernel⟩
  rcases i with _ | _ | _ | i
  · decide +kernel
  · decide +kernel
  · decide +kernel
  · omega

/-- A step with all processes at work obeys the laws. -/
example : StressKept spmPot ∧ spmPot.block = false ∧ 0 < spmPot.st.delta ∧ (spmPot.timeStep (1 / 1000000) 1).1 = .ok () ∧
    spmPot.deg.SEI = [1, 2, 3, 4] ∧ spmPot.deg.CS = [5] ∧ spmPot.deg.LAM = [3] ∧ spmPot.deg.pl = 1 :=
  ⟨⟨fun h => absurd h (by decide +kernel), fun h => absurd h (by decide +kernel)⟩, by decide +kernel, by decide +kernel,
    by decide +kernel, rfl, rfl, rfl, rfl⟩

end Slide

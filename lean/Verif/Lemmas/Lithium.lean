import Verif.Spec.Lithium
import Verif.Lemmas.SPMDiff
import Verif.Props.Study

/-! Lemmas about the lithium in a single-particle cell. -/

namespace Slide
open Spec SPM

variable {N : ℕ}

/-- Parameters, geometry and the states of the uniform concentration are the same. -/
structure SameUniform (a b : SPM N) : Prop where
  age : SameAge a b
  zp : b.st.zp a.par.M.ind = a.st.zp a.par.M.ind
  zn : b.st.zn a.par.M.ind = a.st.zn a.par.M.ind

theorem SameUniform.lithium {a b : SPM N} (h : SameUniform a b) :
    anodeLi b = anodeLi a ∧ cathodeLi b = cathodeLi a ∧ b.st.LLI = a.st.LLI := by
  unfold anodeLi cathodeLi
  rw [h.age.par, h.age.thickn, h.age.an, h.age.thickp, h.age.ap, h.zp, h.zn, h.age.LLI]
  exact ⟨rfl, rfl, rfl⟩

theorem Spec.SameLithium.refl (a : SPM N) : SameLithium a a := ⟨rfl, rfl, fun _ _ => rfl⟩

theorem Spec.SameLithium.trans {a b c : SPM N} (h : SameLithium a b) (g : SameLithium b c) : SameLithium a c := by
  refine ⟨g.par.trans h.par, g.deg.trans h.deg, fun hc hk => ?_⟩
  have hc' : CountsLi b := by
    obtain ⟨⟨h1, h2⟩, h3, h4, h5, h6⟩ := hc
    refine ⟨⟨?_, ?_⟩, ?_, ?_, ?_, ?_⟩ <;> rw [h.par] <;> assumption
  exact (g.all hc' (by rw [h.deg]; exact hk)).trans (h.all hc hk)

theorem SameUniform.same {a b : SPM N} (h : SameUniform a b) : SameLithium a b := by
  obtain ⟨h1, h2, h3⟩ := h.lithium
  exact ⟨h.age.par, h.age.deg, fun _ _ => by unfold allLi; rw [h1, h2, h3]⟩

theorem finite_geometry {c : SPM N} (h : c.finite = true) :
    c.par.elecSurf ≠ 0 ∧ c.st.ap ≠ 0 ∧ c.st.an ≠ 0 ∧ c.par.n ≠ 0 ∧ c.st.thickp ≠ 0 ∧ c.st.thickn ≠ 0 := by
  unfold SPM.finite at h
  simp only [Bool.not_eq_true', Bool.or_eq_false_iff, decide_eq_false_iff_not] at h
  tauto

/-- What one diffusion step does to the lithium, however it ends. -/
theorem diffStep_lithium (c : SPM N) (dt : ℚ) (hd : CountsLi c) :
    ∃ q : ℚ, anodeLi (c.diffStep dt).2 = anodeLi c - q ∧ cathodeLi (c.diffStep dt).2 = cathodeLi c + q ∧
      ((c.diffStep dt).1 = .ok () → q = c.st.I * dt) := by
  unfold diffStep
  by_cases hf : (!c.finite) = true ∨ c.par.cap = 0
  · rw [if_pos hf]
    exact ⟨0, by simp, by simp, fun h => by cases h⟩
  · rw [if_neg hf]
    have hfin : c.finite = true := by
      by_contra h
      exact hf (.inl (by simpa using h))
    obtain ⟨g1, g2, g3, g4, g5, g6⟩ := finite_geometry hfin
    have hF : (Faraday : ℚ) ≠ 0 := by unfold Faraday; norm_num
    have hA : anodeLi (c.diffState dt) = anodeLi c - c.st.I * dt := by
      unfold anodeLi diffState dzn jn iApp
      simp only [hd.noDecay.2]
      have := hd.Bn
      field_simp
      ring
    have hC : cathodeLi (c.diffState dt) = cathodeLi c + c.st.I * dt := by
      unfold cathodeLi diffState dzp jp iApp
      simp only [hd.noDecay.1]
      have := hd.Bp
      field_simp
      ring
    have hv := SPM.V_rest (c.diffState dt)
    rcases hk : (c.diffState dt).V with ⟨v | e | w, c2⟩ <;> rw [hk] at hv <;> simp only at hv ⊢
    · refine ⟨c.st.I * dt, ?_, ?_, fun _ => rfl⟩
      · rw [← hA, hv]; rfl
      · rw [← hC, hv]; rfl
    · refine ⟨c.st.I * dt, ?_, ?_, fun _ => rfl⟩
      · rw [← hA, hv]; rfl
      · rw [← hC, hv]; rfl
    · refine ⟨c.st.I * dt, ?_, ?_, fun _ => rfl⟩
      · rw [← hA, hv]; rfl
      · rw [← hC, hv]; rfl

theorem diffStep_frame (c : SPM N) (dt : ℚ) : SameAge c (c.diffStep dt).2 ∧ (c.diffStep dt).2.st.I = c.st.I := by
  refine ⟨sameAge_diffStep c dt, ?_⟩
  unfold diffStep
  split
  · rfl
  · have h2 := SPM.V_rest (c.diffState dt)
    rcases hk : (c.diffState dt).V with ⟨v | e | w, c2⟩ <;>
    · rw [hk] at h2; simp only at h2 ⊢; rw [h2]; rfl

theorem countsLi_par {a b : SPM N} (h : b.par = a.par) (hc : CountsLi a) : CountsLi b := by
  obtain ⟨⟨h1, h2⟩, h3, h4, h5, h6⟩ := hc
  refine ⟨⟨?_, ?_⟩, ?_, ?_, ?_, ?_⟩ <;> rw [h] <;> assumption

/-- Diffusion moves lithium from one particle to the other. -/
theorem diffLoop_lithium (dt : ℚ) (k : ℕ) : ∀ c : SPM N, CountsLi c →
    ∃ q : ℚ, anodeLi (SPM.diffLoop dt k c).2 = anodeLi c - q ∧ cathodeLi (SPM.diffLoop dt k c).2 = cathodeLi c + q ∧
      ((SPM.diffLoop dt k c).1 = .ok () → q = c.st.I * (k * dt)) ∧ SameAge c (SPM.diffLoop dt k c).2 := by
  induction k with
  | zero =>
    intro c _
    exact ⟨0, by simp [SPM.diffLoop], by simp [SPM.diffLoop], fun _ => by simp, .refl c⟩
  | succ k ih =>
    intro c hc
    obtain ⟨q, e1, e2, e3⟩ := diffStep_lithium c dt hc
    obtain ⟨f1, f2⟩ := diffStep_frame c dt
    obtain ⟨r, g1, g2, g3, g4⟩ := ih _ (countsLi_par f1.par hc)
    rw [SPM.diffLoop]
    unfold SPM.andThen
    rcases hk : (c.diffStep dt).1 with _ | e | w <;> simp only
    · refine ⟨q + r, by rw [g1, e1]; ring, by rw [g2, e2]; ring, fun h => ?_, f1.trans g4⟩
      rw [g3 h, e3 hk, f2]; push_cast; ring
    · exact ⟨q, e1, e2, fun h => (by cases h), f1⟩
    · exact ⟨q, e1, e2, fun h => (by cases h), f1⟩

theorem thermStep_uniform (c : SPM N) (x : ℚ) : SameUniform c (c.thermStep x).2 := by
  obtain ⟨t, ht⟩ := thermStep_st c x
  exact ⟨(sameAge_thermStep c x).1, by rw [ht], by rw [ht]⟩

theorem upd_uniform (c : SPM N) : SameUniform c c.updDai.updLares.2 := by
  obtain ⟨h1, h2, -⟩ := sameAge_upd c
  exact ⟨h1, by rw [h2], by rw [h2]⟩

theorem lamSum_keeps (c : SPM N) (l : List ℕ) (h : ∀ i ∈ l, i = 0) : c.lamSum l = .ok {} := by
  induction l with
  | nil => rfl
  | cons i is ih =>
    have h0 := h i (by simp)
    rw [h0, lamSum, ih fun j hj => h j (by simp [hj])]
    show Outcome.ok (LamOut.add {} {}) = _
    simp [LamOut.add]

/-- The rates of side reactions: the anode loses what is lost. -/
theorem addRate_lithium {c : SPM N} {d : DegRate N} (x : ℚ) (h : c.degRate = .ok d) (hc : CountsLi c)
    (hk : KeepsMaterial c.deg) :
    cathodeLi (c.addRate d x) = cathodeLi c ∧
    anodeLi (c.addRate d x) = anodeLi c - ((c.addRate d x).st.LLI - c.st.LLI) := by
  obtain ⟨hf, o, sei, cr, l, ipl, h1, h2, h3, h4, e1, e2, e3, e4, e5, e6, e7, e8, e9, e10, e11, e12⟩ := degRate_spec h
  obtain ⟨g1, g2, g3, g4, g5, g6⟩ := finite_geometry hf
  rw [lamSum_keeps c _ hk.1] at h3
  have hl := Outcome.ok.inj h3
  have hs : sei.2 = 0 := by
    unfold SPM.SEI at h1
    obtain ⟨a, -, h1⟩ := Outcome.bind_eq_ok.mp h1
    rw [hk.2] at h1
    rw [← Outcome.ok.inj h1]
  rw [← hl] at e5 e6 e9 e10
  rw [hs] at e10
  simp only [mul_zero, add_zero] at e5 e6 e9 e10
  have hF : (Faraday : ℚ) ≠ 0 := by unfold Faraday; norm_num
  have hB := hc.Bn
  constructor
  · unfold cathodeLi addRate
    simp only [e5, e9]
    simp
  · unfold anodeLi addRate
    simp only [e6, e10, e12, e2, hc.nsei, hc.npl]
    field_simp
    ring

/-- What ageing does to the lithium, however it ends. -/
theorem ageStep_lithium (c : SPM N) (x : ℚ) (hc : CountsLi c) (hk : KeepsMaterial c.deg) :
    cathodeLi (c.ageStep x).2 = cathodeLi c ∧
    anodeLi (c.ageStep x).2 = anodeLi c - ((c.ageStep x).2.st.LLI - c.st.LLI) ∧
    (c.ageStep x).2.par = c.par ∧ (c.ageStep x).2.deg = c.deg := by
  have hu := upd_uniform c
  obtain ⟨u1, u2, u3⟩ := hu.lithium
  unfold ageStep SPM.andThen
  rcases hr : c.updDai.updLares with ⟨_ | e | w, c1⟩ <;> rw [hr] at hu u1 u2 u3 <;> simp only at hu u1 u2 u3 ⊢
  · rcases hd : c1.degRate with d | e | w <;> simp only
    · obtain ⟨a1, a2⟩ := addRate_lithium x hd (countsLi_par hu.age.par hc) (by rw [hu.age.deg]; exact hk)
      exact ⟨a1.trans u2, by rw [a2, u1, u3], hu.age.par, hu.age.deg⟩
    · exact ⟨u2, by rw [u1, u3]; ring, hu.age.par, hu.age.deg⟩
    · exact ⟨u2, by rw [u1, u3]; ring, hu.age.par, hu.age.deg⟩
  · exact ⟨u2, by rw [u1, u3]; ring, hu.age.par, hu.age.deg⟩
  · exact ⟨u2, by rw [u1, u3]; ring, hu.age.par, hu.age.deg⟩

theorem rotate_uniform (c : SPM N) (x : ℚ) : SameUniform c (c.rotate x) :=
  ⟨⟨rfl, rfl, rfl, rfl, rfl, rfl, rfl, rfl, rfl, rfl, rfl, rfl, rfl⟩, rfl, rfl⟩

/-- What a time step does to the lithium, however it ends. -/
theorem timeStep_lithium (c : SPM N) (dt : ℚ) (n : ℤ) (hc : CountsLi c) (hk : KeepsMaterial c.deg) :
    ∃ q : ℚ, cathodeLi (c.timeStep dt n).2 = cathodeLi c + q ∧
      anodeLi (c.timeStep dt n).2 = anodeLi c - q - ((c.timeStep dt n).2.st.LLI - c.st.LLI) ∧
      ((c.timeStep dt n).1 = .ok () → q = c.st.I * (n.toNat * dt)) := by
  unfold timeStep
  by_cases hdt : dt < 0
  · rw [if_pos hdt]
    exact ⟨0, by simp, by simp, fun h => by cases h⟩
  · rw [if_neg hdt]
    obtain ⟨q, a1, a2, a3, a4⟩ := diffLoop_lithium dt n.toNat (c.rotate (n * dt)) (countsLi_par (a := c) rfl hc)
    have a1 : _ = anodeLi c - q := a1
    have a2 : _ = cathodeLi c + q := a2
    have hL : (SPM.diffLoop dt n.toNat (c.rotate (n * dt))).2.st.LLI = c.st.LLI := a4.LLI
    have hp : (SPM.diffLoop dt n.toNat (c.rotate (n * dt))).2.par = c.par := a4.par
    have hd : (SPM.diffLoop dt n.toNat (c.rotate (n * dt))).2.deg = c.deg := a4.deg
    generalize SPM.diffLoop dt n.toNat (c.rotate (n * dt)) = r at *
    rcases r with ⟨_ | e | w, a⟩ <;> simp only [SPM.andThen] at *
    · by_cases hb : a.block = true
      · rw [if_pos hb]
        exact ⟨q, a2, by rw [a1, hL]; ring, fun _ => a3 trivial⟩
      · rw [if_neg hb]
        have ht := thermStep_uniform a (dt * n)
        obtain ⟨t1, t2, t3⟩ := ht.lithium
        rcases hr : a.thermStep (dt * n) with ⟨_ | e | w, b⟩ <;> rw [hr] at ht t1 t2 t3 <;> simp only at *
        · obtain ⟨b1, b2, -, -⟩ := ageStep_lithium b (dt * n) (countsLi_par (ht.age.par.trans hp) hc)
            (by rw [ht.age.deg, hd]; exact hk)
          exact ⟨q, by rw [b1, t2, a2], by rw [b2, t1, a1, t3, hL], fun _ => a3 trivial⟩
        · exact ⟨q, by rw [t2, a2], by rw [t1, a1, t3, hL]; ring, fun h => by cases h⟩
        · exact ⟨q, by rw [t2, a2], by rw [t1, a1, t3, hL]; ring, fun h => by cases h⟩
    · exact ⟨q, a2, by rw [a1, hL]; ring, fun h => by cases h⟩
    · exact ⟨q, a2, by rw [a1, hL]; ring, fun h => by cases h⟩

theorem sameLithium_step (c : SPM N) (dt : ℚ) (n : ℤ) : SameLithium c (c.timeStep dt n).2 := by
  have hd := SPM.timeStep_fixed c dt n
  unfold SPM.fixed at hd
  simp only [Prod.mk.injEq] at hd
  refine ⟨hd.1, hd.2.1, fun hc hk => ?_⟩
  obtain ⟨q, h1, h2, -⟩ := timeStep_lithium c dt n hc hk
  unfold allLi
  rw [h1, h2]
  ring

theorem sameLithium_only {a b : SPM N} (h : OnlyCurrentDiffers a b) : SameLithium a b := by
  have hs := h.st
  have f : ∀ {α : Type} (g : SpmState N → α), g { b.st with I := a.st.I, V := a.st.V } = g a.st := fun g => congrArg g hs
  exact SameUniform.same ⟨⟨h.par, h.rest.1, f SpmState.delta, f SpmState.LLI, f SpmState.thickp, f SpmState.thickn,
    f SpmState.ep, f SpmState.en, f SpmState.ap, f SpmState.an, f SpmState.CS, f SpmState.deltaPl, f SpmState.Dn⟩,
    f (·.zp a.par.M.ind), f (·.zn a.par.M.ind)⟩

/-! ### Relations which studies preserve -/

section
open StorageUnit Cyc

/-- What holds between a cell and itself after a change of current, after a time step and after switching ageing on or off,
and is transitive, holds cell by cell between a pack and the pack after an ageing study. -/
theorem study_rel {R : SPM N → SPM N → Prop} (refl : ∀ a, R a a) (trans : ∀ {a b c}, R a b → R b c → R a c)
    (only : ∀ {a b}, OnlyCurrentDiffers a b → R a b) (step : ∀ a dt (k : ℕ), R a (a.timeStep dt k).2)
    (block : ∀ (a : SPM N) b, R a { a with block := b }) (d : ℕ) (u : Tree (AgedUnit N) d) (fuel : ℕ) (Vbal : ℚ) :
    (∀ p mem file, CellWise (fun a b => R a.cell b.cell) d u
      (cycleAge fuel (studyChecks AgedUnit.setBlock fuel Vbal d) p u mem file).2.cyc.su) ∧
    (∀ bal ndata mem file, CellWise (fun a b => R a.cell b.cell) d u
      (useCaseAge fuel (studyChecks AgedUnit.setBlock fuel Vbal d) bal ndata u mem file).2.cyc.su) := by
  let Q : AgedUnit N → AgedUnit N → Prop := fun a b => R a.cell b.cell
  have hstep : ∀ dt k (a : AgedUnit N), Q a (StorageUnit.timeStep a dt k).2 := by
    intro dt k a
    rcases aged_timeStep a dt k with ⟨-, h⟩ | ⟨-, h⟩
    · show R a.cell (StorageUnit.timeStep a dt k).2.cell
      rw [h]; exact step _ _ _
    · show R a.cell (StorageUnit.timeStep a dt k).2.cell
      rw [h]; exact refl _
  have conv : ∀ {t t' : Tree (AgedUnit N) d}, CellWise AgedOnlyCurrent d t t' → CellWise Q d t t' := fun {t t'} h =>
    cellWise_trans (P := Q) (Q := AgedOnlyCurrent) (R := Q)
      (fun _ _ _ h1 h2 => trans h1 (only h2)) d (cellWise_refl (C := AgedUnit N) (Q := Q) (fun a => refl a.cell) d t) h
  have tr : ∀ {a b c : Tree (AgedUnit N) d}, CellWise Q d a b → CellWise Q d b c → CellWise Q d a c :=
    fun h g => cellWise_trans (P := Q) (Q := Q) (R := Q) (fun a b c h1 h2 => trans h1 h2) d h g
  have h1 : ∀ (t : Tree (AgedUnit N) d) i b, CellWise Q d u t → CellWise Q d u (StorageUnit.setCurrent t i b).2 :=
    fun t i b h => tr h (conv (cells_setCurrent_only d t i b))
  have h2 : ∀ (t : Tree (AgedUnit N) d) v, CellWise Q d u t → CellWise Q d u (VoltageUnit.setVoltage t v).2 :=
    fun t v h => tr h (conv (cells_setVoltage_only d t v))
  have h3 : ∀ (t : Tree (AgedUnit N) d) dt k, CellWise Q d u t → CellWise Q d u (StorageUnit.timeStep t dt k).2 :=
    fun t dt k h => tr h (cells_timeStep_rel (R := Q) (fun a => refl _) (fun h1 h2 => trans h1 h2)
      (fun h => only h) dt k (hstep dt k) d t)
  have hbal : ∀ c : AgedUnit N, Q c (balanceCell fuel Vbal c).2 := fun c =>
    balanceCell_keeps (U := AgedUnit N) (P := fun u => Q c u) (fun u i b h => trans h (only (agedOnly_set u i b)))
      (fun u v h => trans h (only (agedOnly_setVoltage u v))) (fun u dt k h => trans h (hstep dt k u)) fuel Vbal c (refl _)
  have h4 : ∀ t, CellWise Q d u t → CellWise Q d u ((studyChecks AgedUnit.setBlock fuel Vbal d).rebalance t).2 := fun t h =>
    tr h (balancingTree_rel (R := Q) (fun _ => refl _) (fun _ _ _ h1 h2 => trans h1 h2) AgedUnit.setBlock
      (fun b c => block c.cell b) fuel Vbal hbal d t)
  have h5 : ∀ t, CellWise Q d u t → CellWise Q d u ((studyChecks AgedUnit.setBlock fuel Vbal d).checkUp t).2 := fun t h => by
    show CellWise _ d u (checkUpTree fuel d t).2
    rw [checkUpTree_unit]
    exact checkUpPrep_keeps h1 h3 fuel t h
  exact ⟨fun p mem file => cycleAge_keeps h1 h2 h3 _ h4 h5 fuel p u mem file (cellWise_refl (Q := Q) (fun a => refl a.cell) d u),
    fun bal nd mem file => useCaseAge_keeps h1 h3 _ h4 h5 fuel bal nd u mem file (cellWise_refl (Q := Q) (fun a => refl a.cell) d u)⟩

end

end Slide

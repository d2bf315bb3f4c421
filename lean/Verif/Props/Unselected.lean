import Verif.Spec.Unselected
import Verif.Props.Study
import Verif.Props.Pack

/-! C137: a mechanism of ageing that has not been selected does not act. -/

namespace Slide
open Spec StorageUnit Cyc SPM

variable {N : ℕ}

theorem Spec.OnlySelected.refl (a : SPM N) : OnlySelected a a :=
  ⟨rfl, rfl, fun _ => rfl, fun _ => rfl, fun _ => rfl, fun _ => rfl, fun _ _ => rfl, fun _ => ⟨rfl, rfl⟩,
   fun _ _ => rfl, fun _ _ => rfl, fun _ _ _ => rfl, fun _ _ _ => rfl⟩

theorem Spec.OnlySelected.trans {a b c : SPM N} (h : OnlySelected a b) (g : OnlySelected b c) : OnlySelected a c := by
  have hd := h.deg
  obtain ⟨g1, g2, g3, g4, g5, g6, g7, g8, g9, g10, g11, g12⟩ := g
  rw [hd] at g3 g4 g5 g6 g7 g8 g9 g10 g11 g12
  exact ⟨g1.trans h.par, g2.trans hd, fun x => (g3 x).trans (h.sei x), fun x => (g4 x).trans (h.cracks x),
    fun x => (g5 x).trans (h.plated x), fun x => (g6 x).trans (h.diffusion x), fun x y => (g7 x y).trans (h.lithium x y),
    fun x => ⟨(g8 x).1.trans (h.thickness x).1, (g8 x).2.trans (h.thickness x).2⟩,
    fun x y => (g9 x y).trans (h.cathode x y), fun x y => (g10 x y).trans (h.anode x y),
    fun x y z => (g11 x y z).trans (h.cathodeSurface x y z), fun x y z => (g12 x y z).trans (h.anodeSurface x y z)⟩

theorem onlySelected_same {a b : SPM N} (h : SameAge a b) : OnlySelected a b :=
  ⟨h.par, h.deg, fun _ => h.delta, fun _ => h.CS, fun _ => h.deltaPl, fun _ => h.Dn, fun _ _ => h.LLI,
   fun _ => ⟨h.thickp, h.thickn⟩, fun _ _ => h.ep, fun _ _ => h.en, fun _ _ _ => h.ap, fun _ _ _ => h.an⟩

theorem sumModels_unselected {f : ℕ → Outcome ℚ} (hf : f 0 = .ok 0) {l : List ℕ} (hl : ∀ i ∈ l, i = 0) :
    ∀ {x}, sumModels f l = .ok x → x = 0 := by
  induction l with
  | nil => intro x h; exact (Outcome.ok.inj h).symm
  | cons i is ih =>
    intro x h
    unfold sumModels at h
    obtain ⟨a, ha, h⟩ := Outcome.bind_eq_ok.mp h
    obtain ⟨r, hr, h⟩ := Outcome.bind_eq_ok.mp h
    rw [hl i (List.mem_cons_self ..), hf] at ha
    rw [← Outcome.ok.inj h, ← Outcome.ok.inj ha, ih (fun j hj => hl j (List.mem_cons_of_mem _ hj)) hr, add_zero]

/-- What the models of the loss of active material leave alone. -/
theorem lamModel_frame {c : SPM N} {i : ℕ} {l : LamOut} (h : c.lamModel i = .ok l) :
    (i ≠ 1 → l.thickp = 0 ∧ l.thickn = 0) ∧ (i ≠ 2 → i ≠ 3 → l.ep = 0) ∧ (i ≠ 2 → l.en = 0) ∧ (i ≠ 4 → l.ap = 0 ∧ l.an = 0) := by
  unfold lamModel at h
  split at h
  · rw [← Outcome.ok.inj h]; exact ⟨fun _ => ⟨rfl, rfl⟩, fun _ _ => rfl, fun _ => rfl, fun _ => ⟨rfl, rfl⟩⟩
  · split at h
    · simp at h
    · split at h
      · simp at h
      · rw [← Outcome.ok.inj h]; exact ⟨fun q => absurd rfl q, fun _ _ => rfl, fun _ => rfl, fun _ => ⟨rfl, rfl⟩⟩
  · rw [← Outcome.ok.inj h]
    exact ⟨fun _ => ⟨rfl, rfl⟩, fun q => absurd rfl q, fun q => absurd rfl q, fun _ => ⟨rfl, rfl⟩⟩
  · obtain ⟨o, -, h⟩ := Outcome.bind_eq_ok.mp h
    rw [← Outcome.ok.inj h]
    exact ⟨fun _ => ⟨rfl, rfl⟩, fun _ q => absurd rfl q, fun _ => rfl, fun _ => ⟨rfl, rfl⟩⟩
  · rw [← Outcome.ok.inj h]; exact ⟨fun _ => ⟨rfl, rfl⟩, fun _ _ => rfl, fun _ => rfl, fun q => absurd rfl q⟩
  · simp at h

theorem lamSum_frame {c : SPM N} (is : List ℕ) : ∀ {l : LamOut}, c.lamSum is = .ok l →
    (1 ∉ is → l.thickp = 0 ∧ l.thickn = 0) ∧ (2 ∉ is → 3 ∉ is → l.ep = 0) ∧ (2 ∉ is → l.en = 0) ∧
      (4 ∉ is → l.ap = 0 ∧ l.an = 0) := by
  induction is with
  | nil => intro l h; rw [← Outcome.ok.inj h]; exact ⟨fun _ => ⟨rfl, rfl⟩, fun _ _ => rfl, fun _ => rfl, fun _ => ⟨rfl, rfl⟩⟩
  | cons i is ih =>
    intro l h
    unfold lamSum at h
    obtain ⟨a, ha, h⟩ := Outcome.bind_eq_ok.mp h
    obtain ⟨r, hr, h⟩ := Outcome.bind_eq_ok.mp h
    obtain ⟨a1, a2, a3, a4⟩ := lamModel_frame ha
    obtain ⟨r1, r2, r3, r4⟩ := ih hr
    rw [← Outcome.ok.inj h]
    simp only [List.mem_cons, not_or, LamOut.add]
    refine ⟨fun q => ?_, fun q w => ?_, fun q => ?_, fun q => ?_⟩
    · rw [(a1 (Ne.symm q.1)).1, (a1 (Ne.symm q.1)).2, (r1 q.2).1, (r1 q.2).2, add_zero]; exact ⟨rfl, rfl⟩
    · rw [a2 (Ne.symm q.1) (Ne.symm w.1), r2 q.2 w.2, add_zero]
    · rw [a3 (Ne.symm q.1), r3 q.2, add_zero]
    · rw [(a4 (Ne.symm q.1)).1, (a4 (Ne.symm q.1)).2, (r4 q.2).1, (r4 q.2).2, add_zero]; exact ⟨rfl, rfl⟩

theorem onlySelected_rate {c : SPM N} {d : DegRate N} (hd : c.degRate = .ok d) (h : ℚ) : OnlySelected c (c.addRate d h) := by
  obtain ⟨-, o, sei, cr, l, ipl, h1, h2, h3, h4, e1, e2, e3, e4, e5, e6, e7, e8, e9, e10, e11, -⟩ := degRate_spec hd
  have hs : (∀ i ∈ c.deg.SEI, i = 0) → sei.1 = 0 := fun q => sumModels_unselected rfl q (SEI_spec h1).1
  have hc : (∀ i ∈ c.deg.CS, i = 0) → cr.2.1 = 0 := fun q => sumModels_unselected rfl q (crack_spec h2).1
  have hp : c.deg.pl = 0 → ipl = 0 := fun q => by
    unfold plating at h4; rw [q] at h4; exact (Outcome.ok.inj h4).symm
  have hx : c.deg.CSdiff = 0 → cr.2.2 = 0 := fun q => by
    unfold crack at h2
    obtain ⟨a, -, h2⟩ := Outcome.bind_eq_ok.mp h2
    rw [q] at h2
    rw [← Outcome.ok.inj h2]
  obtain ⟨l1, l2, l3, l4⟩ := lamSum_frame _ h3
  have he := (SEI_spec h1).2.2
  have z : ∀ {x r : ℚ}, r = 0 → x + r * h = x := fun q => by rw [q, zero_mul, add_zero]
  refine ⟨rfl, rfl, fun q => z ?_, fun q => z ?_, fun q => z ?_, fun q => z ?_, fun q w => z ?_, fun q => ⟨z ?_, z ?_⟩,
    fun q w => z ?_, fun q w => z ?_, fun q w v => z ?_, fun q w v => z ?_⟩
  · rw [e1, hs q, zero_div]
  · rw [e3, hc q]
  · rw [e4, hp q, zero_div]
  · rw [e11, hx q]
  · rw [e2, hs q, hp w]; ring
  · rw [e5, (l1 q).1]
  · rw [e6, (l1 q).2]
  · rw [e7, l2 q w]
  · rw [e8, l3 q, he w, add_zero]
  · rw [e9, (l4 v).1, l2 q w]; ring
  · rw [e10, (l4 w).2, l3 q, he v]; ring

theorem onlySelected_timeStep (c : SPM N) (dt : ℚ) (n : ℤ) : OnlySelected c (c.timeStep dt n).2 := by
  rcases timeStep_age c dt n with h | ⟨-, c1, d, h1, -, -, h4, h5⟩
  · exact onlySelected_same h
  · rw [h5]; exact (onlySelected_same h1).trans (onlySelected_rate h4 _)

/-- C137: whatever is done with a cell in ordinary use, and however the calls end, it only ages by the mechanisms that have
been selected. -/
theorem only_selected (c : SPM N) (ops : List (SpmOp N)) (ho : ∀ o ∈ ops, ordinary o) : OnlySelected c (spmRun c ops) := by
  induction ops generalizing c with
  | nil => exact .refl c
  | cons o os ih =>
    have h : OnlySelected c (spmAfter c o) := by
      by_cases hs : ∃ dt n, o = .step dt n
      · obtain ⟨dt, n, rfl⟩ := hs; exact onlySelected_timeStep c dt n
      · exact onlySelected_same (sameAge_ordinary o (ho o (List.mem_cons_self ..)) (fun dt n e => hs ⟨dt, n, e⟩))
    exact h.trans (ih _ fun o' h' => ho o' (List.mem_cons_of_mem _ h'))

/-! ### Packs -/

theorem onlySelected_only {a b : SPM N} (h : OnlyCurrentDiffers a b) : OnlySelected a b := by
  have hs := h.st
  have e0 : b.st.delta = a.st.delta := by have := congrArg SpmState.delta hs; exact this
  have e1 : b.st.LLI = a.st.LLI := by have := congrArg SpmState.LLI hs; exact this
  have e2 : b.st.thickp = a.st.thickp := by have := congrArg SpmState.thickp hs; exact this
  have e3 : b.st.thickn = a.st.thickn := by have := congrArg SpmState.thickn hs; exact this
  have e4 : b.st.ep = a.st.ep := by have := congrArg SpmState.ep hs; exact this
  have e5 : b.st.en = a.st.en := by have := congrArg SpmState.en hs; exact this
  have e6 : b.st.ap = a.st.ap := by have := congrArg SpmState.ap hs; exact this
  have e7 : b.st.an = a.st.an := by have := congrArg SpmState.an hs; exact this
  have e8 : b.st.CS = a.st.CS := by have := congrArg SpmState.CS hs; exact this
  have e9 : b.st.deltaPl = a.st.deltaPl := by have := congrArg SpmState.deltaPl hs; exact this
  have e10 : b.st.Dn = a.st.Dn := by have := congrArg SpmState.Dn hs; exact this
  exact onlySelected_same ⟨h.par, h.rest.1, e0, e1, e2, e3, e4, e5, e6, e7, e8, e9, e10⟩

theorem aged_timeStep_selected (dt : ℚ) (k : ℕ) (u : AgedUnit N) :
    OnlySelected u.cell (StorageUnit.timeStep u dt k).2.cell := by
  rcases aged_timeStep u dt k with ⟨-, h⟩ | ⟨-, h⟩
  · rw [h]; exact onlySelected_timeStep u.cell dt k
  · rw [h]; exact .refl _

section
variable (d : ℕ) (u : Tree (AgedUnit N) d)

theorem selected_acts :
    (∀ (t : Tree (AgedUnit N) d) i b, CellWise (fun a b => OnlySelected a.cell b.cell) d u t →
      CellWise (fun a b => OnlySelected a.cell b.cell) d u (StorageUnit.setCurrent t i b).2) ∧
    (∀ (t : Tree (AgedUnit N) d) v, CellWise (fun a b => OnlySelected a.cell b.cell) d u t →
      CellWise (fun a b => OnlySelected a.cell b.cell) d u (VoltageUnit.setVoltage t v).2) ∧
    (∀ (t : Tree (AgedUnit N) d) dt k, CellWise (fun a b => OnlySelected a.cell b.cell) d u t →
      CellWise (fun a b => OnlySelected a.cell b.cell) d u (StorageUnit.timeStep t dt k).2) := by
  let R : AgedUnit N → AgedUnit N → Prop := fun a b => OnlySelected a.cell b.cell
  have only : ∀ {t t' : Tree (AgedUnit N) d}, CellWise R d u t → CellWise AgedOnlyCurrent d t t' → CellWise R d u t' :=
    fun h g => cellWise_trans (P := R) (fun a b c (h1 : R a b) (h2 : AgedOnlyCurrent b c) => h1.trans (onlySelected_only h2)) d h g
  exact ⟨fun t i b h => only h (cells_setCurrent_only d t i b), fun t v h => only h (cells_setVoltage_only d t v),
    fun t dt k h => cellWise_trans (fun _ _ _ h1 h2 => h1.trans h2) d h
      (cells_timeStep_rel (R := R) (fun a => .refl _) (fun h1 h2 => h1.trans h2) (fun h => onlySelected_only h) dt k
        (aged_timeStep_selected dt k) d t)⟩

theorem selected_checks (fuel : ℕ) (Vbal : ℚ) :
    (∀ t : Tree (AgedUnit N) d, CellWise (fun a b => OnlySelected a.cell b.cell) d u t →
      CellWise (fun a b => OnlySelected a.cell b.cell) d u ((studyChecks AgedUnit.setBlock fuel Vbal d).rebalance t).2) ∧
    (∀ t : Tree (AgedUnit N) d, CellWise (fun a b => OnlySelected a.cell b.cell) d u t →
      CellWise (fun a b => OnlySelected a.cell b.cell) d u ((studyChecks AgedUnit.setBlock fuel Vbal d).checkUp t).2) := by
  obtain ⟨h1, -, h3⟩ := selected_acts d u
  refine ⟨fun t h => ?_, fun t h => ?_⟩
  · refine cellWise_trans (fun _ _ _ h1 h2 => h1.trans h2) d h
      (balancingTree_rel (R := fun a b : AgedUnit N => OnlySelected a.cell b.cell) (fun _ => .refl _)
        (fun _ _ _ h1 h2 => h1.trans h2) AgedUnit.setBlock
        (fun b c => ⟨rfl, rfl, fun _ => rfl, fun _ => rfl, fun _ => rfl, fun _ => rfl, fun _ _ => rfl, fun _ => ⟨rfl, rfl⟩,
          fun _ _ => rfl, fun _ _ => rfl, fun _ _ _ => rfl, fun _ _ _ => rfl⟩) fuel Vbal (fun c => ?_) d t)
    exact balanceCell_keeps (U := AgedUnit N) (P := fun v => OnlySelected c.cell v.cell)
      (fun v i b h => h.trans (onlySelected_only (agedOnly_set v i b)))
      (fun v x h => h.trans (onlySelected_only (agedOnly_setVoltage v x)))
      (fun v dt k h => h.trans (aged_timeStep_selected dt k v)) fuel Vbal c (.refl _)
  · show CellWise _ d u (checkUpTree fuel d t).2
    rw [checkUpTree_unit]
    exact checkUpPrep_keeps h1 h3 fuel t h

/-- C137: in a whole cycle-ageing study of a pack, with balancing and check-ups and however it ends, every cell only ages by
the mechanisms selected for it. -/
theorem cycleAge_only_selected (fuel : ℕ) (Vbal : ℚ) (p : AgeParams) (mem file : List Thr) :
    CellWise (fun a b => OnlySelected a.cell b.cell) d u
      (cycleAge fuel (studyChecks AgedUnit.setBlock fuel Vbal d) p u mem file).2.cyc.su := by
  obtain ⟨h1, h2, h3⟩ := selected_acts d u
  obtain ⟨h4, h5⟩ := selected_checks d u fuel Vbal
  exact cycleAge_keeps h1 h2 h3 _ h4 h5 fuel p u mem file (cellWise_refl (fun _ => .refl _) d u)

/-- C137: the same for a use-case study. -/
theorem useCaseAge_only_selected (fuel : ℕ) (Vbal : ℚ) (bal : Bool) (ndata : ℤ) (mem file : List Thr) :
    CellWise (fun a b => OnlySelected a.cell b.cell) d u
      (useCaseAge fuel (studyChecks AgedUnit.setBlock fuel Vbal d) bal ndata u mem file).2.cyc.su := by
  obtain ⟨h1, -, h3⟩ := selected_acts d u
  obtain ⟨h4, h5⟩ := selected_checks d u fuel Vbal
  exact useCaseAge_keeps h1 h3 _ h4 h5 fuel bal ndata u mem file (cellWise_refl (fun _ => .refl _) d u)

end

/-- C137: the ready-made packs.  In none of them cracks grow, lithium is plated or the diffusion in the anode slows down, and
the volume fraction and the specific surface of the cathode stay; the electrodes of the packs of `makeBattery` do not get
thinner; the pores of the anodes in the packs of `makeBattery_EPFL_smaller` are not clogged. -/
theorem pack_only_selected {a b : SPM N} (h : OnlySelected a b) :
    (a.deg ∈ [Pack.deg1, Pack.deg2, Pack.deg3] → b.st.CS = a.st.CS ∧ b.st.deltaPl = a.st.deltaPl ∧ b.st.Dn = a.st.Dn ∧
      b.st.ep = a.st.ep ∧ b.st.ap = a.st.ap) ∧
    (a.deg = Pack.deg1 → b.st.thickp = a.st.thickp ∧ b.st.thickn = a.st.thickn) ∧
    (a.deg = Pack.deg3 → b.st.en = a.st.en ∧ b.st.an = a.st.an) := by
  refine ⟨fun q => ?_, fun q => h.thickness ?_, fun q => ⟨h.anode ?_ ?_, h.anodeSurface ?_ ?_ ?_⟩⟩
  · have : a.deg.CS = [0] ∧ a.deg.pl = 0 ∧ a.deg.CSdiff = 0 ∧ 2 ∉ a.deg.LAM ∧ 3 ∉ a.deg.LAM ∧ 4 ∉ a.deg.LAM := by
      simp only [List.mem_cons, List.not_mem_nil, or_false] at q
      rcases q with q | q | q <;> rw [q] <;> decide
    obtain ⟨q1, q2, q3, q4, q5, q6⟩ := this
    exact ⟨h.cracks (by rw [q1]; simp), h.plated q2, h.diffusion q3, h.cathode q4 q5, h.cathodeSurface q4 q5 q6⟩
  all_goals rw [q]; decide

/-! ### Hypotheses -/

/-- Nothing selected: nothing ages, though the cell has been used; something selected: it does. -/
def quiet : SPM 1 := { spmLam with deg := { SEI := [0], SEIpor := 0, CS := [0], CSdiff := 0, LAM := [0], pl := 0 } }

example : (quiet.timeStep (1/10) 2).1 = .ok () ∧ (quiet.timeStep (1/10) 2).2.st.time ≠ quiet.st.time := by decide +kernel
example : (spmLam.timeStep (1/10) 2).2.st.delta ≠ spmLam.st.delta ∧ (spmLam.timeStep (1/10) 2).2.st.ap ≠ spmLam.st.ap ∧
    1 ∉ spmLam.deg.LAM ∧ 2 ∉ spmLam.deg.LAM ∧ spmLam.deg.SEIpor = 0 ∧ spmLam.deg.pl = 0 := by decide +kernel
example : ∀ o ∈ [SpmOp.setCurrent (N := 1) 1 true, .step (1/10) 2, .readV], ordinary o := by
  intro o ho
  simp only [List.mem_cons, List.not_mem_nil, or_false] at ho
  rcases ho with rfl | rfl | rfl
  · trivial
  · show (0 : ℤ) ≤ 2; decide
  · trivial

end Slide

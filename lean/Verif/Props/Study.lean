import Verif.Lemmas.Study
import Verif.Props.SpmAged

/-! C112: whole ageing studies on packs of ageing single-particle cells. -/

namespace Slide
open Spec StorageUnit Cyc

variable {N : ℕ}

theorem Spec.StudyAged.refl (a : SPM N) : StudyAged a a :=
  ⟨rfl, rfl, .refl a, fun _ _ => le_refl _, fun _ _ => le_refl _, fun _ _ => le_refl _⟩

theorem Spec.StudyAged.trans {a b c : SPM N} (h : StudyAged a b) (g : StudyAged b c) : StudyAged a c := by
  have key : SpmPhysical a.par → 0 ≤ a.st.delta → SpmPhysical b.par ∧ 0 ≤ b.st.delta := fun p d =>
    ⟨by rw [h.par]; exact p, d.trans (h.sei p d)⟩
  exact ⟨g.par.trans h.par, g.deg.trans h.deg, h.meters.trans g.meters,
    fun p d => (h.sei p d).trans (g.sei (key p d).1 (key p d).2),
    fun p d => (h.cracks p d).trans (g.cracks (key p d).1 (key p d).2),
    fun p d => (h.plated p d).trans (g.plated (key p d).1 (key p d).2)⟩

theorem Spec.OneWay.studyAged {a b : SPM N} (h : OneWay a b) : StudyAged a b :=
  ⟨h.fixed.1, h.fixed.2.1, h.meters, h.sei, h.cracks, h.plated⟩

theorem studyAged_block (u : AgedUnit N) (b : Bool) : StudyAged u.cell (AgedUnit.setBlock b u).cell :=
  ⟨rfl, rfl, ⟨le_refl _, le_refl _, le_refl _⟩, fun _ _ => le_refl _, fun _ _ => le_refl _, fun _ _ => le_refl _⟩

/-- What holds between a pack and the same pack after a current, a voltage or a time step. -/
theorem oneWay_acts (d : ℕ) :
    (∀ (u : Tree (AgedUnit N) d) i b, CellWise (fun a b => OneWay a.cell b.cell) d u (StorageUnit.setCurrent u i b).2) ∧
    (∀ (u : Tree (AgedUnit N) d) v, CellWise (fun a b => OneWay a.cell b.cell) d u (VoltageUnit.setVoltage u v).2) ∧
    (∀ (u : Tree (AgedUnit N) d) dt k, CellWise (fun a b => OneWay a.cell b.cell) d u (StorageUnit.timeStep u dt k).2) := by
  let R : AgedUnit N → AgedUnit N → Prop := fun a b => OneWay a.cell b.cell
  have only : ∀ {t t' : Tree (AgedUnit N) d}, CellWise AgedOnlyCurrent d t t' → CellWise R d t t' := fun {t t'} h =>
    cellWise_trans (P := R) (fun _ _ _ h1 h2 => Spec.OneWay.trans h1 (oneWay_only h2)) d
      (cellWise_refl (fun a => .refl _) d t) h
  exact ⟨fun u i b => only (cells_setCurrent_only d u i b), fun u v => only (cells_setVoltage_only d u v),
    fun u dt k => cells_timeStep_rel (R := R) (fun a => .refl _) (fun h1 h2 => h1.trans h2)
      (fun h => oneWay_only h) dt k (aged_timeStep_oneWay dt k) d u⟩

theorem balanceCell_oneWay (fuel : ℕ) (Vbal : ℚ) (c : AgedUnit N) : OneWay c.cell (balanceCell fuel Vbal c).2.cell := by
  have h1 : ∀ (u : AgedUnit N) i b, OneWay u.cell (StorageUnit.setCurrent u i b).2.cell :=
    fun u i b => oneWay_only (agedOnly_set u i b)
  have h2 : ∀ (u : AgedUnit N) v, OneWay u.cell (VoltageUnit.setVoltage u v).2.cell :=
    fun u v => oneWay_only (agedOnly_setVoltage u v)
  exact balanceCell_keeps (U := AgedUnit N) (P := fun u => OneWay c.cell u.cell) (fun u i b h => h.trans (h1 u i b))
    (fun u v h => h.trans (h2 u v)) (fun u dt k h => h.trans (aged_timeStep_oneWay dt k u)) fuel Vbal c (.refl _)

section
variable (d : ℕ) (u : Tree (AgedUnit N) d)

/-- What an action preserves cell by cell it preserves in relation to the pack at the start. -/
theorem study_acts (R : SPM N → SPM N → Prop) (hR : ∀ a b c, R a b → OneWay b c → R a c) :
    (∀ (t : Tree (AgedUnit N) d) i b, CellWise (fun a b => R a.cell b.cell) d u t →
      CellWise (fun a b => R a.cell b.cell) d u (StorageUnit.setCurrent t i b).2) ∧
    (∀ (t : Tree (AgedUnit N) d) v, CellWise (fun a b => R a.cell b.cell) d u t →
      CellWise (fun a b => R a.cell b.cell) d u (VoltageUnit.setVoltage t v).2) ∧
    (∀ (t : Tree (AgedUnit N) d) dt k, CellWise (fun a b => R a.cell b.cell) d u t →
      CellWise (fun a b => R a.cell b.cell) d u (StorageUnit.timeStep t dt k).2) := by
  obtain ⟨h1, h2, h3⟩ := oneWay_acts (N := N) d
  have tr : ∀ {a b c : Tree (AgedUnit N) d}, CellWise (fun a b => R a.cell b.cell) d a b →
      CellWise (fun a b => OneWay a.cell b.cell) d b c → CellWise (fun a b => R a.cell b.cell) d a c :=
    fun h g => cellWise_trans (fun a b c => hR a.cell b.cell c.cell) d h g
  exact ⟨fun t i b h => tr h (h1 t i b), fun t v h => tr h (h2 t v), fun t dt k h => tr h (h3 t dt k)⟩

theorem studyChecks_aged (fuel : ℕ) (Vbal : ℚ) :
    (∀ t : Tree (AgedUnit N) d, CellWise (fun a b => StudyAged a.cell b.cell) d u t →
      CellWise (fun a b => StudyAged a.cell b.cell) d u ((studyChecks AgedUnit.setBlock fuel Vbal d).rebalance t).2) ∧
    (∀ t : Tree (AgedUnit N) d, CellWise (fun a b => StudyAged a.cell b.cell) d u t →
      CellWise (fun a b => StudyAged a.cell b.cell) d u ((studyChecks AgedUnit.setBlock fuel Vbal d).checkUp t).2) := by
  obtain ⟨h1, -, h3⟩ := study_acts d u StudyAged fun a b c h g => h.trans g.studyAged
  refine ⟨fun t h => ?_, fun t h => ?_⟩
  · exact cellWise_trans (fun _ _ _ h1 h2 => h1.trans h2) d h
      (balancingTree_rel (R := fun a b : AgedUnit N => StudyAged a.cell b.cell) (fun _ => .refl _)
        (fun _ _ _ h1 h2 => h1.trans h2) AgedUnit.setBlock (fun b c => studyAged_block c b) fuel Vbal
        (fun c => (balanceCell_oneWay fuel Vbal c).studyAged) d t)
  · show CellWise _ d u (checkUpTree fuel d t).2
    rw [checkUpTree_unit]
    exact checkUpPrep_keeps h1 h3 fuel t h

/-- C112: a cycle-ageing study of a pack of single-particle cells – with the balancing and check-ups of the program, however
it ends – leaves the structure of the pack and makes none of its cells younger. -/
theorem cycleAge_not_younger (fuel : ℕ) (Vbal : ℚ) (p : AgeParams) (mem file : List Thr) :
    CellWise (fun a b => StudyAged a.cell b.cell) d u
      (cycleAge fuel (studyChecks AgedUnit.setBlock fuel Vbal d) p u mem file).2.cyc.su := by
  obtain ⟨h1, h2, h3⟩ := study_acts d u StudyAged fun a b c h g => h.trans g.studyAged
  obtain ⟨h4, h5⟩ := studyChecks_aged d u fuel Vbal
  exact cycleAge_keeps h1 h2 h3 _ h4 h5 fuel p u mem file (cellWise_refl (fun _ => .refl _) d u)

/-- C112: the same for a use-case study. -/
theorem useCaseAge_not_younger (fuel : ℕ) (Vbal : ℚ) (bal : Bool) (ndata : ℤ) (mem file : List Thr) :
    CellWise (fun a b => StudyAged a.cell b.cell) d u
      (useCaseAge fuel (studyChecks AgedUnit.setBlock fuel Vbal d) bal ndata u mem file).2.cyc.su := by
  obtain ⟨h1, h2, h3⟩ := study_acts d u StudyAged fun a b c h g => h.trans g.studyAged
  obtain ⟨h4, h5⟩ := studyChecks_aged d u fuel Vbal
  exact useCaseAge_keeps h1 h3 _ h4 h5 fuel bal ndata u mem file (cellWise_refl (fun _ => .refl _) d u)

theorem studyChecks_module (fuel : ℕ) (Vbal : ℚ) (hm : IsModule d u) :
    (∀ t : Tree (AgedUnit N) d, CellWise (fun a b => OneWay a.cell b.cell) d u t →
      CellWise (fun a b => OneWay a.cell b.cell) d u ((studyChecks AgedUnit.setBlock fuel Vbal d).rebalance t).2) ∧
    (∀ t : Tree (AgedUnit N) d, CellWise (fun a b => OneWay a.cell b.cell) d u t →
      CellWise (fun a b => OneWay a.cell b.cell) d u ((studyChecks AgedUnit.setBlock fuel Vbal d).checkUp t).2) := by
  obtain ⟨h1, -, h3⟩ := study_acts d u OneWay fun a b c h g => h.trans g
  refine ⟨fun t h => ?_, fun t h => ?_⟩
  · exact cellWise_trans (fun _ _ _ h1 h2 => h1.trans h2) d h
      (balancingTree_module_rel (R := fun a b : AgedUnit N => OneWay a.cell b.cell) (fun _ => .refl _) AgedUnit.setBlock
        fuel Vbal (fun c => balanceCell_oneWay fuel Vbal c) d t (isModule_cellWise h hm))
  · show CellWise _ d u (checkUpTree fuel d t).2
    rw [checkUpTree_unit]
    exact checkUpPrep_keeps h1 h3 fuel t h

/-- C112: inside a module the switch for ageing of each cell is moreover the one it had before the study. -/
theorem cycleAge_one_way (fuel : ℕ) (Vbal : ℚ) (p : AgeParams) (mem file : List Thr) (hm : IsModule d u) :
    CellWise (fun a b => OneWay a.cell b.cell) d u
      (cycleAge fuel (studyChecks AgedUnit.setBlock fuel Vbal d) p u mem file).2.cyc.su := by
  obtain ⟨h1, h2, h3⟩ := study_acts d u OneWay fun a b c h g => h.trans g
  obtain ⟨h4, h5⟩ := studyChecks_module d u fuel Vbal hm
  exact cycleAge_keeps h1 h2 h3 _ h4 h5 fuel p u mem file (cellWise_refl (fun _ => .refl _) d u)

/-- C112: the same for a use-case study. -/
theorem useCaseAge_one_way (fuel : ℕ) (Vbal : ℚ) (bal : Bool) (ndata : ℤ) (mem file : List Thr) (hm : IsModule d u) :
    CellWise (fun a b => OneWay a.cell b.cell) d u
      (useCaseAge fuel (studyChecks AgedUnit.setBlock fuel Vbal d) bal ndata u mem file).2.cyc.su := by
  obtain ⟨h1, h2, h3⟩ := study_acts d u OneWay fun a b c h g => h.trans g
  obtain ⟨h4, h5⟩ := studyChecks_module d u fuel Vbal hm
  exact useCaseAge_keeps h1 h3 _ h4 h5 fuel bal ndata u mem file (cellWise_refl (fun _ => .refl _) d u)

end

/-! ### Balancing and check-up are the ones of C85 and C49 -/

section
variable {C : Type} [StorageUnit C] [VoltageUnit C]

theorem balanceKids_pack (b : Bool) (fuel : ℕ) (Vbal : ℚ) (d : ℕ)
    (ih : ∀ t : Tree C d, (toPack b d t).rebalance fuel Vbal =
      ((rebalanceTree fuel Vbal d t).1, toPack b d (rebalanceTree fuel Vbal d t).2)) (first : Bool) (l : List (Kid (Tree C d))) :
    Pack.rebalanceAll fuel Vbal first (l.map fun k => toPack b d k.su) =
      ((balanceKids (rebalanceTree fuel Vbal d) first l).1,
        (balanceKids (rebalanceTree fuel Vbal d) first l).2.map fun k => toPack b d k.su) := by
  induction l generalizing first with
  | nil => rfl
  | cons k ks ihl =>
    rw [List.map_cons, Pack.rebalanceAll, ih, balanceKids]
    rcases hk : rebalanceTree fuel Vbal d k.su with ⟨st | e | w, t'⟩
    · dsimp only
      by_cases hs : st.isSuccessful = true
      · rw [if_pos hs, if_pos hs, ihl false]; rfl
      · rw [if_neg hs, if_neg hs]
        cases first <;> rfl
    · rfl
    · rfl

/-- C112: the balancing of the study is the one of C85. -/
theorem rebalanceTree_pack (b : Bool) (fuel : ℕ) (Vbal : ℚ) (d : ℕ) (t : Tree C d) :
    (toPack b d t).rebalance fuel Vbal = ((rebalanceTree fuel Vbal d t).1, toPack b d (rebalanceTree fuel Vbal d t).2) := by
  have cell : ∀ c : C, (Pack.cell true b c).rebalance fuel Vbal =
      ((balanceCell fuel Vbal c).1, Pack.cell true b (balanceCell fuel Vbal c).2) := by
    intro c
    rw [Pack.rebalance, balanceCell]
    rcases Cyc.CCCV fuel { su := c } (StorageUnit.Cap c * (1/2)) Vbal (StorageUnit.Cap c * (1/1000)) 1 0 Thr.zero with
      ⟨_ | e | w, c1, th⟩
    · dsimp only
      rcases StorageUnit.setCurrent c1.su 0 true with ⟨_ | e | w, u⟩ <;> rfl
    · rfl
    · rfl
  induction d with
  | zero => exact cell t
  | succ d ih =>
    cases t with
    | cell c => exact cell c
    | series m =>
      show (Pack.module b _).rebalance fuel Vbal = _
      rw [Pack.rebalance, balanceKids_pack b fuel Vbal d ih]; rfl
    | parallel m =>
      show (Pack.module b _).rebalance fuel Vbal = _
      rw [Pack.rebalance, balanceKids_pack b fuel Vbal d ih]; rfl

omit [StorageUnit C] [VoltageUnit C] in
theorem treeCells_eq (d : ℕ) (t : Tree C d) : treeCells d t = cells d t := by
  induction d with
  | zero => rfl
  | succ d ih =>
    cases t with
    | cell c => rfl
    | series m => simp only [treeCells, cells, ih]
    | parallel m => simp only [treeCells, cells, ih]

end

section
variable {C : Type} [CheckCell C]

theorem checkRows_tests (fuel start : ℕ) (Ah : ℚ) (n : ℤ) (l : List (List Char × C)) :
    (checkRows fuel start Ah n l).1 = capacityTests fuel (l.map Prod.snd) := by
  induction l with
  | nil => rfl
  | cons x l ih =>
    obtain ⟨id, c⟩ := x
    rw [checkRows, List.map_cons, capacityTests]
    dsimp only
    rcases Cyc.testCapacity fuel { su := c } 0 0 with ⟨cap | e | w, c', a, b⟩
    · dsimp only; rw [← ih]
    · rfl
    · rfl

/-- C112: the check-up of the study is the one that writes the documents. -/
theorem checkUpTree_document (d : ℕ) [HasCells (Tree C d) C]
    (hc : ∀ t : Tree C d, (HasCells.cells t : List (List Char × C)).map Prod.snd = cells d t) (fuel : ℕ) (t : Tree C d)
    (Ah : ℚ) (n : ℤ) (file : List (List Field)) :
    ((checkUp C fuel t Ah n file).1, (checkUp C fuel t Ah n file).2.1) = checkUpTree fuel d t := by
  unfold checkUp checkUpTree
  rcases checkUpPrep fuel t with ⟨_ | e | w, t1⟩
  · dsimp only
    have h := hc t1
    rw [← treeCells_eq] at h
    rw [← h]
    rcases (HasCells.cells t1 : List (List Char × C)) with _ | ⟨⟨id, c⟩, rest⟩
    · rfl
    · exact Prod.ext (checkRows_tests fuel (if CheckCell.isSPM c then 2 * nch else 0) Ah n ((id, c) :: rest)) rfl
  · rfl
  · rfl

end

/-! ### Hypotheses -/

/-- A cell that ages slowly. -/
def spmSlow : SPM 1 :=
  { spm1 with par := { spm1.par with
      sei := { spm1.par.sei with k1 := 1 / 1000000000 }, rsei := 1 / 1000,
      M := { spm1.par.M with Bp := fun _ => 1 / 1000, Bn := fun _ => 1 / 1000 } } }

theorem spmSlow_sound : SpmSound spmSlow where
  finite := by decide +kernel
  cap := by decide
  exp x := by show (1 : ℚ) ≠ 0; norm_num
  sqrt x hx := by show max x 0 ≠ 0; rw [max_eq_left hx.le]; exact hx.ne'
  elec := by decide
  kp := by decide
  kn := by decide
  curves z h0 h1 := by
    have : 0 ≤ z ∧ z ≤ 1 := ⟨h0.le, h1.le⟩
    simp [spmSlow, spm1, this]

def slowCell : AgedUnit 1 := ⟨spmSlow, spmSlow_sound⟩

/-- Two of them in series. -/
def slowString : Tree (AgedUnit 1) 1 :=
  Node.series { T := 290, kids := [⟨1/1000, slowCell⟩, ⟨1/1000, slowCell⟩] }

def studyCycle : AgeParams :=
  { Ncycle := 1, Ncheck := 1, Nbal := 1, testCV := true, Ccha := 1, Cdis := 1, Vmax := 74/10, Vmin := 70/10,
    balance := false, ndata := 0 }

example : IsModule 1 slowString := trivial
example : SpmPhysical slowCell.cell.par ∧ 0 ≤ slowCell.cell.st.delta :=
  ⟨{ spm1_physical with k1 := by decide +kernel }, by decide +kernel⟩

/-- The studies age the cells: their SEI layers grow. -/
example : (cells 1 (cycleAge 2 (studyChecks AgedUnit.setBlock 2 (359/100) 1) studyCycle slowString [] []).2.cyc.su).map
    (fun b => decide (slowCell.cell.st.delta < b.cell.st.delta)) = [true, true] := by decide +kernel
example : (cells 1 (useCaseAge 2 (studyChecks AgedUnit.setBlock 2 (359/100) 1) false 0 slowString [] []).2.cyc.su).map
    (fun b => decide (slowCell.cell.st.delta < b.cell.st.delta)) = [true, true] := by decide +kernel

/-- Balancing a single cell whose ageing was blocked switches its ageing on. -/
example : (blockTop AgedUnit.setBlock false 0 (blockTop AgedUnit.setBlock true 0 slowCell)).cell.block = false := rfl

end Slide

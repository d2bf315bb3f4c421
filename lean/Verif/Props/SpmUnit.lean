import Verif.Lemmas.SpmUnit
import Verif.Spec.SpmUnit
import Verif.Props.Series
import Verif.Props.ParallelEq
import Verif.Props.Tree

/-!
Property C106: modules of single-particle cells (without ageing and heat) obey the laws of modules.
-/

namespace Slide
open Spec

variable {N : ℕ}

/-! ### A cell and the unit that stands for it in modules -/

/-- C106: readings.  A unit answers `V()`, `checkVoltage()`, `getOCV()` … as the cell does. -/
theorem spmUnit_refines_reads (c : SPM N) (h : SpmGood c) (hf : Fresh c) :
    c.V.1 = .ok (StorageUnit.V (SpmUnit.of c h)) ∧ c.checkV.1 = .ok (StorageUnit.checkVoltage (SpmUnit.of c h)) ∧
    StorageUnit.I (SpmUnit.of c h) = c.st.I ∧ StorageUnit.T (SpmUnit.of c h) = c.st.T ∧
    StorageUnit.Cap (SpmUnit.of c h) = c.par.cap ∧ StorageUnit.Rtot (SpmUnit.of c h) = c.Rdc ∧
    (∀ v, c.getOCV = .ok v ↔ StorageUnit.OCV (SpmUnit.of c h) = some v) ∧
    SpmUnit.of c.V.2 ((SpmFrame.V c).good h) = SpmUnit.of c h := by
  have hV : c.plain.V.1 = c.V.1 := by
    rw [plain_eq_memo, V_core]
    exact (fresh_V_eq hf 0).symm
  obtain ⟨v, hv⟩ := good_V h
  have hI : c.plain.st.I = c.st.I := rfl
  refine ⟨?_, ?_, rfl, rfl, rfl, rfl, ?_, ?_⟩
  · simp only [StorageUnit.V, SpmUnit.of]
    rw [hV, hv]
  · simp only [StorageUnit.checkVoltage, SpmUnit.of]
    rw [checkV_fst c, checkV_fst c.plain, hV, hv, hI]
  · intro v
    simp only [StorageUnit.OCV, SpmUnit.of]
    rw [show c.plain.getOCV = c.getOCV from rfl]
    rcases c.getOCV with x | e | w <;> simp
  · refine SpmUnit.ext' ?_
    show c.V.2.plain = c.plain
    rw [SPM.V_rest]; rfl

/-- C106: setting a current. -/
theorem spmUnit_refines_setCurrent (c : SPM N) (h : SpmGood c) (hf : Fresh c) (i : ℚ) (b : Bool) :
    (StorageUnit.setCurrent (SpmUnit.of c h) i b).1 = (c.setCurrent i b).1 ∧
    (StorageUnit.setCurrent (SpmUnit.of c h) i b).2 =
      SpmUnit.of (c.setCurrent i b).2 ((SpmFrame.setCurrent c i b).good h) ∧ Fresh (c.setCurrent i b).2 := by
  obtain ⟨h1, h2⟩ := plain_setCurrent hf i b
  exact ⟨h1, SpmUnit.ext' h2, fresh_setCurrent i b hf⟩

/-- C106: time steps. -/
theorem spmUnit_refines_timeStep (c : SPM N) (h : SpmGood c) (hf : Fresh c) (dt : ℚ) (n : ℕ) :
    (StorageUnit.timeStep (SpmUnit.of c h) dt n).1 = (c.timeStep dt n).1 ∧
    (StorageUnit.timeStep (SpmUnit.of c h) dt n).2 =
      SpmUnit.of (c.timeStep dt n).2 ((SpmFrame.timeStep h.block dt n).good h) ∧ Fresh (c.timeStep dt n).2 := by
  obtain ⟨h1, h2⟩ := plain_timeStep hf h.block dt n
  exact ⟨h1, SpmUnit.ext' h2, fresh_step_blocked dt n h.block hf⟩

/-- C106: restoring states that stay in the domain of the instance. -/
theorem spmUnit_refines_setStates (c : SPM N) (h : SpmGood c) (hf : Fresh c) (s : List ℚ) (b : Bool)
    (hg : SpmGood (c.setStates s b).2) :
    (StorageUnit.setStates (SpmUnit.of c h) s b).1 = (c.setStates s b).1 ∧
    (StorageUnit.setStates (SpmUnit.of c h) s b).2 = SpmUnit.of (c.setStates s b).2 hg ∧
    Fresh (c.setStates s b).2 := by
  obtain ⟨h1, h2⟩ := plain_setStates hf s b
  have hg' : SpmGood (c.plain.setStates s b).2 := by
    have e : SpmGood (c.plain.setStates s b).2.plain := by rw [h2]; exact hg.plain
    exact e.congr rfl rfl rfl
  have e : StorageUnit.setStates (SpmUnit.of c h) s b = ((c.plain.setStates s b).1, SpmUnit.of _ hg') := by
    simp only [StorageUnit.setStates]
    exact dif_pos hg'
  rw [e]
  exact ⟨h1, SpmUnit.ext' h2, fresh_setStates s b hf⟩

/-- C106: a whole history of calls, with the voltage read by anyone before every call.  As long as the cell stays in the
domain of the instance, the unit goes through the same history and reports the same voltages. -/
theorem spmUnit_refines_history (calls : List Call) : ∀ (c : SPM N) (h : SpmGood c), Fresh c →
    (∀ pre post, calls = pre ++ post → SpmGood (pre.foldl spmReadCall c)) →
    ∃ h', SpmUnit.of (calls.foldl spmReadCall c) h' = calls.foldl call (SpmUnit.of c h) ∧
      (calls.foldl spmReadCall c).V.1 = .ok (StorageUnit.V (calls.foldl call (SpmUnit.of c h))) := by
  induction calls with
  | nil => intro c h hf _; exact ⟨h, rfl, (spmUnit_refines_reads c h hf).1⟩
  | cons o os ih =>
    intro c h hf hg
    have hV : SpmGood c.V.2 := (SpmFrame.V c).good h
    have hVf : Fresh c.V.2 := fresh_V hf
    have e0 : SpmUnit.of c.V.2 hV = SpmUnit.of c h := (spmUnit_refines_reads c h hf).2.2.2.2.2.2.2
    have g1 : SpmGood (spmReadCall c o) := hg [o] os rfl
    have key : call (SpmUnit.of c h) o = SpmUnit.of (spmReadCall c o) g1 ∧ Fresh (spmReadCall c o) := by
      rw [← e0]
      cases o with
      | setCurrent i b => exact (spmUnit_refines_setCurrent c.V.2 hV hVf i b).2
      | timeStep dt n => exact (spmUnit_refines_timeStep c.V.2 hV hVf dt n).2
      | setStates s b => exact (spmUnit_refines_setStates c.V.2 hV hVf s b g1).2
    simp only [List.foldl_cons]
    rw [key.1]
    exact ih _ g1 key.2 fun pre post e => hg (o :: pre) post (by rw [e]; rfl)

/-! ### Modules -/

/-- C106: a string of at most 100 cells takes a current in all of its cells, or reports the status of a cell that
refused it and only the first cell may have changed. -/
theorem spm_series_setCurrent (m : ModuleS (SpmUnit N)) (Inew : ℚ) (b : Bool) (hlen : m.kids.length ≤ 100) :
    ∃ st, (m.setCurrent Inew b).1 = .ok st ∧
      ((st = .Success ∧ ∀ k ∈ (m.setCurrent Inew b).2.kids, k.su.cell.st.I = Inew) ∨
       (st.isBad = true ∧ (∃ k ∈ m.kids, (k.su.cell.setCurrent Inew b).1 = .ok st) ∧
          (m.setCurrent Inew b).2.kids.tail = m.kids.tail)) := by
  obtain ⟨st, h1, -, h3⟩ := series_setCurrent_partial m Inew b hlen
  refine ⟨st, h1, ?_⟩
  rcases h3 with ⟨a, b, -⟩ | ⟨a, b, c, -⟩
  · exact .inl ⟨a, b⟩
  · exact .inr ⟨a, b, c⟩

/-- C106: as long as no current is refused, all cells of a string carry the same current. -/
theorem spm_series_currents_equal (m : ModuleS (SpmUnit N)) (ops : List SOp) (hlen : m.kids.length ≤ 100)
    (h0 : SameCurrent m) (hacc : ∀ pre o post, ops = pre ++ o :: post → sAccepted (pre.foldl sApply m) o) :
    SameCurrent (ops.foldl sApply m) := series_currents_equal_partial m ops hlen h0 hacc

/-- C106: a redistribution of the currents in a parallel module that reports success has made the voltages of the
branches equal. -/
theorem spm_parallel_redistribute (m : ModuleP (SpmUnit N)) (h2 : 2 ≤ m.kids.length)
    (h : m.redistribute.1 = .ok .Success) : Agree (1/10000000000) (ModuleP.vallLoop m.redistribute.2.kids).1 :=
  parallel_redistribute_agree_partial m h2 h

/-- C106: a parallel module that refuses a current names the cell that refused its share, and that cell and all later
ones are unchanged. -/
theorem spm_parallel_refuses (m : ModuleP (SpmUnit N)) (Inew : ℚ) (b : Bool) (hlen : m.kids.length ≤ 100) :
    ∃ st, (m.setCurrent Inew b).1 = .ok st ∧
      (st.isBad = true → ∃ pre k post, m.kids = pre ++ k :: post ∧
        (k.su.cell.setCurrent (k.su.cell.st.I + (Inew - totalCurrent m.kids) / m.kids.length) true).1 = .ok st ∧
        (m.setCurrent Inew b).2.kids.drop pre.length = k :: post) := by
  obtain ⟨st, h1, h2⟩ := parallel_setCurrent_bad_partial m Inew b hlen
  refine ⟨st, h1, fun hb => ?_⟩
  obtain ⟨pre, k, post, e1, e2, e3⟩ := h2 hb
  refine ⟨pre, k, post, e1, e2, ?_⟩
  rw [e3]
  exact List.drop_left' (by simp)

/-- C106: batches of steps on any tree of strings. -/
theorem spm_tree_batch (d : ℕ) (t : Tree (SpmUnit N) d) (hp : NoParallel d t) (dt : ℚ) (a b : ℕ) (h : 0 ≤ dt) :
    (StorageUnit.timeStep t dt a).1 = .ok () ∧
    (StorageUnit.timeStep t dt (a + b)).2 = (StorageUnit.timeStep (StorageUnit.timeStep t dt a).2 dt b).2 :=
  ⟨(lawful_tree_batch d t hp dt a b h).1, (lawful_tree_batch d t hp dt a b h).2.2⟩

theorem spm_valid_of_spec {c : SPM N} (h : SpmValidState c) (hf : c.finite = true) : SpmValid c := by
  have hr : ∀ a : ℚ, SPM.relOff a a = false := by
    intro a; unfold SPM.relOff; split <;> simp_all
  unfold SpmValid SPM.validStates
  rw [if_neg (by rw [hf]; simp), if_neg (not_lt.mpr h.LLI)]
  rw [← h.ap, ← h.an, hr, hr]
  have hc : c.concOk = true := by
    unfold SPM.concOk
    have := h.pos; have := h.neg
    simp only [Bool.not_eq_true', Bool.or_eq_false_iff, decide_eq_false_iff_not, not_le, ge_iff_le]
    tauto
  have h1 := h.SOC; have h2 := h.T; have h3 := h.delta; have h4 := h.CS; have h5 := h.r; have h6 := h.pl
  rw [hc]
  simp only [checkSOC, Bool.not_false, Bool.and_true]
  congr 1
  simp only [Bool.and_eq_true, Bool.not_eq_true', Bool.or_eq_false_iff, decide_eq_false_iff_not, not_lt, not_le,
    gt_iff_lt]
  tauto

theorem spm_same_of_structure (d : ℕ) (a b : Tree (SpmUnit N) d) (h : SpmSameStructure d a b) : Same a b := by
  induction d with
  | zero => exact h
  | succ d ih =>
    cases a <;> cases b <;> first
      | exact h.elim
      | exact h
      | exact List.Forall₂.imp (fun x y hxy => ⟨hxy.1, ih _ _ hxy.2⟩) h

theorem spm_structure_of_same (d : ℕ) (a b : Tree (SpmUnit N) d) (h : Same a b) : SpmSameStructure d a b := by
  induction d with
  | zero => exact h
  | succ d ih =>
    cases a <;> cases b <;> first
      | exact h.elim
      | exact h
      | exact List.Forall₂.imp (fun x y hxy => ⟨hxy.1, ih _ _ hxy.2⟩) h

theorem spm_tree_valid (d : ℕ) (a : Tree (SpmUnit N) d) (h : SpmValidStates d a) : Valid a := by
  induction d with
  | zero => exact spm_valid_of_spec h (SpmUnit.good a).finite
  | succ d ih =>
    cases a with
    | cell c => exact spm_valid_of_spec h c.good.finite
    | series m => exact ⟨h.1, fun k hk => ih _ (h.2 k hk)⟩
    | parallel m => exact ⟨h.1, fun k hk => ih _ (h.2 k hk)⟩

/-- C106: the saved states of a tree, written back to any tree of the same structure, make it the saved tree. -/
theorem spm_tree_roundtrip (d : ℕ) (u w : Tree (SpmUnit N) d) (rest : List ℚ) (hs : SpmSameStructure d u w)
    (hv : SpmValidStates d u) :
    StorageUnit.setStates w (StorageUnit.getStates u ++ rest) false = (.ok (.Success, rest), u) :=
  LawfulStates.roundtrip u w rest (spm_same_of_structure d u w hs) (spm_tree_valid d u hv)

/-- C106: saving, doing anything, and restoring gives back exactly the original unit. -/
theorem spm_tree_save_restore (d : ℕ) (u : Tree (SpmUnit N) d) (calls : List Call) (hv : SpmValidStates d u) :
    StorageUnit.setStates (calls.foldl call u) (StorageUnit.getStates u) false = (.ok (.Success, []), u) := by
  have hs : Same u (calls.foldl call u) := by
    induction calls using List.reverseRecOn with
    | nil => exact LawfulStates.refl _
    | append_singleton cs c ih =>
      rw [List.foldl_append, List.foldl_cons, List.foldl_nil]
      refine LawfulStates.trans ih ?_
      cases c with
      | setCurrent i b => exact LawfulStates.setCurrent_same _ i b
      | timeStep dt n => exact LawfulStates.timeStep_same _ dt n
      | setStates s b => exact LawfulStates.setStates_same _ s b
  have h := spm_tree_roundtrip d u (calls.foldl call u) [] (spm_structure_of_same d _ _ hs) hv
  rwa [List.append_nil] at h

/-! ### Hypotheses -/

/-- A concrete good cell. -/
theorem spm1_good : SpmGood { spm1 with block := true } where
  block := rfl
  finite := by decide +kernel
  cap := by decide
  exp x := by show (1 : ℚ) ≠ 0; norm_num
  sqrt x hx := by show max x 0 ≠ 0; rw [max_eq_left hx.le]; exact hx.ne'
  elec := by decide
  kp := by decide
  kn := by decide
  curves z h0 h1 := by
    have : 0 ≤ z ∧ z ≤ 1 := ⟨h0.le, h1.le⟩
    simp [spm1, this]

/-- Two of these cells in series with a pair in parallel. -/
noncomputable def spmPack : Tree (SpmUnit 1) 2 :=
  Node.series { T := 290, kids := [
    ⟨1/1000, Node.parallel { T := 289, kids := [⟨0, SpmUnit.of _ spm1_good⟩, ⟨0, SpmUnit.of _ spm1_good⟩] }⟩,
    ⟨1/1000, Node.cell (SpmUnit.of _ spm1_good)⟩] }

example : SpmValidStates 2 spmPack := by
  have h : SpmValidState (SpmUnit.of _ spm1_good).cell := by
    constructor <;> decide +kernel
  refine ⟨by norm_num, ?_⟩
  intro k hk
  simp only [List.mem_cons, List.not_mem_nil, or_false] at hk
  rcases hk with rfl | rfl
  · refine ⟨by norm_num, ?_⟩
    intro k hk
    simp only [List.mem_cons, List.not_mem_nil, or_false] at hk
    rcases hk with rfl | rfl <;> exact h
  · exact h

end Slide

import Verif.Lemmas.SpmCycler
import Verif.Props.SpmUnit
import Verif.Props.CapacityTest

/-! C109: cycling packs of single-particle cells. -/

namespace Slide
open Spec SPM StorageUnit Cyc

variable {N : ℕ}

/-! ### The accounts of a cell -/

/-- What is left of a cell when current, energy counter and the decaying parts of the concentrations are erased. -/
def spmLedger (c : SPM N) : SPM N :=
  { c with st := { c.st with
      I := 0, Wh := 0
      zp := fun j => if c.par.M.Ap j = 0 then c.st.zp j else 0
      zn := fun j => if c.par.M.An j = 0 then c.st.zn j else 0 } }

/-- The accounts after carrying the current `I` for `τ` seconds. -/
def spmAdvance (I τ : ℚ) (a : SPM N) : SPM N :=
  { a with st := { a.st with
      time := a.st.time + τ
      SOC := a.st.SOC - I * τ / 3600 / a.par.cap
      Ah := a.st.Ah + |I| * τ / 3600
      zp := fun j => if a.par.M.Ap j = 0 then
        a.st.zp j - I * τ * (a.par.M.Bp j / (a.par.elecSurf * (a.st.ap * a.par.n * Faraday * a.st.thickp))) else a.st.zp j
      zn := fun j => if a.par.M.An j = 0 then
        a.st.zn j + I * τ * (a.par.M.Bn j / (a.par.elecSurf * (a.st.an * a.par.n * Faraday * a.st.thickn))) else a.st.zn j } }

theorem spmAdvance_zero (I : ℚ) (a : SPM N) : spmAdvance I 0 a = a := by
  unfold spmAdvance
  simp

theorem spmAdvance_add (I s t : ℚ) (a : SPM N) : spmAdvance I t (spmAdvance I s a) = spmAdvance I (s + t) a := by
  unfold spmAdvance
  simp only
  congr 2
  · funext j
    split_ifs
    · ring
    · rfl
  · funext j
    split_ifs
    · ring
    · rfl
  · ring
  · ring
  · ring

theorem carried_iff (I τ : ℚ) (a b : SPM N) : spmLedger b = spmAdvance I τ (spmLedger a) ↔ Carried I τ a b := by
  constructor
  · intro h
    have hpar : b.par = a.par := by
      have := congrArg SPM.par h
      exact this
    refine ⟨?_, ?_, ?_, ?_, ?_, ?_⟩
    · have := congrArg (fun x : SPM N => ({ x with st := { x.st with
        I := a.st.I, zp := a.st.zp, zn := a.st.zn, SOC := a.st.SOC, time := a.st.time, Ah := a.st.Ah, Wh := a.st.Wh } } : SPM N)) h
      exact this
    · have := congrArg (fun x : SPM N => x.st.time) h
      exact this
    · have := congrArg (fun x : SPM N => x.st.SOC) h
      exact this
    · have := congrArg (fun x : SPM N => x.st.Ah) h
      exact this
    · intro j hj
      have := congrArg (fun x : SPM N => x.st.zp j) h
      simp only [spmLedger, spmAdvance, hpar, if_pos hj] at this
      exact this
    · intro j hj
      have := congrArg (fun x : SPM N => x.st.zn j) h
      simp only [spmLedger, spmAdvance, hpar, if_pos hj] at this
      exact this
  · rintro ⟨h0, h1, h2, h3, h4, h5⟩
    have hpar : b.par = a.par := by
      have := congrArg SPM.par h0
      exact this
    have h6 : b = { a with st := { a.st with
        I := b.st.I, zp := b.st.zp, zn := b.st.zn, SOC := b.st.SOC, time := b.st.time, Ah := b.st.Ah, Wh := b.st.Wh } } := by
      have := congrArg (fun x : SPM N => ({ x with st := { x.st with
        I := b.st.I, zp := b.st.zp, zn := b.st.zn, SOC := b.st.SOC, time := b.st.time, Ah := b.st.Ah, Wh := b.st.Wh } } : SPM N)) h0
      exact this
    generalize b.st.I = i at h6
    generalize b.st.zp = zp at *
    generalize b.st.zn = zn at *
    generalize b.st.SOC = soc at *
    generalize b.st.time = tm at *
    generalize b.st.Ah = ah at *
    generalize b.st.Wh = wh at *
    subst h6
    unfold spmLedger spmAdvance
    simp only
    congr 2
    · funext j
      split_ifs with hj
      · exact h4 j hj
      · rfl
    · funext j
      split_ifs with hj
      · exact h5 j hj
      · rfl

theorem spmLedger_only {a b : SpmUnit N} (h : SpmOnlyCurrent a b) : spmLedger b.cell = spmLedger a.cell := by
  unfold SpmOnlyCurrent at h
  have := congrArg spmLedger h
  exact this

theorem forall₂_of_map {A X Y : Type} {R : X → Y → Prop} {f : X → A} {g : Y → A} (hR : ∀ x y, g y = f x → R x y)
    {a : List X} {b : List Y} (h : b.map g = a.map f) : List.Forall₂ R a b := by
  induction a generalizing b with
  | nil =>
    cases b with
    | nil => exact .nil
    | cons y b => cases h
  | cons x a ih =>
    cases b with
    | nil => cases h
    | cons y b =>
      rw [List.map_cons, List.map_cons, List.cons.injEq] at h
      exact .cons (hR x y h.1) (ih h.2)

/-! ### C109 -/

/-- C109: setting the current of a pack – accepted, refused, throwing or undefined – changes nothing but cell
currents. -/
theorem spm_pack_setCurrent_frame (d : ℕ) (t : Tree (SpmUnit N) d) (i : ℚ) (b : Bool) :
    CellWise SpmOnlyCurrent d t (StorageUnit.setCurrent t i b).2 := cells_setCurrent_only d t i b

/-- C109: the same for setting its voltage. -/
theorem spm_pack_setVoltage_frame (d : ℕ) (t : Tree (SpmUnit N) d) (v : ℚ) :
    CellWise SpmOnlyCurrent d t (VoltageUnit.setVoltage t v).2 := cells_setVoltage_only d t v

/-- C109: an accepted time step of a pack makes every cell carry the current it had for the whole time. -/
theorem spm_pack_timeStep (d : ℕ) (t : Tree (SpmUnit N) d) (dt : ℚ) (k : ℕ) (h : (StorageUnit.timeStep t dt k).1 = .ok ()) :
    List.Forall₂ (fun a b => Carried a.cell.st.I (k * dt) a.cell b.cell) (cells d t)
      (cells d (StorageUnit.timeStep t dt k).2) := by
  refine List.Forall₂.imp ?_ (cellWise_cells d (cells_timeStep_steps d t dt k h))
  intro a b hab
  rw [← carried_iff, spmLedger_only hab.2]
  exact (carried_iff _ _ _ _).mpr (carried_step a dt k (cells_timeStep_nonneg d t dt k h))

/-- C109: a rest that reports its time limit has rested every cell of the pack for exactly the time requested. -/
theorem spm_rest_exact (d : ℕ) (fuel : ℕ) (c c' : Cyc (Tree (SpmUnit N) d)) (tlim dt : ℚ) (ndt : ℤ) (th th' : Thr)
    (h : rest fuel c tlim dt ndt th = (.ok .ReachedTimeLimit, c', th')) (ht : 0 ≤ tlim) (hd : 0 < dt) :
    th' = { th with time := th.time + tlim } ∧
      (cells d c'.su).map (fun x => x.cell.st.time) = (cells d c.su).map fun x => x.cell.st.time + tlim :=
  cells_rest_exact d fuel c c' tlim dt ndt th th' h ht hd

/-- C109: a rest of a cell or a series string always reaches its time limit. -/
theorem spm_rest_reaches (d : ℕ) (fuel : ℕ) (c : Cyc (Tree (SpmUnit N) d)) (tlim dt : ℚ) (ndt : ℤ) (th : Thr)
    (hs : SeriesString d c.su) (ht : 0 ≤ tlim) (hd : 0 < dt) (hf : tlim ≤ fuel * dt) :
    (rest fuel c tlim dt ndt th).1 = .ok .ReachedTimeLimit :=
  cells_rest_reaches d fuel c tlim dt ndt th hs ht hd hf

/-- C109: when a constant-current phase reports one of its limits, every cell of the pack – also in parallel modules –
has been simulated for the time reported. -/
theorem spm_cc_time (d fuel : ℕ) (c c' : Cyc (Tree (SpmUnit N) d)) (I vlim tlim dt : ℚ) (ndt : ℤ) (th th' : Thr)
    (st : Status) (h : CC fuel c I vlim tlim dt ndt th = (.ok st, c', th')) (hd : 0 < dt) (ht : 0 ≤ tlim)
    (hst : st = .ReachedTimeLimit ∨ st = .ReachedVoltageLimit) :
    ∃ τ, 0 ≤ τ ∧ τ ≤ tlim ∧ (st = .ReachedTimeLimit → τ = tlim) ∧
      th'.time = th.time + τ ∧ th'.Ah = th.Ah + |I| * τ / 3600 ∧
      (cells d c'.su).map (fun x => x.cell.st.time) = (cells d c.su).map fun x => x.cell.st.time + τ :=
  cells_cc_time d fuel c c' I vlim tlim dt ndt th th' st h hd ht hst

/-- C109: on a cell or a series string without individual voltage checks every cell has then carried the current for
the time reported: charge counter, state of charge and the lithium content of both electrodes agree with the charge
reported, and nothing but the current, the concentrations and the meters has changed. -/
theorem spm_cc_carried (d fuel : ℕ) (c c' : Cyc (Tree (SpmUnit N) d)) (I vlim tlim dt : ℚ) (ndt : ℤ) (th th' : Thr)
    (st : Status) (h : CC fuel c I vlim tlim dt ndt th = (.ok st, c', th')) (hd : 0 < dt) (ht : 0 ≤ tlim)
    (hst : st = .ReachedTimeLimit ∨ st = .ReachedVoltageLimit) (hs : SeriesString d c.su) (hdiag : c.diagnostic = false) :
    ∃ τ, 0 ≤ τ ∧ τ ≤ tlim ∧ (st = .ReachedTimeLimit → τ = tlim) ∧
      th'.time = th.time + τ ∧ th'.Ah = th.Ah + |I| * τ / 3600 ∧
      List.Forall₂ (fun a b => Carried I τ a.cell b.cell) (cells d c.su) (cells d c'.su) := by
  obtain ⟨τ, h1, h2, h3, h4, h5, h6⟩ := cells_cc_ledger (fun u : SpmUnit N => spmLedger u.cell) spmAdvance
    (fun a b => spmLedger_only) (fun a dt k hok => (carried_iff _ _ _ _).mpr (carried_step a dt k (spmUnit_step_nonneg hok))) spmAdvance_zero
    spmAdvance_add d fuel c c' I vlim tlim dt ndt th th' st h hd ht hst hs hdiag
  exact ⟨τ, h1, h2, h3, h4, h5, forall₂_of_map (fun x y => (carried_iff _ _ _ _).mp) h6⟩

/-- C109: a constant-current phase that started below its voltage limit (for a charge) and reports it, has reached
it. -/
theorem spm_cc_voltageLimit (d fuel : ℕ) (c c' : Cyc (Tree (SpmUnit N) d)) (I vlim tlim dt : ℚ) (ndt : ℤ) (th th' : Thr)
    (hd : 0 < dt) (ht : 0 ≤ tlim) (hI : I ≠ 0) (hini : I < 0 → V c.su < vlim)
    (h : CC fuel c I vlim tlim dt ndt th = (.ok .ReachedVoltageLimit, c', th')) : BeyondLimit I vlim (V c'.su) :=
  cells_cc_voltageLimit d fuel c c' I vlim tlim dt ndt th th' hd ht hI hini h

/-- C109: when a constant-voltage phase reports one of its limits every cell of the pack was simulated for the same
time within the time limit. -/
theorem spm_cv_time (d : ℕ) (c c' : Cyc (Tree (SpmUnit N) d)) (Vset Ilim tlim dt : ℚ) (ndt : ℤ) (th th' : Thr) (st : Status)
    (h : CV c Vset Ilim tlim dt ndt th = (.ok st, c', th')) (hd : 0 < dt) (ht : 0 ≤ tlim)
    (hst : st = .ReachedTimeLimit ∨ st = .ReachedCurrentLimit ∨ st = .ReachedSmallCurrent) :
    ∃ τ, 0 ≤ τ ∧ τ ≤ tlim ∧ (st = .ReachedTimeLimit → τ = tlim) ∧
      (cells d c'.su).map (fun a => a.cell.st.time) = (cells d c.su).map fun a => a.cell.st.time + τ :=
  cells_cv_time d c c' Vset Ilim tlim dt ndt th th' st h hd ht hst

/-- C109: the charge reported for a constant-voltage phase of a single cell is the charge the cell counted. -/
theorem spm_cv_charge (c c' : Cyc (SpmUnit N)) (Vset Ilim tlim dt : ℚ) (ndt : ℤ) (th th' : Thr) (st : Status)
    (h : CV c Vset Ilim tlim dt ndt th = (.ok st, c', th')) :
    th'.Ah - th.Ah = c'.su.cell.st.Ah - c.su.cell.st.Ah := cell_cv_charge c c' Vset Ilim tlim dt ndt th th' st h

/-- C109: the same for both phases of `CCCV`, when the first one ended at one of its limits. -/
theorem spm_cccv_charge (fuel : ℕ) (c c' : Cyc (SpmUnit N)) (I Vset Ilim tlim dt : ℚ) (ndt : ℤ) (th th' : Thr) (st : Status)
    (h : CCCVt fuel c I Vset Ilim tlim dt ndt th = (.ok st, c', th')) (hd : 0 < dt) (ht : 0 ≤ tlim)
    (hv : ¬ (Vset < cellLimits.Vmin ∨ Vset > cellLimits.Vmax)) (hdiag : c.diagnostic = false)
    (hcc : let u := (StorageUnit.setCurrent c.su 0 false).2; let i := if V u > Vset then |I| else -|I|;
      (CC fuel (c.withSU u) i Vset tlim dt ndt Thr.zero).1 = .ok .ReachedTimeLimit ∨
      (CC fuel (c.withSU u) i Vset tlim dt ndt Thr.zero).1 = .ok .ReachedVoltageLimit) :
    th'.Ah = c'.su.cell.st.Ah - c.su.cell.st.Ah :=
  cell_cccv_charge fuel c c' I Vset Ilim tlim dt ndt th th' st h hd ht hv hdiag hcc

/-- C109: a capacity test that fails restores a pack with valid states completely. -/
theorem spm_capacityTest_failure (d fuel : ℕ) (c : Cyc (Tree (SpmUnit N) d)) (q ttot : ℚ) (hv : SpmValidStates d c.su) :
    (∀ st c1 th1, CC fuel c (-(1/25) * Cap c.su) (lim c.su).Vmax TIME_INF 1 0 Thr.zero = (.ok st, c1, th1) →
      st ≠ .ReachedVoltageLimit →
      testCapacity fuel c q ttot = (.ok 0, { c1 with su := c.su }, q, ttot + th1.time)) ∧
    (∀ c1 th1 st c2 th2, CC fuel c (-(1/25) * Cap c.su) (lim c.su).Vmax TIME_INF 1 0 Thr.zero =
        (.ok .ReachedVoltageLimit, c1, th1) →
      CC fuel c1 (1/25 * Cap c.su) (lim c1.su).Vmin TIME_INF 1 0 Thr.zero = (.ok st, c2, th2) →
      st ≠ .ReachedVoltageLimit →
      testCapacity fuel c q ttot = (.ok 0, { c2 with su := c.su }, q, ttot + th1.time + th2.time)) :=
  lawful_capacityTest_failure fuel c q ttot (spm_tree_valid d c.su hv)

/-- C109: a successful capacity test of a cell or series string leaves every charge counter advanced by the charge
reported. -/
theorem spm_capacityTest_success (d fuel : ℕ) (c c1 c2 : Cyc (Tree (SpmUnit N) d)) (q ttot : ℚ) (th1 th2 : Thr)
    (hs : SeriesString d c.su) (hdiag : c.diagnostic = false)
    (h1 : CC fuel c (-(1/25) * Cap c.su) (lim c.su).Vmax TIME_INF 1 0 Thr.zero = (.ok .ReachedVoltageLimit, c1, th1))
    (h2 : CC fuel c1 (1/25 * Cap c.su) (lim c1.su).Vmin TIME_INF 1 0 Thr.zero = (.ok .ReachedVoltageLimit, c2, th2)) :
    ∃ q', testCapacity fuel c q ttot = (.ok th2.Ah, c2, q', ttot + th1.time + th2.time) ∧
      (cells d c2.su).map (fun x => x.cell.st.Ah) = (cells d c.su).map fun x => x.cell.st.Ah + q' :=
  cells_capacityTest_success d fuel c c1 c2 q ttot th1 th2 hs hdiag h1 h2

/-! ### Hypotheses -/

/-- Two cells in series. -/
noncomputable def spmString : Tree (SpmUnit 1) 1 :=
  Node.series { T := 290, kids := [⟨1/1000, SpmUnit.of _ spm1_good⟩, ⟨1/1000, SpmUnit.of _ spm1_good⟩] }

example : SeriesString 1 spmString := by
  refine ⟨?_, fun k hk => trivial⟩
  show [_, _].length ≤ 100
  decide

example : (CC 10 ({ su := spmString } : Cyc (Tree (SpmUnit 1) 1)) (1/100) (54/10) 7 2 0 Thr.zero).1 = .ok .ReachedTimeLimit := by
  decide +kernel
example : (CC 10 ({ su := spmPack } : Cyc (Tree (SpmUnit 1) 2)) (1/100) (54/10) 7 2 0 Thr.zero).1 = .ok .ReachedTimeLimit := by
  decide +kernel
example : (CC 10 ({ su := spmString } : Cyc (Tree (SpmUnit 1) 1)) 1 (54/10) 7 2 0 Thr.zero).1 = .ok .ReachedVoltageLimit := by
  decide +kernel
example : (rest 10 ({ su := spmPack } : Cyc (Tree (SpmUnit 1) 2)) 7 2 0 Thr.zero).1 = .ok .ReachedTimeLimit := by
  decide +kernel
example : (StorageUnit.timeStep spmPack 2 3).1 = .ok () := by decide +kernel
example : (CV ({ su := SpmUnit.of _ spm1_good } : Cyc (SpmUnit 1)) (359/100) (1/1000) 7 2 0 Thr.zero).1 =
    .ok .ReachedTimeLimit := by decide +kernel
example : (CCCVt 10 ({ su := SpmUnit.of _ spm1_good } : Cyc (SpmUnit 1)) (1/100) (359/100) (1/1000) 7 2 0 Thr.zero).1 =
    .ok .ReachedTimeLimit := by decide +kernel

/-- A cell that holds very little charge. -/
def spmSmall : SPM 1 :=
  { spm1 with block := true, par := { spm1.par with
      ocvP := fun z => if 0 ≤ z ∧ z ≤ 1 then some (45 / 10 - 2 * z) else none
      M := { spm1.par.M with Bp := fun _ => -300000, Bn := fun _ => 100000 } } }

theorem spmSmall_good : SpmGood spmSmall where
  block := rfl
  finite := by decide +kernel
  cap := by decide
  exp x := by show (1 : ℚ) ≠ 0; norm_num
  sqrt x hx := by show max x 0 ≠ 0; rw [max_eq_left hx.le]; exact hx.ne'
  elec := by decide
  kp := by decide
  kn := by decide
  curves z h0 h1 := by
    have : 0 ≤ z ∧ z ≤ 1 := ⟨h0.le, h1.le⟩
    simp [spmSmall, spm1, this]

/-- A capacity test of this cell succeeds. -/
example : (CC 100 ({ su := SpmUnit.of _ spmSmall_good } : Cyc (Tree (SpmUnit 1) 0)) (-(1/25)) (42/10) TIME_INF 1 0 Thr.zero).1 =
    .ok .ReachedVoltageLimit := by decide +kernel
example : let c1 := (CC 100 ({ su := SpmUnit.of _ spmSmall_good } : Cyc (Tree (SpmUnit 1) 0)) (-(1/25)) (42/10) TIME_INF 1 0 Thr.zero).2.1
    (CC 100 c1 (1/25) (27/10) TIME_INF 1 0 Thr.zero).1 = .ok .ReachedVoltageLimit := by decide +kernel
end Slide

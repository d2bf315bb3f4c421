import Verif.Lemmas.SpmAged
import Verif.Props.SpmCycler

/-! C110: cycling packs of ageing single-particle cells. -/

namespace Slide
open Spec SPM StorageUnit Cyc

variable {N : ℕ}

/-! ### The units stand for the cells -/

/-- C110: a unit answers every reading like a cell that behaves alike, and reading the cell changes nothing about
that. -/
theorem agedUnit_reads (u : AgedUnit N) (c : SPM N) (h : SpmAlike u.cell c) :
    c.V.1 = .ok (StorageUnit.V u) ∧ c.checkV.1 = .ok (StorageUnit.checkVoltage u) ∧ StorageUnit.I u = c.st.I ∧
    StorageUnit.T u = c.st.T ∧ StorageUnit.Cap u = c.par.cap ∧ SpmAlike u.cell c.V.2 := by
  obtain ⟨v, hv⟩ := sound_V u.sound
  have hr := spmAlike_rest h
  refine ⟨?_, ?_, ?_, ?_, ?_, spmAlike_read h⟩
  · rw [← (spmAlike_V h).1]
    show u.cell.V.1 = .ok (match u.cell.V.1 with | .ok v => v | _ => 0)
    rw [hv]
  · rw [← (spmAlike_checkV h).1]
    show u.cell.checkV.1 = .ok (match u.cell.checkV.1 with | .ok s => s | _ => .V_not_calculated)
    unfold checkV
    rcases hk : u.cell.V with ⟨r | e | w, c2⟩ <;> rw [hk] at hv
    all_goals first | rfl | cases hv
  · have := congrArg (fun x : SPM N => x.st.I) hr; exact this
  · have := congrArg (fun x : SPM N => x.st.T) hr; exact this
  · have := congrArg (fun x : SPM N => x.par.cap) hr; exact this

/-- C110: setting the current of the unit is setting the current of the cell. -/
theorem agedUnit_setCurrent (u : AgedUnit N) (c : SPM N) (h : SpmAlike u.cell c) (i : ℚ) (b : Bool) :
    (StorageUnit.setCurrent u i b).1 = (c.setCurrent i b).1 ∧
    SpmAlike (StorageUnit.setCurrent u i b).2.cell (c.setCurrent i b).2 := spmAlike_setCurrent h i b

/-- C110: a time step of the unit is a time step of the cell, ageing included, as long as the cell stays in the domain
of the model. -/
theorem agedUnit_timeStep (u : AgedUnit N) (c : SPM N) (h : SpmAlike u.cell c) (dt : ℚ) (n : ℕ) (hn : 0 < n)
    (hf : (c.timeStep dt n).2.finite = true) :
    (StorageUnit.timeStep u dt n).1 = (c.timeStep dt n).1 ∧
    SpmAlike (StorageUnit.timeStep u dt n).2.cell (c.timeStep dt n).2 := by
  obtain ⟨h1, h2⟩ := spmAlike_timeStep h dt (n := n) (by exact_mod_cast hn)
  have hf' : (u.cell.timeStep dt n).2.finite = true := by
    rw [← hf]
    have hr := spmAlike_rest h2
    have := congrArg (fun x : SPM N => x.finite) hr
    exact this
  have e : (StorageUnit.timeStep u dt n).1 = (u.cell.timeStep dt n).1 ∧
      (StorageUnit.timeStep u dt n).2.cell = (u.cell.timeStep dt n).2 := by
    simp only [StorageUnit.timeStep]
    rw [dif_pos hf']
    exact ⟨rfl, rfl⟩
  rw [e.1, e.2]
  exact ⟨h1, h2⟩

/-- C110: the same for putting in states. -/
theorem agedUnit_setStates (u : AgedUnit N) (c : SPM N) (h : SpmAlike u.cell c) (s : List ℚ) (b : Bool)
    (hs : SpmSound (c.setStates s b).2) :
    (StorageUnit.setStates u s b).1 = (c.setStates s b).1 ∧
    SpmAlike (StorageUnit.setStates u s b).2.cell (c.setStates s b).2 := by
  obtain ⟨h1, h2⟩ := spmAlike_setStates h s b
  have hr := spmAlike_rest h2
  have hs' : SpmSound (u.cell.setStates s b).2 := by
    refine hs.congr ?_ ?_
    · have := congrArg SPM.par hr; exact this
    · have := congrArg (fun x : SPM N => x.finite) hr; exact this
  have e : StorageUnit.setStates u s b = ((u.cell.setStates s b).1, ⟨_, hs'⟩) := by
    simp only [StorageUnit.setStates]
    exact dif_pos hs'
  rw [e]
  exact ⟨h1, h2⟩

/-! ### The accounts -/

/-- C110: an accepted time step of a pack simulates every cell for the whole time with the current it had. -/
theorem aged_pack_timeStep (d : ℕ) (t : Tree (AgedUnit N) d) (dt : ℚ) (k : ℕ) (h : (StorageUnit.timeStep t dt k).1 = .ok ()) :
    List.Forall₂ (fun a b => Simulated a.cell.st.I (k * dt) a.cell b.cell) (cells d t)
      (cells d (StorageUnit.timeStep t dt k).2) :=
  List.Forall₂.imp (fun _ _ hab => ⟨hab.2.1, hab.2.2.1, hab.2.2.2, hab.1⟩) (cells_timeStep_meters d t dt k h)

/-- C110: a rest that reports its time limit has rested every cell of the pack for exactly the time requested. -/
theorem aged_rest_exact (d : ℕ) (fuel : ℕ) (c c' : Cyc (Tree (AgedUnit N) d)) (tlim dt : ℚ) (ndt : ℤ) (th th' : Thr)
    (h : rest fuel c tlim dt ndt th = (.ok .ReachedTimeLimit, c', th')) (ht : 0 ≤ tlim) (hd : 0 < dt) :
    th' = { th with time := th.time + tlim } ∧
      (cells d c'.su).map (fun x => x.cell.st.time) = (cells d c.su).map fun x => x.cell.st.time + tlim :=
  cells_rest_exact d fuel c c' tlim dt ndt th th' h ht hd

/-- C110: when a constant-current phase reports one of its limits, every cell of the pack – also in parallel modules –
has been simulated for the time reported. -/
theorem aged_cc_time (d fuel : ℕ) (c c' : Cyc (Tree (AgedUnit N) d)) (I vlim tlim dt : ℚ) (ndt : ℤ) (th th' : Thr)
    (st : Status) (h : CC fuel c I vlim tlim dt ndt th = (.ok st, c', th')) (hd : 0 < dt) (ht : 0 ≤ tlim)
    (hst : st = .ReachedTimeLimit ∨ st = .ReachedVoltageLimit) :
    ∃ τ, 0 ≤ τ ∧ τ ≤ tlim ∧ (st = .ReachedTimeLimit → τ = tlim) ∧
      th'.time = th.time + τ ∧ th'.Ah = th.Ah + |I| * τ / 3600 ∧
      (cells d c'.su).map (fun x => x.cell.st.time) = (cells d c.su).map fun x => x.cell.st.time + τ :=
  cells_cc_time d fuel c c' I vlim tlim dt ndt th th' st h hd ht hst

/-- C110: on a cell or a series string without individual voltage checks charge counter and state of charge of every
cell then agree with the charge reported. -/
theorem aged_cc_charge (d fuel : ℕ) (c c' : Cyc (Tree (AgedUnit N) d)) (I vlim tlim dt : ℚ) (ndt : ℤ) (th th' : Thr)
    (st : Status) (h : CC fuel c I vlim tlim dt ndt th = (.ok st, c', th')) (hd : 0 < dt) (ht : 0 ≤ tlim)
    (hst : st = .ReachedTimeLimit ∨ st = .ReachedVoltageLimit) (hs : SeriesString d c.su) (hdiag : c.diagnostic = false) :
    ∃ τ, 0 ≤ τ ∧ τ ≤ tlim ∧ (st = .ReachedTimeLimit → τ = tlim) ∧
      th'.time = th.time + τ ∧ th'.Ah = th.Ah + |I| * τ / 3600 ∧
      List.Forall₂ (fun a b => Simulated I τ a.cell b.cell) (cells d c.su) (cells d c'.su) := by
  obtain ⟨τ, h1, h2, h3, h4, h5, h6⟩ := cells_cc_charge d fuel c c' I vlim tlim dt ndt th th' st h hd ht hst hs hdiag
  refine ⟨τ, h1, h2, h3, h4, h5, forall₂_of_map ?_ h6⟩
  intro x y hxy
  simp only [Prod.mk.injEq] at hxy
  exact ⟨hxy.1, hxy.2.1, hxy.2.2.1, hxy.2.2.2⟩

/-- C110: when a constant-voltage phase reports one of its limits every cell of the pack was simulated for the same
time within the time limit. -/
theorem aged_cv_time (d : ℕ) (c c' : Cyc (Tree (AgedUnit N) d)) (Vset Ilim tlim dt : ℚ) (ndt : ℤ) (th th' : Thr) (st : Status)
    (h : CV c Vset Ilim tlim dt ndt th = (.ok st, c', th')) (hd : 0 < dt) (ht : 0 ≤ tlim)
    (hst : st = .ReachedTimeLimit ∨ st = .ReachedCurrentLimit ∨ st = .ReachedSmallCurrent) :
    ∃ τ, 0 ≤ τ ∧ τ ≤ tlim ∧ (st = .ReachedTimeLimit → τ = tlim) ∧
      (cells d c'.su).map (fun a => a.cell.st.time) = (cells d c.su).map fun a => a.cell.st.time + τ :=
  cells_cv_time d c c' Vset Ilim tlim dt ndt th th' st h hd ht hst

/-- C110: the charge reported for a constant-voltage phase of a single cell is the charge the cell counted, unless a
time step failed. -/
theorem aged_cv_charge (c c' : Cyc (AgedUnit N)) (Vset Ilim tlim dt : ℚ) (ndt : ℤ) (th th' : Thr) (st : Status)
    (h : CV c Vset Ilim tlim dt ndt th = (.ok st, c', th')) (hs : st ≠ .timeStep_CC_failed) :
    th'.Ah - th.Ah = c'.su.cell.st.Ah - c.su.cell.st.Ah :=
  cell_cv_charge_of c c' Vset Ilim tlim dt ndt th th' st h (.inl hs)

/-- C110: the same for both phases of `CCCV`, when the first one ended at one of its limits. -/
theorem aged_cccv_charge (fuel : ℕ) (c c' : Cyc (AgedUnit N)) (I Vset Ilim tlim dt : ℚ) (ndt : ℤ) (th th' : Thr) (st : Status)
    (h : CCCVt fuel c I Vset Ilim tlim dt ndt th = (.ok st, c', th')) (hs : st ≠ .timeStep_CC_failed) (hd : 0 < dt)
    (ht : 0 ≤ tlim) (hv : ¬ (Vset < cellLimits.Vmin ∨ Vset > cellLimits.Vmax)) (hdiag : c.diagnostic = false)
    (hcc : let u := (StorageUnit.setCurrent c.su 0 false).2; let i := if V u > Vset then |I| else -|I|;
      (CC fuel (c.withSU u) i Vset tlim dt ndt Thr.zero).1 = .ok .ReachedTimeLimit ∨
      (CC fuel (c.withSU u) i Vset tlim dt ndt Thr.zero).1 = .ok .ReachedVoltageLimit) :
    th'.Ah = c'.su.cell.st.Ah - c.su.cell.st.Ah :=
  cell_cccv_charge_of fuel c c' I Vset Ilim tlim dt ndt th th' st h (.inl hs) hd ht hv hdiag hcc

/-! ### One way -/

theorem aged_timeStep_oneWay (dt : ℚ) (k : ℕ) (u : AgedUnit N) : OneWay u.cell (StorageUnit.timeStep u dt k).2.cell := by
  rcases aged_timeStep u dt k with ⟨-, h⟩ | ⟨-, h⟩
  · rw [h]; exact oneWay_step u.cell dt k
  · rw [h]; exact .refl _

/-- C110: whatever a cycling program does to a pack – phases may report limits, violations or failures, throw, or be
undefined, and the program carries on – the structure of the pack stays and in none of its cells anything that only goes
one way goes back. -/
theorem aged_one_way (d fuel : ℕ) (prog : List Phase) (c : Cyc (Tree (AgedUnit N) d)) :
    CellWise (fun a b => OneWay a.cell b.cell) d c.su (prog.foldl (runPhase fuel) c).su := by
  let R : AgedUnit N → AgedUnit N → Prop := fun a b => OneWay a.cell b.cell
  have hset : ∀ (u : Tree (AgedUnit N) d) i b, CellWise R d c.su u → CellWise R d c.su (StorageUnit.setCurrent u i b).2 :=
    fun u i b h => cellWise_trans (fun _ _ _ h1 h2 => h1.trans (oneWay_only h2)) d h (cells_setCurrent_only d u i b)
  have hvol : ∀ (u : Tree (AgedUnit N) d) v, CellWise R d c.su u → CellWise R d c.su (VoltageUnit.setVoltage u v).2 :=
    fun u v h => cellWise_trans (fun _ _ _ h1 h2 => h1.trans (oneWay_only h2)) d h (cells_setVoltage_only d u v)
  have hstep : ∀ (u : Tree (AgedUnit N) d) dt k, CellWise R d c.su u → CellWise R d c.su (StorageUnit.timeStep u dt k).2 :=
    fun u dt k h => cellWise_trans (fun _ _ _ h1 h2 => h1.trans h2) d h
      (cells_timeStep_rel (R := R) (fun a => .refl _) (fun h1 h2 => h1.trans h2) (fun h => oneWay_only h) dt k
        (aged_timeStep_oneWay dt k) d u)
  have key : ∀ (prog : List Phase) (c' : Cyc (Tree (AgedUnit N) d)), CellWise R d c.su c'.su →
      CellWise R d c.su (prog.foldl (runPhase fuel) c').su := by
    intro prog
    induction prog with
    | nil => intro c' h; exact h
    | cons p ps ih =>
      intro c' h
      refine ih _ ?_
      cases p with
      | rest tlim dt ndt => exact rest_keeps hset hstep fuel c' tlim dt ndt Thr.zero h
      | cc I vlim tlim dt ndt => exact (CC_keeps hset hstep fuel c' I vlim tlim dt ndt Thr.zero h).1
      | cv Vset Ilim tlim dt ndt => exact CV_keeps hvol hstep c' Vset Ilim tlim dt ndt Thr.zero h
      | cccv I Vset Ilim tlim dt ndt => exact CCCVt_keeps hset hvol hstep fuel c' I Vset Ilim tlim dt ndt Thr.zero h
  exact key prog c (cellWise_refl (fun a => .refl _) d _)

/-! ### Hypotheses -/

theorem spmLam_sound : SpmSound spmLam where
  finite := by decide +kernel
  cap := by decide
  exp x := by show (1 : ℚ) ≠ 0; norm_num
  sqrt x hx := by show max x 0 ≠ 0; rw [max_eq_left hx.le]; exact hx.ne'
  elec := by decide
  kp := by decide
  kn := by decide
  curves z h0 h1 := by
    have : 0 ≤ z ∧ z ≤ 1 := ⟨h0.le, h1.le⟩
    simp [spmLam, spm1, this]

/-- A cell that ages. -/
def agedCell : AgedUnit 1 := ⟨spmLam, spmLam_sound⟩

/-- Two of them in series. -/
def agedString : Tree (AgedUnit 1) 1 :=
  Node.series { T := 290, kids := [⟨1/1000, agedCell⟩, ⟨1/1000, agedCell⟩] }

example : SpmAlike agedCell.cell agedCell.cell.V.2 := (agedUnit_reads agedCell _ (.inl rfl)).2.2.2.2.2
example : (spmLam.timeStep (1/10) 2).2.finite = true := by decide +kernel
example : SeriesString 1 agedString := by
  refine ⟨?_, fun k hk => trivial⟩
  show [_, _].length ≤ 100
  decide
example : (StorageUnit.timeStep agedString (1/10) 2).1 = .ok () := by decide +kernel
example : (rest 10 ({ su := agedString } : Cyc (Tree (AgedUnit 1) 1)) (3/10) (1/10) 0 Thr.zero).1 = .ok .ReachedTimeLimit := by
  decide +kernel
example : (CC 10 ({ su := agedString } : Cyc (Tree (AgedUnit 1) 1)) (1/100) (54/10) (3/10) (1/10) 0 Thr.zero).1 =
    .ok .ReachedTimeLimit := by decide +kernel
example : (CV ({ su := agedCell } : Cyc (AgedUnit 1)) (359/100) (1/1000) (3/10) (1/10) 0 Thr.zero).1 =
    .ok .ReachedTimeLimit := by decide +kernel
example : (CCCVt 10 ({ su := agedCell } : Cyc (AgedUnit 1)) (1/100) (359/100) (1/1000) (3/10) (1/10) 0 Thr.zero).1 =
    .ok .ReachedTimeLimit := by decide +kernel

/-- Cycling this pack makes the SEI layer of its cells thicker. -/
example : let prog : List Phase := [.cc (1/100) (54/10) (3/10) (1/10) 0, .rest (2/10) (1/10) 0, .cc (-1) 6 1 (1/10) 0]
    (cells 1 (prog.foldl (runPhase 10) ({ su := agedString } : Cyc (Tree (AgedUnit 1) 1))).su).map
      (fun b => decide (agedCell.cell.st.delta < b.cell.st.delta)) = [true, true] := by decide +kernel
example : SpmPhysical agedCell.cell.par ∧ 0 ≤ agedCell.cell.st.delta := ⟨spmLam_physical, by decide +kernel⟩

end Slide

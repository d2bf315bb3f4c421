import Verif.Model.SPM
import Verif.Model.SetVoltage
import Verif.Model.SpmVoltage

/-!
`Cell_SPM` as a child of modules (`/repo/src/cells/Cell_SPM/Cell_SPM.hpp:44`, `class Cell_SPM : public Cell`), so that
everything proved of modules for an arbitrary kind of children applies to modules of single-particle cells.

Simplifications.  Only cells without ageing and heat (`setBlockDegAndTherm(true)`) whose parameters are physical
(`SpmGood`).  The interface of the modules reads `V()` as a function of the state, whereas `Cell_SPM::V()` also
remembers the voltage it has computed; the instance therefore consists of cells without this memory (`SPM.plain`) and
without the stress record, which a cell without ageing never reads.  That a cell with its memory answers every call in
the same way is proved in `Verif.Props.SpmUnit` (`spmUnit_refines_*`).
-/

namespace Slide

variable {N : ℕ}

/-- A cell with physical parameters: no divisor of the voltage computation vanishes, and the curves cover all lithium
fractions between 0 and 1. -/
structure SpmSound (c : SPM N) : Prop where
  finite : c.finite = true
  cap : c.par.cap ≠ 0
  exp : ∀ x, c.par.exp x ≠ 0
  sqrt : ∀ x, 0 < x → c.par.sqrt x ≠ 0
  elec : 0 < c.par.C_elec
  kp : c.par.kp ≠ 0
  kn : c.par.kn ≠ 0
  curves : ∀ z, 0 < z → z < 1 → (c.par.dTot z).isSome ∧ (c.par.ocvN z).isSome ∧ (c.par.ocvP z).isSome

/-- Such a cell without ageing and heat. -/
structure SpmGood (c : SPM N) : Prop extends SpmSound c where
  block : c.block = true

/-- The stress record of a cell that was just built without ageing. -/
def noStress : SpmStress := ⟨false, false, false, false, 0, 0, 0, 0, 0, 0, 0⟩

/-- The cell without the voltage it remembers and without its stress record. -/
def SPM.plain (c : SPM N) : SPM N := { c with st := { c.st with V := 0 }, valid := false, stress := noStress }

/-- Single-particle cells as children of modules. -/
structure SpmUnit (N : ℕ) where
  cell : SPM N
  good : SpmGood cell
  isPlain : cell.plain = cell

/-- `finite` depends on the parameters, the temperature and six entries of the state. -/
theorem SPM.finite_congr {a b : SPM N} (hp : b.par = a.par) (hT : b.st.T = a.st.T) (h1 : b.st.ap = a.st.ap)
    (h2 : b.st.an = a.st.an) (h3 : b.st.thickp = a.st.thickp) (h4 : b.st.thickn = a.st.thickn)
    (h5 : b.st.Dp = a.st.Dp) (h6 : b.st.Dn = a.st.Dn) : b.finite = a.finite := by
  unfold SPM.finite SPM.Dpt SPM.Dnt SPM.arrh
  rw [hp, hT, h1, h2, h3, h4, h5, h6]

theorem SpmSound.congr {a b : SPM N} (h : SpmSound a) (hp : b.par = a.par) (hf : b.finite = a.finite) : SpmSound b where
  finite := hf.trans h.finite
  cap := by rw [hp]; exact h.cap
  exp := by rw [hp]; exact h.exp
  sqrt := by rw [hp]; exact h.sqrt
  elec := by rw [hp]; exact h.elec
  kp := by rw [hp]; exact h.kp
  kn := by rw [hp]; exact h.kn
  curves := by rw [hp]; exact h.curves

theorem SpmGood.congr {a b : SPM N} (h : SpmGood a) (hb : b.block = a.block) (hp : b.par = a.par)
    (hf : b.finite = a.finite) : SpmGood b where
  toSpmSound := h.toSpmSound.congr hp hf
  block := hb.trans h.block

theorem SpmGood.plain {c : SPM N} (h : SpmGood c) : SpmGood c.plain := h.congr rfl rfl rfl

/-- The unit of a cell. -/
def SpmUnit.of (c : SPM N) (h : SpmGood c) : SpmUnit N := ⟨c.plain, h.plain, rfl⟩

/-- `a` with another current, diffused, or with another voltage memory: good if `a` is. -/
structure SpmFrame (a b : SPM N) : Prop where
  block : b.block = a.block
  par : b.par = a.par
  finite : b.finite = a.finite

theorem SpmFrame.refl (a : SPM N) : SpmFrame a a := ⟨rfl, rfl, rfl⟩
theorem SpmFrame.trans {a b c : SPM N} (h : SpmFrame a b) (g : SpmFrame b c) : SpmFrame a c :=
  ⟨g.block.trans h.block, g.par.trans h.par, g.finite.trans h.finite⟩
theorem SpmFrame.good {a b : SPM N} (h : SpmFrame a b) (g : SpmGood a) : SpmGood b := g.congr h.block h.par h.finite

theorem SpmFrame.V (c : SPM N) : SpmFrame c c.V.2 := by
  unfold SPM.V
  by_cases hv : c.valid = true
  · rw [if_pos hv]; exact .refl c
  · rw [if_neg hv]
    rcases c.calcV with (_ | v) | e | w
    · exact .refl c
    · exact ⟨rfl, rfl, rfl⟩
    · exact .refl c
    · exact .refl c

theorem SpmFrame.checkV (c : SPM N) : SpmFrame c c.checkV.2 := by
  have h := SpmFrame.V c
  unfold SPM.checkV
  rcases hk : c.V with ⟨v | e | w, c'⟩ <;> rw [hk] at h <;> exact h

theorem SpmFrame.setCurrent (c : SPM N) (i : ℚ) (b : Bool) : SpmFrame c (c.setCurrent i b).2 := by
  unfold SPM.setCurrent
  simp only
  have h : SpmFrame c (SPM.checkCurrent ({ c with st := { c.st with I := i }, valid := false } : SPM N) b).2 := by
    refine SpmFrame.trans (b := ({ c with st := { c.st with I := i }, valid := false } : SPM N)) ⟨rfl, rfl, rfl⟩ ?_
    cases b
    · exact .refl _
    · exact SpmFrame.checkV _
  rcases hk : SPM.checkCurrent ({ c with st := { c.st with I := i }, valid := false } : SPM N) b with ⟨s | e | w, c2⟩
  · rw [hk] at h
    simp only
    split
    · exact h.trans ⟨rfl, rfl, rfl⟩
    · exact h
  · rw [hk] at h; exact h
  · rw [hk] at h; exact h

theorem SpmFrame.diffStep (c : SPM N) (dt : ℚ) : SpmFrame c (c.diffStep dt).2 := by
  unfold SPM.diffStep
  split
  · exact .refl c
  · have h : SpmFrame c (c.diffState dt).V.2 := SpmFrame.trans (b := c.diffState dt) ⟨rfl, rfl, rfl⟩ (SpmFrame.V _)
    rcases hk : (c.diffState dt).V with ⟨v | e | w, c2⟩ <;> rw [hk] at h
    · exact h.trans ⟨rfl, rfl, rfl⟩
    · exact h
    · exact h

theorem SpmFrame.diffLoop (dt : ℚ) (k : ℕ) : ∀ c : SPM N, SpmFrame c (SPM.diffLoop dt k c).2 := by
  induction k with
  | zero => intro c; exact .refl c
  | succ k ih =>
    intro c
    have h := SpmFrame.diffStep c dt
    rw [SPM.diffLoop]
    unfold SPM.andThen
    rcases (c.diffStep dt).1 with _ | e | w
    · exact h.trans (ih _)
    · exact h
    · exact h

theorem SpmFrame.timeStep {c : SPM N} (hb : c.block = true) (dt : ℚ) (n : ℤ) : SpmFrame c (c.timeStep dt n).2 := by
  unfold SPM.timeStep
  split
  · exact .refl c
  · have h : SpmFrame c (SPM.diffLoop dt n.toNat (c.rotate (n * dt))).2 :=
      SpmFrame.trans (b := c.rotate (n * dt)) ⟨rfl, rfl, rfl⟩ (SpmFrame.diffLoop dt n.toNat _)
    generalize SPM.diffLoop dt n.toNat (c.rotate (n * dt)) = r at *
    obtain ⟨o, a⟩ := r
    unfold SPM.andThen
    rcases o with _ | e | w
    · simp only
      rw [if_pos (h.block.trans hb)]; exact h
    · exact h
    · exact h

open Classical in
/-- The calls of the interface.  `V()`, `getOCV()` and `checkVoltage()` cannot fail on a unit (`spmUnit_reads`), the
default values of the `match`es are never used.  `setStates` with a vector that leaves the domain of the instance
(`SpmGood`) is undefined. -/
noncomputable instance : StorageUnit (SpmUnit N) where
  V u := match u.cell.V.1 with | .ok v => v | _ => 0
  I u := u.cell.st.I
  T u := u.cell.st.T
  Cap u := u.cell.par.cap
  OCV u := match u.cell.getOCV with | .ok v => some v | _ => none
  Rtot u := u.cell.Rdc
  lim _ := cellLimits
  checkVoltage u := match u.cell.checkV.1 with | .ok s => s | _ => .V_not_calculated
  Vhigh u := match u.cell.V.1 with | .ok v => v | _ => 0
  Vlow u := match u.cell.V.1 with | .ok v => v | _ => 0
  nCells _ := 1
  setCurrent u i b :=
    ((u.cell.setCurrent i b).1, .of (u.cell.setCurrent i b).2 ((SpmFrame.setCurrent u.cell i b).good u.good))
  getStates u := u.cell.getStates
  setStates u s b :=
    if h : SpmGood (u.cell.setStates s b).2 then ((u.cell.setStates s b).1, .of (u.cell.setStates s b).2 h)
    else (.ub "state outside the domain of the model", u)
  timeStep u dt n :=
    ((u.cell.timeStep dt n).1, .of (u.cell.timeStep dt n).2 ((SpmFrame.timeStep u.good.block dt n).good u.good))

/-- `Cell_SPM` does not override `setVoltage`: `free::setVoltage_iterative` – `/repo/src/StorageUnit.hpp:67-70`. -/
noncomputable instance : VoltageUnit (SpmUnit N) where
  setVoltage := setVoltageIterative

/-! ### Cells with ageing and heat

The same for cells that age.  Here the stored voltage matters (it is not renewed after ageing, C35) and is kept; a
reading does not store a voltage in this model, which makes no difference (`agedUnit_*` in `Verif.Props.SpmAged`).  A
time step that leaves the domain of the instance (ageing may use up an electrode, so that a divisor vanishes) is
undefined.  The heat exchange of modules is left out (with
`settings::T_MODEL = 0` it leaves the temperatures unchanged, `Cell_SPM_thermal.cpp:194-195`). -/

/-- Single-particle cells with or without ageing as children of modules. -/
structure AgedUnit (N : ℕ) where
  cell : SPM N
  sound : SpmSound cell

theorem SpmFrame.sound {a b : SPM N} (h : SpmFrame a b) (g : SpmSound a) : SpmSound b := g.congr h.par h.finite

/-- What no time step changes: parameters, selected ageing models and the switch for ageing. -/
def SPM.fixed (c : SPM N) : SpmPar N × DegSel × Bool := (c.par, c.deg, c.block)

theorem SPM.diffStep_fixed (c : SPM N) (dt : ℚ) : (c.diffStep dt).2.fixed = c.fixed := by
  have hV : ∀ a : SPM N, a.V.2.fixed = a.fixed := by
    intro a
    unfold SPM.V
    split
    · rfl
    · rcases a.calcV with (_ | v) | e | w <;> rfl
  unfold SPM.diffStep
  split
  · rfl
  · have h := hV (c.diffState dt)
    rcases hk : (c.diffState dt).V with ⟨v | e | w, c2⟩ <;> rw [hk] at h <;> exact h

theorem SPM.diffLoop_fixed (dt : ℚ) (k : ℕ) : ∀ c : SPM N, (SPM.diffLoop dt k c).2.fixed = c.fixed := by
  induction k with
  | zero => intro c; rfl
  | succ k ih =>
    intro c
    have h := SPM.diffStep_fixed c dt
    rw [SPM.diffLoop]
    unfold SPM.andThen
    rcases (c.diffStep dt).1 with _ | e | w
    · exact (ih _).trans h
    · exact h
    · exact h

theorem SPM.thermStep_fixed (c : SPM N) (h : ℚ) : (c.thermStep h).2.fixed = c.fixed := by
  have ha : ∀ a : SPM N, a.thermAlone.2.fixed = a.fixed := by
    intro a
    unfold SPM.thermAlone
    split
    · rfl
    · split
      · rfl
      · simp only
        split <;> rfl
  have hp : ∀ a : SPM N, a.thermPass.2.fixed = a.fixed := by
    intro a
    unfold SPM.thermPass
    split
    · rfl
    · have := ha a
      rcases hk : a.thermAlone with ⟨t | e | w, c2⟩ <;> rw [hk] at this <;> exact this
  unfold SPM.thermStep
  rcases c.heat with q | e | w
  · exact hp _
  · rfl
  · rfl

theorem SPM.ageStep_fixed (c : SPM N) (h : ℚ) : (c.ageStep h).2.fixed = c.fixed := by
  have h1 : c.updDai.fixed = c.fixed := by
    unfold SPM.updDai
    split <;> rfl
  have h2 : ∀ a : SPM N, a.updLares.2.fixed = a.fixed := by
    intro a
    unfold SPM.updLares
    split
    · split
      · rfl
      · split
        · rfl
        · split <;> rfl
    · rfl
  have h3 := (h2 c.updDai).trans h1
  unfold SPM.ageStep SPM.andThen
  rcases hk : c.updDai.updLares with ⟨_ | e | w, c1⟩ <;> rw [hk] at h3
  · simp only
    rcases c1.degRate with d | e | w <;> exact h3
  · exact h3
  · exact h3

theorem SPM.timeStep_fixed (c : SPM N) (dt : ℚ) (n : ℤ) : (c.timeStep dt n).2.fixed = c.fixed := by
  unfold SPM.timeStep
  split
  · rfl
  · have h : (SPM.diffLoop dt n.toNat (c.rotate (n * dt))).2.fixed = c.fixed := SPM.diffLoop_fixed dt n.toNat _
    generalize SPM.diffLoop dt n.toNat (c.rotate (n * dt)) = r at *
    obtain ⟨o, a⟩ := r
    unfold SPM.andThen
    rcases o with _ | e | w
    · simp only
      split
      · exact h
      · have h2 := (SPM.thermStep_fixed a (dt * n)).trans h
        rcases hk : a.thermStep (dt * n) with ⟨_ | e | w, b⟩ <;> rw [hk] at h2
        · exact (SPM.ageStep_fixed b _).trans h2
        · exact h2
        · exact h2
    · exact h
    · exact h

open Classical in
/-- The calls of the interface, as for `SpmUnit`. -/
noncomputable instance : StorageUnit (AgedUnit N) where
  V u := match u.cell.V.1 with | .ok v => v | _ => 0
  I u := u.cell.st.I
  T u := u.cell.st.T
  Cap u := u.cell.par.cap
  OCV u := match u.cell.getOCV with | .ok v => some v | _ => none
  Rtot u := u.cell.Rdc
  lim _ := cellLimits
  checkVoltage u := match u.cell.checkV.1 with | .ok s => s | _ => .V_not_calculated
  Vhigh u := match u.cell.V.1 with | .ok v => v | _ => 0
  Vlow u := match u.cell.V.1 with | .ok v => v | _ => 0
  nCells _ := 1
  setCurrent u i b := ((u.cell.setCurrent i b).1, ⟨_, (SpmFrame.setCurrent u.cell i b).sound u.sound⟩)
  getStates u := u.cell.getStates
  setStates u s b :=
    if h : SpmSound (u.cell.setStates s b).2 then ((u.cell.setStates s b).1, ⟨_, h⟩)
    else (.ub "state outside the domain of the model", u)
  timeStep u dt n :=
    if h : (u.cell.timeStep dt n).2.finite = true then
      ((u.cell.timeStep dt n).1, ⟨_, u.sound.congr (congrArg Prod.fst (SPM.timeStep_fixed u.cell dt n)) (h.trans u.sound.finite.symm)⟩)
    else (.ub "state outside the domain of the model", u)

/-- `/repo/src/StorageUnit.hpp:67-70`. -/
noncomputable instance : VoltageUnit (AgedUnit N) where
  setVoltage := setVoltageIterative

end Slide

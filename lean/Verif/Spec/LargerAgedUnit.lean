import Verif.Spec.LargerAged
import Verif.Model.SpmUnit

/-!
# Specification: packs of larger single-particle cells that age (C152)
-/

namespace Slide.Spec

variable {N : ℕ}

/-- Single-particle cells that age by models without absolute sizes, as children of modules: `AgedUnit` (model of
`/repo/src/cells/Cell_SPM/Cell_SPM.hpp:123`) restricted to these models. -/
structure SizeFreeUnit (N : ℕ) where
  unit : AgedUnit N
  free : SizeFree unit.cell.par unit.cell.deg

theorem setCurrent_fixed (c : SPM N) (i : ℚ) (b : Bool) : (c.setCurrent i b).2.fixed = c.fixed := by
  have hV : ∀ a : SPM N, a.V.2.fixed = a.fixed := by
    intro a
    unfold SPM.V
    split
    · rfl
    · rcases a.calcV with (_ | v) | e | w <;> rfl
  have hC : ∀ a : SPM N, a.checkV.2.fixed = a.fixed := by
    intro a
    have h := hV a
    unfold SPM.checkV
    rcases hk : a.V with ⟨v | e | w, a'⟩ <;> rw [hk] at h <;> exact h
  unfold SPM.setCurrent
  simp only
  have h : (SPM.checkCurrent ({ c with st := { c.st with I := i }, valid := false } : SPM N) b).2.fixed = c.fixed := by
    cases b
    · rfl
    · exact hC ({ c with st := { c.st with I := i }, valid := false } : SPM N)
  rcases hk : SPM.checkCurrent ({ c with st := { c.st with I := i }, valid := false } : SPM N) b with ⟨s | e | w, c2⟩ <;>
    rw [hk] at h
  · simp only
    split
    · exact h
    · exact h
  · exact h
  · exact h

theorem sizeFree_fixed {a b : SPM N} (h : b.fixed = a.fixed) (hs : SizeFree a.par a.deg) : SizeFree b.par b.deg := by
  have e1 : b.par = a.par := congrArg Prod.fst h
  have e2 : b.deg = a.deg := congrArg (fun x => x.2.1) h
  rw [e1, e2]; exact hs

open Classical in
/-- The calls of the interface, those of `AgedUnit`.  (Restoring states changes neither the parameters nor the ageing
models, the condition on them is always met.) -/
noncomputable instance : StorageUnit (SizeFreeUnit N) where
  V u := StorageUnit.V u.unit
  I u := StorageUnit.I u.unit
  T u := StorageUnit.T u.unit
  Cap u := StorageUnit.Cap u.unit
  OCV u := StorageUnit.OCV u.unit
  Rtot u := StorageUnit.Rtot u.unit
  lim u := StorageUnit.lim u.unit
  checkVoltage u := StorageUnit.checkVoltage u.unit
  Vhigh u := StorageUnit.Vhigh u.unit
  Vlow u := StorageUnit.Vlow u.unit
  nCells _ := 1
  setCurrent u i b := ((StorageUnit.setCurrent u.unit i b).1,
    ⟨(StorageUnit.setCurrent u.unit i b).2, sizeFree_fixed (setCurrent_fixed u.unit.cell i b) u.free⟩)
  getStates u := StorageUnit.getStates u.unit
  setStates u s b :=
    if h : SizeFree (StorageUnit.setStates u.unit s b).2.cell.par (StorageUnit.setStates u.unit s b).2.cell.deg then
      ((StorageUnit.setStates u.unit s b).1, ⟨(StorageUnit.setStates u.unit s b).2, h⟩)
    else (.ub "state outside the domain of the model", u)
  timeStep u dt n :=
    ((StorageUnit.timeStep u.unit dt n).1, ⟨(StorageUnit.timeStep u.unit dt n).2, by
      show SizeFree (if h : (u.unit.cell.timeStep dt n).2.finite = true then _ else _ : Outcome Unit × AgedUnit N).2.cell.par
        (if h : (u.unit.cell.timeStep dt n).2.finite = true then _ else _ : Outcome Unit × AgedUnit N).2.cell.deg
      split
      · exact sizeFree_fixed (SPM.timeStep_fixed u.unit.cell dt n) u.free
      · exact u.free⟩)

/-- `/repo/src/StorageUnit.hpp:67-70`. -/
noncomputable instance : VoltageUnit (SizeFreeUnit N) where
  setVoltage := setVoltageIterative

end Slide.Spec

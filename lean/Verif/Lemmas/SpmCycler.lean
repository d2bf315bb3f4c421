import Verif.Lemmas.SpmUnit
import Verif.Lemmas.CellCycler
import Verif.Lemmas.EcmLaws
import Verif.Spec.SpmCycler

/-! Single-particle cells without ageing obey the laws of `CellLaws`. -/

namespace Slide
open Spec SPM StorageUnit

variable {N : ℕ}

theorem spmOnly_refl (a : SpmUnit N) : SpmOnlyCurrent a a := rfl

theorem spmOnly_trans {a b c : SpmUnit N} (h : SpmOnlyCurrent a b) (g : SpmOnlyCurrent b c) : SpmOnlyCurrent a c := by
  unfold SpmOnlyCurrent at *
  rw [g, h]

theorem spmOnly_set (u : SpmUnit N) (i : ℚ) (b : Bool) : SpmOnlyCurrent u (StorageUnit.setCurrent u i b).2 := by
  have h := onlyCurrent_plain (setCurrent_onlyCurrent u.cell i b)
  rw [u.isPlain] at h
  show ((u.cell.setCurrent i b).2).plain = { u.cell with st := { u.cell.st with I := (u.cell.setCurrent i b).2.plain.st.I } }
  exact congrArg (fun x : SPM N => ({ x with st := { x.st with I := (u.cell.setCurrent i b).2.st.I } } : SPM N)) h

theorem spmOnly_setVoltage (u : SpmUnit N) (v : ℚ) : SpmOnlyCurrent u (VoltageUnit.setVoltage u v).2 :=
  iterLoop_rel ⟨spmOnly_refl, spmOnly_trans, spmOnly_set⟩ v 50 _ u

/-- What diffusion changes, erased. -/
def spmShell (c : SPM N) : SPM N :=
  { c with st := { c.st with V := 0, zp := 0, zn := 0, SOC := 0, time := 0, Ah := 0, Wh := 0 }, valid := false, stress := noStress }

theorem shell_diffStep (c : SPM N) (dt : ℚ) : spmShell (c.diffStep dt).2 = spmShell c := by
  unfold diffStep
  split
  · rfl
  · have hr := SPM.V_rest (c.diffState dt)
    rcases hk : (c.diffState dt).V with ⟨v | e | w, c2⟩ <;> rw [hk] at hr <;> simp only at hr ⊢ <;> rw [hr] <;> rfl

theorem shell_diffLoop (dt : ℚ) (k : ℕ) (c : SPM N) : spmShell (SPM.diffLoop dt k c).2 = spmShell c :=
  diffLoop_keeps (P := fun x => spmShell x = spmShell c) dt (fun x h => (shell_diffStep x dt).trans h) k c rfl

theorem frame_of_shell {a b : SPM N} (ha : a.plain = a) (hb : b.plain = b) (h : spmShell b = spmShell a) :
    ({ b with st := { b.st with
      I := a.st.I, zp := a.st.zp, zn := a.st.zn, SOC := a.st.SOC, time := a.st.time, Ah := a.st.Ah, Wh := a.st.Wh } } : SPM N) =
      a := by
  have h' := congrArg (fun x : SPM N => ({ x with st := { x.st with
    I := a.st.I, zp := a.st.zp, zn := a.st.zn, SOC := a.st.SOC, time := a.st.time, Ah := a.st.Ah, Wh := a.st.Wh } } : SPM N)) h
  conv_rhs => rw [← ha]
  conv_lhs => rw [← hb]
  exact h'

theorem carried_step (u : SpmUnit N) (dt : ℚ) (k : ℕ) (hdt : 0 ≤ dt) :
    Carried u.cell.st.I (k * dt) u.cell (StorageUnit.timeStep u dt k).2.cell := by
  have hok : (u.cell.timeStep dt k).1 = .ok () := good_timeStep u.good hdt k
  have hb : u.cell.timeStep dt k = SPM.diffLoop dt k (u.cell.rotate ((k : ℤ) * dt)) := blocked_timeStep _ k hdt u.good.block
  have hcell : (StorageUnit.timeStep u dt k).2.cell = (u.cell.timeStep dt k).2.plain := rfl
  obtain ⟨-, g1, g2, g3, g4, g5, -⟩ := diffLoop_ok dt k _ (hb ▸ hok)
  refine ⟨?_, ?_, ?_, ?_, ?_, ?_⟩
  · refine frame_of_shell u.isPlain (StorageUnit.timeStep u dt k).2.isPlain ?_
    rw [hcell, hb]
    show spmShell (SPM.diffLoop dt k (u.cell.rotate ((k : ℤ) * dt))).2 = spmShell u.cell
    rw [shell_diffLoop]
    rfl
  · rw [hcell, hb]; exact g2
  · rw [hcell, hb]
    show (SPM.diffLoop dt k (u.cell.rotate ((k : ℤ) * dt))).2.st.SOC = _
    rw [g1]
    show u.cell.st.SOC + k * dt * (-u.cell.st.I / (u.cell.par.cap * 3600)) = _
    rw [div_div, mul_comm (3600:ℚ)]
    ring
  · rw [hcell, hb]; exact g3 hdt
  · intro j hj
    rw [hcell, hb]
    show (SPM.diffLoop dt k (u.cell.rotate ((k : ℤ) * dt))).2.st.zp j = _
    rw [g4 j hj]
    show u.cell.st.zp j + k * dt * (u.cell.par.M.Bp j * (-(u.cell.st.I / u.cell.par.elecSurf) /
      (u.cell.st.ap * u.cell.par.n * Faraday * u.cell.st.thickp))) = _
    rw [neg_div, div_div, div_eq_mul_inv, div_eq_mul_inv]
    ring
  · intro j hj
    rw [hcell, hb]
    show (SPM.diffLoop dt k (u.cell.rotate ((k : ℤ) * dt))).2.st.zn j = _
    rw [g5 j hj]
    show u.cell.st.zn j + k * dt * (u.cell.par.M.Bn j * ((u.cell.st.I / u.cell.par.elecSurf) /
      (u.cell.st.an * u.cell.par.n * Faraday * u.cell.st.thickn))) = _
    rw [div_div, div_eq_mul_inv, div_eq_mul_inv]
    ring

theorem spmUnit_step_nonneg {u : SpmUnit N} {dt : ℚ} {k : ℕ} (h : (StorageUnit.timeStep u dt k).1 = .ok ()) : 0 ≤ dt := by
  by_contra hneg
  change (u.cell.timeStep dt k).1 = _ at h
  rw [spm_negative_step u.cell (k : ℤ) (not_le.mp hneg)] at h
  cases h

instance : CellTotal (SpmUnit N) where
  step_ok u dt k h := good_timeStep u.good h k

noncomputable instance : CellLaws (SpmUnit N) where
  Only := SpmOnlyCurrent
  time u := u.cell.st.time
  Ah u := u.cell.st.Ah
  SOC u := u.cell.st.SOC
  only_refl := spmOnly_refl
  only_trans := spmOnly_trans
  only_set := spmOnly_set
  only_setVoltage := spmOnly_setVoltage
  only_meters {a b} h := by
    unfold SpmOnlyCurrent at h
    refine ⟨?_, ?_, ?_, ?_⟩
    · rw [h]
    · rw [h]
    · rw [h]
    · show b.cell.par.cap = a.cell.par.cap
      rw [h]
  set_unchecked u i := ⟨rfl, (spm_setCurrent_accepted u.cell i false .Success rfl rfl).1⟩
  step_throws u dt k h := by
    have e := spm_negative_step u.cell (k : ℤ) h
    constructor
    · show (u.cell.timeStep dt k).1 = _
      rw [e]
    · have : (StorageUnit.timeStep u dt k).2 = u := SpmUnit.ext' (by
        show (u.cell.timeStep dt k).2.plain = _
        rw [e, u.isPlain])
      rw [this]
      exact spmOnly_refl u
  step_I u dt k _ := blocked_step_I u.good.block dt k
  step_meters u dt k h := by
    have c := carried_step u dt k (spmUnit_step_nonneg h)
    refine ⟨c.time, c.ah, c.soc, ?_⟩
    show (StorageUnit.timeStep u dt k).2.cell.par.cap = u.cell.par.cap
    conv_rhs => rw [← c.frame]
  check_code u := by
    obtain ⟨v, hv⟩ := good_V u.good
    show 0 ≤ (match u.cell.checkV.1 with | .ok s => s | _ => .V_not_calculated : Status).code
    unfold checkV
    rcases hk : u.cell.V with ⟨r | e | w, c2⟩ <;> rw [hk] at hv
    · exact cellCheck_code _ _
    · cases hv
    · cases hv

end Slide

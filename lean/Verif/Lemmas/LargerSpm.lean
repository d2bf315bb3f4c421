import Verif.Lemmas.SPMScale
import Verif.Lemmas.SizeMap
import Verif.Spec.LargerPack
import Verif.Model.SpmUnit

/-!
# Helper lemmas for C151: single-particle cells of another size
-/

namespace Slide
open Spec

variable {N : ℕ} {k : ℚ}

/-- What a cell without ageing and heat keeps, apart from its parameters. -/
def SPM.aside (c : SPM N) : ℚ × ℚ × ℚ × ℚ × DegSel × Bool × Bool :=
  (c.Qgen, c.Qtot, c.thermTime, c.T_env, c.deg, c.block, c.parent)

theorem aside_V (c : SPM N) : c.V.2.aside = c.aside := by
  unfold SPM.V
  split
  · rfl
  · rcases c.calcV with (_ | v) | e | w <;> rfl

theorem aside_checkV (c : SPM N) : c.checkV.2.aside = c.aside := by
  have h := aside_V c
  unfold SPM.checkV
  rcases hk : c.V with ⟨v | e | w, c'⟩ <;> rw [hk] at h <;> exact h

theorem aside_setCurrent (c : SPM N) (i : ℚ) (b : Bool) : (c.setCurrent i b).2.aside = c.aside := by
  unfold SPM.setCurrent
  simp only
  have h : (SPM.checkCurrent ({ c with st := { c.st with I := i }, valid := false } : SPM N) b).2.aside = c.aside := by
    cases b
    · rfl
    · exact aside_checkV ({ c with st := { c.st with I := i }, valid := false } : SPM N)
  rcases hk : SPM.checkCurrent ({ c with st := { c.st with I := i }, valid := false } : SPM N) b with ⟨s | e | w, c2⟩
  · rw [hk] at h
    simp only
    split
    · exact h
    · exact h
  · rw [hk] at h; exact h
  · rw [hk] at h; exact h

theorem aside_diffStep (c : SPM N) (dt : ℚ) : (c.diffStep dt).2.aside = c.aside := by
  unfold SPM.diffStep
  split
  · rfl
  · have h : (c.diffState dt).V.2.aside = c.aside := (aside_V _).trans rfl
    rcases hk : (c.diffState dt).V with ⟨v | e | w, c2⟩ <;> rw [hk] at h <;> exact h

theorem aside_diffLoop (dt : ℚ) (j : ℕ) : ∀ c : SPM N, (SPM.diffLoop dt j c).2.aside = c.aside := by
  induction j with
  | zero => intro c; rfl
  | succ j ih =>
    intro c
    have h := aside_diffStep c dt
    rw [SPM.diffLoop]
    unfold SPM.andThen
    rcases (c.diffStep dt).1 with _ | e | w
    · exact (ih _).trans h
    · exact h
    · exact h

theorem aside_timeStep {c : SPM N} (hb : c.block = true) (dt : ℚ) (n : ℤ) : (c.timeStep dt n).2.aside = c.aside := by
  unfold SPM.timeStep
  split
  · rfl
  · have h : (SPM.diffLoop dt n.toNat (c.rotate (n * dt))).2.aside = c.aside := (aside_diffLoop dt n.toNat _).trans rfl
    generalize SPM.diffLoop dt n.toNat (c.rotate (n * dt)) = r at *
    obtain ⟨o, a⟩ := r
    unfold SPM.andThen
    rcases o with _ | e | w
    · simp only
      have hab : a.block = c.block := congrArg (fun x => x.2.2.2.2.2.1) h
      rw [if_pos (hab.trans hb)]; exact h
    · exact h
    · exact h

/-- Cells in relation are, without their memory, the cell and the larger cell. -/
theorem scaled_plain {a b : SPM N} (h : ScaledBy k a b) (hr : b.aside = a.aside) : b.plain = largerSpmCell k a.plain := by
  have e : b.Qgen = a.Qgen ∧ b.Qtot = a.Qtot ∧ b.thermTime = a.thermTime ∧ b.T_env = a.T_env ∧ b.deg = a.deg ∧
      b.block = a.block ∧ b.parent = a.parent := by
    unfold SPM.aside at hr
    simpa using hr
  obtain ⟨e1, e2, e3, e4, e5, e6, e7⟩ := e
  refine SPM.ext h.par ?_ rfl rfl e1 e2 e3 e4 e5 e6 e7
  show ({ b.st with V := 0 } : SpmState N) = _
  rw [h.st]; rfl

theorem largerSpmCell_scaled {c : SPM N} (hb : c.block = true) : ScaledBy k c (largerSpmCell k c) := ⟨rfl, rfl, rfl, hb, hb⟩

theorem largerSpmCell_good (hk : 0 < k) {c : SPM N} (h : SpmGood c) : SpmGood (largerSpmCell k c) where
  finite := (scaled_finite hk (largerSpmCell_scaled h.block)).trans h.finite
  cap := mul_ne_zero hk.ne' h.cap
  exp := h.exp
  sqrt := h.sqrt
  elec := h.elec
  kp := h.kp
  kn := h.kn
  curves := h.curves
  block := h.block

/-- The larger cell as a child of modules. -/
def largerSpm (hk : 0 < k) (u : SpmUnit N) : SpmUnit N where
  cell := largerSpmCell k u.cell
  good := largerSpmCell_good hk u.good
  isPlain := by
    have h := scaled_plain (k := k) (largerSpmCell_scaled u.good.block) rfl
    rwa [u.isPlain] at h

theorem SpmUnit.ext_cell {a b : SpmUnit N} (h : a.cell = b.cell) : a = b := by
  obtain ⟨a, _, _⟩ := a
  obtain ⟨b, _, _⟩ := b
  cases h; rfl

theorem spm_scaledBy (hk : 0 < k) (u : SpmUnit N) : ScaledBy k u.cell (largerSpm hk u).cell := largerSpmCell_scaled u.good.block

/-- A larger single-particle cell is a larger unit. -/
theorem largerSpm_size (hk : 0 < k) : SizeMap k (largerSpm (N := N) hk) where
  V u := by
    show (match (largerSpm hk u).cell.V.1 with | .ok v => v | _ => 0) = (match u.cell.V.1 with | .ok v => v | _ => 0)
    rw [(scaled_V hk (spm_scaledBy hk u)).1]
  I _ := rfl
  Cap _ := rfl
  lim _ := rfl
  OCV u := by
    have h := spm_scaledBy hk u
    have e : (largerSpm hk u).cell.getOCV = u.cell.getOCV := by
      unfold SPM.getOCV
      rw [scaled_finite hk h, scaled_cps hk h, scaled_cns hk h, h.par, h.st]
    show (match (largerSpm hk u).cell.getOCV with | .ok v => some v | _ => none) = (match u.cell.getOCV with | .ok v => some v | _ => none)
    rw [e]
  Rtot u := by
    show (largerSpmCell k u.cell).Rdc = u.cell.Rdc / k
    have e : ∀ x y : ℚ, x / (k * y) = x / y / k := by
      intro x y
      rw [mul_comm k y, div_mul_eq_div_div]
    have e3 : ∀ x y z : ℚ, x / (y * (k * u.cell.par.elecSurf) * z) = x / (y * u.cell.par.elecSurf * z) / k := by
      intro x y z
      rw [show y * (k * u.cell.par.elecSurf) * z = k * (y * u.cell.par.elecSurf * z) by ring, e]
    unfold SPM.Rdc largerSpmCell
    simp only
    rw [e3, e3, e3, e]
    ring
  Vlow u := by
    show (match (largerSpm hk u).cell.V.1 with | .ok v => v | _ => 0) = (match u.cell.V.1 with | .ok v => v | _ => 0)
    rw [(scaled_V hk (spm_scaledBy hk u)).1]
  Vhigh u := by
    show (match (largerSpm hk u).cell.V.1 with | .ok v => v | _ => 0) = (match u.cell.V.1 with | .ok v => v | _ => 0)
    rw [(scaled_V hk (spm_scaledBy hk u)).1]
  check u := by
    show (match (largerSpm hk u).cell.checkV.1 with | .ok s => s | _ => .V_not_calculated) =
      (match u.cell.checkV.1 with | .ok s => s | _ => .V_not_calculated)
    rw [(scaled_checkV hk (spm_scaledBy hk u)).1]
  set u i b := by
    obtain ⟨h1, h2⟩ := scaled_setCurrent hk (spm_scaledBy hk u) i b
    refine Prod.ext h1 (SpmUnit.ext_cell ?_)
    exact scaled_plain h2 ((aside_setCurrent _ _ _).trans (aside_setCurrent u.cell i b).symm)
  step u dt n := by
    obtain ⟨h1, h2⟩ := scaled_timeStep hk (spm_scaledBy hk u) dt n
    refine Prod.ext h1 (SpmUnit.ext_cell ?_)
    exact scaled_plain h2 ((aside_timeStep (largerSpmCell_good hk u.good).block dt n).trans
      (aside_timeStep u.good.block dt n).symm)

end Slide

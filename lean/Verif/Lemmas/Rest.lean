import Verif.Props.DefaultCell
import Verif.Spec.Rest

/-! Lemmas for a single-particle cell at rest. -/

namespace Slide
open Spec SPM Default

variable {N : ℕ}

theorem jp_rest {c : SPM N} (hI : c.st.I = 0) : c.jp = 0 := by
  unfold jp iApp; rw [hI]; simp

theorem jn_rest {c : SPM N} (hI : c.st.I = 0) : c.jn = 0 := by
  unfold jn iApp; rw [hI]; simp

theorem Dpt_frame {a b : SPM N} (h : DiffFrame a b) : b.Dpt = a.Dpt := by
  unfold Dpt arrh; rw [h.age.par, h.T, h.Dp]

theorem Dnt_frame {a b : SPM N} (h : DiffFrame a b) : b.Dnt = a.Dnt := by
  unfold Dnt arrh; rw [h.age.par, h.T, h.Dn]

/-- Without current every mode is multiplied by a fixed factor in every step. -/
theorem diffLoop_rest (dt : ℚ) (k : ℕ) : ∀ c : SPM N, (SPM.diffLoop dt k c).1 = .ok () → c.st.I = 0 →
    (∀ j, (SPM.diffLoop dt k c).2.st.zp j = (1 + dt * c.Dpt * c.par.M.Ap j) ^ k * c.st.zp j) ∧
    (∀ j, (SPM.diffLoop dt k c).2.st.zn j = (1 + dt * c.Dnt * c.par.M.An j) ^ k * c.st.zn j) := by
  induction k with
  | zero => intro c _ _; constructor <;> intro j <;> simp [SPM.diffLoop]
  | succ k ih =>
    intro c h hI
    rw [SPM.diffLoop] at h ⊢
    obtain ⟨h1, h2, h3⟩ := andThen_ok h
    rw [h3]
    obtain ⟨-, f, ezp, ezn, -⟩ := diffStep_ok h1
    obtain ⟨gp, gn⟩ := ih _ h2 (f.I.trans hI)
    constructor
    · intro j
      rw [gp j, Dpt_frame f, f.age.par, ezp]
      simp only [dzp, jp_rest hI]
      ring
    · intro j
      rw [gn j, Dnt_frame f, f.age.par, ezn]
      simp only [dzn, jn_rest hI]
      ring

/-- How uneven the lithium is distributed: the part of the surface concentration that is not the uniform one. -/
def unevenP (c : SPM N) : ℚ := ∑ j, if j = c.par.M.ind then 0 else |c.par.M.Cp 0 j * c.st.zp j|
def unevenN (c : SPM N) : ℚ := ∑ j, if j = c.par.M.ind then 0 else |c.par.M.Cn 0 j * c.st.zn j|

theorem unevenP_nonneg (c : SPM N) : 0 ≤ unevenP c :=
  Finset.sum_nonneg fun j _ => by split <;> [exact le_rfl; exact abs_nonneg _]
theorem unevenN_nonneg (c : SPM N) : 0 ≤ unevenN c :=
  Finset.sum_nonneg fun j _ => by split <;> [exact le_rfl; exact abs_nonneg _]

theorem sum_dist (M f z : Fin N → ℚ) (i : Fin N) (r : ℚ) (hi : f i = 1) (hr : ∀ j, j ≠ i → |f j| ≤ r) :
    |∑ j, M j * (f j * z j) - M i * z i| ≤ r * ∑ j, if j = i then 0 else |M j * z j| := by
  have h1 : M i * z i = ∑ j, if j = i then M j * z j else 0 := by
    rw [Finset.sum_ite_eq' Finset.univ i]; simp
  rw [h1, ← Finset.sum_sub_distrib, Finset.mul_sum]
  refine (Finset.abs_sum_le_sum_abs _ _).trans (Finset.sum_le_sum fun j _ => ?_)
  by_cases hj : j = i
  · subst hj; simp [hi]
  · rw [if_neg hj, if_neg hj, sub_zero]
    have : M j * (f j * z j) = f j * (M j * z j) := by ring
    rw [this, abs_mul]
    exact mul_le_mul_of_nonneg_right (hr j hj) (abs_nonneg _)

/-- State after setting the current to zero. -/
theorem setCurrent_zero (c : SPM N) : (c.setCurrent 0 false).2 = { c with st := { c.st with I := 0 }, valid := false } := by
  unfold setCurrent checkCurrent; rfl

end Slide

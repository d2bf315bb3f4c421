import Verif.Spec.Fick
import Verif.Lemmas.SPMDiff
import Mathlib.Algebra.Polynomial.Roots

/-!
C126: lithium diffuses in the particles by Fick's laws.
-/

namespace Slide
open Spec SPM Polynomial

variable {N : ℕ}

/-- The profile of one electrode, from its tables. -/
theorem profile_exists {A B : Fin N → ℚ} {C : Fin (N + 1) → Fin N → ℚ} {Dv Cc : Fin (N + 1) → ℚ} {x : Fin N → ℚ} {R : ℚ}
    (h : FickSphere A B C Dv Cc x R) {D j : ℚ} (hD : D ≠ 0) (z : Fin N → ℚ) :
    ∃ P : ℚ[X], ProfileOf x R (fun i => ∑ k, C i k * z k + Dv i * j / D)
        (-1 / 2 * (∑ i, Cc i * (∑ k, C i k * z k + Dv i * j / D) + j * R / D)) P ∧
      FickSurface R D j P ∧ ∀ i, (derivative (X ^ 2 * derivative P)).eval (x i * R) =
        (x i * R) ^ 2 * ∑ k, C i.succ k * (A k * z k + B k * (j / D)) := by
  obtain ⟨P, h1, h2, h3, h4⟩ := h.modes z (j / D)
  have h5 := h.slope P h1
  have h6 : ∀ i, P.eval (nodeRadius x R i) = ∑ k, C i k * z k + Dv i * j / D := fun i => by rw [h2 i]; ring
  refine ⟨P, ⟨h1, h6, ?_⟩, ?_, h4⟩
  · rw [h3, Finset.sum_congr rfl fun i _ => by rw [h6 i]] at h5
    rw [show j * R / D = j / D * R by ring]
    linear_combination (-1 / 2) * h5
  · unfold FickSurface
    rw [h3]
    field_simp

/-- The profiles during a sequence of steps of the amplitudes. -/
theorem profiles_exist {A B : Fin N → ℚ} {C : Fin (N + 1) → Fin N → ℚ} {Dv Cc : Fin (N + 1) → ℚ} {x : Fin N → ℚ} {R : ℚ}
    (h : FickSphere A B C Dv Cc x R) {D j : ℚ} (hD : D ≠ 0) (dt : ℚ) (zs : ℕ → Fin N → ℚ)
    (hz : ∀ k i, zs (k + 1) i = zs k i + dt * (D * A i * zs k i + B i * j)) :
    ∃ Ps : ℕ → ℚ[X], (∀ k, ProfileOf x R (fun i => ∑ l, C i l * zs k l + Dv i * j / D)
        (-1 / 2 * (∑ i, Cc i * (∑ l, C i l * zs k l + Dv i * j / D) + j * R / D)) (Ps k) ∧
      FickSurface R D j (Ps k)) ∧ ∀ k, FickStep x R D dt (Ps k) (Ps (k + 1)) := by
  choose Ps hP using fun k => profile_exists h hD (j := j) (zs k)
  refine ⟨Ps, fun k => ⟨(hP k).1, (hP k).2.1⟩, fun k i => ?_⟩
  have e : ∀ m, (Ps m).eval (x i * R) = ∑ l, C i.succ l * zs m l + Dv i.succ * j / D := fun m => (hP m).1.nodes i.succ
  rw [e, e, (hP k).2.2 i]
  have : ∑ l, C i.succ l * zs (k + 1) l = ∑ l, C i.succ l * zs k l + dt * D * ∑ l, C i.succ l * (A l * zs k l + B l * (j / D)) := by
    rw [Finset.mul_sum, ← Finset.sum_add_distrib]
    refine Finset.sum_congr rfl fun l _ => ?_
    rw [hz k l]
    field_simp
  rw [this]; ring

theorem diffStep_conditions {c : SPM N} {dt : ℚ} (f : DiffFrame c (c.diffStep dt).2) :
    (c.diffStep dt).2.jp = c.jp ∧ (c.diffStep dt).2.jn = c.jn ∧ (c.diffStep dt).2.Dpt = c.Dpt ∧
    (c.diffStep dt).2.Dnt = c.Dnt := by
  refine ⟨?_, ?_, ?_, ?_⟩
  · unfold jp iApp; rw [f.age.par, f.I, f.age.ap, f.age.thickp]
  · unfold jn iApp; rw [f.age.par, f.I, f.age.an, f.age.thickn]
  · unfold SPM.Dpt SPM.arrh; rw [f.age.par, f.T, f.Dp]
  · unfold SPM.Dnt SPM.arrh; rw [f.age.par, f.T, f.Dn]

/-- The amplitudes during the loop over the steps. -/
theorem diffLoop_amplitudes (dt : ℚ) (n : ℕ) : ∀ c : SPM N, (SPM.diffLoop dt n c).1 = .ok () →
    (∃ zs : ℕ → Fin N → ℚ, zs 0 = c.st.zp ∧ zs n = (SPM.diffLoop dt n c).2.st.zp ∧
      ∀ k i, zs (k + 1) i = zs k i + dt * (c.Dpt * c.par.M.Ap i * zs k i + c.par.M.Bp i * c.jp)) ∧
    ∃ zs : ℕ → Fin N → ℚ, zs 0 = c.st.zn ∧ zs n = (SPM.diffLoop dt n c).2.st.zn ∧
      ∀ k i, zs (k + 1) i = zs k i + dt * (c.Dnt * c.par.M.An i * zs k i + c.par.M.Bn i * c.jn) := by
  induction n with
  | zero =>
    intro c _
    constructor
    · let f : (Fin N → ℚ) → Fin N → ℚ := fun z i => z i + dt * (c.Dpt * c.par.M.Ap i * z i + c.par.M.Bp i * c.jp)
      exact ⟨fun k => f^[k] c.st.zp, rfl, rfl, fun k i => by simp only [Function.iterate_succ_apply']; rfl⟩
    · let f : (Fin N → ℚ) → Fin N → ℚ := fun z i => z i + dt * (c.Dnt * c.par.M.An i * z i + c.par.M.Bn i * c.jn)
      exact ⟨fun k => f^[k] c.st.zn, rfl, rfl, fun k i => by simp only [Function.iterate_succ_apply']; rfl⟩
  | succ n ih =>
    intro c h
    rw [SPM.diffLoop] at h ⊢
    obtain ⟨h1, h2, h3⟩ := andThen_ok h
    rw [h3]
    obtain ⟨-, f, ezp, ezn, -⟩ := diffStep_ok h1
    obtain ⟨k1, k2, k3, k4⟩ := diffStep_conditions f
    obtain ⟨⟨zs, a1, a2, a3⟩, ⟨ys, b1, b2, b3⟩⟩ := ih _ h2
    rw [f.age.par, k1, k3] at a3
    rw [f.age.par, k2, k4] at b3
    constructor
    · refine ⟨fun k => Nat.casesOn k c.st.zp zs, rfl, a2, fun k i => ?_⟩
      cases k with
      | zero =>
        show zs 0 i = c.st.zp i + _
        rw [a1, ezp]; rfl
      | succ k => exact a3 k i
    · refine ⟨fun k => Nat.casesOn k c.st.zn ys, rfl, b2, fun k i => ?_⟩
      cases k with
      | zero =>
        show ys 0 i = c.st.zn i + _
        rw [b1, ezn]; rfl
      | succ k => exact b3 k i

/-- C126: at every moment the concentrations of a particle lie on a profile whose slope at the surface gives, by Fick's first
law, the flux the current asks for. -/
theorem fick_surface (c : SPM N)
    (hp : FickSphere c.par.M.Ap c.par.M.Bp c.par.M.Cp c.par.M.Dp c.par.M.Cc c.par.M.xch c.par.Rp)
    (hn : FickSphere c.par.M.An c.par.M.Bn c.par.M.Cn c.par.M.Dn c.par.M.Cc c.par.M.xch c.par.Rn)
    (hDp : c.Dpt ≠ 0) (hDn : c.Dnt ≠ 0) :
    (∃ P, ProfileOf c.par.M.xch c.par.Rp c.nodeP c.centreP P ∧
      FickSurface c.par.Rp c.Dpt (-(c.st.I / c.par.elecSurf) / (c.st.ap * c.par.n * Faraday * c.st.thickp)) P) ∧
    ∃ P, ProfileOf c.par.M.xch c.par.Rn c.nodeN c.centreN P ∧
      FickSurface c.par.Rn c.Dnt (c.st.I / c.par.elecSurf / (c.st.an * c.par.n * Faraday * c.st.thickn)) P := by
  obtain ⟨P, h1, h2, -⟩ := profile_exists hp hDp (j := c.jp) c.st.zp
  obtain ⟨Q, k1, k2, -⟩ := profile_exists hn hDn (j := c.jn) c.st.zn
  exact ⟨⟨P, h1, h2⟩, ⟨Q, k1, k2⟩⟩

/-- C126: a time step that succeeds moves the profiles of both particles by Fick's second law, step by step, under the flux
of the current; degradation and heat blocked. -/
theorem fick_timeStep (c : SPM N)
    (hp : FickSphere c.par.M.Ap c.par.M.Bp c.par.M.Cp c.par.M.Dp c.par.M.Cc c.par.M.xch c.par.Rp)
    (hn : FickSphere c.par.M.An c.par.M.Bn c.par.M.Cn c.par.M.Dn c.par.M.Cc c.par.M.xch c.par.Rn)
    (hDp : c.Dpt ≠ 0) (hDn : c.Dnt ≠ 0) (hb : c.block = true) (dt : ℚ) (n : ℕ) (h : (c.timeStep dt n).1 = .ok ()) :
    (∃ Ps : ℕ → ℚ[X], ProfileOf c.par.M.xch c.par.Rp c.nodeP c.centreP (Ps 0) ∧
      ProfileOf c.par.M.xch c.par.Rp (c.timeStep dt n).2.nodeP (c.timeStep dt n).2.centreP (Ps n) ∧
      (∀ k, IsProfile N (Ps k) ∧
        FickSurface c.par.Rp c.Dpt (-(c.st.I / c.par.elecSurf) / (c.st.ap * c.par.n * Faraday * c.st.thickp)) (Ps k)) ∧
      ∀ k, FickStep c.par.M.xch c.par.Rp c.Dpt dt (Ps k) (Ps (k + 1))) ∧
    ∃ Ps : ℕ → ℚ[X], ProfileOf c.par.M.xch c.par.Rn c.nodeN c.centreN (Ps 0) ∧
      ProfileOf c.par.M.xch c.par.Rn (c.timeStep dt n).2.nodeN (c.timeStep dt n).2.centreN (Ps n) ∧
      (∀ k, IsProfile N (Ps k) ∧
        FickSurface c.par.Rn c.Dnt (c.st.I / c.par.elecSurf / (c.st.an * c.par.n * Faraday * c.st.thickn)) (Ps k)) ∧
      ∀ k, FickStep c.par.M.xch c.par.Rn c.Dnt dt (Ps k) (Ps (k + 1)) := by
  obtain ⟨-, h1, hbl, -⟩ := timeStep_ok h
  rw [hbl hb]
  rw [Int.toNat_natCast] at h1 ⊢
  obtain ⟨⟨zs, a1, a2, a3⟩, ⟨ys, b1, b2, b3⟩⟩ := diffLoop_amplitudes dt n _ h1
  have f := (diffLoop_ok dt n _ h1).1
  generalize (SPM.diffLoop dt n (c.rotate (((n : ℕ) : ℤ) * dt))).2 = c' at *
  have fp : c'.par = c.par := f.age.par
  have fI : c'.st.I = c.st.I := f.I
  have e1 : c'.jp = c.jp := by unfold jp iApp; rw [fp, fI, f.age.ap, f.age.thickp]; rfl
  have e2 : c'.jn = c.jn := by unfold jn iApp; rw [fp, fI, f.age.an, f.age.thickn]; rfl
  have e3 : c'.Dpt = c.Dpt := by unfold SPM.Dpt SPM.arrh; rw [fp, f.T, f.Dp]; rfl
  have e4 : c'.Dnt = c.Dnt := by unfold SPM.Dnt SPM.arrh; rw [fp, f.T, f.Dn]; rfl
  constructor
  · obtain ⟨Ps, q1, q2⟩ := profiles_exist hp hDp (j := c.jp) dt zs a3
    refine ⟨Ps, ?_, ?_, fun k => ⟨(q1 k).1.shape, (q1 k).2⟩, q2⟩
    · have := (q1 0).1
      rw [a1] at this; exact this
    · have := (q1 n).1
      rw [a2] at this
      unfold centreP nodeP
      rw [fp, e1, e3]; exact this
  · obtain ⟨Ps, q1, q2⟩ := profiles_exist hn hDn (j := c.jn) dt ys b3
    refine ⟨Ps, ?_, ?_, fun k => ⟨(q1 k).1.shape, (q1 k).2⟩, q2⟩
    · have := (q1 0).1
      rw [b1] at this; exact this
    · have := (q1 n).1
      rw [b2] at this
      unfold centreN nodeN
      rw [fp, e2, e4]; exact this

/-- C126: with nodes at different distances there is only one profile with given concentrations. -/
theorem profile_unique (x : Fin N → ℚ) (R : ℚ) (hR : 0 < R) (hx : ∀ i, 0 < x i ∧ x i < 1) (hinj : Function.Injective x)
    {node : Fin (N + 1) → ℚ} {centre centre' : ℚ} {P Q : ℚ[X]} (hP : ProfileOf x R node centre P)
    (hQ : ProfileOf x R node centre' Q) : P = Q := by
  have hpos : ∀ i, 0 < nodeRadius x R i := by
    intro i
    cases i using Fin.cases with
    | zero => exact hR
    | succ i => exact mul_pos (hx i).1 hR
  have hr : Function.Injective (nodeRadius x R) := by
    intro i j hij
    cases i using Fin.cases with
    | zero =>
      cases j using Fin.cases with
      | zero => rfl
      | succ j =>
        have hij : R = x j * R := hij
        nlinarith [(hx j).2]
    | succ i =>
      cases j using Fin.cases with
      | zero =>
        have hij : x i * R = R := hij
        nlinarith [(hx i).2]
      | succ j =>
        have hij : x i * R = x j * R := hij
        rw [hinj (mul_right_cancel₀ hR.ne' hij)]
  rw [← sub_eq_zero]
  have heven : ∀ {S : ℚ[X]}, S.comp (-X) = S → ∀ r, S.eval (-r) = S.eval r := by
    intro S hS r
    conv_rhs => rw [← hS]
    simp
  refine eq_zero_of_natDegree_lt_card_of_eval_eq_zero (P - Q)
    (f := fun s : Fin (N + 1) ⊕ Fin (N + 1) => Sum.elim (nodeRadius x R) (fun i => -nodeRadius x R i) s) ?_ ?_ ?_
  · intro a b hab
    rcases a with a | a <;> rcases b with b | b
    · rw [hr hab]
    · have hab : nodeRadius x R a = -nodeRadius x R b := hab
      linarith [hpos a, hpos b]
    · have hab : -nodeRadius x R a = nodeRadius x R b := hab
      linarith [hpos a, hpos b]
    · have hab : -nodeRadius x R a = -nodeRadius x R b := hab
      rw [hr (neg_injective hab)]
  · rintro (i | i)
    · show (P - Q).eval (nodeRadius x R i) = 0
      rw [eval_sub, hP.nodes, hQ.nodes, sub_self]
    · show (P - Q).eval (-nodeRadius x R i) = 0
      rw [eval_sub, heven hP.shape.1, heven hQ.shape.1, hP.nodes, hQ.nodes, sub_self]
  · have := natDegree_sub_le P Q
    have h1 := hP.shape.2
    have h2 := hQ.shape.2
    rw [Fintype.card_sum, Fintype.card_fin]
    omega

/-- Tables with one inner node, half way, in a particle of radius 1. -/
def spmFick : SPM 1 :=
  { spm1 with
    par := { spm1.par with
      M := { spm1.par.M with
        xch := fun _ => 1 / 2, Bp := fun _ => -3, Bn := fun _ => -3, Dp := ![-3 / 8, 0], Dn := ![-3 / 8, 0],
        Cc := ![10 / 3, -16 / 3] } }
    block := true }

/-- They satisfy `FickSphere`. -/
theorem fickSphere_one : FickSphere (N := 1) (fun _ => 0) (fun _ => -3) (fun _ _ => 1) ![-3 / 8, 0] ![10 / 3, -16 / 3]
    (fun _ => 1 / 2) 1 where
  slope P hP := by
    obtain ⟨h1, h2⟩ := hP
    have e := as_sum_range_C_mul_X_pow' P (show P.natDegree < 3 by omega)
    simp only [Finset.sum_range_succ, Finset.sum_range_zero, zero_add, pow_zero, pow_one, mul_one] at e
    generalize P.coeff 2 = a at e
    generalize P.coeff 1 = b at e
    generalize P.coeff 0 = d at e
    have hb : b = 0 := by
      have := congrArg (eval 1) h1
      rw [e] at this
      simp at this
      linarith
    rw [e, hb]
    simp [nodeRadius, Fin.sum_univ_succ]
    ring
  modes w g := by
    refine ⟨C (-g / 2) * X ^ 2 + C (w 0 + g / 8), ⟨by simp, ?_⟩, ?_, ?_, ?_⟩
    · exact natDegree_add_le_of_degree_le ((natDegree_C_mul_X_pow_le _ _).trans (by norm_num)) (by simp)
    · intro i
      fin_cases i
      · simp [nodeRadius]; ring
      · show eval (1 / 2 * 1) _ = _
        simp; ring
    · simp; ring
    · intro i
      simp
      ring

/-- Non-vacuity of `fick_surface` and `fick_timeStep`. -/
example : FickSphere spmFick.par.M.Ap spmFick.par.M.Bp spmFick.par.M.Cp spmFick.par.M.Dp spmFick.par.M.Cc spmFick.par.M.xch
      spmFick.par.Rp ∧ spmFick.Dpt ≠ 0 ∧ spmFick.Dnt ≠ 0 ∧ spmFick.block = true ∧
    ((spmFick.setCurrent (1 / 10) false).2.timeStep (1 / 10) 3).1 = .ok () :=
  ⟨fickSphere_one, by decide +kernel, by decide +kernel, rfl, by decide +kernel⟩

/-- And of `profile_unique`. -/
example : Function.Injective (fun _ : Fin 1 => (1 / 2 : ℚ)) := fun i j _ => Subsingleton.elim i j

end Slide

import Verif.Lemmas.Polygon
import Verif.Props.SPMDiff
import Verif.Spec.DefaultCell

/-! Lemmas for the default single-particle cell. -/

namespace Slide
open Spec SPM

variable {N : ℕ}

/-! ### A cell without degradation models and without thermal model -/

theorem ageStep_noDeg (a : SPM N) (x : ℚ) (hn : noDegradation a.deg) : (a.ageStep x).2.st = a.st ∧
    (a.ageStep x).2.par = a.par ∧ (a.ageStep x).2.deg = a.deg := by
  unfold ageStep SPM.andThen
  obtain ⟨hs, hst, -⟩ := sameAge_upd a
  rcases hr : a.updDai.updLares with ⟨_ | e | w, c1⟩
  · rw [hr] at hst hs
    simp only at hst hs ⊢
    rcases hd : c1.degRate with d | e | w
    · simp only
      rw [← hs.deg] at hn
      obtain ⟨n1, n2, n3, n4, n5, n6⟩ := hn
      obtain ⟨-, o, sei, cr, l, ipl, h1, h2, h3, h4, k1, k2, k3, k4, k5, k6, k7, k8, k9, k10, k11, k12⟩ := degRate_spec hd
      have e1 : sei.1 = 0 := by
        have := (SEI_spec h1).1; rw [n1] at this; exact (Outcome.ok.inj this).symm
      have e1' : sei.2 = 0 := (SEI_spec h1).2.2 n2
      have e2 : ipl = 0 := by
        unfold plating at h4; rw [n6] at h4; exact (Outcome.ok.inj h4).symm
      have e3 : l = {} := by rw [n5] at h3; exact (Outcome.ok.inj h3).symm
      have e4 : cr.2.1 = 0 := by
        have := (crack_spec h2).1; rw [n3] at this; exact (Outcome.ok.inj this).symm
      have e5 : cr.2.2 = 0 := by
        unfold crack at h2
        obtain ⟨u, -, h2⟩ := Outcome.bind_eq_ok.mp h2
        rw [n4] at h2
        rw [← Outcome.ok.inj h2]
      subst e3
      refine ⟨?_, hs.par, hs.deg⟩
      simp only [addRate, k1, k2, k3, k4, k5, k6, k7, k8, k9, k10, k11, k12, e1, e1', e2, e4, e5]
      rw [hst]
      ext <;> simp
    · exact ⟨hst, hs.par, hs.deg⟩
    · exact ⟨hst, hs.par, hs.deg⟩
  · rw [hr] at hst hs; exact ⟨hst, hs.par, hs.deg⟩
  · rw [hr] at hst hs; exact ⟨hst, hs.par, hs.deg⟩

theorem thermStep_plain (a : SPM N) (x : ℚ) (h0 : a.par.tModel = 0) : (a.thermStep x).2.st = a.st := by
  unfold thermStep
  rcases a.heat with q | e | w
  · simp only
    unfold thermPass
    split
    · rfl
    · unfold thermAlone
      simp only [h0, if_true]
      rfl
  · rfl
  · rfl

/-- Without degradation models and thermal model a time step is its diffusion steps. -/
theorem timeStep_plain {c : SPM N} {dt : ℚ} {n : ℤ} (hn : noDegradation c.deg) (h0 : c.par.tModel = 0)
    (h : (c.timeStep dt n).1 = .ok ()) :
    (c.timeStep dt n).2.st = (SPM.diffLoop dt n.toNat (c.rotate (n * dt))).2.st ∧
    (c.timeStep dt n).2.par = c.par ∧ (c.timeStep dt n).2.deg = c.deg := by
  obtain ⟨hdt, h1, hb, -⟩ := timeStep_ok h
  have hf := (diffLoop_ok dt n.toNat _ h1).1
  have hp : (SPM.diffLoop dt n.toNat (c.rotate (n * dt))).2.par = c.par := hf.age.par
  have hd : (SPM.diffLoop dt n.toNat (c.rotate (n * dt))).2.deg = c.deg := hf.age.deg
  rcases hcb : c.block with _ | _
  · have hbl : (SPM.diffLoop dt n.toNat (c.rotate (n * dt))).2.block = false := hf.block.trans hcb
    unfold timeStep at h ⊢
    rw [if_neg (not_lt.mpr hdt)] at h ⊢
    obtain ⟨-, h2, h3⟩ := andThen_ok h
    rw [h3]
    rw [if_neg (by rw [hbl]; simp)] at h2 ⊢
    generalize (SPM.diffLoop dt n.toNat (c.rotate (n * dt))).2 = a at *
    obtain ⟨-, -, k3⟩ := andThen_ok h2
    rw [k3]
    have hsa := (sameAge_thermStep a (dt * n)).1
    obtain ⟨b1, b2, b3⟩ := ageStep_noDeg (a.thermStep (dt * n)).2 (dt * n) (by rw [hsa.deg, hd]; exact hn)
    exact ⟨b1.trans (thermStep_plain a _ (by rw [hp]; exact h0)), by rw [b2, hsa.par, hp], by rw [b3, hsa.deg, hd]⟩
  · rw [hb hcb]
    exact ⟨rfl, hp, hd⟩

/-- A successful leg of a profile on such a cell. -/
theorem spmLeg_plain {c c2 : SPM N} {i dt : ℚ} {n : ℕ} (hn : noDegradation c.deg) (h0 : c.par.tModel = 0)
    (hA : NoDecay c) (h : spmLeg c i dt n = some c2) :
    SameAge c c2 ∧ c2.st.T = c.st.T ∧ c2.st.Dp = c.st.Dp ∧ c2.st.Dn = c.st.Dn ∧
    c2.st.SOC = c.st.SOC - i * dt * n / (3600 * c.par.cap) ∧
    c2.st.zp c.par.M.ind = c.st.zp c.par.M.ind +
      n * dt * (c.par.M.Bp c.par.M.ind * (-(i / c.par.elecSurf) / (c.st.ap * c.par.n * Faraday * c.st.thickp))) ∧
    c2.st.zn c.par.M.ind = c.st.zn c.par.M.ind +
      n * dt * (c.par.M.Bn c.par.M.ind * (i / c.par.elecSurf / (c.st.an * c.par.n * Faraday * c.st.thickn))) := by
  have hsoc := (spmLeg_soc c c2 i dt n h).1
  unfold spmLeg at h
  have hc1 : ∃ a v b, (c.setCurrent i true).2 = { c with st := { c.st with I := a, V := v }, valid := b } := by
    unfold setCurrent
    set c1 : SPM N := { c with st := { c.st with I := i }, valid := false } with hc1
    have hs := checkCurrent_snd c1 true
    have hv := SPM.V_rest c1
    rcases hk : c1.checkCurrent true with ⟨s | e | w, c2⟩
    · rw [hk] at hs
      simp only [if_true] at hs
      simp only [hk]
      by_cases hb : s.isBad = true
      · rw [if_pos hb]; exact ⟨_, _, _, by rw [hs, hv]⟩
      · rw [if_neg hb]; exact ⟨_, _, _, by rw [hs, hv]⟩
    · rw [hk] at hs
      simp only [if_true] at hs
      simp only [hk]
      exact ⟨_, _, _, by rw [hs, hv]⟩
    · rw [hk] at hs
      simp only [if_true] at hs
      simp only [hk]
      exact ⟨_, _, _, by rw [hs, hv]⟩
  obtain ⟨a, v, b, hc1⟩ := hc1
  rcases hk : c.setCurrent i true with ⟨r | e | w, c1⟩
  · rw [hk] at h hc1
    simp only at h hc1
    by_cases hb : r.isBad = true
    · rw [if_pos hb] at h; simp at h
    · rw [if_neg hb] at h
      have h1 := setCurrent_keeps c i r (by rw [hk]) (by simpa using hb)
      rw [hk] at h1
      simp only at h1
      rcases hk2 : c1.timeStep dt n with ⟨u | e | w, c3⟩
      · rw [hk2] at h
        have hok : (c1.timeStep dt n).1 = .ok () := by rw [hk2]
        have e : c3 = c2 := Option.some.inj h
        have hd1 : c1.deg = c.deg := by rw [hc1]
        obtain ⟨es, ep, ed⟩ := timeStep_plain (c := c1) (by rw [hd1]; exact hn) (by rw [h1.2.2]; exact h0) hok
        obtain ⟨-, hl, -⟩ := timeStep_ok hok
        obtain ⟨f, -, -, -, gp, gn, -⟩ := diffLoop_ok dt _ _ hl
        rw [hk2, e] at es ep ed
        simp only [Int.toNat_natCast] at es f gp gn
        have q1 : c1.st = { c.st with I := i, V := c1.st.V } := by
          have := h1.2.1; rw [hc1] at this ⊢; simp only at this ⊢; rw [this]
        have hM : c1.par = c.par := h1.2.2
        have r1 : (c1.rotate ((n : ℤ) * dt)).st = c1.st := rfl
        have r2 : (c1.rotate ((n : ℤ) * dt)).par = c.par := hM
        refine ⟨⟨ep.trans hM, ed.trans hd1, ?_, ?_, ?_, ?_, ?_, ?_, ?_, ?_, ?_, ?_, ?_⟩, ?_, ?_, ?_, hsoc, ?_, ?_⟩
        · rw [es, f.age.delta, r1, q1]
        · rw [es, f.age.LLI, r1, q1]
        · rw [es, f.age.thickp, r1, q1]
        · rw [es, f.age.thickn, r1, q1]
        · rw [es, f.age.ep, r1, q1]
        · rw [es, f.age.en, r1, q1]
        · rw [es, f.age.ap, r1, q1]
        · rw [es, f.age.an, r1, q1]
        · rw [es, f.age.CS, r1, q1]
        · rw [es, f.age.deltaPl, r1, q1]
        · rw [es, f.age.Dn, r1, q1]
        · rw [es, f.T, r1, q1]
        · rw [es, f.Dp, r1, q1]
        · rw [es, f.Dn, r1, q1]
        · rw [es, gp c.par.M.ind (by rw [r2]; exact hA.1)]
          unfold jp iApp
          rw [r1, r2, q1]
        · rw [es, gn c.par.M.ind (by rw [r2]; exact hA.2)]
          unfold jn iApp
          rw [r1, r2, q1]
      · rw [hk2] at h; simp at h
      · rw [hk2] at h; simp at h
  · rw [hk] at h; simp at h
  · rw [hk] at h; simp at h

/-- Surface concentrations set by `setC`. -/
theorem setC_surface (c : SPM N) (fp fn : ℚ) (h0 : (c.setC fp fn).1 = .ok ()) :
    (c.setC fp fn).2.cps = fp * c.par.Cmaxpos *
      (c.par.M.Cp 0 c.par.M.ind * ∑ i, c.par.M.Vp c.par.M.ind i * (c.par.M.xch i * c.par.Rp)) ∧
    (c.setC fp fn).2.cns = fn * c.par.Cmaxneg *
      (c.par.M.Cn 0 c.par.M.ind * ∑ i, c.par.M.Vn c.par.M.ind i * (c.par.M.xch i * c.par.Rn)) := by
  unfold setC at h0 ⊢
  split at h0
  · simp at h0
  · rename_i hf
    rw [if_neg hf]
    have key : ∀ (M : Fin N → ℚ) (k : Fin N) (z : ℚ), ∑ j, M j * (if j = k then z else 0) = M k * z := by
      intro M k z
      rw [Finset.sum_eq_single k]
      · simp
      · intro j _ h; simp [h]
      · simp
    constructor
    · simp only [cps, jp, iApp, uniformZp, zero_div, neg_zero, mul_zero, add_zero, key]
      rw [Finset.mul_sum, Finset.mul_sum, Finset.mul_sum]
      refine Finset.sum_congr rfl fun i _ => by ring
    · simp only [cns, jn, iApp, uniformZn, zero_div, mul_zero, add_zero, key]
      rw [Finset.mul_sum, Finset.mul_sum, Finset.mul_sum]
      refine Finset.sum_congr rfl fun i _ => by ring

/-- Surface concentrations of the equalised cell. -/
theorem equalised_surface (c : SPM N) :
    (equalised c).cps = c.par.M.Cp 0 c.par.M.ind * c.st.zp c.par.M.ind ∧
    (equalised c).cns = c.par.M.Cn 0 c.par.M.ind * c.st.zn c.par.M.ind := by
  have key : ∀ (M z : Fin N → ℚ) (k : Fin N), ∑ j, M j * (if j = k then z j else 0) = M k * z k := by
    intro M z k
    rw [Finset.sum_eq_single k]
    · simp
    · intro j _ h; simp [h]
    · simp
  constructor
  · simp only [equalised, cps, jp, iApp, zero_div, neg_zero, mul_zero, add_zero, key]
  · simp only [equalised, cns, jn, iApp, zero_div, mul_zero, add_zero, key]

/-! ### Tables -/

/-- Checks a bound on all slopes of a table. -/
def slopesLe (k : ℚ) (xs ys : List ℚ) : Bool :=
  ((xs.zip xs.tail).zip (ys.zip ys.tail)).all fun p => decide (p.2.2 - p.2.1 ≤ k * (p.1.2 - p.1.1))

def slopesGe (k : ℚ) (xs ys : List ℚ) : Bool :=
  ((xs.zip xs.tail).zip (ys.zip ys.tail)).all fun p => decide (k * (p.1.2 - p.1.1) ≤ p.2.2 - p.2.1)

theorem slopes_mem (xs ys : List ℚ) (i : ℕ) (hx : i + 1 < xs.length) (hy : i + 1 < ys.length) :
    ((xs[i], xs[i+1]), (ys[i], ys[i+1])) ∈ (xs.zip xs.tail).zip (ys.zip ys.tail) := by
  rw [List.mem_iff_getElem]
  refine ⟨i, by simp; omega, ?_⟩
  simp

theorem slopesLe_spec {k : ℚ} {xs ys : List ℚ} (h : slopesLe k xs ys = true) :
    ∀ i (hx : i + 1 < xs.length) (hy : i + 1 < ys.length), ys[i+1] - ys[i] ≤ k * (xs[i+1] - xs[i]) := by
  intro i hx hy
  exact of_decide_eq_true (List.all_eq_true.mp h _ (slopes_mem xs ys i hx hy))

theorem slopesGe_spec {k : ℚ} {xs ys : List ℚ} (h : slopesGe k xs ys = true) :
    ∀ i (hx : i + 1 < xs.length) (hy : i + 1 < ys.length), k * (xs[i+1] - xs[i]) ≤ ys[i+1] - ys[i] := by
  intro i hx hy
  exact of_decide_eq_true (List.all_eq_true.mp h _ (slopes_mem xs ys i hx hy))

theorem tableInterp_search {xs ys : List ℚ} (hl : xs.length = ys.length) (hn : 0 < xs.length)
    (hs : xs.Pairwise (· < ·)) (hf : Interp.checkIsFixed xs = .ok false) {x : ℚ} (hlo : xs[0] ≤ x)
    (hhi : x ≤ xs[xs.length - 1]) : ∃ y, Interp.tableInterp xs ys x = .ok y ∧ OnPolygon xs ys x y := by
  obtain ⟨y, h1, h2⟩ := linInt_search_onPolygon true xs ys x hl hn hs hlo hhi
  refine ⟨y, ?_, h2⟩
  unfold Interp.tableInterp
  rw [hf]
  exact h1

theorem tableInterp_equi {xs ys : List ℚ} (hl : xs.length = ys.length) (hn : 2 ≤ xs.length)
    {x0 dt : ℚ} (hdt : 0 < dt) (he : Equidistant xs x0 dt) {x : ℚ} (hlo : xs[0] ≤ x)
    (hhi : x ≤ xs[xs.length - 1]) : ∃ y, Interp.tableInterp xs ys x = .ok y ∧ OnPolygon xs ys x y := by
  have hs : xs.Pairwise (· < ·) := by
    rw [List.pairwise_iff_getElem]
    intro i j hi hj hij
    rw [he i hi, he j hj]
    have : (i : ℚ) < j := by exact_mod_cast hij
    nlinarith
  obtain ⟨y, h1, h2⟩ := linInt_search_onPolygon true xs ys x hl (by omega) hs hlo hhi
  obtain ⟨k1, k2⟩ := fixed_shortcut_correct_partial true xs ys x x0 dt hl hn hdt he
  refine ⟨y, ?_, h2⟩
  unfold Interp.tableInterp
  rw [k1]
  exact k2.trans h1

theorem tableInterp_out {xs ys : List ℚ} (hn : 0 < xs.length) (hs : xs[0] ≤ xs[xs.length - 1]) {b : Bool}
    (hf : Interp.checkIsFixed xs = .ok b) {x : ℚ} (hx : x < xs[0] ∨ xs[xs.length - 1] < x) :
    Interp.tableInterp xs ys x = .throw 1 := by
  unfold Interp.tableInterp
  rw [hf]
  rcases hx with hx | hx
  · exact ((linInt_outside xs ys b x hn hs).1 hx).1
  · exact ((linInt_outside xs ys b x hn hs).2 hx).1

end Slide

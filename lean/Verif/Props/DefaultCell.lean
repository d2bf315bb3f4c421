import Verif.Lemmas.DefaultCell

/-!
Properties C88 (the default single-particle cell is consistent with its rating) and C89 (`checkModelparam`).
-/

namespace Slide
open Spec SPM Default

/-! ### C88 -/

/-- The tables shipped with the library: strictly increasing lithium fractions from 0 to 1. -/
theorem tables_sorted : posX.Pairwise (· < ·) ∧ negX.Pairwise (· < ·) ∧ entX.Pairwise (· < ·) ∧
    entCX.Pairwise (· < ·) := by
  refine ⟨?_, ?_, ?_, ?_⟩ <;> decide +kernel

/-- The default cell, written out. -/
theorem cell_eq (e : Env) : (cell e).par = par e ∧ (cell e).deg = (raw e).deg ∧ (cell e).valid = false ∧
    (cell e).st = { st0 with
      zp := (raw e).uniformZp (fp0 * 51385), zn := (raw e).uniformZn (fn0 * 30555), SOC := 1 / 2 } := by
  unfold cell setC
  rw [if_neg (by decide +kernel)]
  exact ⟨rfl, rfl, rfl, rfl⟩

theorem ent_equidistant : Equidistant entX 0 (1 / 10) ∧ Equidistant entCX 0 (1 / 10) := by
  unfold Equidistant
  decide +kernel

theorem pos_defined {x : ℚ} (h0 : 0 ≤ x) (h1 : x ≤ 1) :
    ∃ y, curve posX posY x = some y ∧ OnPolygon posX posY x y := by
  obtain ⟨y, h, h'⟩ := tableInterp_search (xs := posX) (ys := posY) (by decide +kernel) (by decide +kernel)
    tables_sorted.1 (by decide +kernel) (x := x) h0 h1
  exact ⟨y, by unfold curve; rw [h], h'⟩

theorem neg_defined {x : ℚ} (h0 : 0 ≤ x) (h1 : x ≤ 1) :
    ∃ y, curve negX negY x = some y ∧ OnPolygon negX negY x y := by
  obtain ⟨y, h, h'⟩ := tableInterp_search (xs := negX) (ys := negY) (by decide +kernel) (by decide +kernel)
    tables_sorted.2.1 (by decide +kernel) (x := x) h0 h1
  exact ⟨y, by unfold curve; rw [h], h'⟩

theorem ent_defined {x : ℚ} (h0 : 0 ≤ x) (h1 : x ≤ 1) :
    ∃ y, curve entX entY x = some y ∧ OnPolygon entX entY x y := by
  obtain ⟨y, h, h'⟩ := tableInterp_equi (xs := entX) (ys := entY) (by decide +kernel) (by decide +kernel)
    (by norm_num) ent_equidistant.1 (x := x) h0 h1
  exact ⟨y, by unfold curve; rw [h], h'⟩

theorem entC_defined {x : ℚ} (h0 : 0 ≤ x) (h1 : x ≤ 1) :
    ∃ y, curve entCX entCY x = some y ∧ OnPolygon entCX entCY x y := by
  obtain ⟨y, h, h'⟩ := tableInterp_equi (xs := entCX) (ys := entCY) (by decide +kernel) (by decide +kernel)
    (by norm_num) ent_equidistant.2 (x := x) h0 h1
  exact ⟨y, by unfold curve; rw [h], h'⟩

/-- C88: the four shipped curves are defined exactly for lithium fractions from 0 to 1, where they return the value of
the polygon; everywhere else the lookup throws 1.  No lookup reads outside a table. -/
theorem curve_defined (x : ℚ) :
    (0 ≤ x ∧ x ≤ 1 → ∃ p n d a, curve posX posY x = some p ∧ OnPolygon posX posY x p ∧
      curve negX negY x = some n ∧ OnPolygon negX negY x n ∧ curve entX entY x = some d ∧ OnPolygon entX entY x d ∧
      curve entCX entCY x = some a ∧ OnPolygon entCX entCY x a) ∧
    (x < 0 ∨ 1 < x → Interp.tableInterp posX posY x = .throw 1 ∧ Interp.tableInterp negX negY x = .throw 1 ∧
      Interp.tableInterp entX entY x = .throw 1 ∧ Interp.tableInterp entCX entCY x = .throw 1) := by
  constructor
  · rintro ⟨h0, h1⟩
    obtain ⟨p, a1, a2⟩ := pos_defined h0 h1
    obtain ⟨n, b1, b2⟩ := neg_defined h0 h1
    obtain ⟨d, c1, c2⟩ := ent_defined h0 h1
    obtain ⟨a, d1, d2⟩ := entC_defined h0 h1
    exact ⟨p, n, d, a, a1, a2, b1, b2, c1, c2, d1, d2⟩
  · intro h
    exact ⟨tableInterp_out (xs := posX) (b := false) (by decide +kernel) (by decide +kernel) (by decide +kernel) h,
      tableInterp_out (xs := negX) (b := false) (by decide +kernel) (by decide +kernel) (by decide +kernel) h,
      tableInterp_out (xs := entX) (b := true) (by decide +kernel) (by decide +kernel) (by decide +kernel) h,
      tableInterp_out (xs := entCX) (b := true) (by decide +kernel) (by decide +kernel) (by decide +kernel) h⟩

/-- How exactly the shipped matrices represent a uniform concentration at the surface. -/
def kP : ℚ := model.Cp 0 3 * ∑ i, model.Vp 3 i * (model.xch i * (17 / 2000000))
def kN : ℚ := model.Cn 0 3 * ∑ i, model.Vn 3 i * (model.xch i * (1 / 80000))

theorem kP_near : |kP - 1| ≤ 2 / 10 ^ 15 := by decide +kernel
theorem kN_near : |kN - 1| ≤ 2 / 10 ^ 14 := by decide +kernel

/-- C88: the shipped discretisation.  The row of the uniform concentration does not decay, all others do; uniform
concentrations are represented at every node, and at the centre, up to a relative error of 2e-14. -/
theorem default_discretisation (e : Env) : NoDecay (cell e) ∧
    (∀ j, j ≠ model.ind → model.Ap j < 0 ∧ model.An j < 0) ∧
    (∀ i, |model.Cp i 3 * ∑ j, model.Vp 3 j * (model.xch j * (par e).Rp) - 1| ≤ 2 / 10 ^ 14 ∧
      |model.Cn i 3 * ∑ j, model.Vn 3 j * (model.xch j * (par e).Rn) - 1| ≤ 2 / 10 ^ 14) ∧
    |∑ i, model.Cc i + 2| ≤ 1 / 10 ^ 13 := by
  refine ⟨⟨?_, ?_⟩, ?_, ?_, ?_⟩
  · rw [(cell_eq e).1]; show model.Ap 3 = 0; decide +kernel
  · rw [(cell_eq e).1]; show model.An 3 = 0; decide +kernel
  · decide +kernel
  · show ∀ i, |model.Cp i 3 * ∑ j, model.Vp 3 j * (model.xch j * (17 / 2000000)) - 1| ≤ 2 / 10 ^ 14 ∧
      |model.Cn i 3 * ∑ j, model.Vn 3 j * (model.xch j * (1 / 80000)) - 1| ≤ 2 / 10 ^ 14
    decide +kernel
  · decide +kernel

theorem setC_ok {N : ℕ} (c : SPM N) {fp fn : ℚ} (h : 0 ≤ fp ∧ fp ≤ 1 ∧ 0 ≤ fn ∧ fn ≤ 1) :
    (c.setC fp fn).1 = .ok () := by
  unfold setC
  rw [if_neg]
  rintro (h' | h' | h' | h') <;> linarith [h.1, h.2.1, h.2.2.1, h.2.2.2]

/-- Surface concentrations of a cell with the default parameters after `setC`. -/
theorem default_surface {e : Env} {c : SPM 5} (hc : c.par = par e) {fp fn : ℚ}
    (h : 0 ≤ fp ∧ fp ≤ 1 ∧ 0 ≤ fn ∧ fn ≤ 1) :
    (c.setC fp fn).2.cps = fp * 51385 * kP ∧ (c.setC fp fn).2.cns = fn * 30555 * kN := by
  obtain ⟨h1, h2⟩ := setC_surface c fp fn (setC_ok c h)
  rw [h1, h2, hc]
  exact ⟨rfl, rfl⟩

theorem cell_surface (e : Env) : (cell e).cps = fp0 * 51385 * kP ∧ (cell e).cns = fn0 * 30555 * kN :=
  default_surface (c := raw e) (e := e) rfl (by decide +kernel)

/-- C88: the default cell satisfies the conditions on valid states and on physical parameters that the theorems about
single-particle cells ask for (C36, C38, C72, C74, C75). -/
theorem default_valid (e : Env) (he : Libm e) : SpmValid (cell e) ∧ SpmPhysical (cell e).par ∧
    SpmPhysicalLam (cell e).par ∧ 0 < (cell e).st.an ∧ 0 < (cell e).st.thickn ∧ 0 < (cell e).st.ap ∧
    noDegradation (cell e).deg := by
  obtain ⟨hp, hn⟩ := cell_surface e
  obtain ⟨q1, q2, -, q4⟩ := cell_eq e
  refine ⟨⟨?_, ?_, ?_, ?_, ?_, ?_, ?_, ?_, ?_, ?_, ?_⟩, ?_, ?_, ?_, ?_, ?_, ?_⟩
  · rw [q4]; exact (show (0 : ℚ) ≤ 1 / 2 ∧ (1 : ℚ) / 2 ≤ 1 by norm_num)
  · rw [q4]; exact (show (273 : ℚ) ≤ 288 ∧ (288 : ℚ) ≤ 333 by norm_num)
  · rw [hp, q1]
    exact (show 0 < fp0 * 51385 * kP ∧ fp0 * 51385 * kP < 51385 by decide +kernel)
  · rw [hn, q1]
    exact (show 0 < fn0 * 30555 * kN ∧ fn0 * 30555 * kN < 30555 by decide +kernel)
  · rw [q4]; exact (show (0 : ℚ) < 1 / 1000000000 by norm_num)
  · rw [q4]; exact le_refl (0 : ℚ)
  · rw [q4, q1]; show |st0.ap - 3 * st0.ep / (17 / 2000000)| ≤ 1 / 100000 * |st0.ap|
    decide +kernel
  · rw [q4, q1]; show |st0.an - 3 * st0.en / (1 / 80000)| ≤ 1 / 100000 * |st0.an|
    decide +kernel
  · rw [q4]; show 0 ≤ st0.CS
    decide +kernel
  · rw [q4]; show 0 ≤ st0.rDCp ∧ 0 ≤ st0.rDCn ∧ 0 ≤ st0.rDCcc
    decide +kernel
  · rw [q4]; exact le_refl (0 : ℚ)
  · rw [q1]
    have h : (0 : ℚ) < 1 ∧ (0 : ℚ) < 100000 ∧ (0 : ℚ) < 10000000 ∧ (0 : ℚ) < 31 / 50 ∧ (0 : ℚ) ≤ 4541 / 1000000 ∧
        0 ≤ sei.k1 ∧ 0 ≤ sei.k2 ∧ 0 ≤ sei.k3 ∧ 0 ≤ sei.k4 ∧ 0 ≤ sei.D2 ∧ 0 ≤ sei.D3 ∧ 0 ≤ sei.D4 ∧ 0 ≤ cs.a1 ∧
        0 ≤ cs.a2 ∧ 0 ≤ cs.a3 ∧ 0 ≤ cs.a4 ∧ 0 ≤ cs.k5 ∧ 0 ≤ pl.k := by decide +kernel
    obtain ⟨h1, h2, h3, h4, h5, h6, h7, h8, h9, h10, h11, h12, h13, h14, h15, h16, h17, h18⟩ := h
    exact ⟨fun x => (he.exp x).le, he.sqrt, h1, h1, h2, h3, h4, h5, h6, h7, h8, h9, h10, h11, h12, h13, h14, h15, h16,
      h17, h18⟩
  · rw [q1]
    have h : 0 ≤ lam.p1 ∧ 0 ≤ lam.n1 ∧ lam.ap2 ≤ 0 ∧ lam.bp2 ≤ 0 ∧ lam.an2 ≤ 0 ∧ lam.bn2 ≤ 0 ∧ 0 ≤ lam.k3 ∧
        0 ≤ lam.p4 ∧ 0 ≤ lam.n4 ∧ (0 : ℚ) < 17 / 2000000 ∧ (0 : ℚ) < 1 / 80000 ∧ (0 : ℚ) < 1 ∧ 0 ≤ sei.porosity ∧
        (0 : ℚ) ≤ 13 ∧ (0 : ℚ) ≤ 6439 / 100 := by decide +kernel
    obtain ⟨h1, h2, h3, h4, h5, h6, h7, h8, h9, h10, h11, h12, h13, h14, h15⟩ := h
    exact ⟨h1, h2, h3, h4, h5, h6, h7, h8, h9, h10, h11, h12, h13, h14, h15⟩
  · rw [q4]; show 0 < st0.an; decide +kernel
  · rw [q4]; show 0 < st0.thickn; decide +kernel
  · rw [q4]; show 0 < st0.ap; decide +kernel
  · rw [q2]; exact ⟨rfl, rfl, rfl, rfl, rfl, rfl⟩

theorem frac_range {s : ℚ} (h0 : 0 ≤ s) (h1 : s ≤ 1) :
    42 / 100 ≤ faradayP s ∧ faradayP s ≤ 958 / 1000 ∧ 5 / 100 ≤ faradayN s ∧ faradayN s ≤ 909 / 1000 := by
  unfold faradayP faradayN
  refine ⟨?_, ?_, ?_, ?_⟩ <;> norm_num <;> linarith

theorem kP_bounds : 999999 / 1000000 < kP ∧ kP < 1000001 / 1000000 := by decide +kernel
theorem kN_bounds : 999999 / 1000000 < kN ∧ kN < 1000001 / 1000000 := by decide +kernel

/-- What the cell reports at rest when its surface fractions are `x`, `y`: both voltages are the difference of the
potentials plus the entropic term. -/
theorem rest_report {e : Env} (he : Libm e) {c : SPM 5} (hpar : c.par = par e) (hI : c.st.I = 0) (hv : c.valid = false)
    (hT : 0 < c.st.T) (hst : c.st.ap = st0.ap ∧ c.st.an = st0.an ∧ c.st.thickp = st0.thickp ∧ c.st.thickn = st0.thickn ∧
      c.st.Dp = st0.Dp ∧ c.st.Dn = st0.Dn) {x y p n d : ℚ} (hx : c.cps = x * 51385) (hy : c.cns = y * 30555)
    (hx0 : 0 < x) (hx1 : x < 1) (hy0 : 0 < y) (hy1 : y < 1) (hp : curve posX posY x = some p)
    (hn : curve negX negY y = some n) (hd : curve entX entY x = some d) :
    c.getOCV = .ok (p - n + (c.st.T - 298) * d) ∧ c.V.1 = .ok (p - n + (c.st.T - 298) * d) := by
  obtain ⟨s1, s2, s3, s4, s5, s6⟩ := hst
  have hDp : 0 < c.Dpt := by
    unfold Dpt; rw [s5, hpar]
    exact mul_pos (by decide +kernel) (he.exp _)
  have hDn : 0 < c.Dnt := by
    unfold Dnt; rw [s6, hpar]
    exact mul_pos (by decide +kernel) (he.exp _)
  have hfin : c.finite = true := by
    unfold SPM.finite
    rw [hpar, s1, s2, s3, s4]
    have : ((par e).T_ref = 0) = False ∧ ((par e).elecSurf = 0) = False ∧ (st0.ap = 0) = False ∧ (st0.an = 0) = False ∧
        ((par e).n = 0) = False ∧ (st0.thickp = 0) = False ∧ (st0.thickn = 0) = False ∧
        ((par e).Cmaxpos = 0) = False ∧ ((par e).Cmaxneg = 0) = False := by
      refine ⟨?_, ?_, ?_, ?_, ?_, ?_, ?_, ?_, ?_⟩
      · show ((298 : ℚ) = 0) = False; norm_num
      · show ((31 / 50 : ℚ) = 0) = False; norm_num
      · exact eq_false (by decide +kernel)
      · exact eq_false (by decide +kernel)
      · show ((1 : ℚ) = 0) = False; norm_num
      · exact eq_false (by decide +kernel)
      · exact eq_false (by decide +kernel)
      · show ((51385 : ℚ) = 0) = False; norm_num
      · show ((30555 : ℚ) = 0) = False; norm_num
    obtain ⟨t1, t2, t3, t4, t5, t6, t7, t8, t9⟩ := this
    simp only [t1, t2, t3, t4, t5, t6, t7, t8, t9, hT.ne', hDp.ne', hDn.ne', decide_false, Bool.or_false, Bool.not_false]
  have hCp : c.par.Cmaxpos = 51385 := by rw [hpar]; rfl
  have hCn : c.par.Cmaxneg = 30555 := by rw [hpar]; rfl
  have hTr : c.par.T_ref = 298 := by rw [hpar]; rfl
  have ex : c.cps / c.par.Cmaxpos = x := by rw [hx, hCp]; field_simp
  have ey : c.cns / c.par.Cmaxneg = y := by rw [hy, hCn]; field_simp
  have l1 : look c.par.dTot x = .ok d := by
    show look c.par.dTot x = _
    rw [hpar]; show look (curve entX entY) x = _; unfold look; rw [hd]
  have l2 : look c.par.ocvN y = .ok n := by
    rw [hpar]; show look (curve negX negY) y = _; unfold look; rw [hn]
  have l3 : look c.par.ocvP x = .ok p := by
    rw [hpar]; show look (curve posX posY) x = _; unfold look; rw [hp]
  constructor
  · unfold getOCV
    rw [hfin, ex, ey, l1, l2, l3, hTr]
    rfl
  · have hok : c.concOk = true := by
      unfold concOk
      rw [hx, hy, hCp, hCn]
      have e1 : ¬ x * 51385 ≤ 0 := by linarith
      have e2 : ¬ y * 30555 ≤ 0 := by linarith
      have e3 : ¬ x * 51385 ≥ 51385 := by linarith
      have e4 : ¬ y * 30555 ≥ 30555 := by linarith
      simp only [e1, e2, e3, e4, decide_false, Bool.or_false, Bool.not_false]
    have hi0p : c.i0p ≠ 0 := by
      unfold i0p
      have hs : 0 < c.par.sqrt (c.par.C_elec * c.cps * (c.par.Cmaxpos - c.cps)) := by
        rw [hpar]
        refine he.sqrt_pos _ ?_
        show 0 < (1000 : ℚ) * c.cps * (51385 - c.cps)
        rw [hx]
        exact mul_pos (by linarith) (by linarith)
      have he' : 0 < c.par.exp (c.par.kp_T * c.arrh) := by rw [hpar]; exact he.exp _
      have h1 : 0 < c.par.kp := by rw [hpar]; show (0 : ℚ) < 1 / 20000000000; norm_num
      have h2 : 0 < c.par.n := by rw [hpar]; show (0 : ℚ) < 1; norm_num
      have h3 : 0 < Faraday := by unfold Faraday; norm_num
      positivity
    have hi0n : c.i0n ≠ 0 := by
      unfold i0n
      have hs : 0 < c.par.sqrt (c.par.C_elec * c.cns * (c.par.Cmaxneg - c.cns)) := by
        rw [hpar]
        refine he.sqrt_pos _ ?_
        show 0 < (1000 : ℚ) * c.cns * (30555 - c.cns)
        rw [hy]
        exact mul_pos (by linarith) (by linarith)
      have he' : 0 < c.par.exp (c.par.kn_T * c.arrh) := by rw [hpar]; exact he.exp _
      have h1 : 0 < c.par.kn := by rw [hpar]; show (0 : ℚ) < 441 / 25000000000000; norm_num
      have h2 : 0 < c.par.n := by rw [hpar]; show (0 : ℚ) < 1; norm_num
      have h3 : 0 < Faraday := by unfold Faraday; norm_num
      positivity
    have hep : c.etap = 0 := by
      unfold etap iApp
      rw [hI]
      simp only [zero_div, mul_zero]
      rw [hpar]; show _ * e.asinh 0 = 0; rw [he.asinh, mul_zero]
    have hen : c.etan = 0 := by
      unfold etan iApp
      rw [hI]
      simp only [zero_div, mul_zero]
      rw [hpar]; show _ * e.asinh 0 = 0; rw [he.asinh, mul_zero]
    have hcalc : c.calcV = .ok (some (p - n + (c.st.T - 298) * d)) := by
      unfold calcV
      rw [hfin, hok, ex, ey, l1, l2, l3, hTr, hep, hen, hI]
      simp only [Bool.not_true, Bool.false_eq_true, if_false, bind, Outcome.bind, hi0p, hi0n, decide_false, Bool.or_false]
      simp
    unfold SPM.V
    rw [hv, hcalc]
    rfl

/-- The open-circuit voltage of the default cell at the state of charge `s` and the temperature `T`: what it reports after
its lithium has been distributed evenly according to Faraday's law. -/
def restV (T s : ℚ) : ℚ :=
  match curve posX posY (faradayP s * kP), curve negX negY (faradayN s * kN), curve entX entY (faradayP s * kP) with
  | some p, some n, some d => p - n + (T - 298) * d
  | _, _, _ => 0

theorem restV_eq {T s : ℚ} (h0 : 0 ≤ s) (h1 : s ≤ 1) : ∃ p n d, curve posX posY (faradayP s * kP) = some p ∧
    OnPolygon posX posY (faradayP s * kP) p ∧ curve negX negY (faradayN s * kN) = some n ∧
    OnPolygon negX negY (faradayN s * kN) n ∧ curve entX entY (faradayP s * kP) = some d ∧
    OnPolygon entX entY (faradayP s * kP) d ∧ restV T s = p - n + (T - 298) * d ∧
    4 / 10 < faradayP s * kP ∧ faradayP s * kP < 96 / 100 ∧ 46 / 1000 < faradayN s * kN ∧ faradayN s * kN < 91 / 100 := by
  obtain ⟨a1, a2, a3, a4⟩ := frac_range h0 h1
  obtain ⟨b1, b2⟩ := kP_bounds
  obtain ⟨c1, c2⟩ := kN_bounds
  have x0 : 4 / 10 < faradayP s * kP := by nlinarith
  have x1 : faradayP s * kP < 96 / 100 := by nlinarith
  have y0 : 46 / 1000 < faradayN s * kN := by nlinarith
  have y1 : faradayN s * kN < 91 / 100 := by nlinarith
  obtain ⟨p, p1, p2⟩ := pos_defined (x := faradayP s * kP) (by linarith) (by linarith)
  obtain ⟨n, n1, n2⟩ := neg_defined (x := faradayN s * kN) (by linarith) (by linarith)
  obtain ⟨d, d1, d2⟩ := ent_defined (x := faradayP s * kP) (by linarith) (by linarith)
  refine ⟨p, n, d, p1, p2, n1, n2, d1, d2, ?_, x0, x1, y0, y1⟩
  unfold restV; rw [p1, n1, d1]

/-- Bounds on the polygons of the shipped tables. -/
theorem ent_chord {x y x' y' : ℚ} (h : OnPolygon entX entY x y) (h' : OnPolygon entX entY x' y') (hxx : x ≤ x') :
    -(23 / 10000) * (x' - x) ≤ y' - y ∧ y' - y ≤ 23 / 10000 * (x' - x) :=
  ⟨polygon_chord_ge _ (by decide +kernel) (by decide +kernel) tables_sorted.2.2.1
      (slopesGe_spec (by decide +kernel)) h h' hxx,
   polygon_chord _ (by decide +kernel) (by decide +kernel) tables_sorted.2.2.1
      (slopesLe_spec (by decide +kernel)) h h' hxx⟩

theorem pos_chord {x y x' y' : ℚ} (h : OnPolygon posX posY x y) (h' : OnPolygon posX posY x' y') (hxx : x ≤ x') :
    -250 * (x' - x) ≤ y' - y ∧ y' - y ≤ -(38 / 100) * (x' - x) :=
  ⟨polygon_chord_ge _ (by decide +kernel) (by decide +kernel) tables_sorted.1
      (slopesGe_spec (by decide +kernel)) h h' hxx,
   polygon_chord _ (by decide +kernel) (by decide +kernel) tables_sorted.1
      (slopesLe_spec (by decide +kernel)) h h' hxx⟩

theorem neg_chord {x y x' y' : ℚ} (h : OnPolygon negX negY x y) (h' : OnPolygon negX negY x' y') (hxx : x ≤ x') :
    -314 * (x' - x) ≤ y' - y ∧ y' - y ≤ -(7 / 1000) * (x' - x) :=
  ⟨polygon_chord_ge _ (by decide +kernel) (by decide +kernel) tables_sorted.2.1
      (slopesGe_spec (by decide +kernel)) h h' hxx,
   polygon_chord _ (by decide +kernel) (by decide +kernel) tables_sorted.2.1
      (slopesLe_spec (by decide +kernel)) h h' hxx⟩

/-- Values at the knots next to the range of use. -/
theorem knots : OnPolygon posX posY (4 / 10) (425 / 100) ∧ OnPolygon posX posY (96104 / 100000) (36662 / 10000) ∧
    OnPolygon negX negY (45334 / 1000000) (40738 / 100000) ∧ OnPolygon negX negY (91933 / 100000) (76819 / 1000000) := by
  refine ⟨.inl ⟨4, ?_⟩, .inl ⟨40, ?_⟩, .inl ⟨2, ?_⟩, .inl ⟨59, ?_⟩⟩ <;> decide +kernel

theorem ent_small {x y : ℚ} (h : OnPolygon entX entY x y) : -(3 / 10000) ≤ y ∧ y ≤ 2 / 10000 := by
  obtain ⟨a, ha, b, hb, h1, h2⟩ := onPolygon_between entX entY h
  have key : ∀ y ∈ entY, -(3 / 10000) ≤ y ∧ y ≤ 2 / 10000 := by decide +kernel
  obtain ⟨a1, a2⟩ := key a ha
  obtain ⟨b1, b2⟩ := key b hb
  exact ⟨(le_min a1 b1).trans h1, h2.trans (max_le a2 b2)⟩

/-- C88: the open-circuit voltage rises strictly with the state of charge, at every allowed temperature. -/
theorem restV_strictMono {T : ℚ} (hT : 273 ≤ T ∧ T ≤ 333) {s t : ℚ} (h0 : 0 ≤ s) (hst : s < t) (h1 : t ≤ 1) :
    restV T s < restV T t := by
  obtain ⟨p, n, d, -, p2, -, n2, -, d2, e1, -⟩ := restV_eq (T := T) h0 (hst.le.trans h1)
  obtain ⟨p', n', d', -, p2', -, n2', -, d2', e1', -⟩ := restV_eq (T := T) (h0.trans hst.le) h1
  have hkP : 0 < kP := by linarith [kP_bounds.1]
  have hkN : 0 < kN := by linarith [kN_bounds.1]
  have hx : faradayP t * kP < faradayP s * kP := by
    refine mul_lt_mul_of_pos_right ?_ hkP
    unfold faradayP; norm_num; linarith
  have hy : faradayN s * kN < faradayN t * kN := by
    refine mul_lt_mul_of_pos_right ?_ hkN
    unfold faradayN; norm_num; linarith
  have hp := (pos_chord p2' p2 hx.le).2
  have hn := (neg_chord n2 n2' hy.le).2
  obtain ⟨hd1, hd2⟩ := ent_chord d2' d2 hx.le
  rw [e1, e1']
  set δ := faradayP s * kP - faradayP t * kP
  have hδ : 0 < δ := sub_pos.mpr hx
  have ht : (T - 298) * (d - d') ≤ 35 * (23 / 10000 * δ) := by
    have h3 : |T - 298| ≤ 35 := abs_le.mpr ⟨by linarith [hT.1], by linarith [hT.2]⟩
    have h4 : |d - d'| ≤ 23 / 10000 * δ := abs_le.mpr ⟨by linarith, by linarith⟩
    calc (T - 298) * (d - d') ≤ |(T - 298) * (d - d')| := le_abs_self _
      _ = |T - 298| * |d - d'| := abs_mul _ _
      _ ≤ 35 * (23 / 10000 * δ) := mul_le_mul h3 h4 (abs_nonneg _) (by norm_num)
  nlinarith

/-- C88: over the whole range of the state of charge and of the temperature the open-circuit voltage stays inside the
limits of the cell (2.7 V to 4.2 V) with at least 10 mV to spare. -/
theorem restV_range {T : ℚ} (hT : 273 ≤ T ∧ T ≤ 333) {s : ℚ} (h0 : 0 ≤ s) (h1 : s ≤ 1) :
    324 / 100 ≤ restV T s ∧ restV T s ≤ 419 / 100 := by
  obtain ⟨p, n, d, -, p2, -, n2, -, d2, e1, x0, x1, y0, y1⟩ := restV_eq (T := T) h0 h1
  obtain ⟨k1, k2, k3, k4⟩ := knots
  have a1 := (pos_chord k1 p2 x0.le).2
  have a2 := (pos_chord p2 k2 (by linarith)).2
  have b1 := (neg_chord k3 n2 (by linarith)).2
  have b2 := (neg_chord n2 k4 (by linarith)).2
  obtain ⟨d3, d4⟩ := ent_small d2
  have hd : |(T - 298) * d| ≤ 35 * (3 / 10000) := by
    rw [abs_mul]
    exact mul_le_mul (abs_le.mpr ⟨by linarith [hT.1], by linarith [hT.2]⟩) (abs_le.mpr ⟨by linarith, by linarith⟩)
      (abs_nonneg _) (by norm_num)
  obtain ⟨d5, d6⟩ := abs_le.mp hd
  rw [e1]
  constructor <;> linarith

/-- C88: values at the reference temperature of 25 °C: 3.298 V empty, 3.68136 V at 50 % (the value the source
documents), 4.1246 V full. -/
theorem restV_values : |restV 298 0 - 3298 / 1000| ≤ 1 / 10000 ∧ |restV 298 (1 / 2) - 368136 / 100000| ≤ 1 / 100000 ∧
    |restV 298 1 - 41246 / 10000| ≤ 1 / 100000 := by decide +kernel

/-- C88: set to the lithium fractions of a state of charge `s`, at any allowed temperature, the default cell reports
`restV T s` both as open-circuit voltage and as voltage. -/
theorem default_rest_voltage (e : Env) (he : Libm e) {T : ℚ} (hT : 273 ≤ T ∧ T ≤ 333) {s : ℚ} (h0 : 0 ≤ s)
    (h1 : s ≤ 1) : (((cell e).setT T).setC (faradayP s) (faradayN s)).1 = .ok () ∧
    (((cell e).setT T).setC (faradayP s) (faradayN s)).2.getOCV = .ok (restV T s) ∧
    (((cell e).setT T).setC (faradayP s) (faradayN s)).2.V.1 = .ok (restV T s) := by
  obtain ⟨q1, q2, -, q4⟩ := cell_eq e
  obtain ⟨a1, a2, a3, a4⟩ := frac_range h0 h1
  have hf : 0 ≤ faradayP s ∧ faradayP s ≤ 1 ∧ 0 ≤ faradayN s ∧ faradayN s ≤ 1 := by
    refine ⟨?_, ?_, ?_, ?_⟩ <;> linarith
  have hok := setC_ok ((cell e).setT T) hf
  have hpar : ((cell e).setT T).par = par e := q1
  obtain ⟨u1, u2⟩ := default_surface (c := (cell e).setT T) hpar hf
  obtain ⟨p, n, d, p1, -, n1, -, d1, -, e1, x0, x1, y0, y1⟩ := restV_eq (T := T) h0 h1
  refine ⟨hok, ?_⟩
  have hst : (((cell e).setT T).setC (faradayP s) (faradayN s)).2.par = par e ∧
      (((cell e).setT T).setC (faradayP s) (faradayN s)).2.st.I = 0 ∧
      (((cell e).setT T).setC (faradayP s) (faradayN s)).2.valid = false ∧
      (((cell e).setT T).setC (faradayP s) (faradayN s)).2.st.T = T ∧
      (((cell e).setT T).setC (faradayP s) (faradayN s)).2.st.ap = (cell e).st.ap ∧
      (((cell e).setT T).setC (faradayP s) (faradayN s)).2.st.an = (cell e).st.an ∧
      (((cell e).setT T).setC (faradayP s) (faradayN s)).2.st.thickp = (cell e).st.thickp ∧
      (((cell e).setT T).setC (faradayP s) (faradayN s)).2.st.thickn = (cell e).st.thickn ∧
      (((cell e).setT T).setC (faradayP s) (faradayN s)).2.st.Dp = (cell e).st.Dp ∧
      (((cell e).setT T).setC (faradayP s) (faradayN s)).2.st.Dn = (cell e).st.Dn := by
    unfold setC at hok ⊢
    split at hok
    · simp at hok
    · rename_i hc
      rw [if_neg hc]
      exact ⟨q1, rfl, rfl, rfl, rfl, rfl, rfl, rfl, rfl, rfl⟩
  obtain ⟨r1, r2, r3, r4, r5, r6, r7, r8, r9, r10⟩ := hst
  rw [q4] at r5 r6 r7 r8 r9 r10
  have := rest_report he r1 r2 r3 (by rw [r4]; linarith [hT.1]) ⟨r5, r6, r7, r8, r9, r10⟩
    (x := faradayP s * kP) (y := faradayN s * kN) (by rw [u1]; ring) (by rw [u2]; ring) (by linarith) (by linarith) (by linarith)
    (by linarith) p1 n1 d1
  rw [r4] at this
  rw [e1]
  exact this

/-- Change of the uniform amplitude per unit of state of charge. -/
def slopeP : ℚ := 16 * 3600 * model.Bp 3 / (31 / 50 * (st0.ap * 1 * Faraday * st0.thickp))
def slopeN : ℚ := -(16 * 3600 * model.Bn 3 / (31 / 50 * (st0.an * 1 * Faraday * st0.thickn)))

/-- What stays the same, and what follows the state of charge, along a profile of currents. -/
structure OnTrack (e : Env) (c : SPM 5) : Prop where
  par : c.par = par e
  deg : noDegradation c.deg
  ap : c.st.ap = st0.ap
  an : c.st.an = st0.an
  thickp : c.st.thickp = st0.thickp
  thickn : c.st.thickn = st0.thickn
  T : c.st.T = 288
  Dp : c.st.Dp = st0.Dp
  Dn : c.st.Dn = st0.Dn
  zp : c.st.zp 3 = (cell e).st.zp 3 + (c.st.SOC - 1 / 2) * slopeP
  zn : c.st.zn 3 = (cell e).st.zn 3 + (c.st.SOC - 1 / 2) * slopeN

theorem onTrack_cell (e : Env) (b : Bool) : OnTrack e { cell e with block := b } := by
  obtain ⟨q1, q2, -, q4⟩ := cell_eq e
  refine ⟨q1, ?_, ?_, ?_, ?_, ?_, ?_, ?_, ?_, ?_, ?_⟩
  · show noDegradation (cell e).deg; rw [q2]; exact ⟨rfl, rfl, rfl, rfl, rfl, rfl⟩
  all_goals simp only [q4]
  · rfl
  · ring
  · ring

theorem onTrack_profile (e : Env) (ps : List (ℚ × ℚ × ℕ)) : ∀ (c c' : SPM 5), OnTrack e c →
    spmProfile c ps = some c' → OnTrack e c' := by
  induction ps with
  | nil => intro c c' h h'; rw [spmProfile] at h'; rw [← Option.some.inj h']; exact h
  | cons q ps ih =>
    intro c c' h h'
    rw [spmProfile] at h'
    obtain ⟨c2, h1, h2⟩ := Option.bind_eq_some_iff.mp h'
    have hM : c.par.M = model := by rw [h.par]; rfl
    have hA : NoDecay c := by
      unfold NoDecay; rw [hM]
      exact (show model.Ap 3 = 0 ∧ model.An 3 = 0 by decide +kernel)
    obtain ⟨f, fT, fDp, fDn, fS, fzp, fzn⟩ := spmLeg_plain h.deg (by rw [h.par]; rfl) hA h1
    refine ih c2 c' ⟨f.par.trans h.par, by rw [f.deg]; exact h.deg, f.ap.trans h.ap, f.an.trans h.an,
      f.thickp.trans h.thickp, f.thickn.trans h.thickn, fT.trans h.T, fDp.trans h.Dp, fDn.trans h.Dn, ?_, ?_⟩ h2
    · have : c2.st.zp 3 = c.st.zp 3 + q.2.2 * q.2.1 * (model.Bp 3 *
          (-(q.1 / (31 / 50)) / (st0.ap * 1 * Faraday * st0.thickp))) := by
        rw [hM, h.par, h.ap, h.thickp] at fzp; exact fzp
      rw [this, h.zp, fS, h.par]
      show _ = _ + (c.st.SOC - q.1 * q.2.1 * q.2.2 / (3600 * 16) - 1 / 2) * slopeP
      unfold slopeP
      ring
    · have : c2.st.zn 3 = c.st.zn 3 + q.2.2 * q.2.1 * (model.Bn 3 *
          (q.1 / (31 / 50) / (st0.an * 1 * Faraday * st0.thickn))) := by
        rw [hM, h.par, h.an, h.thickn] at fzn; exact fzn
      rw [this, h.zn, fS, h.par]
      show _ = _ + (c.st.SOC - q.1 * q.2.1 * q.2.2 / (3600 * 16) - 1 / 2) * slopeN
      unfold slopeN
      ring

theorem onTrack_fractions {e : Env} {c : SPM 5} (h : OnTrack e c) :
    |(equalised c).cps / 51385 - faradayP c.st.SOC| ≤ (1 + |c.st.SOC - 1 / 2|) / 10 ^ 13 ∧
    |(equalised c).cns / 30555 - faradayN c.st.SOC| ≤ (1 + |c.st.SOC - 1 / 2|) / 10 ^ 13 := by
  obtain ⟨-, -, -, q4⟩ := cell_eq e
  obtain ⟨g1, g2⟩ := equalised_surface c
  have hM : c.par.M = model := by rw [h.par]; rfl
  rw [g1, g2, hM]
  show |model.Cp 0 3 * c.st.zp 3 / 51385 - _| ≤ _ ∧ |model.Cn 0 3 * c.st.zn 3 / 30555 - _| ≤ _
  rw [h.zp, h.zn, q4]
  set z := c.st.SOC - 1 / 2 with hz
  have tri : ∀ (a b g k : ℚ), |a| ≤ 1 / 10 ^ 13 → |b| ≤ 1 / 10 ^ 13 → g - k = a + z * b →
      |g - k| ≤ (1 + |z|) / 10 ^ 13 := by
    intro a b g k ha hb hgk
    rw [hgk]
    have h1 := abs_add_le a (z * b)
    rw [abs_mul] at h1
    have h2 : |z| * |b| ≤ |z| * (1 / 10 ^ 13) := mul_le_mul_of_nonneg_left hb (abs_nonneg _)
    have : (1 + |z|) / 10 ^ 13 = 1 / 10 ^ 13 + |z| * (1 / 10 ^ 13) := by ring
    rw [this]; linarith
  constructor
  · refine tri (model.Cp 0 3 * (∑ i, model.Vp 3 i * (fp0 * 51385 * model.xch i * (17 / 2000000))) / 51385 - fp0)
      (model.Cp 0 3 * slopeP / 51385 + (16 * 3600 / 96487) / (62 / 100 * (70 / 1000000) * (1 / 2) * 51385)) _ _
      (by decide +kernel) (by decide +kernel) ?_
    show model.Cp 0 3 * ((∑ i, model.Vp 3 i * (fp0 * 51385 * model.xch i * (17 / 2000000))) + z * slopeP) / 51385 -
      faradayP c.st.SOC = _
    have : c.st.SOC = z + 1 / 2 := by rw [hz]; ring
    rw [this]
    unfold faradayP fp0
    ring
  · refine tri (model.Cn 0 3 * (∑ i, model.Vn 3 i * (fn0 * 30555 * model.xch i * (1 / 80000))) / 30555 - fn0)
      (model.Cn 0 3 * slopeN / 30555 - (16 * 3600 / 96487) / (62 / 100 * (735 / 10000000) * (1 / 2) * 30555)) _ _
      (by decide +kernel) (by decide +kernel) ?_
    show model.Cn 0 3 * ((∑ i, model.Vn 3 i * (fn0 * 30555 * model.xch i * (1 / 80000))) + z * slopeN) / 30555 -
      faradayN c.st.SOC = _
    have : c.st.SOC = z + 1 / 2 := by rw [hz]; ring
    rw [this]
    unfold faradayN fn0
    ring

/-- C88: the charge counter and the lithium agree.  After every profile of currents and time steps the default cell
accepts, with or without blocking degradation, the lithium fractions of both electrodes are those Faraday's law gives for
the reported state of charge, up to 1e-13. -/
theorem default_lithium (e : Env) (b : Bool) (ps : List (ℚ × ℚ × ℕ)) (c' : SPM 5)
    (h : spmProfile { cell e with block := b } ps = some c') :
    |(equalised c').cps / 51385 - faradayP c'.st.SOC| ≤ (1 + |c'.st.SOC - 1 / 2|) / 10 ^ 13 ∧
    |(equalised c').cns / 30555 - faradayN c'.st.SOC| ≤ (1 + |c'.st.SOC - 1 / 2|) / 10 ^ 13 :=
  onTrack_fractions (onTrack_profile e ps _ _ (onTrack_cell e b) h)

theorem dist_chord {f : ℚ → ℚ → Prop} {k : ℚ} (hk : ∀ x y x' y', f x y → f x' y' → x ≤ x' → |y' - y| ≤ k * (x' - x))
    {x y x' y' : ℚ} (h : f x y) (h' : f x' y') : |y' - y| ≤ k * |x' - x| := by
  rcases le_total x x' with hx | hx
  · rw [abs_of_nonneg (sub_nonneg.mpr hx)]; exact hk _ _ _ _ h h' hx
  · rw [abs_sub_comm, abs_sub_comm x' x, abs_of_nonneg (sub_nonneg.mpr hx)]; exact hk _ _ _ _ h' h hx

/-- C88: therefore, as long as the reported state of charge is between 0 and 1, the voltage the cell settles to is the
open-circuit voltage of that state of charge, up to 3e-10 V: it lies within the limits and tells the state of
charge. -/
theorem default_profile_voltage (e : Env) (he : Libm e) (b : Bool) (ps : List (ℚ × ℚ × ℕ)) (c' : SPM 5)
    (h : spmProfile { cell e with block := b } ps = some c') (h0 : 0 ≤ c'.st.SOC) (h1 : c'.st.SOC ≤ 1) :
    ∃ v, (equalised c').getOCV = .ok v ∧ |v - restV 288 c'.st.SOC| ≤ 3 / 10 ^ 10 ∧ 27 / 10 < v ∧ v < 42 / 10 := by
  have ht := onTrack_profile e ps _ _ (onTrack_cell e b) h
  obtain ⟨f1, f2⟩ := onTrack_fractions ht
  set x := (equalised c').cps / 51385 with hx
  set y := (equalised c').cns / 30555 with hy
  have hs : |c'.st.SOC - 1 / 2| ≤ 1 / 2 := abs_le.mpr ⟨by linarith, by linarith⟩
  have bnd : (1 + |c'.st.SOC - 1 / 2|) / 10 ^ 13 ≤ 2 / 10 ^ 13 := by
    rw [div_le_div_iff_of_pos_right (by positivity)]; linarith
  obtain ⟨a1, a2, a3, a4⟩ := frac_range h0 h1
  obtain ⟨p, n, d, -, p2, -, n2, -, d2, e1, x0, x1, y0, y1⟩ := restV_eq (T := 288) h0 h1
  have gx : |x - faradayP c'.st.SOC| ≤ 2 / 10 ^ 13 := f1.trans bnd
  have gy : |y - faradayN c'.st.SOC| ≤ 2 / 10 ^ 13 := f2.trans bnd
  have hx' : |x - faradayP c'.st.SOC * kP| ≤ 4 / 10 ^ 13 := by
    have : x - faradayP c'.st.SOC * kP = (x - faradayP c'.st.SOC) + faradayP c'.st.SOC * (1 - kP) := by ring
    rw [this]
    refine (abs_add_le _ _).trans ?_
    rw [abs_mul, abs_sub_comm 1 kP, abs_of_nonneg (by linarith : 0 ≤ faradayP c'.st.SOC)]
    have := mul_le_mul a2 kP_near (abs_nonneg _) (by norm_num)
    norm_num at this gx ⊢; linarith
  have hy' : |y - faradayN c'.st.SOC * kN| ≤ 4 / 10 ^ 13 := by
    have : y - faradayN c'.st.SOC * kN = (y - faradayN c'.st.SOC) + faradayN c'.st.SOC * (1 - kN) := by ring
    rw [this]
    refine (abs_add_le _ _).trans ?_
    rw [abs_mul, abs_sub_comm 1 kN, abs_of_nonneg (by linarith : 0 ≤ faradayN c'.st.SOC)]
    have := mul_le_mul a4 kN_near (abs_nonneg _) (by norm_num)
    norm_num at this gy ⊢; linarith
  obtain ⟨gx1, gx2⟩ := abs_le.mp hx'
  obtain ⟨gy1, gy2⟩ := abs_le.mp hy'
  norm_num at gx1 gx2 gy1 gy2
  obtain ⟨p', p1', p2'⟩ := pos_defined (x := x) (by linarith) (by linarith)
  obtain ⟨n', n1', n2'⟩ := neg_defined (x := y) (by linarith) (by linarith)
  obtain ⟨d', d1', d2'⟩ := ent_defined (x := x) (by linarith) (by linarith)
  have hr := (rest_report he (c := { equalised c' with valid := false }) ht.par rfl rfl
    (by show 0 < c'.st.T; rw [ht.T]; norm_num)
    ⟨ht.ap, ht.an, ht.thickp, ht.thickn, ht.Dp, ht.Dn⟩ (x := x) (y := y)
    (show (equalised c').cps = _ by rw [hx]; ring) (show (equalised c').cns = _ by rw [hy]; ring)
    (by linarith) (by linarith) (by linarith) (by linarith) p1' n1' d1').1
  have hr' : (equalised c').getOCV = .ok (p' - n' + (c'.st.T - 298) * d') := hr
  rw [ht.T] at hr'
  have dp : |p' - p| ≤ 250 * |x - faradayP c'.st.SOC * kP| :=
    dist_chord (f := OnPolygon posX posY) (fun x y x' y' h h' hxx => by
      obtain ⟨c1, c2⟩ := pos_chord h h' hxx
      exact abs_le.mpr ⟨by linarith, by linarith [sub_nonneg.mpr hxx]⟩) p2 p2'
  have dn : |n' - n| ≤ 314 * |y - faradayN c'.st.SOC * kN| :=
    dist_chord (f := OnPolygon negX negY) (fun x y x' y' h h' hxx => by
      obtain ⟨c1, c2⟩ := neg_chord h h' hxx
      exact abs_le.mpr ⟨by linarith, by linarith [sub_nonneg.mpr hxx]⟩) n2 n2'
  have dd : |d' - d| ≤ 1 * |x - faradayP c'.st.SOC * kP| :=
    dist_chord (f := OnPolygon entX entY) (fun x y x' y' h h' hxx => by
      obtain ⟨c1, c2⟩ := ent_chord h h' hxx
      exact abs_le.mpr ⟨by linarith [sub_nonneg.mpr hxx], by linarith [sub_nonneg.mpr hxx]⟩) d2 d2'
  have near : |p' - n' + (288 - 298) * d' - restV 288 c'.st.SOC| ≤ 3 / 10 ^ 10 := by
    rw [e1]
    obtain ⟨u1, u2⟩ := abs_le.mp dp
    obtain ⟨v1, v2⟩ := abs_le.mp dn
    obtain ⟨w1, w2⟩ := abs_le.mp dd
    norm_num at hx' hy'
    refine abs_le.mpr ⟨?_, ?_⟩ <;> norm_num <;> linarith
  obtain ⟨r1, r2⟩ := restV_range (T := 288) (by norm_num) h0 h1
  obtain ⟨z1, z2⟩ := abs_le.mp near
  norm_num at z1 z2
  exact ⟨_, hr', near, by linarith, by linarith⟩

/-- A libm for concrete runs. -/
def env0 : Env := ⟨fun _ => 1, fun _ => 1, fun _ => 0, fun _ _ => 1, fun _ => (0, 0), fun _ => none⟩

theorem libm_env0 : Libm env0 :=
  ⟨fun _ => (by norm_num : (0 : ℚ) < 1), fun _ => (by norm_num : (0 : ℚ) ≤ 1), fun _ _ => (by norm_num : (0 : ℚ) < 1), rfl⟩

/-- A discharge at 1C and a charge at C/2 are accepted by the default cell and move the state of charge. -/
example : Libm env0 ∧ ∃ c', spmProfile { cell env0 with block := false } [(16, 2, 3), (-8, 1, 4)] = some c' ∧
    0 ≤ c'.st.SOC ∧ c'.st.SOC ≤ 1 ∧ c'.st.SOC ≠ 1 / 2 := by
  have h : ((spmProfile { cell env0 with block := false } [(16, 2, 3), (-8, 1, 4)]).any fun c' =>
      decide (0 ≤ c'.st.SOC ∧ c'.st.SOC ≤ 1 ∧ c'.st.SOC ≠ 1 / 2)) = true := by decide +kernel
  obtain ⟨c', h1, h2⟩ := (Option.any_eq_true _ _).mp h
  exact ⟨libm_env0, c', h1, of_decide_eq_true h2⟩

/-! ### C89 -/

theorem relAbove_iff {i x : ℚ} (hi : 0 < i) : relAbove i x = true ↔ x < i - 1 / 10000000000 * i := by
  unfold relAbove
  rw [if_neg hi.ne', decide_eq_true_iff]
  constructor
  · intro h
    have : 1 / 10000000000 * i < i - x := (lt_div_iff₀ hi).mp h
    linarith
  · intro h
    exact (lt_div_iff₀ hi).mpr (by linarith)

/-- C89, what the check does: for positive inputs and a row inside the matrices it throws 110 exactly if the number of
nodes or a radius the discretisation was computed for is *larger* than the one of the program (by more than a relative
1e-10), or an eigenvalue of the marked row is not 0. -/
theorem checkModelparam_iff (i0 i1 i2 : ℚ) (a nch : ℕ) (Rp Rn : ℚ) (Ap An : List ℚ) (hp : a < Ap.length)
    (hn : a < An.length) (h0 : 0 < i0) (h1 : 0 < i1) (h2 : 0 < i2) :
    (checkModelparam [i0, i1, i2, a] nch Rp Rn Ap An = .throw 110 ∨
      checkModelparam [i0, i1, i2, a] nch Rp Rn Ap An = .ok ()) ∧
    (checkModelparam [i0, i1, i2, a] nch Rp Rn Ap An = .throw 110 ↔
      (nch < i0 - 1 / 10000000000 * i0 ∨ Rp < i1 - 1 / 10000000000 * i1 ∨ Rn < i2 - 1 / 10000000000 * i2 ∨
        1 / 10000000000 < |An[a]| ∨ 1 / 10000000000 < |Ap[a]|)) := by
  have e : checkModelparam [i0, i1, i2, a] nch Rp Rn Ap An =
      if relAbove i0 nch || relAbove i1 Rp || relAbove i2 Rn || |An[a]| > 1 / 10000000000 || |Ap[a]| > 1 / 10000000000
      then .throw 110 else .ok () := by
    have hx : ¬ (a : ℚ) ≤ -1 := by
      have : (0 : ℚ) ≤ a := Nat.cast_nonneg a
      linarith
    have r0 : readAt [i0, i1, i2, (a : ℚ)] 0 = .ok i0 := rfl
    have r1 : readAt [i0, i1, i2, (a : ℚ)] 1 = .ok i1 := rfl
    have r2 : readAt [i0, i1, i2, (a : ℚ)] 2 = .ok i2 := rfl
    have r3 : readAt [i0, i1, i2, (a : ℚ)] 3 = .ok (a : ℚ) := rfl
    unfold checkModelparam
    rw [r0, r1, r2, r3]
    simp only [Outcome.ok_bind]
    rw [if_neg hx]
    simp only [Int.floor_natCast, Int.toNat_natCast]
    rw [readAt_of_lt hn, readAt_of_lt hp]
    rfl
  rw [e]
  have key : (relAbove i0 nch || relAbove i1 Rp || relAbove i2 Rn || decide (|An[a]| > 1 / 10000000000) ||
      decide (|Ap[a]| > 1 / 10000000000)) = true ↔ (nch < i0 - 1 / 10000000000 * i0 ∨ Rp < i1 - 1 / 10000000000 * i1 ∨
        Rn < i2 - 1 / 10000000000 * i2 ∨ 1 / 10000000000 < |An[a]| ∨ 1 / 10000000000 < |Ap[a]|) := by
    simp only [Bool.or_eq_true, decide_eq_true_iff, relAbove_iff h0, relAbove_iff h1, relAbove_iff h2, or_assoc, gt_iff_lt]
  rw [← key]
  by_cases h : (relAbove i0 nch || relAbove i1 Rp || relAbove i2 Rn || decide (|An[a]| > 1 / 10000000000) ||
      decide (|Ap[a]| > 1 / 10000000000)) = true
  · rw [if_pos h]; exact ⟨.inl rfl, fun _ => h, fun _ => rfl⟩
  · rw [if_neg h]; exact ⟨.inr rfl, (fun h' => by cases h'), fun h' => absurd h' h⟩

/-- C89, part that holds: a discretisation for more nodes or larger radii than the program has, or with a wrong row, is
refused. -/
theorem wrongDiscretisationRefused_partial (i0 i1 i2 : ℚ) (a nch : ℕ) (Rp Rn : ℚ) (Ap An : List ℚ) (hp : a < Ap.length)
    (hn : a < An.length) (h0 : (nch : ℚ) ≤ i0) (h1 : Rp ≤ i1) (h2 : Rn ≤ i2) (hN : 0 < nch) (hP : 0 < Rp) (hR : 0 < Rn)
    (h : ¬ InputsAgree [i0, i1, i2, a] nch Rp Rn ∨ 1 / 10000000000 < |Ap[a]| ∨ 1 / 10000000000 < |An[a]|) :
    checkModelparam [i0, i1, i2, a] nch Rp Rn Ap An = .throw 110 := by
  have hN' : (0 : ℚ) < nch := by exact_mod_cast hN
  have p0 : 0 < i0 := by linarith
  have p1 : 0 < i1 := by linarith
  have p2 : 0 < i2 := by linarith
  rw [(checkModelparam_iff i0 i1 i2 a nch Rp Rn Ap An hp hn p0 p1 p2).2]
  rcases h with h | h | h
  · by_contra hc
    push Not at hc
    refine h ⟨i0, i1, i2, a, rfl, ?_, ?_, ?_⟩
    · rw [abs_of_pos p0, abs_of_nonneg (by linarith)]; linarith [hc.1]
    · rw [abs_of_pos p1, abs_of_nonneg (by linarith)]; linarith [hc.2.1]
    · rw [abs_of_pos p2, abs_of_nonneg (by linarith)]; linarith [hc.2.2.1]
  · exact .inr (.inr (.inr (.inr h)))
  · exact .inr (.inr (.inr (.inl h)))

/-- C89, the full statement fails: matrices computed for particles of 1 µm and 2 µm radius and three nodes are accepted
by a cell with particles of 8.5 µm and 12.5 µm and five nodes. -/
theorem not_wrongDiscretisationRefused : ¬ WrongDiscretisationRefused := by
  intro h
  have := h 3 (1 / 1000000) (2 / 1000000) 0 5 (17 / 2000000) (1 / 80000) [0] [0] (by simp) (by simp) (.inl (by
    rintro ⟨i0, i1, i2, i3, e, a, -, -⟩
    obtain ⟨rfl, -⟩ := List.cons.inj e
    norm_num [abs_of_pos, abs_of_neg] at a))
  revert this
  decide +kernel

/-- C89: the shipped discretisation is accepted by the default cell. -/
theorem shipped_accepted (e : Env) :
    checkModelparam [5, 85 / 10000000, 125 / 10000000, 3] 5 (par e).Rp (par e).Rn (List.ofFn model.Ap)
      (List.ofFn model.An) = .ok () := by
  show checkModelparam [5, 85 / 10000000, 125 / 10000000, 3] 5 (17 / 2000000) (1 / 80000) (List.ofFn model.Ap)
      (List.ofFn model.An) = .ok ()
  decide +kernel

example : checkModelparam [6, 85 / 10000000, 125 / 10000000, 3] 5 (17 / 2000000) (1 / 80000) (List.ofFn model.Ap)
    (List.ofFn model.An) = .throw 110 ∧
    checkModelparam [5, 85 / 10000000, 125 / 10000000, 2] 5 (17 / 2000000) (1 / 80000) (List.ofFn model.Ap)
    (List.ofFn model.An) = .throw 110 := by decide +kernel

end Slide

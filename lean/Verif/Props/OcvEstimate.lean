import Verif.Spec.OcvEstimate
import Verif.Props.OcvSim
import Verif.Props.Lithium
import Verif.Props.Restore

/-!
# C116 The report of the OCV estimation describes the best fit
-/

namespace Slide.OcvFit
open Spec

theorem covers_linspace (a b : ℚ) (n : ℤ) (hn : 2 ≤ n) : Covers (linspaceFix a b n) a b n := by
  have h1 : ((n : ℚ) - 1) ≠ 0 := by
    have : (2 : ℚ) ≤ n := by exact_mod_cast hn
    intro h; linarith
  unfold linspaceFix Covers
  rw [if_neg (by omega), if_neg (by omega)]
  refine ⟨rfl, rfl, ?_⟩
  push_cast
  field_simp
  ring

theorem initial_first (cap : ℚ) : FirstSpaces cap (initialSpaces cap) := by
  have e : ∀ k : ℚ, cap * 3600 / (F * k) = 3600 * cap / (F * k) := fun k => by ring
  refine ⟨?_, ?_, ?_, ?_⟩
  · have := covers_linspace (1 * (cap * 3600 / (F * 51385))) (5 / 2 * (cap * 3600 / (F * 51385))) 100 (by norm_num)
    rw [e, one_mul] at this
    show Covers (linspaceFix (1 * (cap * 3600 / (F * 51385))) (5 / 2 * (cap * 3600 / (F * 51385))) 100) _ _ _
    rw [e, one_mul]; exact this
  · have := covers_linspace (1 * (cap * 3600 / (F * 30555))) (5 / 2 * (cap * 3600 / (F * 30555))) 100 (by norm_num)
    rw [e, one_mul] at this
    show Covers (linspaceFix (1 * (cap * 3600 / (F * 30555))) (5 / 2 * (cap * 3600 / (F * 30555))) 100) _ _ _
    rw [e, one_mul]; exact this
  · rw [show (40 / 100 : ℚ) = 4 / 10 by norm_num]
    exact covers_linspace (38 / 100) (4 / 10) 51 (by norm_num)
  · exact covers_linspace (55 / 100) (58 / 100) 51 (by norm_num)

theorem room_of_covers (f : FixedData) (a b lo hi : ℚ) (n : ℤ) (h : Covers f a b n) (hn : 5 ≤ n) (hab : a ≤ b)
    (h1 : lo ≤ a - 2 * ((b - a) / (n - 1))) (h2 : b + 2 * ((b - a) / (n - 1)) ≤ hi) : Room f lo hi := by
  obtain ⟨c1, c2, c3⟩ := h
  have hn' : (0 : ℚ) < (n : ℚ) - 1 := by
    have : (5 : ℚ) ≤ n := by exact_mod_cast hn
    linarith
  have hdx : f.dx = (b - a) / (n - 1) := by
    rw [eq_div_iff hn'.ne']
    rw [c2] at c3; linarith
  refine ⟨by omega, ?_, ?_, ?_⟩
  · rw [hdx]; exact div_nonneg (by linarith) hn'.le
  · rw [c2, hdx]; exact h1
  · rw [c1, c3, hdx]; exact h2

theorem first_roomy (cap : ℚ) (hc : 0 < cap) (s : Spaces) (h : FirstSpaces cap s) : Roomy s := by
  have hF : 0 < F := by unfold F; norm_num
  have g1 : 0 < 3600 * cap / (F * 51385) := by positivity
  have g2 : 0 < 3600 * cap / (F * 30555) := by positivity
  have key : ∀ g : ℚ, 0 < g → 0 < g / 2 ∧ g ≤ 5 / 2 * g ∧ g / 2 ≤ g - 2 * ((5 / 2 * g - g) / (((100 : ℤ) : ℚ) - 1)) ∧
      5 / 2 * g + 2 * ((5 / 2 * g - g) / (((100 : ℤ) : ℚ) - 1)) ≤ 3 * g := by
    intro g hg
    have e : (5 / 2 * g - g) / (((100 : ℤ) : ℚ) - 1) = g / 66 := by push_cast; ring
    rw [e]
    exact ⟨by linarith, by linarith, by linarith, by linarith⟩
  refine ⟨⟨_, _, (key _ g1).1, room_of_covers _ _ _ _ _ _ h.AMp (by norm_num) (key _ g1).2.1 (key _ g1).2.2.1 (key _ g1).2.2.2⟩,
    ⟨_, _, (key _ g2).1, room_of_covers _ _ _ _ _ _ h.AMn (by norm_num) (key _ g2).2.1 (key _ g2).2.2.1 (key _ g2).2.2.2⟩,
    room_of_covers _ _ _ _ _ _ h.sp (by norm_num) (by norm_num) (by norm_num) (by norm_num),
    room_of_covers _ _ _ _ _ _ h.sn (by norm_num) (by norm_num) (by norm_num) (by norm_num)⟩

/-- What a search finds lies in its spaces: positive amounts, fractions between 0 and 1. -/
theorem search_bounds (d : Data) (h : ℕ) (s s' : Spaces) (q : Par) (e : ℚ) (hs : Roomy s) (hr : Search d h s s' q e) :
    0 < q.AMp ∧ 0 < q.AMn ∧ (0 ≤ q.sp ∧ q.sp ≤ 1) ∧ 0 ≤ q.sn ∧ q.sn ≤ 1 := by
  induction hr with
  | last s q e hb =>
    obtain ⟨q1, q2, q3, q4⟩ := (inGrid_iff _ _).mp hb.1
    obtain ⟨⟨lo1, hi1, p1, r1⟩, ⟨lo2, hi2, p2, r2⟩, r3, r4⟩ := hs
    have a1 := vals_le _ _ q1 r1.2.1
    have a2 := vals_le _ _ q2 r2.2.1
    have a3 := vals_le _ _ q3 r3.2.1
    have a4 := vals_le _ _ q4 r4.2.1
    obtain ⟨-, b1, b2, -⟩ := r1
    obtain ⟨-, c1, c2, -⟩ := r2
    obtain ⟨-, d1, d2, d3⟩ := r3
    obtain ⟨-, e1, e2, e3⟩ := r4
    exact ⟨by linarith, by linarith, ⟨by linarith, by linarith⟩, by linarith, by linarith⟩
  | zoom h s s1 s' q0 q e0 e hb hz _ ih => exact ih (roomy_zoom _ _ _ hs hb.1 hz)

/-- The file of level `k` holds the result of a fit with `k + 1` levels. -/
theorem levelPars_spec (d : Data) (h : ℕ) (s : Spaces) (old : List Par) (out : Option (Par × ℚ)) (ps : List Par)
    (hp : levelPars d h s old = .ok ps) : ps.length = h ∧
    ∀ k r, k < h → levels d (k + 1) s old out = .ok (some r) → ps[k]? = some r.1 := by
  induction h generalizing s old out ps with
  | zero => rw [← Outcome.ok.inj hp]; exact ⟨rfl, fun k r hk => absurd hk (by omega)⟩
  | succ h ih =>
    rw [levelPars] at hp
    obtain ⟨l, hl, hp⟩ := Outcome.bind_eq_ok.mp hp
    obtain ⟨rest, hrest, hp⟩ := Outcome.bind_eq_ok.mp hp
    rw [← Outcome.ok.inj hp]
    obtain ⟨i1, i2⟩ := ih _ _ (some l.1) _ hrest
    refine ⟨by simp [i1], fun k r hk hr => ?_⟩
    rw [levels, hl] at hr
    cases k with
    | zero => cases hr; rfl
    | succ k => exact i2 k r (by omega) hr

theorem levelPars_ok (d : Data) (hd : GoodData d) (h : ℕ) (s : Spaces) (hs : Roomy s) (old : List Par)
    (ho : old.length = s.AMp.n.toNat) : ∃ ps, levelPars d h s old = .ok ps := by
  induction h generalizing s old with
  | zero => exact ⟨[], rfl⟩
  | succ h ih =>
    obtain ⟨q, e, old', l1, l2, l3⟩ := level_spec d hd s (roomy_usable s hs) old ho
    have hz := refine_zoomed s q (by
      obtain ⟨⟨lo1, hi1, p1, r1⟩, ⟨lo2, hi2, p2, r2⟩, r3, r4⟩ := hs
      exact ⟨by linarith [r1.1], by linarith [r2.1], by linarith [r3.1], by linarith [r4.1]⟩)
    obtain ⟨ps, hps⟩ := ih (refine s q) (roomy_zoom _ _ _ hs l3.1 hz) old' (by rw [l2, hz.AMp.1])
    exact ⟨q :: ps, by rw [levelPars, l1]; simp only [Outcome.ok_bind]; rw [hps]; rfl⟩

theorem last_of_readAt (l : List ℚ) (h : l ≠ []) : ∃ x, readAt l (l.length - 1) = .ok x ∧ l.getLast? = some x := by
  have hp : 0 < l.length := List.length_pos_iff.mpr h
  refine ⟨_, readAt_of_lt (show l.length - 1 < l.length by omega), ?_⟩
  rw [List.getLast?_eq_getElem?]
  exact List.getElem?_eq_getElem (by omega)

theorem head_of_readAt (l : List ℚ) (h : l ≠ []) : ∃ x, readAt l 0 = .ok x ∧ l.head? = some x := by
  have hp : 0 < l.length := List.length_pos_iff.mpr h
  refine ⟨_, readAt_of_lt hp, ?_⟩
  rw [List.head?_eq_getElem?]
  exact List.getElem?_eq_getElem hp

/-- Input as the documentation asks for: three curves with two columns each, the electrode curves from 0 to 1, the cell
curve up to a positive charge. -/
structure GoodInput (p n cell : Curve) (cap : ℚ) : Prop where
  tabP : Table p
  tabN : Table n
  tabC : Table cell
  valid : ValidCurve true p ∧ ValidCurve true n ∧ ValidCurve false cell
  full : ∀ s, 0 ≤ s → s ≤ 1 → InTable p s ∧ InTable n s
  capacity : cell.x.getLast? = some cap
  pos : 0 < cap
  short : cell.y.length < 25000000

/-- **C116.** For input of the documented format the estimation ends, the files of the three levels hold the best
combinations of the fits with one, two and three levels, and the report describes a best combination of the last level. -/
theorem estimate_report_partial (sqrt : ℚ → ℚ) (p n cell : Curve) (cap : ℚ) (hin : GoodInput p n cell cap) :
    ∃ M, ∀ fuel, M ≤ fuel → ∃ f s s' q e, estimate sqrt (.ok (p, n, cell)) fuel = .ok (some f) ∧
      FirstSpaces cap s ∧ Search ⟨p, n, cell, 51385, 30555⟩ 2 s s' q e ∧ Describes sqrt cell q e f ∧
      f.levels.length = 3 ∧ f.levels.getLast? = some (f.param.take 4) ∧
      ∀ k r, k < 3 → hierarchicalFit ⟨p, n, cell, 51385, 30555⟩ (k + 1) s = .ok r →
        ∃ rows, f.levels[k]? = some rows ∧ numberAt rows "AMp" = some r.1.AMp ∧ numberAt rows "AMn" = some r.1.AMn ∧
          numberAt rows "start pos" = some r.1.sp ∧ numberAt rows "start neg" = some r.1.sn := by
  have hcy : cell.y ≠ [] := by
    intro h0
    have := hin.tabC.length
    rw [h0] at this
    exact hin.tabC.ne (List.length_eq_zero_iff.mp this)
  have hchk : checkInput p n cell = .ok () :=
    (checkInput_spec p n cell ⟨hin.tabP.length, hin.tabP.ne⟩ ⟨hin.tabN.length, hin.tabN.ne⟩ ⟨hin.tabC.length, hin.tabC.ne⟩).1 hin.valid
  have hd : GoodData ⟨p, n, cell, 51385, 30555⟩ :=
    ⟨hin.tabP, hin.tabN, hin.tabC.length, hcy, hin.short, hin.valid.1.volts, hin.valid.2.1.volts, hin.valid.2.2.volts,
      by norm_num, by norm_num⟩
  have hfirst := initial_first cap
  have hroom := first_roomy cap hin.pos _ hfirst
  obtain ⟨q, e, s', h1, h2⟩ := fit_spec _ hd _ hroom 2
  obtain ⟨b1, b2, b3, b4⟩ := search_bounds _ _ _ _ _ _ hroom h2
  obtain ⟨ps, hps⟩ := levelPars_ok _ hd 3 _ hroom (List.replicate (initialSpaces cap).AMp.n.toNat ⟨0, 0, 0, 0⟩) (by simp)
  obtain ⟨p1, p2⟩ := levelPars_spec _ 3 _ _ none ps hps
  obtain ⟨x, x1, x2⟩ := last_of_readAt cell.x hin.tabC.ne
  have hx : x = cap := by rw [hin.capacity] at x2; exact (Option.some.inj x2).symm
  rw [hx] at x1
  obtain ⟨v, v1, v2⟩ := last_of_readAt cell.y hcy
  obtain ⟨w, w1, w2⟩ := head_of_readAt cell.y hcy
  have h0 : q.AMp ≠ 0 ∧ q.AMn ≠ 0 ∧ (51385 : ℚ) ≠ 0 ∧ (30555 : ℚ) ≠ 0 := ⟨b1.ne', b2.ne', by norm_num, by norm_num⟩
  have hfull : FullTables ⟨p, n, q.AMp, q.AMn, 51385, 30555⟩ := ⟨hin.tabP, hin.tabN, hin.full⟩
  obtain ⟨M, hM⟩ := discharge_ends ⟨p, n, q.AMp, q.AMn, 51385, 30555⟩ hfull h0 cap q.sp q.sn v b3 b4 hin.pos (by
    show 0 < q.AMp * 51385; positivity)
  refine ⟨M, fun fuel hfuel => ?_⟩
  obtain ⟨D, hD⟩ := hM fuel hfuel
  have hlev : ∀ k r, k < 3 → hierarchicalFit ⟨p, n, cell, 51385, 30555⟩ (k + 1) (initialSpaces cap) = .ok r →
      ps[k]? = some r.1 := by
    intro k r hk hr
    unfold hierarchicalFit at hr
    obtain ⟨o, ho, hr⟩ := Outcome.bind_eq_ok.mp hr
    cases o with
    | none => cases hr
    | some o => exact Outcome.ok.inj hr ▸ p2 k o hk ho
  refine ⟨{ levels := ps.map parRows
            param := paramRows q (sqrt e) cap w v D
            sim := D.pts.map fun s => [s.Ah, s.v, s.sn, s.ocvn, s.sp, s.ocvp] }, initialSpaces cap, s', q, e, ?_, hfirst, h2, ?_,
    ?_, ?_, ?_⟩
  · unfold estimate
    simp only [hchk, x1, Outcome.ok_bind, h1, hps, v1, hD, w1]
    rfl
  · rcases discharge_partial ⟨p, n, q.AMp, q.AMn, 51385, 30555⟩ hfull h0 cap q.sp q.sn v b3 b4 fuel with
      h | ⟨D', first, last, d1, d2, d3, d4, d5, d6, d7, d8, d9, d10, d11⟩
    · rw [hD] at h; cases h
    rw [hD] at d1
    have d1 := Outcome.ok.inj d1
    subst d1
    have hF : F ≠ 0 := by unfold F; norm_num
    obtain ⟨t1, t2, -, -⟩ := d8 last (List.mem_of_getLast? d5)
    have t1 : last.sp = q.sp + 3600 * last.Ah / (F * q.AMp * 51385) := t1
    have t2 : last.sn = q.sn - 3600 * last.Ah / (F * q.AMn * 30555) := t2
    refine ⟨rfl, rfl, rfl, rfl, rfl, ?_, ?_, ?_, rfl, rfl, rfl, ?_, ?_, ?_⟩
    · rw [hin.capacity]; rfl
    · rw [w2]; rfl
    · rw [v2]; rfl
    · refine ⟨_, _, _, rfl, rfl, rfl, ?_⟩; ring
    · refine ⟨_, _, _, rfl, rfl, rfl, ?_⟩; ring
    · refine ⟨last.Ah, (q.sp + last.sp) / 2, last.sp, (q.sn + last.sn) / 2, last.sn,
        [last.v, last.sn, last.ocvn, last.sp, last.ocvp], ?_, ?_, ?_, ?_, ?_, ?_, ?_, ?_, ?_, ?_, ?_⟩
      · show (D.pts.map _).getLast? = _
        rw [List.getLast?_map, d5]; rfl
      · show some D.fp.1 = _; rw [d10]
      · show some D.fp.2.1 = _; rw [d10]
      · show some D.fp.2.2 = _; rw [d10]
      · show some D.fn.1 = _; rw [d11]
      · show some D.fn.2.1 = _; rw [d11]
      · show some D.fn.2.2 = _; rw [d11]
      · rw [t1]; field_simp; ring
      · rw [t2]; field_simp; ring
      · rw [t1]; field_simp; ring
      · rw [t2]; field_simp; ring
  · simp [p1]
  · show (ps.map parRows).getLast? = some (parRows q)
    rw [List.getLast?_map, List.getLast?_eq_getElem?, p1, hlev 2 _ (by norm_num) h1]; rfl
  · intro k r hk hr
    refine ⟨parRows r.1, ?_, rfl, rfl, rfl, rfl⟩
    rw [List.getElem?_map, hlev k r hk hr]; rfl

/-- C116: if a file cannot be read or a curve has the wrong format, the call comes back and leaves nothing behind. -/
theorem estimate_refused (sqrt : ℚ → ℚ) (fuel : ℕ) :
    (∀ k, estimate sqrt (.throw k) fuel = .ok none) ∧
    (∀ p n cell, (p.x.length = p.y.length ∧ p.x ≠ []) → (n.x.length = n.y.length ∧ n.x ≠ []) →
      (cell.x.length = cell.y.length ∧ cell.x ≠ []) →
      ¬ (ValidCurve true p ∧ ValidCurve true n ∧ ValidCurve false cell) →
      estimate sqrt (.ok (p, n, cell)) fuel = .ok none) := by
  refine ⟨fun _ => rfl, fun p n cell hp hn hc h => ?_⟩
  have := (checkInput_spec p n cell hp hn hc).2 h
  unfold estimate
  simp only [this]

/-- Simple curves of the documented format. -/
theorem goodInput_example : GoodInput ⟨[0, 1], [5, 4]⟩ ⟨[0, 1], [1, 0]⟩ ⟨[0, 1], [4, 3]⟩ 1 := by
  have hv : ∀ b c, (c = ⟨[0, 1], [5, 4]⟩ ∨ c = ⟨[0, 1], [1, 0]⟩ ∨ c = ⟨[0, 1], [4, 3]⟩) → ValidCurve b c := by
    intro b c hc
    rcases hc with rfl | rfl | rfl
    all_goals
      refine ⟨by decide +kernel, ?_, ?_, ?_⟩
      · intro a ha; cases ha; norm_num
      · intro _ a ha; cases ha; norm_num
      · decide +kernel
  refine ⟨⟨rfl, by decide, by decide +kernel⟩, ⟨rfl, by decide, by decide +kernel⟩, ⟨rfl, by decide, by decide +kernel⟩,
    ⟨hv _ _ (.inl rfl), hv _ _ (.inr (.inl rfl)), hv _ _ (.inr (.inr rfl))⟩, ?_, rfl, by norm_num, by norm_num⟩
  intro s h0 h1
  exact ⟨⟨⟨0, by decide, h0⟩, 1, by decide, h1⟩, ⟨0, by decide, h0⟩, 1, by decide, h1⟩

/-- **C116 in full is false of the code**: the settings printed are not those of the search (0 and 1 for the start
fractions, which are sought between 0.38 and 0.40). -/
theorem not_reportsSearchSpace : ¬ ReportsSearchSpace := by
  intro h
  obtain ⟨M, hM⟩ := estimate_report_partial id _ _ _ _ goodInput_example
  obtain ⟨f, s, s', q, e, h1, h2, -, -, -⟩ := hM M le_rfl
  have h3 := (h id _ _ _ 1 s M f h1 rfl h2).1
  rw [h2.sp.2.1] at h3
  have h4 : numberAt f.param "minimum li-fraction" = some 0 := by
    unfold estimate at h1
    dsimp only at h1
    split at h1
    · cases h1
    · cases h1
    · obtain ⟨_, -, h1⟩ := Outcome.bind_eq_ok.mp h1
      obtain ⟨_, -, h1⟩ := Outcome.bind_eq_ok.mp h1
      obtain ⟨_, -, h1⟩ := Outcome.bind_eq_ok.mp h1
      obtain ⟨_, -, h1⟩ := Outcome.bind_eq_ok.mp h1
      obtain ⟨_, -, h1⟩ := Outcome.bind_eq_ok.mp h1
      obtain ⟨_, -, h1⟩ := Outcome.bind_eq_ok.mp h1
      rw [← Option.some.inj (Outcome.ok.inj h1)]
      rfl
  rw [h4] at h3
  have := Option.some.inj h3
  norm_num at this

end Slide.OcvFit

namespace Slide
open Spec SPM OcvFit
variable {N : ℕ}

/-- C116: a cell that is given the reported maximum concentrations, lithium fractions at 50 % and dimensions holds the
lithium of the fit: in each electrode half of the simulated charge away from full and half away from empty. -/
theorem fitted_cell (sqrt : ℚ → ℚ) (cell : Curve) (q : Par) (e : ℚ) (f : FitFiles) (hf : Describes sqrt cell q e f)
    (c : SPM N) (hs : ExactSphere c) (hc : CountsLi c) (hRp : c.par.Rp ≠ 0) (hRn : c.par.Rn ≠ 0) (hn : c.par.n = 1)
    (cap surf ep en tp tn fp fn : ℚ)
    (e1 : numberAt f.param "electrode surface ele_surf" = some surf)
    (e2 : numberAt f.param "cathode volume fraction ep" = some ep)
    (e3 : numberAt f.param "anode volume fraction en" = some en)
    (e4 : numberAt f.param "cathode thickness thickp" = some tp)
    (e5 : numberAt f.param "anode thickness thickn" = some tn)
    (e6 : numberAt f.param "cathode lithium fraction at 50% SOC" = some fp)
    (e7 : numberAt f.param "anode lithium fraction at 50% SOC" = some fn)
    (h : (c.setInitial 51385 30555 fp fn).1 = .ok ()) :
    ∃ Q rest, f.sim.getLast? = some (Q :: rest) ∧
      let c' := (c.setInitial 51385 30555 fp fn).2.setGeometric cap surf ep en tp tn
      Spheres c' ∧
      cathodeLi c' = Faraday * q.AMp * 51385 * q.sp + 3600 * (Q / 2) ∧
      anodeLi c' = Faraday * q.AMn * 30555 * q.sn - 3600 * (Q / 2) := by
  obtain ⟨Q, a, b, a', b', rest, q1, -, q3, -, -, q6, -, -, -, q10, q11⟩ := hf.fractions
  obtain ⟨s1, p1, t1, g1, g2, g3, g4⟩ := hf.cathode
  obtain ⟨s2, p2, t2, k1, k2, k3, k4⟩ := hf.anode
  rw [e1] at g1 k1; rw [e2] at g2; rw [e3] at k2; rw [e4] at g3; rw [e5] at k3; rw [e6] at q3; rw [e7] at q6
  cases g1; cases k1; cases g2; cases k2; cases g3; cases k3; cases q3; cases q6
  refine ⟨Q, rest, q1, ?_⟩
  intro c'
  have hF : OcvFit.F = Faraday := by unfold OcvFit.F Faraday; norm_num
  rw [hF] at q10 q11
  obtain ⟨c0, hc0⟩ : ∃ c0 : SPM N, c0 = ({ c with par := { c.par with Cmaxpos := 51385, Cmaxneg := 30555 } } : SPM N).setGeometric
      cap surf ep en tp tn := ⟨_, rfl⟩
  have hok : (c0.setC fp fn).1 = .ok () := by
    unfold setInitial setC at h
    unfold setC
    split at h
    · cases h
    · rename_i hr; rw [if_neg hr]
  have hli := spm_lithium_content c0 fp fn (by rw [hc0]; exact hs)
    (by rw [hc0]; exact ⟨hc.noDecay, hc.Bp, hc.Bn, hc.nsei, hc.npl⟩) (by rw [hc0]; rfl) (by rw [hc0]; rfl)
    (by rw [hc0]; exact hRp) (by rw [hc0]; exact hRn) hok
  have same : cathodeLi c' = cathodeLi (c0.setC fp fn).2 ∧ anodeLi c' = anodeLi (c0.setC fp fn).2 := by
    have hr : ¬ (fp < 0 ∨ fp > 1 ∨ fn < 0 ∨ fn > 1) := by
      intro hr
      unfold setC at hok
      rw [if_pos hr] at hok
      cases hok
    show cathodeLi ((c.setInitial 51385 30555 fp fn).2.setGeometric cap surf ep en tp tn) = _ ∧
      anodeLi ((c.setInitial 51385 30555 fp fn).2.setGeometric cap surf ep en tp tn) = _
    unfold setInitial setC
    rw [if_neg hr, if_neg hr, hc0]
    exact ⟨rfl, rfl⟩
  refine ⟨(setGeometric_spheres _ _ _ _ _ _ _).1, ?_, ?_⟩
  · rw [same.1, hli.1, hc0]
    show c.par.n * Faraday * (surf * tp * ep) * (fp * 51385) = _
    rw [hn, ← q10, ← g4]; ring
  · rw [same.2, hli.2, hc0]
    show c.par.n * Faraday * (surf * tn * en) * (fn * 30555) = _
    rw [hn, ← q11, ← k4]; ring

/-- C116: fractions outside of 0 … 1 are refused; the maximum concentrations have been replaced then, and nothing else. -/
theorem setInitial_refused (c : SPM N) (cmaxp cmaxn fp fn : ℚ) (h : fp < 0 ∨ fp > 1 ∨ fn < 0 ∨ fn > 1) :
    c.setInitial cmaxp cmaxn fp fn =
      (.throw 104, { c with par := { c.par with Cmaxpos := cmaxp, Cmaxneg := cmaxn } }) := by
  unfold setInitial setC
  rw [if_pos h]

/-- A fit of 1 Ah in which both electrodes use half of their range, and its report. -/
def halfFit : Par := ⟨3600 / (OcvFit.F * 51385 / 2), 3600 / (OcvFit.F * 30555 / 2), 4 / 10, 57 / 100⟩

def halfReport : FitFiles where
  levels := []
  param := paramRows halfFit 0 1 4 3 ⟨[], (4 / 10, 65 / 100, 9 / 10), (57 / 100, 32 / 100, 7 / 100)⟩
  sim := [[0, 4, 57 / 100, 1, 4 / 10, 5], [1, 3, 7 / 100, 1, 9 / 10, 4]]

/-- The hypotheses of `fitted_cell` are met. -/
example : Describes id ⟨[0, 1], [4, 3]⟩ halfFit 0 halfReport ∧ ExactSphere spmLi ∧ CountsLi spmLi ∧ spmLi.par.Rp ≠ 0 ∧
    spmLi.par.Rn ≠ 0 ∧ spmLi.par.n = 1 ∧
    numberAt halfReport.param "cathode lithium fraction at 50% SOC" = some (65 / 100) ∧
    numberAt halfReport.param "anode lithium fraction at 50% SOC" = some (32 / 100) ∧
    (spmLi.setInitial 51385 30555 (65 / 100) (32 / 100)).1 = .ok () := by
  refine ⟨⟨by decide +kernel, by decide +kernel, by decide +kernel, by decide +kernel, by decide +kernel, by decide +kernel,
    by decide +kernel, by decide +kernel, by decide +kernel, by decide +kernel, by decide +kernel,
    ⟨_, _, _, rfl, rfl, rfl, by decide +kernel⟩, ⟨_, _, _, rfl, rfl, rfl, by decide +kernel⟩,
    ⟨1, 65 / 100, 9 / 10, 32 / 100, 7 / 100, [3, 7 / 100, 1, 9 / 10, 4], by decide +kernel, by decide +kernel, by decide +kernel,
      by decide +kernel, by decide +kernel, by decide +kernel, by decide +kernel, by decide +kernel, by decide +kernel,
      by decide +kernel, by decide +kernel⟩⟩, ⟨by decide +kernel, by decide +kernel⟩, spmLi_counts, by decide +kernel, by decide +kernel, by decide +kernel,
    by decide +kernel, by decide +kernel, by decide +kernel⟩

end Slide

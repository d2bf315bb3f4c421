import Verif.Lemmas.StoreUnits

/-!
# C153: a cycler never reports more energy out than in
-/

namespace Slide
open StorageUnit Spec Cyc

/-! ## Helper lemmas -/

section
variable {U : Type} [StorageUnit U] [VoltageUnit U]

/-- What a phase other than a charge with constant voltage reports. -/
theorem phase_covered (S : StoreUnit U) {fuel : ℕ} {c c' : Cyc U} {p : TestPhase} {st : Status} {th : Thr}
    (hp : ∀ I Vset Ilim dt ndt, p ≠ .charge I Vset Ilim dt ndt) (htop : p.dt ≤ S.top)
    (hd : c.diagnostic = false) (hf : S.Fit c.su) (h : perform fuel c p = (.ok st, c', th)) (hst : Finished p st) :
    c'.diagnostic = false ∧ S.Fit c'.su ∧ (S.In c.su → S.In c'.su) ∧
      (((if p.discharges then th.Wh else 0) - (if p.discharges then 0 else th.Wh) : ℚ) : ℝ) ≤ S.E c.su - S.E c'.su := by
  cases p with
  | rest tlim dt ndt =>
    cases hst
    obtain ⟨⟨h1, h2, h3, h4, _⟩, hw⟩ := re_rest S htop hd hf h
    refine ⟨h1, h2, h3, ?_⟩
    simp only [TestPhase.discharges, Bool.false_eq_true, if_false]
    simp only [Thr.zero, sub_zero] at h4
    push_cast at h4 ⊢
    linarith
  | charge I Vset Ilim dt ndt => exact absurd rfl (hp I Vset Ilim dt ndt)
  | cc I vlim tlim dt ndt =>
    obtain ⟨h1, h2, h3, h4, h5⟩ := re_CC_finished S htop hd hf h hst
    refine ⟨h1, h2, h3, ?_⟩
    simp only [Thr.zero, sub_zero] at h4 h5
    by_cases hI : 0 < I
    · simp only [TestPhase.discharges, decide_eq_true_eq, hI, if_true]
      simpa using h5 hI.le
    · simp only [TestPhase.discharges, decide_eq_true_eq, hI, if_false]
      push_cast
      linarith

/-- What a charge with constant voltage reports. -/
theorem charge_covered (S : HoldUnit U) {fuel : ℕ} {c c' : Cyc U} {p : TestPhase} {st : Status} {th : Thr}
    (h0 : 0 < p.dt) (htop : p.dt ≤ S.top) (hup : ChargesUp c p) (hd : c.diagnostic = false) (hf : S.Fit c.su)
    (h : perform fuel c p = (.ok st, c', th)) (hst : Finished p st) :
    c'.diagnostic = false ∧ S.Fit c'.su ∧
      (((if p.discharges then th.Wh else 0) - (if p.discharges then 0 else th.Wh) : ℚ) : ℝ) ≤ S.E c.su - S.E c'.su := by
  by_cases hp : ∀ I Vset Ilim dt ndt, p ≠ .charge I Vset Ilim dt ndt
  · obtain ⟨h1, h2, _, h4⟩ := phase_covered S.toStoreUnit hp htop hd hf h hst
    exact ⟨h1, h2, h4⟩
  · push Not at hp
    obtain ⟨I, Vset, Ilim, dt, ndt, rfl⟩ := hp
    obtain ⟨h1, h2, _, h4⟩ := re_CCCV S h0 htop hup hd hf h hst
    refine ⟨h1, h2, ?_⟩
    simp only [TestPhase.discharges, Bool.false_eq_true, if_false]
    push_cast
    linarith

theorem tested_hold (S : HoldUnit U) {fuel : ℕ} {ps : List TestPhase} {c c' : Cyc U} {out inn : ℚ}
    (h : Tested fuel c ps c' out inn) (ht : ∀ p ∈ ps, 0 < p.dt ∧ p.dt ≤ S.top) (hd : c.diagnostic = false) (hf : S.Fit c.su) :
    (out : ℝ) ≤ inn + S.E c.su - S.E c'.su := by
  induction h with
  | nil c => simp
  | cons h hst hup _ ih =>
    have hp := ht _ List.mem_cons_self
    obtain ⟨h1, h2, h4⟩ := charge_covered S hp.1 hp.2 hup hd hf h hst
    have := ih (fun p hp => ht p (List.mem_cons_of_mem _ hp)) h1 h2
    push_cast at h4 ⊢
    linarith

theorem tested_store (S : StoreUnit U) {fuel : ℕ} {ps : List TestPhase} {c c' : Cyc U} {out inn : ℚ}
    (h : Tested fuel c ps c' out inn) (hn : NoHold ps) (ht : ∀ p ∈ ps, p.dt ≤ S.top) (hd : c.diagnostic = false) (hf : S.Fit c.su) :
    (out : ℝ) ≤ inn + S.E c.su - S.E c'.su := by
  induction h with
  | nil c => simp
  | cons h hst _ _ ih =>
    obtain ⟨h1, h2, h3, h4⟩ := phase_covered S (fun I Vset Ilim dt ndt e => hn I Vset Ilim dt ndt (by rw [e]; exact List.mem_cons_self))
      (ht _ List.mem_cons_self) hd hf h hst
    have := ih (fun I Vset Ilim dt ndt e => hn I Vset Ilim dt ndt (List.mem_cons_of_mem _ e))
      (fun p hp => ht p (List.mem_cons_of_mem _ hp)) h1 h2
    push_cast at h4 ⊢
    linarith

/-- What calls to set a current or a voltage and time steps keep, a test keeps. -/
theorem tested_keeps {P : U → Prop} (hset : ∀ u i b, P u → P (StorageUnit.setCurrent u i b).2)
    (hstep : ∀ u dt k, P u → P (timeStep u dt k).2) (hvol : ∀ u v, P u → P (VoltageUnit.setVoltage u v).2)
    {fuel : ℕ} {ps : List TestPhase} {c c' : Cyc U} {out inn : ℚ} (h : Tested fuel c ps c' out inn) (hP : P c.su) :
    P c'.su := by
  induction h with
  | nil c => exact hP
  | @cons c c1 c2 p ps st th out inn h hst _ _ ih =>
    apply ih
    have e : c1 = (perform fuel c p).2.1 := by rw [h]
    rw [e]
    cases p with
    | rest tlim dt ndt => exact rest_keeps hset hstep fuel c tlim dt ndt Thr.zero hP
    | cc I vlim tlim dt ndt => exact (CC_keeps hset hstep fuel c I vlim tlim dt ndt Thr.zero hP).1
    | charge I Vset Ilim dt ndt => exact CCCVt_keeps hset hvol hstep fuel c I Vset Ilim TIME_INF dt ndt Thr.zero hP

end

variable {n : ℕ}

theorem cell_set_par (u : ECM n) (i : ℚ) (b : Bool) : (StorageUnit.setCurrent u i b).2.par = u.par := by
  rcases ecm_setCurrent_atomic u i b with ⟨_, h⟩ | ⟨_, h⟩ <;>
  · have e : (StorageUnit.setCurrent u i b).2 = (u.setCurrent i b).2 := rfl
    rw [e, h]

theorem cell_step_par (u : ECM n) (dt : ℚ) (k : ℕ) : (timeStep u dt k).2.par = u.par := by
  have e : timeStep u dt k = u.timeStep dt k := rfl
  rw [e]
  unfold ECM.timeStep
  split_ifs
  · rfl
  · exact ECM.steps_par u dt k

theorem cell_vol_par (u : ECM n) (v : ℚ) : (VoltageUnit.setVoltage u v).2.par = u.par := by
  have e : VoltageUnit.setVoltage u v = u.setVoltage v true := rfl
  rw [e]
  unfold ECM.setVoltage
  rcases u.par.ocv u.st.SOC with _ | o
  · rfl
  · dsimp only
    split_ifs <;> rfl

/-- A fuller cell holds more energy than a rested one. -/
theorem curve_fuller {a b : ECM n} (hp : CurveCell a.par) (h0 : 0 ≤ a.st.SOC) (h1 : a.st.SOC ≤ 1) (hr : ∀ j, a.st.Ir j = 0)
    (hb : b.par = a.par) (h : a.st.SOC ≤ b.st.SOC) :
    cellEnergy (curveOf a.par) a ≤ cellEnergy (curveOf b.par) b := by
  have hf := curveOf_through hp.passive
  obtain ⟨o, ho⟩ := hp.passive.known _ h0 h1
  have hpos : (0 : ℝ) < o := by exact_mod_cast hp.positive _ _ ho
  have ha := area_ge hf.mono a.st.SOC b.st.SOC
  rw [hf.through _ o h0 h1 ho, ← area_diff hf.mono] at ha
  have hd : (0 : ℝ) ≤ (b.st.SOC : ℝ) - a.st.SOC := sub_nonneg.mpr (Rat.cast_le.mpr h)
  have hm : 0 ≤ (o : ℝ) * ((b.st.SOC : ℝ) - a.st.SOC) := mul_nonneg hpos.le hd
  have hc : (0 : ℝ) < a.par.cap := by exact_mod_cast hp.passive.cap
  unfold cellEnergy
  rw [hb]
  refine add_le_add (mul_le_mul_of_nonneg_left (by linarith) hc.le) (Rat.cast_le.mpr (Finset.sum_le_sum (fun j _ => ?_)))
  rw [hr j]
  have := hp.passive.Rp j
  have := (hp.passive.tau j).le
  have : 0 ≤ a.par.Rp j * b.st.Ir j ^ 2 / (2 * a.par.invTau j) / 3600 := by positivity
  simpa using this

/-- The longest time step of a test. -/
theorem longest_step {Q : ℚ → Prop} (h0 : Q 0) (ps : List TestPhase) (h : ∀ p ∈ ps, Q p.dt) :
    ∃ top, Q top ∧ ∀ p ∈ ps, p.dt ≤ top := by
  induction ps with
  | nil => exact ⟨0, h0, by simp⟩
  | cons p ps ih =>
    obtain ⟨t, h1, h2⟩ := ih (fun q hq => h q (List.mem_cons_of_mem _ hq))
    rcases le_total p.dt t with hle | hle
    · refine ⟨t, h1, fun q hq => ?_⟩
      rcases List.mem_cons.mp hq with rfl | hq
      · exact hle
      · exact h2 q hq
    · refine ⟨p.dt, h p List.mem_cons_self, fun q hq => ?_⟩
      rcases List.mem_cons.mp hq with rfl | hq
      · exact le_rfl
      · exact (h2 q hq).trans hle

/-- What both theorems on cells use. -/
theorem tested_cell {fuel : ℕ} {c c' : Cyc (ECM n)} {ps : List TestPhase} {out inn : ℚ} (hd : c.diagnostic = false)
    (hp : CurveCell c.su.par) (ht : ∀ p ∈ ps, 0 < p.dt ∧ ∀ j, p.dt * c.su.par.invTau j ≤ 1)
    (h : Tested fuel c ps c' out inn) :
    c'.su.par = c.su.par ∧
      (out : ℝ) ≤ inn + cellEnergy (curveOf c.su.par) c.su - cellEnergy (curveOf c'.su.par) c'.su := by
  have hpar : c'.su.par = c.su.par := tested_keeps (P := fun u : ECM n => u.par = c.su.par)
    (fun u i b e => (cell_set_par u i b).trans e) (fun u dt k e => (cell_step_par u dt k).trans e)
    (fun u v e => (cell_vol_par u v).trans e) h rfl
  obtain ⟨top, h1, h2⟩ := longest_step (Q := fun t => ∀ j, t * c.su.par.invTau j ≤ 1) (fun j => by simp) ps
    (fun p hp => (ht p hp).2)
  exact ⟨hpar, tested_hold (cellHold n top) h (fun p hp => ⟨(ht p hp).1, h2 p hp⟩) hd ⟨hp, h1⟩⟩

/-! ## C153 -/

/-- **C153.**  Over any test of discharges, charges and rests, each finished, the watt hours reported for the discharges
are covered by those reported for the charges and the energy taken from the cell. -/
theorem reported_energy_covered {fuel : ℕ} {c c' : Cyc (ECM n)} {ps : List TestPhase} {out inn : ℚ}
    (hd : c.diagnostic = false) (hp : CurveCell c.su.par) (ht : ∀ p ∈ ps, 0 < p.dt ∧ ∀ j, p.dt * c.su.par.invTau j ≤ 1)
    (h : Tested fuel c ps c' out inn) :
    ∃ f, OcvThrough c.su.par f ∧ (out : ℝ) ≤ inn + cellEnergy f c.su - cellEnergy f c'.su := by
  obtain ⟨h1, h2⟩ := tested_cell hd hp ht h
  rw [h1] at h2
  exact ⟨curveOf c.su.par, curveOf_through hp.passive, h2⟩

/-- **C153, part.**  Without individual checks of the voltage, a test that ends with a cell no emptier than at the start
does not report a gain.  Missing: cyclers with individual checks, for which `not_noGainReported` shows the opposite. -/
theorem no_gain_reported_partial {fuel : ℕ} {c c' : Cyc (ECM n)} {ps : List TestPhase} {out inn : ℚ}
    (hd : c.diagnostic = false) (hp : CurveCell c.su.par) (h0 : 0 ≤ c.su.st.SOC) (h1 : c.su.st.SOC ≤ 1)
    (hr : ∀ j, c.su.st.Ir j = 0) (ht : ∀ p ∈ ps, 0 < p.dt ∧ ∀ j, p.dt * c.su.par.invTau j ≤ 1)
    (h : Tested fuel c ps c' out inn) (hz : c.su.st.SOC ≤ c'.su.st.SOC) : out ≤ inn := by
  obtain ⟨h2, h3⟩ := tested_cell hd hp ht h
  have h4 := curve_fuller hp h0 h1 hr h2 hz
  have : (out : ℝ) ≤ inn := by linarith
  exact_mod_cast this

/-! ### strings -/

/-- The cells have the same parameters. -/
abbrev SamePars (m m' : ModuleS (ECM n)) : Prop := KidsRel (fun a b : ECM n => b.par = a.par) m.kids m'.kids

theorem par_curRel : CurRel (U := ECM n) (fun a b => b.par = a.par) where
  refl _ := rfl
  trans h1 h2 := h2.trans h1
  set u i b := cell_set_par u i b

theorem samePars_curRel : CurRel (U := ModuleS (ECM n)) SamePars where
  refl m := KidsRel.refl par_curRel m.kids
  trans h1 h2 := KidsRel.trans par_curRel h1 h2
  set m i b := by
    have h := setLoop_rel par_curRel i b m.kids []
    have e : (StorageUnit.setCurrent m i b).2.kids = (ModuleS.setLoop i b [] m.kids).2 := rfl
    show KidsRel _ _ _
    rw [e]
    simpa using h

theorem samePars_step (m : ModuleS (ECM n)) (dt : ℚ) (k : ℕ) : SamePars m (timeStep m dt k).2 := by
  have e : timeStep m dt k = m.timeStep dt k := rfl
  rw [e]
  unfold ModuleS.timeStep
  split_ifs
  · exact samePars_curRel.refl m
  · exact stepKids_rel (R := fun a b : ECM n => b.par = a.par) dt k (fun _ => rfl) (fun u => cell_step_par u dt k) m.kids

theorem string_fuller {l l' : List (Kid (ECM n))} (hp : KidsRel (fun a b : ECM n => b.par = a.par) l l')
    (hz : List.Forall₂ (fun k k' => k.su.st.SOC ≤ k'.su.st.SOC) l l') (hc : ∀ k ∈ l, CurveCell k.su.par)
    (hs : ∀ k ∈ l, 0 ≤ k.su.st.SOC ∧ k.su.st.SOC ≤ 1) (hr : ∀ k ∈ l, ∀ j, k.su.st.Ir j = 0) :
    (l.map fun k => cellEnergy (curveOf k.su.par) k.su).sum ≤ (l'.map fun k => cellEnergy (curveOf k.su.par) k.su).sum := by
  induction hp with
  | nil => exact le_rfl
  | @cons a b l l' hab _ ih =>
    cases hz with
    | cons hz hzs =>
      simp only [List.map_cons, List.sum_cons]
      refine add_le_add ?_ (ih hzs (fun k hk => hc k (List.mem_cons_of_mem _ hk)) (fun k hk => hs k (List.mem_cons_of_mem _ hk))
        (fun k hk => hr k (List.mem_cons_of_mem _ hk)))
      have ha := hs a List.mem_cons_self
      exact curve_fuller (hc a List.mem_cons_self) ha.1 ha.2 (hr a List.mem_cons_self) hab.2 hz

/-- **C153, strings.**  The same for a string of different cells, tested with constant currents and rests, when every cell
ends no emptier than it started. -/
theorem string_no_gain_partial {fuel : ℕ} {c c' : Cyc (ModuleS (ECM n))} {ps : List TestPhase} {out inn : ℚ}
    (hd : c.diagnostic = false) (hs : CurveString c.su)
    (ht : ∀ p ∈ ps, ∀ k ∈ c.su.kids, ∀ j, p.dt * k.su.par.invTau j ≤ 1)
    (h : Tested fuel c ps c' out inn) (hn : NoHold ps)
    (hz : List.Forall₂ (fun k k' => k.su.st.SOC ≤ k'.su.st.SOC) c.su.kids c'.su.kids) : out ≤ inn := by
  have hpar : SamePars c.su c'.su := tested_keeps (P := fun m : ModuleS (ECM n) => SamePars c.su m)
    (fun u i b e => samePars_curRel.trans e (samePars_curRel.set u i b))
    (fun u dt k e => samePars_curRel.trans e (samePars_step u dt k))
    (fun u v e => samePars_curRel.trans e (iterLoop_rel samePars_curRel v 50 (I u) u)) h (samePars_curRel.refl _)
  obtain ⟨top, h1, h2⟩ := longest_step (Q := fun t => ∀ k ∈ c.su.kids, ∀ j, t * k.su.par.invTau j ≤ 1)
    (fun k _ j => by simp) ps ht
  have h3 := tested_store (seriesStore (cellHold n top).toStoreUnit) h hn h2 hd
    ⟨hs.some, hs.few, fun k hk => ⟨hs.contacts k hk, hs.curve k hk, h1 k hk⟩⟩
  have h4 : (seriesStore (cellHold n top).toStoreUnit).E c.su ≤ (seriesStore (cellHold n top).toStoreUnit).E c'.su :=
    string_fuller hpar hz hs.curve hs.soc hs.rested
  have : (out : ℝ) ≤ inn := by linarith
  exact_mod_cast this

/-! ## Examples -/

/-- A cell of 1 Ah with an open-circuit voltage from 3 V to 4.2 V and an RC pair with a time constant of 2 hours. -/
def gainCell (R z : ℚ) : ECM 1 where
  par := { cap := 1, Rdc := R, Rp := ![1 / 100], invTau := ![1 / 7200],
           ocv := fun z => if 0 ≤ z ∧ z ≤ 1 then some (3 + 6 / 5 * z) else none }
  st := { T := 288, SOC := z, I := 0, Ir := ![0], time := 0, Ah := 0, Wh := 0 }

theorem gainCell_curve {R : ℚ} (hR : 0 ≤ R) (z : ℚ) : CurveCell (gainCell R z).par where
  passive := {
    known := fun z h0 h1 => ⟨3 + 6 / 5 * z, if_pos ⟨h0, h1⟩⟩
    rising := fun y z v w h0 h1 h2 hv hw => by
      have e1 : (gainCell R z).par.ocv y = some (3 + 6 / 5 * y) := if_pos ⟨h0, h1.trans h2⟩
      have e2 : (gainCell R z).par.ocv z = some (3 + 6 / 5 * z) := if_pos ⟨h0.trans h1, h2⟩
      have e1 := Option.some.inj (e1.symm.trans hv)
      have e2 := Option.some.inj (e2.symm.trans hw)
      linarith
    cap := by show (0 : ℚ) < 1; norm_num
    Rdc := hR
    Rp := fun j => by
      have h : (gainCell R z).par.Rp = ![1 / 100] := rfl
      rw [h]; revert j; decide +kernel
    tau := fun j => by
      have h : (gainCell R z).par.invTau = ![1 / 7200] := rfl
      rw [h]; revert j; decide +kernel }
  tight y v h := by
    have h : (if 0 ≤ y ∧ y ≤ 1 then some (3 + 6 / 5 * y) else none) = some v := h
    by_contra hn
    rw [if_neg hn] at h
    cases h
  positive y v h := by
    have h : (if 0 ≤ y ∧ y ≤ 1 then some (3 + 6 / 5 * y) else none) = some v := h
    by_cases hn : 0 ≤ y ∧ y ≤ 1
    · rw [if_pos hn] at h
      have := Option.some.inj h
      linarith [hn.1]
    · rw [if_neg hn] at h
      cases h

/-- Steps of a test from the results of its phases. -/
theorem tested_of {U : Type} [StorageUnit U] [VoltageUnit U] {fuel : ℕ} {c c2 : Cyc U} {p : TestPhase} {ps : List TestPhase}
    {st : Status} {out inn : ℚ} (h : (perform fuel c p).1 = .ok st) (hst : Finished p st) (hup : ChargesUp c p)
    (hs : Tested fuel (perform fuel c p).2.1 ps c2 out inn) :
    Tested fuel c (p :: ps) c2 (out + if p.discharges then (perform fuel c p).2.2.Wh else 0)
      (inn + if p.discharges then 0 else (perform fuel c p).2.2.Wh) :=
  Tested.cons (by rw [← h]) hst hup hs

/-- A cell of low resistance, four fifths full. -/
def honestCyc : Cyc (ECM 1) := { su := gainCell (1 / 10) (4 / 5) }

/-- A charge to 4.2 V, a rest and a discharge by what went in. -/
def honestTest : List TestPhase := [.charge 1 (42 / 10) (1 / 2) 360 0, .rest 600 60 0, .cc (7961 / 8000) (32 / 10) 720 360 0]

/-- The cycler after the phases of a test. -/
def afterTest {U : Type} [StorageUnit U] [VoltageUnit U] (fuel : ℕ) (c : Cyc U) (ps : List TestPhase) : Cyc U :=
  ps.foldl (fun c p => (perform fuel c p).2.1) c

/-- The hypotheses of `no_gain_reported_partial` are met by a test that moves a fifth of the charge, ends where it started
and loses energy. -/
example : ∃ out inn, honestCyc.diagnostic = false ∧ CurveCell honestCyc.su.par ∧ 0 ≤ honestCyc.su.st.SOC ∧
    honestCyc.su.st.SOC ≤ 1 ∧ (∀ j, honestCyc.su.st.Ir j = 0) ∧
    (∀ p ∈ honestTest, 0 < p.dt ∧ ∀ j, p.dt * honestCyc.su.par.invTau j ≤ 1) ∧
    Tested 20 honestCyc honestTest (afterTest 20 honestCyc honestTest) out inn ∧
    (afterTest 20 honestCyc honestTest).su.st.SOC = honestCyc.su.st.SOC ∧ 7 / 10 < out ∧ out < inn :=
  ⟨_, _, rfl, gainCell_curve (by norm_num) _, by decide +kernel, by decide +kernel, by decide +kernel, by decide +kernel,
    tested_of (st := .ReachedCurrentLimit) (by decide +kernel) (Or.inl rfl) (by unfold ChargesUp; decide +kernel)
      (tested_of (st := .ReachedTimeLimit) (by decide +kernel) rfl trivial
        (tested_of (st := .ReachedTimeLimit) (by decide +kernel) (Or.inl rfl) trivial (.nil _))),
    by decide +kernel, by decide +kernel, by decide +kernel⟩

/-- Two different cells in series, behind contact resistances. -/
def honestString : Cyc (ModuleS (ECM 1)) :=
  { su := { T := 288, kids := [{ rc := 1 / 100, su := gainCell (1 / 10) (4 / 5) }, { rc := 1 / 100, su := gainCell (1 / 20) (1 / 2) }] } }

def stringTest : List TestPhase := [.cc (-1) 9 360 60 0, .rest 600 60 0, .cc 1 6 360 60 0]

/-- The hypotheses of `string_no_gain_partial` are met. -/
example : ∃ out inn, honestString.diagnostic = false ∧ CurveString honestString.su ∧
    (∀ p ∈ stringTest, ∀ k ∈ honestString.su.kids, ∀ j, p.dt * k.su.par.invTau j ≤ 1) ∧
    Tested 20 honestString stringTest (afterTest 20 honestString stringTest) out inn ∧ NoHold stringTest ∧
    List.Forall₂ (fun k k' => k.su.st.SOC ≤ k'.su.st.SOC) honestString.su.kids (afterTest 20 honestString stringTest).su.kids ∧
    7 / 10 < out ∧ out < inn := by
  refine ⟨_, _, rfl, ⟨by decide, by decide, ?_, ?_, ?_, ?_⟩, ?_,
    tested_of (st := .ReachedTimeLimit) (by decide +kernel) (Or.inl rfl) trivial
      (tested_of (st := .ReachedTimeLimit) (by decide +kernel) rfl trivial
        (tested_of (st := .ReachedTimeLimit) (by decide +kernel) (Or.inl rfl) trivial (.nil _))), ?_, ?_, by decide +kernel, by decide +kernel⟩
  · decide +kernel
  · intro k hk
    rcases List.mem_cons.mp hk with rfl | hk
    · exact gainCell_curve (by norm_num) _
    · rcases List.mem_cons.mp hk with rfl | hk
      · exact gainCell_curve (by norm_num) _
      · cases hk
  · decide +kernel
  · decide +kernel
  · decide +kernel
  · intro I Vset Ilim dt ndt h
    simp [stringTest] at h
  · decide +kernel

/-- A cell whose voltage rises fast, tested with individual checks. -/
def hidingCyc : Cyc (ECM 1) := { su := gainCell 1 (4 / 25), diagnostic := true }

/-- A charge whose first batch leaves the allowed voltages, and a discharge by what went in. -/
def hidingTest : List TestPhase := [.charge 1 (42 / 10) 10 360 0, .cc (151 / 800) (27 / 10) 3600 3600 0]

/-- **The claim fails with individual checks**: the constant-current part stops at a safety limit after a batch of 0.1 Ah,
which is in the cell but not in the report; the charge goes on with constant voltage and is reported as finished. -/
theorem not_noGainReported : ¬ NoGainReported := by
  intro hall
  have h := hall 1 20 hidingCyc (afterTest 20 hidingCyc hidingTest) hidingTest _ _ (gainCell_curve (by norm_num) _)
    (by decide +kernel) (by decide +kernel) (by decide +kernel) (by decide +kernel)
    (tested_of (st := .ReachedSmallCurrent) (by decide +kernel) (Or.inr rfl) (by unfold ChargesUp; decide +kernel)
      (tested_of (st := .ReachedTimeLimit) (by decide +kernel) (Or.inl rfl) trivial (.nil _))) (by decide +kernel)
  revert h
  decide +kernel

end Slide


import Verif.Spec.CoolData
import Verif.Props.Containers
import Verif.Props.CoolMeters

/-!
# C98 The recorded data of a cooling system are the means of the recording intervals
# C99 The recorded data of a cooling system reach the files
-/

namespace Slide
open Spec CoolSystem

/-! ### The meters of the system without recording -/

/-- The system with another reading of the energy of the fan. -/
def CoolSystem.withE (c : CoolSystem) (x : ℚ) : CoolSystem := { c with E := x }

theorem control_withE (c : CoolSystem) (l g x : ℚ) : (c.withE x).control l g = (c.control l g).withE x := by
  have h1 : ∀ d : CoolSystem, (d.withE x).controlFan l g = (d.controlFan l g).withE x := by
    intro d; unfold controlFan onOff prop withE; dsimp only; split_ifs <;> rfl
  have h2 : ∀ d : CoolSystem, (d.withE x).controlAC g = (d.controlAC g).withE x := by
    intro d; unfold controlAC acProp withE; dsimp only; split_ifs <;> rfl
  have hk : (c.withE x).kind = c.kind := rfl
  unfold CoolSystem.control
  rw [hk]
  cases hk : c.kind with
  | conventional => exact h1 c
  | hvac => dsimp only; rw [h1, h2]
  | openSys => rfl

theorem control_sameE (c : CoolSystem) (l g : ℚ) : (c.control l g).E = c.E := by
  have h1 : ∀ d : CoolSystem, (d.controlFan l g).E = d.E := by
    intro d; unfold controlFan onOff prop; dsimp only; split_ifs <;> rfl
  have h2 : ∀ d : CoolSystem, (d.controlAC g).E = d.E := by
    intro d; unfold controlAC acProp; dsimp only; split_ifs <;> rfl
  unfold CoolSystem.control
  split
  · exact h1 c
  · rw [h2, h1]
  · rfl

/-- A heat exchange is accepted or refused; whatever has been subtracted from the energy of the fan does not matter. -/
theorem dstate_both (c : CoolSystem) (d a b t : ℚ) :
    (∃ r, (c.dstate a b t).2.Qevac = c.Qevac + b ∧ (c.dstate a b t).2.tLife = c.tLife + t ∧
      (c.withE (c.E - d)).dstate a b t = (.ok r, (c.dstate a b t).2.withE ((c.dstate a b t).2.E - d))) ∨
    (c.dstate a b t = (.throw 10, c) ∧ (c.withE (c.E - d)).dstate a b t = (.throw 10, c.withE (c.E - d))) := by
  have e : ∀ x y : ℚ, x - d + y = x + y - d := fun x y => by ring
  have hk : (c.withE (c.E - d)).kind = c.kind := rfl
  unfold CoolSystem.dstate
  rw [hk]
  cases hk : c.kind with
  | hvac =>
    dsimp only
    by_cases ha : |a - b| > 1 / 1000000000000
    · rw [if_pos ha, if_pos ha]
      exact .inr ⟨rfl, rfl⟩
    · rw [if_neg ha, if_neg ha]
      refine .inl ⟨c.T + (a - c.Qac * t) / (c.rho * c.cp * c.vol), rfl, rfl, ?_⟩
      unfold withE
      dsimp only
      rw [e]; rfl
  | conventional =>
    refine .inl ⟨c.T + a / (c.rho * c.cp * c.vol), rfl, rfl, ?_⟩
    unfold withE
    dsimp only
    rw [e]; rfl
  | openSys =>
    refine .inl ⟨c.T + a / (c.rho * c.cp * c.vol), rfl, rfl, ?_⟩
    unfold withE
    dsimp only
    rw [e]; rfl

/-- The recording `r` of the system `c` whose present interval began at `p`. -/
structure Recording (p c : CoolSystem) (r : CoolRec) : Prop where
  sys : r.sys = c.withE (c.E - p.E)
  qev : r.qev = c.Qevac - p.Qevac
  time : r.time = c.tLife - p.tLife
  life : r.timeLife = c.tLife

/-- A call on the system itself keeps the accounting right and touches nothing else. -/
theorem Recording.call {p c : CoolSystem} {r : CoolRec} (h : Recording p c r) (mode : ℕ) (o : CoolOp) :
    Recording p (o.run c) ((CRecOp.sys o).run mode r) ∧ ((CRecOp.sys o).run mode r).N = r.N ∧
      ((CRecOp.sys o).run mode r).hist = r.hist ∧ ((CRecOp.sys o).run mode r).points = r.points ∧
      ((CRecOp.sys o).run mode r).file = r.file ∧ ((CRecOp.sys o).run mode r).acPoints = r.acPoints := by
  cases o with
  | control l g =>
    have hm := control_meters c l g
    have hm' := Prod.mk.inj hm
    have ht := (Prod.mk.inj (Prod.mk.inj hm'.2).2).2
    refine ⟨⟨?_, ?_, ?_, ?_⟩, rfl, rfl, rfl, rfl, rfl⟩
    · show r.sys.control l g = _
      rw [h.sys, control_withE]
      show _ = (c.control l g).withE ((c.control l g).E - p.E)
      rw [control_sameE]
    · exact h.qev.trans (by rw [← hm'.1]; rfl)
    · exact h.time.trans (by rw [← ht]; rfl)
    · exact h.life.trans ht.symm
  | setT t =>
    have hs : r.sys.setT t = ((c.setT t).1, (c.setT t).2.withE ((c.setT t).2.E - p.E)) ∧
        (c.setT t).2.Qevac = c.Qevac ∧ (c.setT t).2.tLife = c.tLife := by
      rw [h.sys]
      unfold CoolSystem.setT
      split_ifs <;> exact ⟨rfl, rfl, rfl⟩
    refine ⟨⟨?_, ?_, ?_, ?_⟩, rfl, rfl, rfl, rfl, rfl⟩
    · show (r.sys.setT t).2 = _
      rw [hs.1]; rfl
    · exact h.qev.trans (by rw [← hs.2.1]; rfl)
    · exact h.time.trans (by rw [← hs.2.2]; rfl)
    · exact h.life.trans hs.2.2.symm
  | setControl k =>
    refine ⟨⟨?_, h.qev, h.time, h.life⟩, rfl, rfl, rfl, rfl, rfl⟩
    show r.sys.setControl k = _
    rw [h.sys]; rfl
  | reset =>
    refine ⟨⟨?_, h.qev, h.time, h.life⟩, rfl, rfl, rfl, rfl, rfl⟩
    show r.sys.resetE = _
    rw [h.sys]; rfl
  | dstate a b t =>
    show Recording p (c.dstate a b t).2 (r.dstate a b t).2 ∧ (r.dstate a b t).2.N = r.N ∧
      (r.dstate a b t).2.hist = r.hist ∧ (r.dstate a b t).2.points = r.points ∧ (r.dstate a b t).2.file = r.file ∧
      (r.dstate a b t).2.acPoints = r.acPoints
    unfold CoolRec.dstate
    rw [h.sys]
    rcases dstate_both c p.E a b t with ⟨x, h2, h3, h4⟩ | ⟨h1, h2⟩
    · rw [h4]
      refine ⟨⟨rfl, ?_, ?_, ?_⟩, rfl, rfl, rfl, rfl, rfl⟩
      · show r.qev + b = _
        rw [h2, h.qev]; ring
      · show r.time + t = _
        rw [h3, h.time]; ring
      · show r.timeLife + t = _
        rw [h3, h.life]
    · rw [h2, h1]
      exact ⟨⟨rfl, h.qev, h.time, h.life⟩, rfl, rfl, rfl, rfl, rfl⟩

/-! ## Instantaneous data -/

/-- **C98 (part that holds), C99.** With instantaneous data, every call to store data after some time has passed gives
exactly one row of the file, in order and whenever it is written, with the time since the start, the present flow, and the
mean powers *since the start* (not of the interval). -/
theorem pointsAreIntervalMeans_partial (c0 : CoolSystem) (n : ℕ) (r : CoolRec) (ops : List CRecOp) (hf : FreshSys c0)
    (hr : CoolRec.init 2 c0 n = .ok r) :
    allRows (runCRec 2 r ops) =
      (storedSys c0 ops).flatMap fun c => CoolRec.row ⟨c.tLife, c.Qevac / c.tLife, c.E / c.tLife, c.flowrate⟩ := by
  have key : ∀ (ops : List CRecOp) (c : CoolSystem) (r : CoolRec), Recording c0 c r →
      allRows (runCRec 2 r ops) = allRows r ++
        (storedSys c ops).flatMap fun c => CoolRec.row ⟨c.tLife, c.Qevac / c.tLife, c.E / c.tLife, c.flowrate⟩ := by
    intro ops
    induction ops with
    | nil => intro c r _; simp [runCRec, storedSys]
    | cons o ops ih =>
      intro c r h
      show allRows (runCRec 2 (o.run 2 r) ops) = _
      cases o with
      | sys o =>
        obtain ⟨h1, -, -, h2, h3, -⟩ := h.call 2 o
        rw [ih _ _ h1]
        unfold allRows
        rw [h2, h3]; rfl
      | store k =>
        have e0 : c0.tLife = 0 := hf.2.2
        have e1 : c0.Qevac = 0 := hf.1
        have e2 : c0.E = 0 := hf.2.1
        have ht : r.time = c.tLife := by rw [h.time, e0, sub_zero]
        have hs : (CRecOp.store k).run 2 r = if c.tLife = 0 then r else r.storeInst := by
          show (r.store 2 k).2 = _
          unfold CoolRec.store CoolRec.storeAC CoolRec.storeFan
          rw [if_neg (by omega), ht]
          by_cases hz : c.tLife = 0
          · simp [hz]
          · simp [hz]
        rw [hs]
        unfold storedSys
        by_cases hz : c.tLife = 0
        · rw [if_pos hz, if_pos hz]; exact ih c r h
        · rw [if_neg hz, if_neg hz, ih c r.storeInst ⟨h.sys, h.qev, h.time, h.life⟩]
          unfold allRows CoolRec.storeInst
          dsimp only
          rw [h.qev, ht, h.life, h.sys, e1, e2, sub_zero, sub_zero]
          simp [CoolSystem.withE]
      | write b =>
        have hw : Recording c0 c ((CRecOp.write b).run 2 r) ∧ allRows ((CRecOp.write b).run 2 r) = allRows r := by
          show Recording c0 c (r.write 2 b).2 ∧ allRows (r.write 2 b).2 = allRows r
          cases b
          · exact ⟨h, rfl⟩
          · exact ⟨⟨h.sys, h.qev, h.time, h.life⟩, by simp [CoolRec.write, allRows]⟩
        rw [ih _ _ hw.1, hw.2]; rfl
  have : r = { sys := c0, N := n } := by
    unfold CoolRec.init at hr
    exact (Outcome.ok.inj hr).symm
  subst this
  rw [key ops c0 _ ⟨?_, ?_, ?_, ?_⟩]
  · rfl
  · rw [sub_self]; show c0 = c0.withE 0
    rw [← hf.2.1]; rfl
  · exact (sub_self _).symm
  · exact (sub_self _).symm
  · exact hf.2.2.symm

private def ops98 : List CRecOp :=
  [.sys (.dstate 10 10 1), .store 1, .write true, .sys (.dstate 0 0 1), .store 1]

example : FreshSys (make 1 1) ∧ (storedSys (make 1 1) ops98).length = 2 := by
  exact ⟨⟨rfl, rfl, rfl⟩, by decide +kernel⟩

/-- **C98 is false of the code**: after 10 J in the first second and nothing in the next, the second point still shows
5 W. -/
theorem not_pointsAreIntervalMeans : ¬ PointsAreIntervalMeans := by
  intro h
  have := h (make 1 1) 1 { sys := make 1 1, N := 1 } ops98 ⟨rfl, rfl, rfl⟩ rfl
  revert this
  decide +kernel

/-- **C99.** With instantaneous data, writing puts all pending rows at the end of the file and forgets them; if the file
cannot be opened the call throws 11 and nothing is lost. -/
theorem write_points (r : CoolRec) :
    (r.write 2 true = (.ok (), { r with file := allRows r, points := [] })) ∧ r.write 2 false = (.throw 11, r) :=
  ⟨rfl, rfl⟩

/-- C99: with histograms a file that cannot be opened throws 11 as well and changes nothing; without recording the call
does nothing at all, whether the file can be opened or not. -/
theorem write_unopened (r : CoolRec) (b : Bool) :
    r.write 1 false = (.throw 11, r) ∧ r.write 0 b = (.ok (), r) := ⟨rfl, rfl⟩

/-! ## Histograms -/

/-- Storing for a wrong number of cells is refused and changes nothing. -/
theorem store_refused (r : CoolRec) (k : ℕ) : (k ≠ r.N ∨ r.N = 0) → r.store 1 k = (.throw 10, r) := by
  intro h
  unfold CoolRec.store
  rw [if_pos ⟨rfl, h⟩]

example : (({ sys := make 3 1, N := 3 } : CoolRec).store 1 4).1 = .throw 10 := by decide +kernel

/-- A histogram of 100 bins over `lo .. hi`. -/
structure MadeHist (h : Histogram) (lo hi : ℚ) : Prop where
  atMin : h.xMin = lo
  atMax : h.xMax = hi
  dx : h.dx = (hi - lo) / (100 : ℕ)
  len : h.bins.length = 102

theorem MadeHist.add {h : Histogram} {lo hi : ℚ} (m : MadeHist h lo hi) (hlt : lo < hi) {x : ℚ} (hx : NotHuge lo hi 100 x) :
    ∃ h', h.add x = .ok h' ∧ MadeHist h' lo hi := by
  obtain ⟨rfl, rfl, hd, hl⟩ := m
  obtain ⟨i, hi, -, e⟩ := histogram_add h 100 (by norm_num) hlt hd hl x hx
  exact ⟨_, e, rfl, rfl, hd, by simpa using hl⟩

theorem MadeHist.holds {h h' : Histogram} {lo hi : ℚ} (m : MadeHist h lo hi) (hlt : lo < hi)
    (h0 : h.bins = List.replicate 102 0) {xs : List ℚ} (hx : ∀ x ∈ xs, NotHuge lo hi 100 x)
    (e : h.addAll xs = .ok h') : Holds h' lo hi xs := by
  obtain ⟨bins, a, b, dx⟩ := h
  obtain ⟨rfl, rfl, hd, hl⟩ := m
  dsimp only at *
  subst hd h0
  obtain ⟨bins', h1, h2, h3, h4⟩ := histogram_addAll 100 (by norm_num) a b hlt xs hx (List.replicate 102 0) hl
  rw [h1] at e
  cases e
  refine ⟨rfl, rfl, h2, ?_⟩
  intro i hi
  have := h4 i 0 (by rw [List.getElem?_replicate, if_pos hi])
  simpa using this

/-- The four histograms. -/
structure MadeHists (h : CoolHist) : Prop where
  Q : MadeHist h.Q 0 5
  flr : MadeHist h.flr 0 (11 / 20000)
  E : MadeHist h.E 0 eRange
  T : MadeHist h.T 273 373

theorem eRange_eq : eRange = 2 * (49 / 40 * (11 / 20000) ^ 3 * 1 / (2 * (1 / 2) * (1 / 40000) ^ 2)) := rfl

theorem initHist_ok : ∃ h, CoolRec.initHist = .ok h ∧ MadeHists h ∧ h.Q.bins = List.replicate 102 0 ∧
    h.flr.bins = List.replicate 102 0 ∧ h.E.bins = List.replicate 102 0 ∧ h.T.bins = List.replicate 102 0 := by
  refine ⟨_, rfl, ⟨⟨rfl, rfl, rfl, rfl⟩, ⟨rfl, ?_, ?_, rfl⟩, ⟨rfl, ?_, ?_, rfl⟩, ⟨rfl, ?_, ?_, rfl⟩⟩, rfl, rfl, rfl, rfl⟩
  all_goals simp only [CoolRec.NHIST, eRange_eq]; norm_num

/-- One stored interval. -/
theorem Recording.storeHist {p c : CoolSystem} {r : CoolRec} (h : Recording p c r) (hm : MadeHists r.hist)
    (hM : NotHuge 0 5 100 (meanQ (p, c) / r.N) ∧ NotHuge 0 eRange 100 (meanE (p, c) / r.N) ∧ NotHuge 273 373 100 c.T ∧
      NotHuge 0 (11 / 20000) 100 (c.flowrate / r.N)) :
    ∃ r', r.storeHist = (.ok (), r') ∧ Recording c c r' ∧ r'.N = r.N ∧ MadeHists r'.hist ∧
      r.hist.Q.add (meanQ (p, c) / r.N) = .ok r'.hist.Q ∧ r.hist.E.add (meanE (p, c) / r.N) = .ok r'.hist.E ∧
      r.hist.T.add c.T = .ok r'.hist.T ∧ r.hist.flr.add (c.flowrate / r.N) = .ok r'.hist.flr ∧
      r'.file = r.file ∧ r'.acPoints = r.acPoints := by
  obtain ⟨q, q1, q2⟩ := hm.Q.add (by norm_num) hM.1
  obtain ⟨e, e1, e2⟩ := hm.E.add (by rw [eRange_eq]; norm_num) hM.2.1
  obtain ⟨t, t1, t2⟩ := hm.T.add (by norm_num) hM.2.2.1
  obtain ⟨f, f1, f2⟩ := hm.flr.add (by norm_num) hM.2.2.2
  refine ⟨{ r with hist := { Q := q, flr := f, E := e, T := t }, sys := { r.sys with E := 0 }, qev := 0, time := 0 }, ?_,
    ⟨?_, (sub_self _).symm, (sub_self _).symm, h.life⟩, rfl, ⟨q2, f2, e2, t2⟩, q1, e1, t1, f1, rfl, rfl⟩
  · have a1 : r.sys.E = c.E - p.E := by rw [h.sys]; rfl
    have a2 : r.sys.T = c.T := by rw [h.sys]; rfl
    have a3 : r.sys.flowrate = c.flowrate := by rw [h.sys]; rfl
    unfold CoolRec.storeHist
    rw [a1, a2, a3, h.qev, h.time]
    have q1' : r.hist.Q.add ((c.Qevac - p.Qevac) / (c.tLife - p.tLife) / r.N) = .ok q := q1
    have e1' : r.hist.E.add ((c.E - p.E) / (c.tLife - p.tLife) / r.N) = .ok e := e1
    rw [q1', e1', t1, f1]
    rfl
  · show ({ r.sys with E := 0 } : CoolSystem) = c.withE (c.E - c.E)
    rw [h.sys, sub_self]; rfl

theorem runHist (n : ℕ) (hn : 0 < n) (ops : List CRecOp) : ∀ (p c : CoolSystem) (r : CoolRec), Recording p c r →
    r.N = n → MadeHists r.hist → StoresFor n ops → Moderate n (intervals p c ops) →
    Recording (intervalStart p c ops) (runPlain c ops) (runCRec 1 r ops) ∧ (runCRec 1 r ops).N = n ∧
    MadeHists (runCRec 1 r ops).hist ∧
    r.hist.Q.addAll ((intervals p c ops).map fun i => meanQ i / n) = .ok (runCRec 1 r ops).hist.Q ∧
    r.hist.E.addAll ((intervals p c ops).map fun i => meanE i / n) = .ok (runCRec 1 r ops).hist.E ∧
    r.hist.T.addAll ((intervals p c ops).map fun i => i.2.T) = .ok (runCRec 1 r ops).hist.T ∧
    r.hist.flr.addAll ((intervals p c ops).map fun i => i.2.flowrate / n) = .ok (runCRec 1 r ops).hist.flr := by
  induction ops with
  | nil => intro p c r h hN hm _ _; exact ⟨h, hN, hm, rfl, rfl, rfl, rfl⟩
  | cons o ops ih =>
    intro p c r h hN hm hS hM
    have hS' : StoresFor n ops := fun k hk => hS k (List.mem_cons_of_mem _ hk)
    cases o with
    | sys o =>
      obtain ⟨h1, h2, h3, -⟩ := h.call 1 o
      have := ih p (o.run c) _ h1 (h2.trans hN) (h3 ▸ hm) hS' hM
      rw [h3] at this
      exact this
    | write b =>
      have hw : Recording p c ((CRecOp.write b).run 1 r) ∧ ((CRecOp.write b).run 1 r).N = r.N ∧
          ((CRecOp.write b).run 1 r).hist = r.hist := by
        show Recording p c (r.write 1 b).2 ∧ (r.write 1 b).2.N = r.N ∧ (r.write 1 b).2.hist = r.hist
        cases b
        · exact ⟨h, rfl, rfl⟩
        · unfold CoolRec.write
          rw [if_pos rfl, if_pos rfl]
          cases r.histText with
          | ok ts => exact ⟨⟨h.sys, h.qev, h.time, h.life⟩, rfl, rfl⟩
          | throw k => exact ⟨h, rfl, rfl⟩
          | ub s => exact ⟨h, rfl, rfl⟩
      have := ih p c _ hw.1 (hw.2.1.trans hN) (hw.2.2 ▸ hm) hS' hM
      rw [hw.2.2] at this
      exact this
    | store k =>
      have hk : k = n := hS k List.mem_cons_self
      subst hk
      have hs : (CRecOp.store k).run 1 r = if c.tLife = p.tLife then r else r.storeHist.2 := by
        show (r.store 1 k).2 = _
        unfold CoolRec.store CoolRec.storeAC CoolRec.storeFan
        rw [if_neg (by rintro ⟨-, h | h⟩ <;> omega), h.time]
        by_cases hz : c.tLife = p.tLife
        · simp [hz]
        · have : c.tLife - p.tLife ≠ 0 := sub_ne_zero.mpr hz
          simp [hz, this]
      show Recording (if c.tLife = p.tLife then intervalStart p c ops else intervalStart c c ops) (runPlain c ops)
        (runCRec 1 ((CRecOp.store k).run 1 r) ops) ∧ _
      have hi : intervals p c (.store k :: ops) =
        if c.tLife = p.tLife then intervals p c ops else (p, c) :: intervals c c ops := rfl
      have hrun : runCRec 1 r (.store k :: ops) = runCRec 1 ((CRecOp.store k).run 1 r) ops := rfl
      rw [hi] at hM ⊢
      rw [hrun, hs]
      by_cases hz : c.tLife = p.tLife
      · simp only [if_pos hz] at hM ⊢
        exact ih p c r h hN hm hS' hM
      · simp only [if_neg hz] at hM ⊢
        have hM1 := hM _ List.mem_cons_self
        rw [← hN] at hM1
        obtain ⟨r', e, hr, hN', hm', q, ee, t, f, -⟩ := h.storeHist hm hM1
        have e2 : r.storeHist.2 = r' := by rw [e]
        rw [e2]
        obtain ⟨i1, i2, i3, i4, i5, i6, i7⟩ := ih c c r' hr (hN'.trans hN) hm' hS' fun i hi => hM i (List.mem_cons_of_mem _ hi)
        rw [hN] at q ee f
        refine ⟨i1, i2, i3, ?_, ?_, ?_, ?_⟩
        · rw [List.map_cons, Histogram.addAll, q]; exact i4
        · rw [List.map_cons, Histogram.addAll, ee]; exact i5
        · rw [List.map_cons, Histogram.addAll, t]; exact i6
        · rw [List.map_cons, Histogram.addAll, f]; exact i7

theorem Recording.fresh {c0 : CoolSystem} (hf : FreshSys c0) (n : ℕ) (h : CoolHist) :
    Recording c0 c0 { sys := c0, N := n, hist := h } := by
  refine ⟨?_, (sub_self _).symm, (sub_self _).symm, hf.2.2.symm⟩
  show c0 = c0.withE (c0.E - c0.E)
  rw [sub_self, ← hf.2.1]; rfl

theorem init_hist {c0 : CoolSystem} {n : ℕ} {r : CoolRec} (hr : CoolRec.init 1 c0 n = .ok r) :
    ∃ h, r = { sys := c0, N := n, hist := h } ∧ MadeHists h ∧ h.Q.bins = List.replicate 102 0 ∧
    h.flr.bins = List.replicate 102 0 ∧ h.E.bins = List.replicate 102 0 ∧ h.T.bins = List.replicate 102 0 := by
  obtain ⟨h, e, hm⟩ := initHist_ok
  unfold CoolRec.init at hr
  rw [if_pos rfl, e] at hr
  exact ⟨h, (Outcome.ok.inj hr).symm, hm⟩

/-- **C98.** With histograms, every recording interval – from one call to store data to the next, whatever happens and
however often the data is written in between – is counted exactly once in each of the four histograms: its mean cooling
power and mean fan power per cell, and temperature and flow per cell at its end. -/
theorem histogramsHoldIntervalMeans (c0 : CoolSystem) (n : ℕ) (r : CoolRec) (ops : List CRecOp) (hf : FreshSys c0)
    (hr : CoolRec.init 1 c0 n = .ok r) (hn : 0 < n) (hS : StoresFor n ops) (hM : Moderate n (intervals c0 c0 ops)) :
    Holds (runCRec 1 r ops).hist.Q 0 5 ((intervals c0 c0 ops).map fun i => meanQ i / n) ∧
    Holds (runCRec 1 r ops).hist.E 0 eRange ((intervals c0 c0 ops).map fun i => meanE i / n) ∧
    Holds (runCRec 1 r ops).hist.T 273 373 ((intervals c0 c0 ops).map fun i => i.2.T) ∧
    Holds (runCRec 1 r ops).hist.flr 0 (11 / 20000) ((intervals c0 c0 ops).map fun i => i.2.flowrate / n) := by
  obtain ⟨h, rfl, hm, z1, z2, z3, z4⟩ := init_hist hr
  obtain ⟨-, -, -, a1, a2, a3, a4⟩ := runHist n hn ops c0 c0 _ (Recording.fresh hf n h) rfl hm hS hM
  refine ⟨hm.Q.holds (by norm_num) z1 ?_ a1, hm.E.holds (by rw [eRange_eq]; norm_num) z3 ?_ a2,
    hm.T.holds (by norm_num) z4 ?_ a3, hm.flr.holds (by norm_num) z2 ?_ a4⟩
  all_goals
    intro x hx
    obtain ⟨i, hi, rfl⟩ := List.mem_map.mp hx
    have := hM i hi
  · exact this.1
  · exact this.2.1
  · exact this.2.2.1
  · exact this.2.2.2

/-- Two intervals of different powers. -/
private def ops98h : List CRecOp :=
  [.sys (.dstate 10 10 1), .store 2, .write true, .sys (.setT 300), .sys (.dstate 1 1 2), .store 2]

instance (lo hi : ℚ) (N : ℕ) (x : ℚ) : Decidable (NotHuge lo hi N x) := by unfold NotHuge; infer_instance
instance (n : ℕ) (is : List (CoolSystem × CoolSystem)) : Decidable (Moderate n is) := by unfold Moderate; infer_instance

example : FreshSys (make 2 1) ∧ StoresFor 2 ops98h ∧ Moderate 2 (intervals (make 2 1) (make 2 1) ops98h) ∧
    (intervals (make 2 1) (make 2 1) ops98h).map (fun i => meanQ i / (2 : ℕ)) = [5, 1 / 4] :=
  ⟨⟨rfl, rfl, rfl⟩, by intro k; simp [ops98h], by decide +kernel, by decide +kernel⟩

/-- **C99 (part that holds).** The histogram file gets the number of cells and the energy of the fan since data was last
stored (not since the start). -/
theorem printsTotalEnergy_partial (c0 : CoolSystem) (n : ℕ) (r r' : CoolRec) (ops : List CRecOp) (hf : FreshSys c0)
    (hr : CoolRec.init 1 c0 n = .ok r) (hn : 0 < n) (hS : StoresFor n ops) (hM : Moderate n (intervals c0 c0 ops))
    (hw : (runCRec 1 r ops).write 1 true = (.ok (), r')) :
    ∃ rest, r'.file = (runCRec 1 r ops).file ++
      [.num n, .nl, .num (fmt6 ((runPlain c0 ops).E - (intervalStart c0 c0 ops).E)), .nl] ++ rest := by
  obtain ⟨h, rfl, hm, -⟩ := init_hist hr
  obtain ⟨hR, hN, -⟩ := runHist n hn ops c0 c0 _ (Recording.fresh hf n h) rfl hm hS hM
  generalize runCRec 1 _ ops = s at *
  unfold CoolRec.write at hw
  rw [if_pos rfl, if_pos rfl] at hw
  cases ht : s.histText with
  | throw k => rw [ht] at hw; cases (Prod.mk.inj hw).1
  | ub e => rw [ht] at hw; cases (Prod.mk.inj hw).1
  | ok ts =>
    rw [ht] at hw
    obtain ⟨-, rfl⟩ := Prod.mk.inj hw
    have : ∃ rest, ts = [.num s.N, .nl, .num (fmt6 s.sys.E), .nl] ++ rest := by
      unfold CoolRec.histText at ht
      revert ht
      cases CoolRec.printHist s.hist.T <;> cases CoolRec.printHist s.hist.Q <;> cases CoolRec.printHist s.hist.flr <;>
        cases CoolRec.printHist s.hist.E <;> intro ht <;> cases ht
      exact ⟨_, rfl⟩
    obtain ⟨rest, rfl⟩ := this
    refine ⟨rest, ?_⟩
    have e : s.sys.E = (runPlain c0 ops).E - (intervalStart c0 c0 ops).E := by rw [hR.sys]; rfl
    rw [← e, hN, List.append_assoc]

private def ops99 : List CRecOp := [.sys (.dstate 0 0 1), .store 1]
private def rec99 : CoolRec := match CoolRec.init 1 (make 1 1) 1 with | .ok r => r | _ => { sys := make 1 1, N := 1 }

/-- **C99 is false of the code**: directly after data has been stored, the file says that the fan has used nothing. -/
theorem not_printsTotalEnergy : ¬ PrintsTotalEnergy := by
  intro h
  obtain ⟨rest, e⟩ := h (make 1 1) 1 rec99 ops99 ((runCRec 1 rec99 ops99).write 1 true).2 ⟨rfl, rfl, rfl⟩
    (by decide +kernel) (by norm_num) (by intro k; simp [ops99]) (by decide +kernel)
    (Prod.ext (by decide +kernel) rfl)
  have e1 := congrArg (fun l : List Tok => l[2]?) e
  have e2 : (((runCRec 1 rec99 ops99).write 1 true).2.file)[2]? = some (.num 0) := by decide +kernel
  have e3 : (runCRec 1 rec99 ops99).file = [] := by decide +kernel
  have e4 : fmt6 (runPlain (make 1 1) ops99).E = 49 / 200 := by decide +kernel
  rw [e2, e3, e4] at e1
  simp at e1
  norm_num at e1

/-! ## The air conditioning -/

/-- No call changes the (empty) recording of the air conditioning. -/
theorem run_ac (mode : ℕ) (r : CoolRec) (o : CRecOp) :
    (o.run mode r).acPoints = r.acPoints ∧ (o.run mode r).acHist = r.acHist := by
  cases o with
  | sys o =>
    cases o with
    | dstate a b t =>
      show (r.dstate a b t).2.acPoints = _ ∧ (r.dstate a b t).2.acHist = _
      unfold CoolRec.dstate
      split <;> exact ⟨rfl, rfl⟩
    | _ => exact ⟨rfl, rfl⟩
  | store k =>
    show (r.store mode k).2.acPoints = _ ∧ (r.store mode k).2.acHist = _
    have hh : r.storeHist.2.acPoints = r.acPoints ∧ r.storeHist.2.acHist = r.acHist := by
      unfold CoolRec.storeHist
      dsimp only
      split <;> exact ⟨rfl, rfl⟩
    unfold CoolRec.store CoolRec.storeAC CoolRec.storeFan
    split_ifs <;> first | exact hh | exact ⟨rfl, rfl⟩
  | write b =>
    show (r.write mode b).2.acPoints = _ ∧ (r.write mode b).2.acHist = _
    unfold CoolRec.write
    split_ifs
    · split <;> exact ⟨rfl, rfl⟩
    all_goals exact ⟨rfl, rfl⟩

/-- **C99 (what the code does).** Nothing is ever recorded of the air conditioning, in any mode. -/
theorem ac_never_recorded (mode : ℕ) (c0 : CoolSystem) (n : ℕ) (r : CoolRec) (ops : List CRecOp)
    (hr : CoolRec.init mode c0 n = .ok r) : (runCRec mode r ops).acPoints = [] ∧ (runCRec mode r ops).acHist = {} := by
  have h0 : r.acPoints = [] ∧ r.acHist = {} := by
    unfold CoolRec.init at hr
    split_ifs at hr
    · cases hi : CoolRec.initHist with
      | ok h => rw [hi] at hr; cases hr; exact ⟨rfl, rfl⟩
      | throw k => rw [hi] at hr; cases hr
      | ub s => rw [hi] at hr; cases hr
    · cases hr; exact ⟨rfl, rfl⟩
  clear hr
  induction ops generalizing r with
  | nil => exact h0
  | cons o ops ih =>
    have := run_ac mode r o
    exact ih _ ⟨this.1.trans h0.1, this.2.trans h0.2⟩

private def hvac99 : CoolSystem := match makeHVAC 1 1 0 with | .ok c => c | _ => make 1 1

/-- **C99 is false of the code**: data points of the fan, none of the air conditioning. -/
theorem not_acPointsRecorded : ¬ ACPointsRecorded := by
  intro h
  have := h hvac99 1 { sys := hvac99, N := 1 } ops99 ⟨rfl, rfl, rfl⟩ (by decide +kernel) rfl (by simp [ops99])
  revert this
  decide +kernel

/-- **C99 is false of the code**: the histogram of the air conditioning in the check-up document is empty. -/
theorem not_acHistogramsRecorded : ¬ ACHistogramsRecorded := by
  intro h
  have := h hvac99 1 (match CoolRec.init 1 hvac99 1 with | .ok r => r | _ => { sys := hvac99, N := 1 }) ops99
    ⟨rfl, rfl, rfl⟩ (by decide +kernel) (by decide +kernel) (by norm_num) (by intro k; simp [ops99]) (by decide +kernel)
    Histogram.default (by decide +kernel)
  revert this
  decide +kernel

/-- The numbers in a text. -/
def Tok.numbers (ts : List Tok) : List ℚ := ts.filterMap fun t => match t with | .num x => some x | _ => none

theorem numbers_list (xs : List ℚ) : Tok.numbers (xs.flatMap fun x => [.num x, .comma]) = xs := by
  induction xs with
  | nil => rfl
  | cons x xs ih =>
    unfold Tok.numbers at ih ⊢
    rw [List.flatMap_cons, List.filterMap_append, ih]
    rfl

/-- **C99.** A histogram in a file consists of all its edges and all its counts, in this order. -/
theorem printHist_numbers (h : Histogram) (ts : List Tok) (ht : CoolRec.printHist h = .ok ts) :
    ∃ es, h.edges = .ok es ∧ Tok.numbers ts = es.map fmt6 ++ h.bins.map fun (b : ℕ) => (b : ℚ) := by
  unfold CoolRec.printHist at ht
  cases he : h.edges with
  | throw k => rw [he] at ht; cases ht
  | ub s => rw [he] at ht; cases ht
  | ok es =>
    rw [he] at ht
    have ht := Outcome.ok.inj ht
    refine ⟨es, rfl, ?_⟩
    rw [← ht]
    have e1 : (es.flatMap fun x => [Tok.num (fmt6 x), Tok.comma]) = (es.map fmt6).flatMap fun x => [.num x, .comma] := by
      rw [List.flatMap_map]
    have e2 : (h.bins.flatMap fun (b : ℕ) => [Tok.num (b : ℚ), Tok.comma]) =
        (h.bins.map fun (b : ℕ) => (b : ℚ)).flatMap fun x => [.num x, .comma] := by rw [List.flatMap_map]
    rw [e1, e2]
    have n1 := numbers_list (es.map fmt6)
    have n2 := numbers_list (h.bins.map fun (b : ℕ) => (b : ℚ))
    unfold Tok.numbers at n1 n2 ⊢
    simp only [List.filterMap_append, n1, n2]
    simp

/-- **C99.** What the histogram file of a cooling system gets: the number of cells, the energy of the fan, and the complete histograms of
temperature, heat, flow rate and energy, in this order. -/
theorem histText_numbers (c : CoolRec) (ts : List Tok) (ht : c.histText = .ok ts) :
    ∃ eT eQ eF eE, c.hist.T.edges = .ok eT ∧ c.hist.Q.edges = .ok eQ ∧ c.hist.flr.edges = .ok eF ∧ c.hist.E.edges = .ok eE ∧
      Tok.numbers ts = [(c.N : ℚ), fmt6 c.sys.E] ++ (eT.map fmt6 ++ c.hist.T.bins.map fun (b : ℕ) => (b : ℚ)) ++
        (eQ.map fmt6 ++ c.hist.Q.bins.map fun (b : ℕ) => (b : ℚ)) ++ (eF.map fmt6 ++ c.hist.flr.bins.map fun (b : ℕ) => (b : ℚ)) ++
        (eE.map fmt6 ++ c.hist.E.bins.map fun (b : ℕ) => (b : ℚ)) := by
  unfold CoolRec.histText at ht
  cases h1 : CoolRec.printHist c.hist.T with
  | throw k => rw [h1] at ht; cases ht
  | ub s => rw [h1] at ht; cases ht
  | ok t1 =>
  cases h2 : CoolRec.printHist c.hist.Q with
  | throw k => rw [h1, h2] at ht; cases ht
  | ub s => rw [h1, h2] at ht; cases ht
  | ok t2 =>
  cases h3 : CoolRec.printHist c.hist.flr with
  | throw k => rw [h1, h2, h3] at ht; cases ht
  | ub s => rw [h1, h2, h3] at ht; cases ht
  | ok t3 =>
  cases h4 : CoolRec.printHist c.hist.E with
  | throw k => rw [h1, h2, h3, h4] at ht; cases ht
  | ub s => rw [h1, h2, h3, h4] at ht; cases ht
  | ok t4 =>
  rw [h1, h2, h3, h4] at ht
  have ht := Outcome.ok.inj ht
  obtain ⟨eT, a1, b1⟩ := printHist_numbers _ _ h1
  obtain ⟨eQ, a2, b2⟩ := printHist_numbers _ _ h2
  obtain ⟨eF, a3, b3⟩ := printHist_numbers _ _ h3
  obtain ⟨eE, a4, b4⟩ := printHist_numbers _ _ h4
  refine ⟨eT, eQ, eF, eE, a1, a2, a3, a4, ?_⟩
  rw [← ht, ← b1, ← b2, ← b3, ← b4]
  unfold Tok.numbers
  simp only [List.filterMap_append]
  simp

/-- Non-vacuity of `histText_numbers`. -/
example : ∃ c ts, CoolRec.init 1 (make 1 1) 1 = .ok c ∧ c.histText = .ok ts := by
  have key : (match CoolRec.init 1 (make 1 1) 1 with | .ok c => (match c.histText with | .ok _ => true | _ => false) | _ => false) = true := by
    decide +kernel
  cases h : CoolRec.init 1 (make 1 1) 1 with
  | ok c =>
    rw [h] at key
    replace key : (match c.histText with | .ok _ => true | _ => false) = true := key
    cases ht : c.histText with
    | ok ts => exact ⟨c, ts, rfl, ht⟩
    | throw k => rw [ht] at key; cases key
    | ub s => rw [ht] at key; cases key
  | throw k => rw [h] at key; cases key
  | ub s => rw [h] at key; cases key
end Slide

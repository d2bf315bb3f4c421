import Verif.Spec.OcvFit
import Verif.Props.Interp
import Verif.Tac

/-! C77: valid OCV curves; C78: the error of a set of OCV parameters; C79: the search for the best ones. -/

namespace Slide.OcvFit
open Spec Interp

/-! ### C77: validOCV -/

theorem validStep_ok (c : Curve) (hl : c.x.length = c.y.length) (i : ℕ) (hi : i < c.y.length) (s : Bool × Bool × Bool) :
    validStep c i s = .ok
      (if h : 0 < i then decide (c.x[i]'(by omega) ≤ c.x[i-1]'(by omega)) else s.1,
       s.2.1 || (if h : 0 < i then decide (c.x[i]'(by omega) ≤ c.x[i-1]'(by omega)) else s.1),
       s.2.2 || decide (c.y[i] < 0 ∨ c.y[i] > 10)) := by
  unfold validStep
  by_cases h : 0 < i
  · simp only [gt_iff_lt, if_pos h, dif_pos h]
    rw [readAt_of_lt (show i < c.x.length by omega), readAt_of_lt (show i - 1 < c.x.length by omega), readAt_of_lt hi]
    rfl
  · simp only [gt_iff_lt, if_neg h, dif_neg h]
    rw [readAt_of_lt hi]
    rfl

theorem validLoop_ok (c : Curve) (hl : c.x.length = c.y.length) (n i : ℕ) (hn : i + n = c.y.length)
    (s : Bool × Bool × Bool) (hs : i = 0 → s.1 = false) :
    ∃ r, validLoop c n i s = .ok r ∧
      (r.2.1 = false ↔ s.2.1 = false ∧ ∀ j, i ≤ j → 0 < j → ∀ h : j < c.x.length, c.x[j-1]'(by omega) < c.x[j]) ∧
      (r.2.2 = false ↔ s.2.2 = false ∧ ∀ j, i ≤ j → ∀ h : j < c.y.length, 0 ≤ c.y[j] ∧ c.y[j] ≤ 10) := by
  induction n generalizing i s with
  | zero =>
    refine ⟨s, rfl, ?_, ?_⟩
    · exact ⟨fun h => ⟨h, fun j h1 _ h2 => absurd h2 (by omega)⟩, fun h => h.1⟩
    · exact ⟨fun h => ⟨h, fun j h1 h2 => absurd h2 (by omega)⟩, fun h => h.1⟩
  | succ n ih =>
    have hi : i < c.y.length := by omega
    obtain ⟨r, h1, h2, h3⟩ := ih (i + 1) (by omega)
      (hs := fun h => absurd h (by omega))
      (s := (if h : 0 < i then decide (c.x[i]'(by omega) ≤ c.x[i-1]'(by omega)) else s.1,
       s.2.1 || (if h : 0 < i then decide (c.x[i]'(by omega) ≤ c.x[i-1]'(by omega)) else s.1),
       s.2.2 || decide (c.y[i] < 0 ∨ c.y[i] > 10)))
    refine ⟨r, ?_, ?_, ?_⟩
    · rw [validLoop, validStep_ok c hl i hi]; exact h1
    · rw [h2]
      constructor
      · rintro ⟨a, b⟩
        simp only [Bool.or_eq_false_iff] at a
        refine ⟨a.1, fun j hj hj0 hjl => ?_⟩
        rcases Nat.eq_or_lt_of_le hj with rfl | hj
        · have := a.2
          rw [dif_pos hj0, decide_eq_false_iff_not] at this
          exact not_le.mp this
        · exact b j hj hj0 hjl
      · rintro ⟨a, b⟩
        simp only [Bool.or_eq_false_iff]
        refine ⟨⟨a, ?_⟩, fun j hj hj0 hjl => b j (by omega) hj0 hjl⟩
        by_cases h0 : 0 < i
        · rw [dif_pos h0, decide_eq_false_iff_not, not_le]; exact b i le_rfl h0 (by omega)
        · rw [dif_neg h0]; exact hs (by omega)
    · rw [h3]
      constructor
      · rintro ⟨a, b⟩
        simp only [Bool.or_eq_false_iff, decide_eq_false_iff_not, not_or, not_lt, gt_iff_lt] at a
        refine ⟨a.1, fun j hj hjl => ?_⟩
        rcases Nat.eq_or_lt_of_le hj with rfl | hj
        · exact a.2
        · exact b j hj hjl
      · rintro ⟨a, b⟩
        simp only [Bool.or_eq_false_iff, decide_eq_false_iff_not, not_or, not_lt, gt_iff_lt]
        exact ⟨⟨a, b i le_rfl hi⟩, fun j hj hjl => b j (by omega) hjl⟩

theorem pairwise_iff_steps (xs : List ℚ) :
    xs.Pairwise (· < ·) ↔ ∀ j, 0 < j → ∀ h : j < xs.length, xs[j-1]'(by omega) < xs[j] := by
  constructor
  · intro h j hj hl
    exact (List.pairwise_iff_getElem.mp h) (j - 1) j (by omega) hl (by omega)
  · intro h
    rw [List.pairwise_iff_getElem]
    intro i j hi hj hij
    induction j with
    | zero => omega
    | succ j ih =>
      have := h (j + 1) (by omega) hj
      simp only [Nat.add_sub_cancel] at this
      rcases Nat.eq_or_lt_of_le (show i ≤ j by omega) with rfl | h'
      · exact this
      · exact lt_trans (ih (by omega) h') this

/-- **C77.** For every curve with at least one row, `validOCV` is defined and accepts exactly the curves of the documented
format. -/
theorem validOCV_spec (full : Bool) (c : Curve) (hl : c.x.length = c.y.length) (hne : c.x ≠ []) :
    ∃ b, validOCV full c = .ok b ∧ (b = true ↔ ValidCurve full c) := by
  have hpos : 0 < c.x.length := List.length_pos_iff.mpr hne
  obtain ⟨r, h1, h2, h3⟩ := validLoop_ok c hl c.y.length 0 (by omega) (false, false, false) (fun _ => rfl)
  refine ⟨(if full then decide (|c.x[0]| < 1/100000 ∧ |c.x[c.x.length - 1]'(by omega) - 1| < 1/100000)
      else decide (|c.x[0]| < 1/100000)) && !r.2.1 && !r.2.2, ?_, ?_⟩
  · unfold validOCV
    rw [readAt_of_lt hpos, readAt_of_lt (show c.x.length - 1 < c.x.length by omega), h1]
    rfl
  · have hhead : c.x.head? = some (c.x[0]'hpos) := by rw [List.head?_eq_getElem?]; exact List.getElem?_eq_getElem hpos
    have hlast : c.x.getLast? = some (c.x[c.x.length - 1]'(by omega)) := by
      rw [List.getLast?_eq_getElem?]; exact List.getElem?_eq_getElem _
    simp only [Bool.and_eq_true, Bool.not_eq_true', h2, h3, true_and]
    constructor
    · rintro ⟨⟨hr, hs⟩, hv⟩
      refine ⟨(pairwise_iff_steps _).mpr fun j hj hl' => hs j (Nat.zero_le _) hj hl', ?_, ?_, ?_⟩
      · intro a ha
        rw [hhead] at ha
        cases ha
        cases full
        · simpa using hr
        · have hr := of_decide_eq_true hr; exact hr.1
      · rintro rfl a ha
        rw [hlast] at ha
        cases ha
        exact (of_decide_eq_true hr).2
      · intro v hv'
        obtain ⟨j, hj, rfl⟩ := List.mem_iff_getElem.mp hv'
        exact hv j (Nat.zero_le _) hj
    · rintro ⟨hp, hs, ht, hv⟩
      refine ⟨⟨?_, fun j _ hj hl' => (pairwise_iff_steps _).mp hp j hj hl'⟩,
        fun j _ hj => hv _ (List.getElem_mem _)⟩
      have h0 := hs _ hhead
      cases full
      · simpa using h0
      · have h1 := ht rfl _ hlast
        simp
        exact ⟨by simpa using h0, by simpa using h1⟩

/-- **C77.** The input files are accepted exactly if all three have the documented format; otherwise 10000 is thrown. -/
theorem checkInput_spec (p n cell : Curve) (hp : p.x.length = p.y.length ∧ p.x ≠ []) (hn : n.x.length = n.y.length ∧ n.x ≠ [])
    (hc : cell.x.length = cell.y.length ∧ cell.x ≠ []) :
    (ValidCurve true p ∧ ValidCurve true n ∧ ValidCurve false cell → checkInput p n cell = .ok ()) ∧
      (¬ (ValidCurve true p ∧ ValidCurve true n ∧ ValidCurve false cell) → checkInput p n cell = .throw 10000) := by
  obtain ⟨b1, e1, i1⟩ := validOCV_spec true p hp.1 hp.2
  obtain ⟨b2, e2, i2⟩ := validOCV_spec true n hn.1 hn.2
  obtain ⟨b3, e3, i3⟩ := validOCV_spec false cell hc.1 hc.2
  rw [← i1, ← i2, ← i3]
  unfold checkInput
  rw [e1, e2, e3]
  cases b1 <;> cases b2 <;> cases b3 <;> simp

/-- An empty file is undefined behaviour. -/
theorem validOCV_empty (full : Bool) (y : List ℚ) : ∃ w, validOCV full ⟨[], y⟩ = .ub w := ⟨_, rfl⟩

example : validOCV true ⟨[0, 1/2, 1], [4, 3, 2]⟩ = .ok true ∧ validOCV true ⟨[0, 1/2, 1/2, 1], [4, 3, 3, 2]⟩ = .ok false ∧
    validOCV false ⟨[0, 1/2, 3], [4, 3, 11]⟩ = .ok false := by decide +kernel

/-! ### C78: the cost of a set of parameters -/

theorem look_in (c : Curve) (ht : Table c) (s : ℚ) (bound : Bool) (h : InTable c s) :
    ∃ y, c.look bound s = .ok (y, 0) ∧ OnPolygon c.x c.y s y := by
  have hpos : 0 < c.x.length := List.length_pos_iff.mpr ht.ne
  obtain ⟨⟨a, ha, has⟩, b, hb, hbs⟩ := h
  have mono : ∀ i j (hi : i < c.x.length) (hj : j < c.x.length), i ≤ j → c.x[i] ≤ c.x[j] := by
    intro i j hi hj hij
    rcases Nat.eq_or_lt_of_le hij with rfl | h
    · exact le_rfl
    · exact (List.pairwise_iff_getElem.mp ht.increasing i j hi hj h).le
  obtain ⟨i, hi, rfl⟩ := List.mem_iff_getElem.mp ha
  obtain ⟨j, hj, rfl⟩ := List.mem_iff_getElem.mp hb
  obtain ⟨y, h1, h2⟩ := linInt_search_onPolygon bound c.x c.y s ht.length hpos ht.increasing
    ((mono 0 i hpos hi (Nat.zero_le _)).trans has) (hbs.trans (mono j _ hj (by omega) (by omega)))
  refine ⟨y, ?_, h2⟩
  unfold Curve.look
  rw [if_pos ht.length]
  unfold linInt at h1
  obtain ⟨⟨y', st⟩, h3, h4⟩ := Outcome.bind_eq_ok.mp h1
  simp only at h4
  by_cases hst : st = 0
  · subst hst
    rw [if_neg (by simp)] at h4
    have : y' = y := Outcome.ok.inj h4
    rw [h3, this]
  · rw [if_pos hst] at h4; cases h4

theorem look_out (c : Curve) (ht : Table c) (s : ℚ) (h : ¬ InTable c s) :
    ∃ st, st ≠ 0 ∧ c.look true s = .ok (0, st) := by
  have hpos : 0 < c.x.length := List.length_pos_iff.mpr ht.ne
  have hle : c.x[0] ≤ c.x[c.x.length - 1]'(by omega) := by
    rcases Nat.eq_or_lt_of_le (show 0 ≤ c.x.length - 1 by omega) with h | h
    · simp only [← h]; exact le_rfl
    · exact (List.pairwise_iff_getElem.mp ht.increasing _ _ _ _ h).le
  obtain ⟨h1, h2⟩ := linInt_outside c.x c.y false s hpos hle
  unfold Curve.look
  rw [if_pos ht.length]
  by_cases hlo : s < c.x[0]
  · exact ⟨-1, by decide, (h1 hlo).2⟩
  · by_cases hhi : c.x[c.x.length - 1]'(by omega) < s
    · exact ⟨1, by decide, (h2 hhi).2⟩
    · exact absurd ⟨⟨_, List.getElem_mem _, not_lt.mp hlo⟩, _, List.getElem_mem _, not_lt.mp hhi⟩ h

theorem voltage_spec (c : Cell) (hp : Table c.p) (hn : Table c.n) (sp sn : ℚ) :
    ∃ v, voltage c sp sn = .ok v ∧ IsVoltage c sp sn v := by
  unfold voltage
  by_cases h1 : InTable c.p sp
  · obtain ⟨vp, e1, o1⟩ := look_in c.p hp sp true h1
    by_cases h2 : InTable c.n sn
    · obtain ⟨vn, e2, o2⟩ := look_in c.n hn sn true h2
      refine ⟨vp - vn, ?_, Or.inl ⟨h1, h2, vp, vn, o1, o2, rfl⟩⟩
      rw [e1, e2]; rfl
    · obtain ⟨st, hst, e2⟩ := look_out c.n hn sn h2
      refine ⟨0, ?_, Or.inr ⟨fun h => h2 h.2, rfl⟩⟩
      rw [e1, e2]
      simp only [Outcome.ok_bind]
      rw [if_pos (Or.inr hst)]; rfl
  · obtain ⟨st, hst, e1⟩ := look_out c.p hp sp h1
    refine ⟨0, ?_, Or.inr ⟨fun h => h1 h.1, rfl⟩⟩
    by_cases h2 : InTable c.n sn
    · obtain ⟨vn, e2, o2⟩ := look_in c.n hn sn true h2
      rw [e1, e2]
      simp only [Outcome.ok_bind]
      rw [if_pos (Or.inl hst)]; rfl
    · obtain ⟨st', hst', e2⟩ := look_out c.n hn sn h2
      rw [e1, e2]
      simp only [Outcome.ok_bind]
      rw [if_pos (Or.inl hst)]; rfl

theorem costLoop_spec (c : Cell) (hp : Table c.p) (hn : Table c.n)
    (h0 : c.AMp ≠ 0 ∧ c.AMn ≠ 0 ∧ c.cmaxp ≠ 0 ∧ c.cmaxn ≠ 0) (Vend sp sn : ℚ) (hV : 0 ≤ Vend) (xs ys : List ℚ)
    (hl : xs.length = ys.length) (s : CostState)
    (hs : s.sp = fracP c sp s.Ah ∧ s.sn = fracN c sn s.Ah) :
    ∃ s' vs, costLoop c Vend (xs.zip ys) s = .ok s' ∧ Predicted c Vend sp sn (s.stop = true) xs vs ∧
      s'.err = s.err + squares ys vs := by
  obtain ⟨a1, a2, a3, a4⟩ := h0
  have hF : F ≠ 0 := by unfold F; norm_num
  induction xs generalizing ys s with
  | nil =>
    cases ys with
    | nil => exact ⟨s, [], rfl, .nil _, by simp [squares]⟩
    | cons y ys => simp at hl
  | cons x xs ih =>
    cases ys with
    | nil => simp at hl
    | cons y ys =>
      have hl' : xs.length = ys.length := by simpa using hl
      by_cases hst : s.stop = true
      · obtain ⟨s', vs, e1, e2, e3⟩ := ih ys hl'
          { s with
            err := s.err + (y - 0) * (y - 0)
            stop := decide (0 ≤ Vend ∨ s.sp < 0 ∨ s.sp > 1 ∨ s.sn < 0 ∨ s.sn > 1) } hs
        refine ⟨s', 0 :: vs, ?_, .ended _ _ _ _ hst ?_, ?_⟩
        · rw [List.zip_cons_cons, costLoop, costStep, if_pos hst]; exact e1
        · have : (decide (0 ≤ Vend ∨ s.sp < 0 ∨ s.sp > 1 ∨ s.sn < 0 ∨ s.sn > 1) = true) = (s.stop = true) := by
            rw [hst]; simp [hV]
          simp only [this] at e2
          exact e2
        · rw [e3]; simp only [squares, List.zipWith_cons_cons, List.sum_cons]; ring
      · obtain ⟨v, v1, v2⟩ := voltage_spec c hp hn (fracP c sp x) (fracN c sn x)
        have ep : s.sp + (x - s.Ah) * 3600 / F / c.AMp / c.cmaxp = fracP c sp x := by
          rw [hs.1]; unfold fracP; field_simp; ring
        have en : s.sn - (x - s.Ah) * 3600 / F / c.AMn / c.cmaxn = fracN c sn x := by
          rw [hs.2]; unfold fracN; field_simp; ring
        obtain ⟨s', vs, e1, e2, e3⟩ := ih ys hl'
          { Ah := x
            sp := fracP c sp x
            sn := fracN c sn x
            err := s.err + (y - v) * (y - v)
            stop := decide (v ≤ Vend ∨ fracP c sp x < 0 ∨ fracP c sp x > 1 ∨ fracN c sn x < 0 ∨ fracN c sn x > 1) }
          ⟨rfl, rfl⟩
        refine ⟨s', v :: vs, ?_, .running _ _ _ _ _ hst v2 ?_, ?_⟩
        · rw [List.zip_cons_cons, costLoop, costStep, if_neg hst]
          simp only
          rw [ep, en, v1]
          exact e1
        · simp only [decide_eq_true_eq] at e2
          exact e2
        · rw [e3]; simp only [squares, List.zipWith_cons_cons, List.sum_cons]; ring

/-- **C78.** The cost of a set of parameters is the sum of the squared differences between the measured voltages and the
voltages that the two electrodes have after exchanging exactly the measured charge. -/
theorem cost_spec (c : Cell) (hp : Table c.p) (hn : Table c.n)
    (h0 : c.AMp ≠ 0 ∧ c.AMn ≠ 0 ∧ c.cmaxp ≠ 0 ∧ c.cmaxn ≠ 0) (sp sn : ℚ) (cell : Curve)
    (hl : cell.x.length = cell.y.length) (Vend : ℚ) (hV : cell.y.getLast? = some Vend) (hV0 : 0 ≤ Vend) :
    ∃ vs, cost c sp sn cell = .ok (squares cell.y vs) ∧ vs.length = cell.y.length ∧
      Predicted c Vend sp sn False cell.x vs := by
  obtain ⟨s', vs, e1, e2, e3⟩ := costLoop_spec c hp hn h0 Vend sp sn hV0 cell.x cell.y hl ⟨0, sp, sn, false, 0⟩
    ⟨by simp [fracP], by simp [fracN]⟩
  have hlen : ∀ b xs vs, Predicted c Vend sp sn b xs vs → vs.length = xs.length := by
    intro b xs vs h
    induction h with
    | nil => rfl
    | ended _ _ _ _ _ _ ih => simp [ih]
    | running _ _ _ _ _ _ _ _ ih => simp [ih]
  refine ⟨vs, ?_, by rw [hlen _ _ _ e2, hl], by simpa using e2⟩
  have hne : 0 < cell.y.length := by
    cases h : cell.y with
    | nil => rw [h] at hV; simp at hV
    | cons a l => simp
  have hV' : readAt cell.y (cell.y.length - 1) = .ok Vend := by
    rw [readAt_of_lt (by omega)]
    rw [List.getLast?_eq_getElem?, List.getElem?_eq_getElem (by omega)] at hV
    exact congrArg _ (Option.some.inj hV)
  unfold cost
  rw [if_neg (by rintro (h | h | h | h) <;> [exact h0.1 h; exact h0.2.1 h; exact h0.2.2.1 h; exact h0.2.2.2 h]),
    if_neg (by simpa using hl), hV']
  simp only [Outcome.ok_bind]
  rw [e1]
  simp only [Outcome.ok_bind]
  rw [e3]
  simp

theorem squares_nonneg (ys vs : List ℚ) : 0 ≤ squares ys vs := by
  unfold squares
  apply List.sum_nonneg
  intro x hx
  obtain ⟨i, hi, rfl⟩ := List.mem_iff_getElem.mp hx
  rw [List.getElem_zipWith]
  exact sq_nonneg _

theorem squares_eq_zero (ys vs : List ℚ) (hl : ys.length = vs.length) : squares ys vs = 0 ↔ ys = vs := by
  induction ys generalizing vs with
  | nil => cases vs <;> simp_all [squares]
  | cons y ys ih =>
    cases vs with
    | nil => simp at hl
    | cons v vs =>
      have h := ih vs (by simpa using hl)
      have e : squares (y :: ys) (v :: vs) = (y - v) ^ 2 + squares ys vs := by simp [squares]
      rw [e]
      constructor
      · intro h0
        have a := sq_nonneg (y - v)
        have b := squares_nonneg ys vs
        have h1 : (y - v) ^ 2 = 0 := by linarith
        have h2 : squares ys vs = 0 := by linarith
        rw [h.mp h2, sub_eq_zero.mp (pow_eq_zero_iff (two_ne_zero)|>.mp h1)]
      · intro h0
        have h1 : y = v ∧ ys = vs := by simpa using h0
        rw [h1.1, h.mpr h1.2]; ring

/-- **C78.** The cost is never negative, and it is 0 exactly if every measured voltage is the predicted one. -/
theorem cost_zero_iff (c : Cell) (hp : Table c.p) (hn : Table c.n)
    (h0 : c.AMp ≠ 0 ∧ c.AMn ≠ 0 ∧ c.cmaxp ≠ 0 ∧ c.cmaxn ≠ 0) (sp sn : ℚ) (cell : Curve)
    (hl : cell.x.length = cell.y.length) (Vend : ℚ) (hV : cell.y.getLast? = some Vend) (hV0 : 0 ≤ Vend) :
    ∃ e, cost c sp sn cell = .ok e ∧ 0 ≤ e ∧ (e = 0 ↔ Predicted c Vend sp sn False cell.x cell.y) := by
  obtain ⟨vs, h1, h2, h3⟩ := cost_spec c hp hn h0 sp sn cell hl Vend hV hV0
  refine ⟨_, h1, squares_nonneg _ _, ?_⟩
  rw [squares_eq_zero _ _ h2.symm]
  constructor
  · intro h; rw [h]; exact h3
  · intro h
    have huniq : ∀ b xs vs vs', Predicted c Vend sp sn b xs vs → Predicted c Vend sp sn b xs vs' → vs = vs' := by
      intro b xs vs vs' h
      induction h generalizing vs' with
      | nil => intro h'; cases h'; rfl
      | ended b q qs vs hb _ ih =>
        intro h'
        cases h' with
        | ended _ _ _ vs' _ h' => rw [ih _ h']
        | running _ _ _ _ _ hb' => exact absurd hb hb'
      | running b q v qs vs hb hv _ ih =>
        intro h'
        cases h' with
        | ended _ _ _ _ hb' _ => exact absurd hb' hb
        | running _ _ v' _ vs' _ hv' h' =>
          have : v = v' := by
            rcases hv with ⟨i1, i2, vp, vn, o1, o2, rfl⟩ | ⟨i, rfl⟩ <;>
              rcases hv' with ⟨j1, j2, vp', vn', o1', o2', rfl⟩ | ⟨j, rfl⟩
            · rw [onPolygon_unique _ _ hp.increasing o1 o1', onPolygon_unique _ _ hn.increasing o2 o2']
            · exact absurd ⟨i1, i2⟩ j
            · exact absurd ⟨j1, j2⟩ i
            · rfl
          subst this
          rw [ih _ h']
    exact huniq _ _ _ _ h h3

/-- **C78, recovery.** A curve that was measured on a cell with the parameters `sp, sn, AMp, AMn` (fractions between 0 and
1 all the time, the voltage above its final value until the end) has cost 0. -/
theorem cost_recovers (c : Cell) (hp : Table c.p) (hn : Table c.n)
    (h0 : c.AMp ≠ 0 ∧ c.AMn ≠ 0 ∧ c.cmaxp ≠ 0 ∧ c.cmaxn ≠ 0) (sp sn : ℚ) (xs ys : List ℚ) (x Vend : ℚ)
    (hl : xs.length = ys.length) (hV0 : 0 ≤ Vend)
    (hy : ∀ i (h : i < xs.length), IsVoltage c (fracP c sp xs[i]) (fracN c sn xs[i]) (ys[i]'(hl ▸ h)) ∧
      ¬ Stops Vend (fracP c sp xs[i]) (fracN c sn xs[i]) (ys[i]'(hl ▸ h)))
    (hlast : IsVoltage c (fracP c sp x) (fracN c sn x) Vend) :
    cost c sp sn ⟨xs ++ [x], ys ++ [Vend]⟩ = .ok 0 := by
  obtain ⟨e, h1, -, h3⟩ := cost_zero_iff c hp hn h0 sp sn ⟨xs ++ [x], ys ++ [Vend]⟩ (by simp [hl]) Vend (by simp) hV0
  have : Predicted c Vend sp sn False (xs ++ [x]) (ys ++ [Vend]) := by
    clear h1 h3
    induction xs generalizing ys with
    | nil =>
      cases ys with
      | nil => exact .running _ _ _ _ _ id hlast (.nil _)
      | cons => simp at hl
    | cons a xs ih =>
      cases ys with
      | nil => simp at hl
      | cons b ys =>
        have ha := hy 0 (by simp)
        simp only [List.getElem_cons_zero] at ha
        refine .running _ _ _ _ _ id ha.1 ?_
        rw [show Stops Vend (fracP c sp a) (fracN c sn a) b = False from propext ⟨ha.2, False.elim⟩]
        refine ih ys (by simpa using hl) fun i h => ?_
        have := hy (i + 1) (by simpa using h)
        simpa using this
  rw [h1, h3.mpr this]

/-- Two electrodes, a cell of 1 Ah. -/
def cellA : Cell :=
  { p := ⟨[0, 1], [5, 4]⟩, n := ⟨[0, 1], [1, 0]⟩, AMp := 3600 / F, AMn := 3600 / F, cmaxp := 2, cmaxn := 2 }

/-- The curve of this cell from the fractions 1/4 and 3/4, cost 0; with other fractions the cost is positive. -/
example : cost cellA (1/4) (3/4) ⟨[0, 1/2, 1], [9/2, 4, 7/2]⟩ = .ok 0 ∧
    cost cellA (1/4) (1/2) ⟨[0, 1/2, 1], [9/2, 4, 7/2]⟩ = .ok (3/16) := by decide +kernel

/-! ### C79: the search -/

theorem scan_spec (f : Par → Outcome ℚ) (l : List Par) (s : Par × ℚ) (h : ∀ q ∈ l, ∃ c, f q = .ok c) :
    ∃ r, scan f l s = .ok r ∧ r.2 ≤ s.2 ∧ (∀ q ∈ l, ∃ c, f q = .ok c ∧ r.2 ≤ c) ∧
      (r = s ∨ r.1 ∈ l ∧ f r.1 = .ok r.2) := by
  induction l generalizing s with
  | nil => exact ⟨s, rfl, le_rfl, by simp, Or.inl rfl⟩
  | cons q l ih =>
    obtain ⟨c, hc⟩ := h q (by simp)
    obtain ⟨r, h1, h2, h3, h4⟩ := ih (if c < s.2 then (q, c) else s) (fun q' hq' => h q' (by simp [hq']))
    refine ⟨r, ?_, ?_, ?_, ?_⟩
    · rw [scan, hc]; exact h1
    · refine h2.trans ?_
      split_ifs with hlt
      · exact hlt.le
      · exact le_rfl
    · intro q' hq'
      rcases List.mem_cons.mp hq' with rfl | hq'
      · refine ⟨c, hc, h2.trans ?_⟩
        split_ifs with hlt
        · exact le_rfl
        · exact not_lt.mp hlt
      · exact h3 q' hq'
    · rcases h4 with h4 | h4
      · split_ifs at h4 with hlt
        · right; rw [h4]; exact ⟨by simp, hc⟩
        · exact Or.inl h4
      · exact Or.inr ⟨by simp [h4.1], h4.2⟩

theorem squares_lt (ys vs : List ℚ) (hl : ys.length = vs.length) (hy : ∀ y ∈ ys, 0 ≤ y ∧ y ≤ 10)
    (hv : ∀ v ∈ vs, -10 ≤ v ∧ v ≤ 10) : squares ys vs ≤ 400 * ys.length := by
  induction ys generalizing vs with
  | nil => simp [squares]
  | cons y ys ih =>
    cases vs with
    | nil => simp at hl
    | cons v vs =>
      have h := ih vs (by simpa using hl) (fun y h => hy y (by simp [h])) (fun v h => hv v (by simp [h]))
      have e : squares (y :: ys) (v :: vs) = (y - v) ^ 2 + squares ys vs := by simp [squares]
      have a := hy y (by simp)
      have b := hv v (by simp)
      rw [e]
      push_cast [List.length_cons]
      nlinarith

theorem onPolygon_range (c : Curve) (hc : ∀ v ∈ c.y, 0 ≤ v ∧ v ≤ 10) (s v : ℚ) (h : OnPolygon c.x c.y s v) :
    0 ≤ v ∧ v ≤ 10 := by
  obtain ⟨a, ha, b, hb, h1, h2⟩ := onPolygon_between c.x c.y h
  exact ⟨(le_min (hc a ha).1 (hc b hb).1).trans h1, h2.trans (max_le (hc a ha).2 (hc b hb).2)⟩

theorem predicted_range (d : Data) (hd : GoodData d) (AMp AMn Vend sp sn : ℚ) (b : Prop) (xs vs : List ℚ)
    (h : Predicted ⟨d.p, d.n, AMp, AMn, d.cmaxp, d.cmaxn⟩ Vend sp sn b xs vs) : ∀ v ∈ vs, -10 ≤ v ∧ v ≤ 10 := by
  induction h with
  | nil => simp
  | ended b q qs vs _ _ ih =>
    intro v hv
    rcases List.mem_cons.mp hv with rfl | hv
    · norm_num
    · exact ih v hv
  | running b q v qs vs _ hv' _ ih =>
    intro w hw
    rcases List.mem_cons.mp hw with rfl | hw
    · rcases hv' with ⟨_, _, vp, vn, o1, o2, rfl⟩ | ⟨_, rfl⟩
      · have a := onPolygon_range d.p hd.voltsP _ _ o1
        have b := onPolygon_range d.n hd.voltsN _ _ o2
        constructor <;> linarith
      · norm_num
    · exact ih w hw

theorem cost_lt (d : Data) (hd : GoodData d) (q : Par) (h1 : q.AMp ≠ 0) (h2 : q.AMn ≠ 0) :
    ∃ c, d.cost q = .ok c ∧ c < 10000000000 := by
  obtain ⟨V, hV⟩ : ∃ V, d.cell.y.getLast? = some V := by
    rw [← Option.isSome_iff_exists, List.getLast?_isSome]; exact hd.ne
  obtain ⟨vs, e1, e2, e3⟩ := cost_spec ⟨d.p, d.n, q.AMp, q.AMn, d.cmaxp, d.cmaxn⟩ hd.p hd.n ⟨h1, h2, hd.cmaxp, hd.cmaxn⟩
    q.sp q.sn d.cell hd.len V hV (hd.volts V (List.mem_of_getLast? hV)).1
  refine ⟨_, e1, ?_⟩
  have := squares_lt d.cell.y vs e2.symm hd.volts (predicted_range d hd _ _ _ _ _ _ _ _ e3)
  have hs : (d.cell.y.length : ℚ) < 25000000 := by exact_mod_cast hd.short
  linarith

theorem mem_combinations (AMp : ℚ) (la lb lc : List ℚ) (q : Par) :
    q ∈ combinations AMp la lb lc ↔ q.AMp = AMp ∧ q.AMn ∈ la ∧ q.sp ∈ lb ∧ q.sn ∈ lc := by
  simp only [combinations, List.mem_flatMap, List.mem_map]
  constructor
  · rintro ⟨a, ha, b, hb, c, hc, rfl⟩; exact ⟨rfl, ha, hb, hc⟩
  · rintro ⟨h, ha, hb, hc⟩
    exact ⟨_, ha, _, hb, _, hc, by cases q; simp_all⟩

/-- The values of a search space. -/
def Vals (f : FixedData) (x : ℚ) : Prop := ∃ i : ℕ, (i : ℤ) < f.n ∧ x = f.xMin + i * f.dx

theorem values_vals (f : FixedData) (h : 1 ≤ f.n) : ∃ l, f.values = .ok l ∧ l ≠ [] ∧ ∀ x, x ∈ l ↔ Vals f x := by
  refine ⟨_, if_neg (by omega), ?_, ?_⟩
  · intro h0
    have := congrArg List.length h0
    simp at this
    omega
  · intro x
    simp only [List.mem_map, List.mem_range, Vals, FixedData.at_]
    constructor
    · rintro ⟨i, hi, rfl⟩; exact ⟨i, by omega, by push_cast; ring⟩
    · rintro ⟨i, hi, rfl⟩; exact ⟨i, by omega, by push_cast; ring⟩

theorem fitOne_spec (d : Data) (hd : GoodData d) (AMp : ℚ) (AMn sp sn : FixedData) (par : Par) (h0 : AMp ≠ 0)
    (h1 : 1 ≤ AMn.n) (h2 : 1 ≤ sp.n) (h3 : 1 ≤ sn.n) (hA : ∀ x, Vals AMn x → x ≠ 0) :
    ∃ q e, fitOne d AMp AMn sp sn par = .ok (q, e) ∧ q.AMp = AMp ∧ Vals AMn q.AMn ∧ Vals sp q.sp ∧ Vals sn q.sn ∧
      d.cost q = .ok (e * d.cell.y.length) ∧ ∀ q' : Par, q'.AMp = AMp → Vals AMn q'.AMn → Vals sp q'.sp → Vals sn q'.sn →
        ∃ c, d.cost q' = .ok c ∧ e * d.cell.y.length ≤ c := by
  obtain ⟨la, a1, a2, a3⟩ := values_vals AMn h1
  obtain ⟨lb, b1, b2, b3⟩ := values_vals sp h2
  obtain ⟨lc, c1, c2, c3⟩ := values_vals sn h3
  have hN : (d.cell.y.length : ℚ) ≠ 0 := by
    have := List.length_pos_iff.mpr hd.ne
    positivity
  have hall : ∀ q ∈ combinations AMp la lb lc, ∃ c, d.cost q = .ok c ∧ c < 10000000000 := by
    intro q hq
    rw [mem_combinations] at hq
    exact cost_lt d hd q (hq.1 ▸ h0) (hA _ ((a3 _).mp hq.2.1))
  obtain ⟨r, e1, e2, e3, e4⟩ := scan_spec d.cost (combinations AMp la lb lc) (par, 10000000000)
    (fun q hq => let ⟨c, hc, _⟩ := hall q hq; ⟨c, hc⟩)
  have hmem : r.1 ∈ combinations AMp la lb lc ∧ d.cost r.1 = .ok r.2 := by
    rcases e4 with e4 | e4
    · exfalso
      obtain ⟨a, ha⟩ := List.exists_mem_of_ne_nil _ a2
      obtain ⟨b, hb⟩ := List.exists_mem_of_ne_nil _ b2
      obtain ⟨c, hc⟩ := List.exists_mem_of_ne_nil _ c2
      have hm : (⟨AMp, a, b, c⟩ : Par) ∈ combinations AMp la lb lc := (mem_combinations _ _ _ _ _).mpr ⟨rfl, ha, hb, hc⟩
      obtain ⟨x, hx, hlt⟩ := hall _ hm
      obtain ⟨y, hy, hle⟩ := e3 _ hm
      rw [hx] at hy
      cases Outcome.ok.inj hy
      rw [e4] at hle
      exact absurd hle (not_le.mpr hlt)
    · exact e4
  have hq := (mem_combinations _ _ _ _ _).mp hmem.1
  refine ⟨r.1, r.2 / d.cell.y.length, ?_, hq.1, (a3 _).mp hq.2.1, (b3 _).mp hq.2.2.1, (c3 _).mp hq.2.2.2, ?_, ?_⟩
  · unfold fitOne
    rw [a1, b1, c1]
    simp only [Outcome.ok_bind]
    rw [e1]
    simp only [Outcome.ok_bind]
    rw [if_neg (by simpa using hd.ne)]
    rfl
  · rw [div_mul_cancel₀ _ hN]; exact hmem.2
  · intro q' g1 g2 g3 g4
    rw [div_mul_cancel₀ _ hN]
    exact e3 q' ((mem_combinations _ _ _ _ _).mpr ⟨g1, (a3 _).mpr g2, (b3 _).mpr g3, (c3 _).mpr g4⟩)

/-- The result of the task for a given amount of cathode material. -/
def TaskBest (d : Data) (s : Spaces) (AMp : ℚ) (r : Par × ℚ) : Prop :=
  r.1.AMp = AMp ∧ Vals s.AMn r.1.AMn ∧ Vals s.sp r.1.sp ∧ Vals s.sn r.1.sn ∧
      d.cost r.1 = .ok (r.2 * d.cell.y.length) ∧
      ∀ q' : Par, q'.AMp = AMp → Vals s.AMn q'.AMn → Vals s.sp q'.sp → Vals s.sn q'.sn →
        ∃ c, d.cost q' = .ok c ∧ r.2 * d.cell.y.length ≤ c

/-- Non-empty search spaces without the value 0 for the active material. -/
structure Usable (s : Spaces) : Prop where
  nAMp : 1 ≤ s.AMp.n
  nAMn : 1 ≤ s.AMn.n
  nsp : 1 ≤ s.sp.n
  nsn : 1 ≤ s.sn.n
  AMp : ∀ x, Vals s.AMp x → x ≠ 0
  AMn : ∀ x, Vals s.AMn x → x ≠ 0

theorem fitAll_spec (d : Data) (hd : GoodData d) (s : Spaces) (hs : Usable s) (old : List Par) (i : ℕ)
    (hi : ((i + old.length : ℕ) : ℤ) ≤ s.AMp.n) :
    ∃ rs, fitAll d s i old = .ok rs ∧ rs.length = old.length ∧
      ∀ j (h : j < rs.length), TaskBest d s (s.AMp.xMin + (i + j : ℕ) * s.AMp.dx) rs[j] := by
  induction old generalizing i with
  | nil => exact ⟨[], rfl, rfl, fun j h => absurd h (by simp)⟩
  | cons q old ih =>
    have hlt : (i : ℤ) < s.AMp.n := by simp only [List.length_cons] at hi; push_cast at hi; omega
    have hat : s.AMp.at_ i = s.AMp.xMin + i * s.AMp.dx := by unfold FixedData.at_; push_cast; ring
    obtain ⟨p, e, f1, f2⟩ := fitOne_spec d hd (s.AMp.at_ i) s.AMn s.sp s.sn q
      (hs.AMp _ ⟨i, hlt, hat⟩) hs.nAMn hs.nsp hs.nsn hs.AMn
    obtain ⟨rs, g1, g2, g3⟩ := ih (i + 1) (by simp only [List.length_cons] at hi; push_cast at hi ⊢; omega)
    refine ⟨(p, e) :: rs, ?_, by simp [g2], ?_⟩
    · rw [fitAll, f1]
      simp only [Outcome.ok_bind]
      rw [g1]; rfl
    · intro j hj
      cases j with
      | zero => rw [hat] at f2; exact f2
      | succ j =>
        have := g3 j (by simpa using hj)
        rw [show i + 1 + j = i + (j + 1) by omega] at this
        exact this

theorem foldl_min (l : List (Par × ℚ)) (r : Par × ℚ) :
    (l.foldl (fun m e => if e.2 < m.2 then e else m) r ∈ r :: l) ∧
      ∀ r' ∈ r :: l, (l.foldl (fun m e => if e.2 < m.2 then e else m) r).2 ≤ r'.2 := by
  induction l generalizing r with
  | nil => simp
  | cons a l ih =>
    rw [List.foldl_cons]
    obtain ⟨h1, h2⟩ := ih (if a.2 < r.2 then a else r)
    constructor
    · rcases List.mem_cons.mp h1 with h | h
      · rw [h]; split_ifs <;> simp
      · simp [h]
    · intro r' hr'
      have h0 := h2 _ (List.mem_cons_self ..)
      rcases List.mem_cons.mp hr' with rfl | hr'
      · refine h0.trans ?_
        split_ifs with hlt
        · exact hlt.le
        · exact le_rfl
      · rcases List.mem_cons.mp hr' with rfl | hr'
        · refine h0.trans ?_
          split_ifs with hlt
          · exact le_rfl
          · exact not_lt.mp hlt
        · exact h2 r' (by simp [hr'])

theorem inGrid_iff (s : Spaces) (q : Par) :
    InGrid s q ↔ Vals s.AMp q.AMp ∧ Vals s.AMn q.AMn ∧ Vals s.sp q.sp ∧ Vals s.sn q.sn := by
  constructor
  · rintro ⟨i, j, k, l, hi, hj, hk, hl, rfl⟩
    exact ⟨⟨i, hi, rfl⟩, ⟨j, hj, rfl⟩, ⟨k, hk, rfl⟩, ⟨l, hl, rfl⟩⟩
  · rintro ⟨⟨i, hi, h1⟩, ⟨j, hj, h2⟩, ⟨k, hk, h3⟩, ⟨l, hl, h4⟩⟩
    exact ⟨i, j, k, l, hi, hj, hk, hl, by cases q; simp_all⟩

theorem level_spec (d : Data) (hd : GoodData d) (s : Spaces) (hs : Usable s) (old : List Par)
    (ho : old.length = s.AMp.n.toNat) :
    ∃ q e old', level d s old = .ok ((q, e), old') ∧ old'.length = s.AMp.n.toNat ∧ IsBest d s q e := by
  obtain ⟨rs, g1, g2, g3⟩ := fitAll_spec d hd s hs old 0 (by have := hs.nAMp; omega)
  have hlen : rs.length = s.AMp.n.toNat := by rw [g2, ho]
  cases rs with
  | nil => have := hs.nAMp; simp at hlen; omega
  | cons r l =>
    obtain ⟨m1, m2⟩ := foldl_min l r
    obtain ⟨m, hm⟩ : ∃ m, m = l.foldl (fun m e => if e.2 < m.2 then e else m) r := ⟨_, rfl⟩
    rw [← hm] at m1 m2
    refine ⟨m.1, m.2, (r :: l).map Prod.fst, ?_, by rw [List.length_map]; exact hlen, ?_⟩
    · unfold level
      rw [g1]
      simp only [Outcome.ok_bind, minElement]
      rw [← hm]; rfl
    · obtain ⟨j, hj, hjm⟩ := List.mem_iff_getElem.mp m1
      have t := g3 j hj
      rw [hjm] at t
      obtain ⟨t1, t2, t3, t4, t5, -⟩ := t
      refine ⟨(inGrid_iff _ _).mpr ⟨⟨j, by omega, by simpa using t1⟩, t2, t3, t4⟩, t5, ?_⟩
      intro q' hq'
      obtain ⟨⟨i, hi, e1⟩, e2, e3, e4⟩ := (inGrid_iff _ _).mp hq'
      have hi' : i < (r :: l).length := by omega
      obtain ⟨-, -, -, -, -, t6⟩ := g3 i hi'
      obtain ⟨c, c1, c2⟩ := t6 q' (by simpa using e1) e2 e3 e4
      refine ⟨c, c1, le_trans ?_ c2⟩
      exact mul_le_mul_of_nonneg_right (m2 _ (List.getElem_mem hi')) (by positivity)

theorem linspaceFix_covers (a b : ℚ) (n : ℤ) (hn : 2 ≤ n) : Covers (linspaceFix a b n) a b n := by
  unfold linspaceFix
  rw [if_neg (by omega), if_neg (by omega)]
  refine ⟨rfl, rfl, ?_⟩
  have : ((n : ℚ) - 1) ≠ 0 := by
    have : (2 : ℚ) ≤ n := by exact_mod_cast hn
    intro h; linarith
  push_cast
  field_simp
  ring

theorem refine_zoomed (s : Spaces) (q : Par) (h : 2 ≤ s.AMp.n ∧ 2 ≤ s.AMn.n ∧ 2 ≤ s.sp.n ∧ 2 ≤ s.sn.n) :
    Zoomed s q (refine s q) := by
  have hp : ∀ (f : FixedData) x, f.prev x = x - f.dx := by intro f x; unfold FixedData.prev FixedData.at_; push_cast; ring
  have hn : ∀ (f : FixedData) x, f.next x = x + f.dx := by intro f x; unfold FixedData.next FixedData.at_; push_cast; ring
  obtain ⟨h1, h2, h3, h4⟩ := h
  constructor <;> simp only [refine, hp, hn] <;> apply linspaceFix_covers <;> assumption

theorem vals_le (f : FixedData) (x : ℚ) (h : Vals f x) (hdx : 0 ≤ f.dx) :
    f.xMin ≤ x ∧ x ≤ f.xMin + (f.n - 1) * f.dx := by
  obtain ⟨i, hi, rfl⟩ := h
  have h1 : (i : ℚ) ≤ f.n - 1 := by
    have : (i : ℤ) ≤ f.n - 1 := by omega
    exact_mod_cast this
  have h2 : (0 : ℚ) ≤ i := by positivity
  constructor <;> nlinarith

theorem room_zoom (f f' : FixedData) (lo hi x : ℚ) (h : Room f lo hi) (hx : Vals f x)
    (hc : Covers f' (x - f.dx) (x + f.dx) f.n) : Room f' lo hi ∧ f'.dx = f.dx * (2 / (f.n - 1)) := by
  obtain ⟨h1, h2, h3, h4⟩ := h
  obtain ⟨c1, c2, c3⟩ := hc
  obtain ⟨x1, x2⟩ := vals_le f x hx h2
  have hn : (4 : ℚ) ≤ f.n - 1 := by
    have : (4 : ℤ) ≤ f.n - 1 := by omega
    exact_mod_cast this
  have hdx : f'.dx = f.dx * (2 / (f.n - 1)) := by
    rw [c2] at c3
    have h5 : ((f.n : ℚ) - 1) * f'.dx = 2 * f.dx := by linarith
    field_simp
    linarith
  have hhalf : f'.dx ≤ f.dx / 2 := by
    rw [hdx]
    have : (2 : ℚ) / (f.n - 1) ≤ 1 / 2 := by
      rw [div_le_div_iff₀ (by linarith) (by norm_num)]; linarith
    nlinarith
  refine ⟨⟨by omega, ?_, ?_, ?_⟩, hdx⟩
  · rw [hdx]; exact mul_nonneg h2 (div_nonneg (by norm_num) (by linarith))
  · rw [c2]; linarith
  · rw [c1, c3]; linarith

theorem room_noclamp (f : FixedData) (x : ℚ) (h : Room f 0 1) (hx : Vals f x) :
    max (x - f.dx) 0 = x - f.dx ∧ min (x + f.dx) 1 = x + f.dx := by
  obtain ⟨h1, h2, h3, h4⟩ := h
  obtain ⟨x1, x2⟩ := vals_le f x hx h2
  exact ⟨max_eq_left (by linarith), min_eq_left (by linarith)⟩

theorem roomy_zoom (s s' : Spaces) (q : Par) (h : Roomy s) (hq : InGrid s q) (hz : Zoomed s q s') : Roomy s' := by
  obtain ⟨q1, q2, q3, q4⟩ := (inGrid_iff _ _).mp hq
  obtain ⟨⟨lo1, hi1, p1, r1⟩, ⟨lo2, hi2, p2, r2⟩, r3, r4⟩ := h
  obtain ⟨z1, z2, z3, z4⟩ := hz
  rw [(room_noclamp _ _ r3 q3).1, (room_noclamp _ _ r3 q3).2] at z3
  rw [(room_noclamp _ _ r4 q4).1, (room_noclamp _ _ r4 q4).2] at z4
  exact ⟨⟨lo1, hi1, p1, (room_zoom _ _ _ _ _ r1 q1 z1).1⟩, ⟨lo2, hi2, p2, (room_zoom _ _ _ _ _ r2 q2 z2).1⟩,
    (room_zoom _ _ _ _ _ r3 q3 z3).1, (room_zoom _ _ _ _ _ r4 q4 z4).1⟩

theorem roomy_usable (s : Spaces) (h : Roomy s) : Usable s := by
  obtain ⟨⟨lo1, hi1, p1, r1⟩, ⟨lo2, hi2, p2, r2⟩, r3, r4⟩ := h
  refine ⟨by linarith [r1.1], by linarith [r2.1], by linarith [r3.1], by linarith [r4.1], ?_, ?_⟩
  · intro x hx
    have := vals_le _ _ hx r1.2.1
    have h1 := r1.2.2.1
    have h2 := r1.2.1
    intro h0; linarith
  · intro x hx
    have := vals_le _ _ hx r2.2.1
    have h1 := r2.2.2.1
    have h2 := r2.2.1
    intro h0; linarith

theorem levels_spec (d : Data) (hd : GoodData d) (h : ℕ) (s : Spaces) (hs : Roomy s) (old : List Par)
    (ho : old.length = s.AMp.n.toNat) (out : Option (Par × ℚ)) :
    ∃ q e s', levels d (h + 1) s old out = .ok (some (q, e)) ∧ Search d h s s' q e := by
  induction h generalizing s old out with
  | zero =>
    obtain ⟨q, e, old', l1, l2, l3⟩ := level_spec d hd s (roomy_usable s hs) old ho
    refine ⟨q, e, s, ?_, .last s q e l3⟩
    rw [levels, l1]; rfl
  | succ h ih =>
    obtain ⟨q, e, old', l1, l2, l3⟩ := level_spec d hd s (roomy_usable s hs) old ho
    have hz := refine_zoomed s q (by
      obtain ⟨⟨lo1, hi1, p1, r1⟩, ⟨lo2, hi2, p2, r2⟩, r3, r4⟩ := hs
      exact ⟨by linarith [r1.1], by linarith [r2.1], by linarith [r3.1], by linarith [r4.1]⟩)
    obtain ⟨q', e', s', k1, k2⟩ := ih (refine s q) (roomy_zoom _ _ _ hs l3.1 hz) old'
      (by rw [l2, hz.AMp.1]) (some (q, e))
    refine ⟨q', e', s', ?_, .zoom h s _ s' q q' e e' l3 hz k2⟩
    rw [levels, l1]
    exact k1

/-- Curves that `checkInput` accepts are good data. -/
theorem goodData_of_checkInput (d : Data) (hp : d.p.x.length = d.p.y.length ∧ d.p.x ≠ [])
    (hn : d.n.x.length = d.n.y.length ∧ d.n.x ≠ []) (hc : d.cell.x.length = d.cell.y.length ∧ d.cell.x ≠ [])
    (h : checkInput d.p d.n d.cell = .ok ()) (hs : d.cell.y.length < 25000000) (h1 : d.cmaxp ≠ 0) (h2 : d.cmaxn ≠ 0) :
    GoodData d := by
  obtain ⟨-, hno⟩ := checkInput_spec d.p d.n d.cell hp hn hc
  have hv : ValidCurve true d.p ∧ ValidCurve true d.n ∧ ValidCurve false d.cell := by
    by_contra hv
    rw [hno hv] at h; cases h
  obtain ⟨v1, v2, v3⟩ := hv
  refine ⟨⟨hp.1, hp.2, v1.increasing⟩, ⟨hn.1, hn.2, v2.increasing⟩, hc.1, ?_, hs, v1.volts, v2.volts, v3.volts, h1, h2⟩
  intro h0
  have := hc.1
  rw [h0] at this
  exact hc.2 (List.length_eq_zero_iff.mp this)

/-- **C79.** For measured curves of the documented format and search spaces with some room, the fit with any number of
levels returns: every level has looked at all its combinations, the result is a best one of the last level. -/
theorem fit_spec (d : Data) (hd : GoodData d) (s : Spaces) (hs : Roomy s) (h : ℕ) :
    ∃ q e s', hierarchicalFit d (h + 1) s = .ok (q, e) ∧ Search d h s s' q e := by
  obtain ⟨q, e, s', h1, h2⟩ := levels_spec d hd h s hs (List.replicate s.AMp.n.toNat ⟨0, 0, 0, 0⟩) (by simp) none
  refine ⟨q, e, s', ?_, h2⟩
  unfold hierarchicalFit
  rw [h1]; rfl

theorem search_best {d : Data} {h : ℕ} {s s' : Spaces} {q : Par} {e : ℚ} (hS : Search d h s s' q e) : IsBest d s' q e := by
  induction hS with
  | last _ _ _ hb => exact hb
  | zoom _ _ _ _ _ _ _ _ _ _ _ ih => exact ih

/-- **C79, accuracy.** After `h` refinements the distance of the values is `dp (2 / (n - 1)) ^ h`, as documented. -/
theorem fit_steps {d : Data} {h : ℕ} {s s' : Spaces} {q : Par} {e : ℚ} (hS : Search d h s s' q e) (hs : Roomy s) :
    s'.AMp.dx = s.AMp.dx * (2 / (s.AMp.n - 1)) ^ h ∧ s'.AMn.dx = s.AMn.dx * (2 / (s.AMn.n - 1)) ^ h ∧
      s'.sp.dx = s.sp.dx * (2 / (s.sp.n - 1)) ^ h ∧ s'.sn.dx = s.sn.dx * (2 / (s.sn.n - 1)) ^ h := by
  induction hS with
  | last => simp
  | zoom h s s1 s' q0 q e0 e hb hz hS ih =>
    obtain ⟨i1, i2, i3, i4⟩ := ih (roomy_zoom _ _ _ hs hb.1 hz)
    obtain ⟨q1, q2, q3, q4⟩ := (inGrid_iff _ _).mp hb.1
    obtain ⟨⟨lo1, hi1, p1, r1⟩, ⟨lo2, hi2, p2, r2⟩, r3, r4⟩ := hs
    obtain ⟨z1, z2, z3, z4⟩ := hz
    rw [(room_noclamp _ _ r3 q3).1, (room_noclamp _ _ r3 q3).2] at z3
    rw [(room_noclamp _ _ r4 q4).1, (room_noclamp _ _ r4 q4).2] at z4
    rw [i1, i2, i3, i4, (room_zoom _ _ _ _ _ r1 q1 z1).2, (room_zoom _ _ _ _ _ r2 q2 z2).2,
      (room_zoom _ _ _ _ _ r3 q3 z3).2, (room_zoom _ _ _ _ _ r4 q4 z4).2, z1.1, z2.1, z3.1, z4.1]
    simp only [pow_succ]
    refine ⟨?_, ?_, ?_, ?_⟩ <;> ring

/-- **C79, recovery.** If one of the combinations of the first level reproduces the measured curve, the fit with one level
has error 0. -/
theorem fit_recovers (d : Data) (hd : GoodData d) (s : Spaces) (hs : Roomy s) (q0 : Par) (hq : InGrid s q0)
    (h0 : d.cost q0 = .ok 0) : ∃ q, hierarchicalFit d 1 s = .ok (q, 0) ∧ d.cost q = .ok 0 := by
  obtain ⟨q, e, s', h1, h2⟩ := fit_spec d hd s hs 0
  cases h2 with
  | last _ _ _ hb =>
    obtain ⟨g1, g2, g3⟩ := hb
    obtain ⟨c, c1, c2⟩ := g3 q0 hq
    rw [h0] at c1
    cases Outcome.ok.inj c1
    have hN : (0 : ℚ) < d.cell.y.length := by exact_mod_cast List.length_pos_iff.mpr hd.ne
    obtain ⟨V, hV⟩ : ∃ V, d.cell.y.getLast? = some V := by
      rw [← Option.isSome_iff_exists, List.getLast?_isSome]; exact hd.ne
    have hA := roomy_usable s hs
    obtain ⟨v1, v2, -, -⟩ := (inGrid_iff _ _).mp g1
    obtain ⟨x, x1, x2, -⟩ := cost_zero_iff ⟨d.p, d.n, q.AMp, q.AMn, d.cmaxp, d.cmaxn⟩ hd.p hd.n
      ⟨hA.AMp _ v1, hA.AMn _ v2, hd.cmaxp, hd.cmaxn⟩ q.sp q.sn d.cell hd.len V hV
      (hd.volts V (List.mem_of_getLast? hV)).1
    have hx : x = e * d.cell.y.length := Outcome.ok.inj (x1.symm.trans g2)
    have he : e = 0 := by
      rw [hx] at x2
      have : e * d.cell.y.length = 0 := le_antisymm c2 x2
      rcases mul_eq_zero.mp this with h | h
      · exact h
      · exact absurd h hN.ne'
    subst he
    exact ⟨q, h1, by rw [g2]; simp⟩

/-- The full claim about the levels: one more level is never worse. -/
def EachLevelImproves : Prop :=
  ∀ (d : Data) (s : Spaces) (h : ℕ) (q q' : Par) (e e' : ℚ), GoodData d → Roomy s →
    hierarchicalFit d (h + 1) s = .ok (q, e) → hierarchicalFit d (h + 2) s = .ok (q', e') → e' ≤ e

theorem vals_middle (f f' : FixedData) (x : ℚ) (h : 5 ≤ f.n) (hodd : f.n % 2 = 1)
    (hc : Covers f' (x - f.dx) (x + f.dx) f.n) : Vals f' x := by
  obtain ⟨c1, c2, c3⟩ := hc
  obtain ⟨k, hk⟩ : ∃ k : ℕ, f.n = 2 * k + 1 := ⟨(f.n / 2).toNat, by omega⟩
  refine ⟨k, by omega, ?_⟩
  rw [c2] at c3
  have hn : (f.n : ℚ) = 2 * k + 1 := by rw [hk]; push_cast; ring
  rw [hn] at c3
  rw [c2]
  linarith

theorem levels_last (d : Data) (hd : GoodData d) (h : ℕ) (s : Spaces) (hs : Roomy s) (old : List Par)
    (ho : old.length = s.AMp.n.toNat) (out : Option (Par × ℚ)) (q q' : Par) (e e' : ℚ)
    (hodd : s.AMp.n % 2 = 1 ∧ s.AMn.n % 2 = 1 ∧ s.sp.n % 2 = 1 ∧ s.sn.n % 2 = 1)
    (h1 : levels d (h + 1) s old out = .ok (some (q, e))) (h2 : levels d (h + 2) s old out = .ok (some (q', e'))) :
    e' ≤ e := by
  induction h generalizing s old out with
  | zero =>
    obtain ⟨p, x, old', l1, l2, l3⟩ := level_spec d hd s (roomy_usable s hs) old ho
    have hz := refine_zoomed s p (by
      obtain ⟨⟨lo1, hi1, p1, r1⟩, ⟨lo2, hi2, p2, r2⟩, r3, r4⟩ := hs
      exact ⟨by linarith [r1.1], by linarith [r2.1], by linarith [r3.1], by linarith [r4.1]⟩)
    have hr := roomy_zoom _ _ _ hs l3.1 hz
    obtain ⟨p', x', old'', m1, m2, m3⟩ := level_spec d hd (refine s p) (roomy_usable _ hr) old' (by rw [l2, hz.AMp.1])
    rw [levels, l1] at h1 h2
    simp only [Outcome.ok_bind] at h1 h2
    rw [levels] at h1
    rw [levels, m1] at h2
    simp only [Outcome.ok_bind] at h2
    rw [levels] at h2
    cases h1
    cases h2
    obtain ⟨q1, q2, q3, q4⟩ := (inGrid_iff _ _).mp l3.1
    have ⟨⟨lo1, hi1, p1, r1⟩, ⟨lo2, hi2, p2, r2⟩, r3, r4⟩ := hs
    have ⟨z1, z2, z3, z4⟩ := hz
    rw [(room_noclamp _ _ r3 q3).1, (room_noclamp _ _ r3 q3).2] at z3
    rw [(room_noclamp _ _ r4 q4).1, (room_noclamp _ _ r4 q4).2] at z4
    obtain ⟨c, c1, c2⟩ := m3.2.2 q ((inGrid_iff _ _).mpr ⟨vals_middle _ _ _ r1.1 hodd.1 z1,
      vals_middle _ _ _ r2.1 hodd.2.1 z2, vals_middle _ _ _ r3.1 hodd.2.2.1 z3, vals_middle _ _ _ r4.1 hodd.2.2.2 z4⟩)
    rw [l3.2.1] at c1
    rw [← Outcome.ok.inj c1] at c2
    have hN : (0 : ℚ) < d.cell.y.length := by exact_mod_cast List.length_pos_iff.mpr hd.ne
    exact le_of_mul_le_mul_right c2 hN
  | succ h ih =>
    obtain ⟨p, x, old', l1, l2, l3⟩ := level_spec d hd s (roomy_usable s hs) old ho
    have hz := refine_zoomed s p (by
      obtain ⟨⟨lo1, hi1, p1, r1⟩, ⟨lo2, hi2, p2, r2⟩, r3, r4⟩ := hs
      exact ⟨by linarith [r1.1], by linarith [r2.1], by linarith [r3.1], by linarith [r4.1]⟩)
    have hr := roomy_zoom _ _ _ hs l3.1 hz
    rw [levels, l1] at h1 h2
    exact ih (refine s p) hr old' (by rw [l2, hz.AMp.1]) (some (p, x))
      (by rw [hz.AMp.1, hz.AMn.1, hz.sp.1, hz.sn.1]; exact hodd) h1 h2

/-- **C79, partial.** With an odd number of values in every search space, one more level is never worse.  Missing: even
numbers of values (the program uses 100 for the active materials), where the best combination of a level is not among the
combinations of the next one. -/
theorem fit_improves_partial (d : Data) (hd : GoodData d) (s : Spaces) (hs : Roomy s) (h : ℕ) (q q' : Par) (e e' : ℚ)
    (hodd : s.AMp.n % 2 = 1 ∧ s.AMn.n % 2 = 1 ∧ s.sp.n % 2 = 1 ∧ s.sn.n % 2 = 1)
    (h1 : hierarchicalFit d (h + 1) s = .ok (q, e)) (h2 : hierarchicalFit d (h + 2) s = .ok (q', e')) : e' ≤ e := by
  have key : ∀ h q e, hierarchicalFit d h s = .ok (q, e) →
      levels d h s (List.replicate s.AMp.n.toNat ⟨0, 0, 0, 0⟩) none = .ok (some (q, e)) := by
    intro h q e hh
    unfold hierarchicalFit at hh
    obtain ⟨r, r1, r2⟩ := Outcome.bind_eq_ok.mp hh
    rw [r1]
    cases r with
    | none => cases r2
    | some r => cases Outcome.ok.inj r2; rfl
  exact levels_last d hd h s hs _ (by simp) none q q' e e' hodd (key _ _ _ h1) (key _ _ _ h2)

/-- Without any level the result is not initialised; without any amount of cathode material it is read out of bounds. -/
theorem fit_ub (d : Data) (s : Spaces) :
    (∃ w, hierarchicalFit d 0 s = .ub w) ∧ (s.AMp.n ≤ 0 → ∀ h, ∃ w, hierarchicalFit d (h + 1) s = .ub w) := by
  refine ⟨⟨_, rfl⟩, fun hn h => ?_⟩
  have : s.AMp.n.toNat = 0 := by omega
  unfold hierarchicalFit
  rw [this]
  exact ⟨_, rfl⟩

/-- The search spaces of `estimateOCVparameters` have enough room for every cell with a positive capacity. -/
example (cap : ℚ) (h : 0 < cap) : Roomy
    { AMp := linspaceFix (1 * (cap * 3600 / (F * 51385))) (5/2 * (cap * 3600 / (F * 51385))) 100
      AMn := linspaceFix (1 * (cap * 3600 / (F * 30555))) (5/2 * (cap * 3600 / (F * 30555))) 100
      sp := linspaceFix (38/100) (40/100) 51
      sn := linspaceFix (55/100) (58/100) 51 } := by
  have key : ∀ g : ℚ, 0 < g → ∃ lo hi, 0 < lo ∧ Room (linspaceFix (1 * g) (5/2 * g) 100) lo hi := by
    intro g hg
    refine ⟨g / 2, 4 * g, by positivity, ?_⟩
    unfold linspaceFix
    rw [if_neg (by decide), if_neg (by decide)]
    refine ⟨by norm_num, ?_, ?_, ?_⟩ <;> norm_num <;> linarith
  refine ⟨key _ (by unfold F; positivity), key _ (by unfold F; positivity), ?_, ?_⟩
  · have : Room (linspaceFix (38/100) (40/100) 51) 0 1 := by unfold Room; decide +kernel
    exact this
  · have : Room (linspaceFix (55/100) (58/100) 51) 0 1 := by unfold Room; decide +kernel
    exact this

end Slide.OcvFit

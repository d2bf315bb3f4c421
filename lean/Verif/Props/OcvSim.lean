import Verif.Props.OcvFit
import Mathlib.Algebra.Order.Archimedean.Basic

/-! C80: the simulated OCV curve; C81: its error. -/

namespace Slide.OcvFit
open Spec Interp

/-! ### C81: calculateError -/

theorem look_extended (c : Curve) (ht : Table c) (bound : Bool) (x : ℚ) :
    ∃ v st, c.look bound x = .ok (v, st) ∧ IsExtended bound c x v := by
  by_cases h : InTable c x
  · obtain ⟨y, h1, h2⟩ := look_in c ht x bound h
    exact ⟨y, 0, h1, Or.inl ⟨h, h2⟩⟩
  · cases bound with
    | true =>
      obtain ⟨st, -, h2⟩ := look_out c ht x h
      exact ⟨0, st, h2, Or.inr (Or.inl ⟨h, rfl, rfl⟩)⟩
    | false =>
      have hpos : 0 < c.x.length := List.length_pos_iff.mpr ht.ne
      have hyl : 0 < c.y.length := ht.length ▸ hpos
      have mono : ∀ i j (hi : i < c.x.length) (hj : j < c.x.length), i ≤ j → c.x[i] ≤ c.x[j] := by
        intro i j hi hj hij
        rcases Nat.eq_or_lt_of_le hij with rfl | h
        · exact le_rfl
        · exact (List.pairwise_iff_getElem.mp ht.increasing i j hi hj h).le
      obtain ⟨h1, h2⟩ := linInt_unbounded_clamps c.x c.y false x hpos ht.length
      have status : ∀ y, linInt false c.x c.y false x = .ok y → ∃ st, c.look false x = .ok (y, st) := by
        intro y hy
        unfold linInt at hy
        obtain ⟨⟨y', st⟩, h3, h4⟩ := Outcome.bind_eq_ok.mp hy
        simp only at h4
        split_ifs at h4
        cases Outcome.ok.inj h4
        exact ⟨st, by unfold Curve.look; rw [if_pos ht.length]; exact h3⟩
      by_cases hlo : x < c.x[0]
      · obtain ⟨st, hst⟩ := status _ (h1 hlo.le)
        refine ⟨_, st, hst, Or.inr (Or.inr ⟨h, rfl, Or.inl ⟨?_, ?_⟩⟩)⟩
        · intro a ha
          obtain ⟨i, hi, rfl⟩ := List.mem_iff_getElem.mp ha
          exact lt_of_lt_of_le hlo (mono 0 i hpos hi (Nat.zero_le _))
        · rw [List.head?_eq_getElem?, List.getElem?_eq_getElem hyl]
      · by_cases hhi : c.x[c.x.length - 1]'(by omega) < x
        · obtain ⟨st, hst⟩ := status _ (h2 (lt_of_le_of_lt (mono 0 _ hpos (by omega) (Nat.zero_le _)) hhi) hhi.le)
          refine ⟨_, st, hst, Or.inr (Or.inr ⟨h, rfl, Or.inr ⟨?_, ?_⟩⟩)⟩
          · intro a ha
            obtain ⟨i, hi, rfl⟩ := List.mem_iff_getElem.mp ha
            exact lt_of_le_of_lt (mono i _ hi (by omega) (by omega)) hhi
          · rw [List.getLast?_eq_getElem?, List.getElem?_eq_getElem (show c.y.length - 1 < c.y.length by omega)]
            simp only [ht.length]
        · exact absurd ⟨⟨_, List.getElem_mem _, not_lt.mp hlo⟩, _, List.getElem_mem _, not_lt.mp hhi⟩ h

theorem extended_unique (c : Curve) (ht : Table c) (bound : Bool) (x v w : ℚ) (h1 : IsExtended bound c x v)
    (h2 : IsExtended bound c x w) : v = w := by
  obtain ⟨a, ha⟩ := List.exists_mem_of_ne_nil _ ht.ne
  rcases h1 with ⟨i1, o1⟩ | ⟨i1, b1, rfl⟩ | ⟨i1, b1, ⟨l1, o1⟩ | ⟨l1, o1⟩⟩ <;>
    rcases h2 with ⟨i2, o2⟩ | ⟨i2, b2, rfl⟩ | ⟨i2, b2, ⟨l2, o2⟩ | ⟨l2, o2⟩⟩ <;>
    first
    | exact absurd i1 i2
    | exact absurd i2 i1
    | exact onPolygon_unique _ _ ht.increasing o1 o2
    | rfl
    | exact Option.some.inj (o1.symm.trans o2)
    | exact absurd (l1 a ha) (not_lt.mpr (l2 a ha).le)
    | (exfalso; rw [b1] at b2; cases b2)

theorem errorLoop_spec (sim : Curve) (ht : Table sim) (bound : Bool) (xs ys : List ℚ) (hl : xs.length = ys.length) (e : ℚ) :
    ∃ vs, errorLoop sim bound (xs.zip ys) e = .ok (e + squares ys vs) ∧ List.Forall₂ (IsExtended bound sim) xs vs := by
  induction xs generalizing ys e with
  | nil =>
    cases ys with
    | nil => exact ⟨[], by simp [squares, errorLoop], .nil⟩
    | cons => simp at hl
  | cons x xs ih =>
    cases ys with
    | nil => simp at hl
    | cons y ys =>
      obtain ⟨v, st, h1, h2⟩ := look_extended sim ht bound x
      obtain ⟨vs, h3, h4⟩ := ih ys (by simpa using hl) (e + (y - v) * (y - v))
      refine ⟨v :: vs, ?_, .cons h2 h4⟩
      rw [List.zip_cons_cons, errorLoop, h1]
      simp only [Outcome.ok_bind]
      rw [h3]
      congr 1
      simp only [squares, List.zipWith_cons_cons, List.sum_cons]
      ring

/-- **C81.** The error between a measured and a simulated curve is the mean of the squared distances of the measured points
to the simulated curve (continued as documented); it is not negative, and 0 exactly if every measured point lies on it. -/
theorem calculateError_spec (bound : Bool) (cell sim : Curve) (ht : Table sim) (hl : cell.x.length = cell.y.length)
    (hne : cell.y ≠ []) :
    ∃ vs, List.Forall₂ (IsExtended bound sim) cell.x vs ∧
      calculateError bound cell sim = .ok (squares cell.y vs / cell.y.length) ∧
      0 ≤ squares cell.y vs / cell.y.length ∧
      (squares cell.y vs / cell.y.length = 0 ↔ List.Forall₂ (IsExtended bound sim) cell.x cell.y) := by
  obtain ⟨vs, h1, h2⟩ := errorLoop_spec sim ht bound cell.x cell.y hl 0
  have hN : (0 : ℚ) < cell.y.length := by exact_mod_cast List.length_pos_iff.mpr hne
  refine ⟨vs, h2, ?_, div_nonneg (squares_nonneg _ _) hN.le, ?_⟩
  · unfold calculateError
    rw [if_neg (by simpa using hl), h1]
    simp only [Outcome.ok_bind]
    rw [if_neg (by simpa using hne), zero_add]
    rfl
  · have hlen : cell.y.length = vs.length := by rw [← hl]; exact h2.length_eq
    rw [div_eq_zero_iff, or_iff_left hN.ne', squares_eq_zero _ _ hlen]
    constructor
    · intro h; rw [h]; exact h2
    · intro h
      have huniq : ∀ xs vs ws, List.Forall₂ (IsExtended bound sim) xs vs → List.Forall₂ (IsExtended bound sim) xs ws →
          vs = ws := by
        intro xs vs ws h1
        induction h1 generalizing ws with
        | nil => intro h; cases h; rfl
        | cons a _ ih =>
          intro h
          cases h with
          | cons b h => rw [extended_unique sim ht bound _ _ _ a b, ih _ h]
      exact huniq _ _ _ h h2

/-- Without a measured point: 0 / 0. -/
theorem calculateError_empty (bound : Bool) (sim : Curve) : ∃ w, calculateError bound ⟨[], []⟩ sim = .ub w := ⟨_, rfl⟩

example : calculateError true ⟨[0, 1, 3], [4, 7/2, 1]⟩ ⟨[0, 2], [4, 3]⟩ = .ok (1/3) ∧
    calculateError false ⟨[0, 1, 3], [4, 7/2, 1]⟩ ⟨[0, 2], [4, 3]⟩ = .ok (4/3) := by decide +kernel

/-! ### C80: discharge -/

/-- The tables contain all lithium fractions. -/
def FullTables (c : Cell) : Prop :=
  Table c.p ∧ Table c.n ∧ ∀ s, 0 ≤ s → s ≤ 1 → InTable c.p s ∧ InTable c.n s

/-- A state on the discharge from `sp`, `sn` with the charge `q` (coulomb) per time step: the fractions follow from the
charge; the voltages belong to this charge, or to the one a time step before. -/
def OnWay (c : Cell) (sp sn q : ℚ) (s : DisState) : Prop :=
  s.sp = fracP c sp s.Ah ∧ s.sn = fracN c sn s.Ah ∧ s.v = s.ocvp - s.ocvn ∧
    (s.Ah = 0 ∧ OcvAt c sp sn s.Ah s.ocvp s.ocvn ∨ OcvAt c sp sn (s.Ah - q / 3600) s.ocvp s.ocvn)

/-- The fractions can be looked up. -/
def InsideC (s : DisState) : Prop := (0 ≤ s.sp ∧ s.sp ≤ 1) ∧ 0 ≤ s.sn ∧ s.sn ≤ 1

theorem interpolate_ok (c : Cell) (hc : FullTables c) (s : DisState) (hs : InsideC s) :
    ∃ vp vn, interpolate c s = .ok { s with ocvp := vp, ocvn := vn, v := vp - vn } ∧
      OnPolygon c.p.x c.p.y s.sp vp ∧ OnPolygon c.n.x c.n.y s.sn vn := by
  obtain ⟨h1, h2, h3⟩ := hc
  obtain ⟨vp, p1, p2⟩ := look_in c.p h1 s.sp true (h3 _ hs.1.1 hs.1.2).1
  obtain ⟨vn, n1, n2⟩ := look_in c.n h2 s.sn true (h3 _ hs.2.1 hs.2.2).2
  refine ⟨vp, vn, ?_, p2, n2⟩
  unfold interpolate
  rw [p1, n1]; rfl

/-- When the discharge ends. -/
def Ends (Vend : ℚ) (s : DisState) : Prop := s.v ≤ Vend ∨ s.sp ≤ 0 ∨ s.sp ≥ 1 ∨ s.sn ≤ 0 ∨ s.sn ≥ 1

theorem micro_ok (c : Cell) (hc : FullTables c) (h0 : c.AMp ≠ 0 ∧ c.AMn ≠ 0 ∧ c.cmaxp ≠ 0 ∧ c.cmaxn ≠ 0)
    (sp sn q Vend : ℚ) (s : DisState) (hw : OnWay c sp sn q s) (hs : InsideC s) :
    ∃ s', micro c q Vend s = .ok s' ∧ OnWay c sp sn q s' ∧ (s'.stop = true ↔ Ends Vend s') ∧
      s'.Ah = s.Ah + q / 3600 := by
  obtain ⟨a1, a2, a3, a4⟩ := h0
  have hF : F ≠ 0 := by unfold F; norm_num
  obtain ⟨vp, vn, h1, h2, h3⟩ := interpolate_ok c hc s hs
  obtain ⟨w1, w2, w3, w4⟩ := hw
  refine ⟨_, by unfold micro; rw [h1]; rfl, ⟨?_, ?_, rfl, Or.inr ⟨?_, ?_⟩⟩, ?_, rfl⟩
  · simp only [w1]; unfold fracP; field_simp; ring
  · simp only [w2]; unfold fracN; field_simp; ring
  · simp only [add_sub_cancel_right]; rw [← w1]; exact h2
  · simp only [add_sub_cancel_right]; rw [← w2]; exact h3
  · simp only [decide_eq_true_eq]; exact Iff.rfl

theorem microLoop_ok (c : Cell) (hc : FullTables c) (h0 : c.AMp ≠ 0 ∧ c.AMn ≠ 0 ∧ c.cmaxp ≠ 0 ∧ c.cmaxn ≠ 0)
    (sp sn q Vend : ℚ) (n : ℕ) (s : DisState) (hw : OnWay c sp sn q s) (hs : s.stop = false → InsideC s) :
    ∃ s' k, microLoop c q Vend n s = .ok s' ∧ OnWay c sp sn q s' ∧ (s'.stop = false → InsideC s') ∧ k ≤ n ∧
      s'.Ah = s.Ah + k * (q / 3600) ∧ (s'.stop = false → k = n) ∧
      (s.stop = false → 0 < n → (s'.stop = true ↔ Ends Vend s') ∧ 0 < k) := by
  induction n generalizing s with
  | zero => exact ⟨s, 0, rfl, hw, hs, le_rfl, by simp, fun _ => rfl, fun _ h => absurd h (by omega)⟩
  | succ n ih =>
    by_cases hst : s.stop = true
    · refine ⟨s, 0, ?_, hw, hs, by omega, by simp, fun h => ?_, fun h => ?_⟩
      · rw [microLoop, if_pos hst]
      · rw [hst] at h; cases h
      · rw [hst] at h; cases h
    · have hst' : s.stop = false := by simpa using hst
      obtain ⟨s1, m1, m2, m3, m4⟩ := micro_ok c hc h0 sp sn q Vend s hw (hs hst')
      have hin : s1.stop = false → InsideC s1 := by
        intro h
        have hE : ¬ Ends Vend s1 := fun hE => by rw [m3.mpr hE] at h; cases h
        simp only [Ends, not_or, not_le, ge_iff_le] at hE
        exact ⟨⟨hE.2.1.le, hE.2.2.1.le⟩, hE.2.2.2.1.le, hE.2.2.2.2.le⟩
      obtain ⟨s', k, l1, l2, l3, l4, l5, l6, l7⟩ := ih s1 m2 hin
      refine ⟨s', k + 1, ?_, l2, l3, by omega, ?_, fun h => by rw [l6 h], fun _ _ => ⟨?_, by omega⟩⟩
      · rw [microLoop, if_neg hst, m1]; exact l1
      · rw [l5, m4]; push_cast; ring
      · by_cases h1 : s1.stop = false
        · rcases Nat.eq_zero_or_pos n with rfl | hn
          · rw [microLoop] at l1
            cases l1
            exact m3
          · exact (l7 h1 hn).1
        · have h1' : s1.stop = true := by simpa using h1
          have : s' = s1 := by
            cases n with
            | zero => rw [microLoop] at l1; exact (Outcome.ok.inj l1).symm
            | succ n => rw [microLoop, if_pos h1'] at l1; exact (Outcome.ok.inj l1).symm
          rw [this]; exact m3

/-- What the stored points are: `out` is stored in reverse order. -/
structure Stored (c : Cell) (sp sn q Vend : ℚ) (s : DisState) (out : List DisState) : Prop where
  head : out.head? = some s
  first : ∃ a, out.getLast? = some a ∧ a.Ah = 0 ∧ OcvAt c sp sn 0 a.ocvp a.ocvn
  way : ∀ r ∈ out, OnWay c sp sn q r
  before : ∀ r ∈ out.tail, r.Ah = 0 ∨ ¬ Ends Vend r
  steps : out.IsChain fun r' r => ∃ k : ℕ, 0 < k ∧ k ≤ 100 ∧ r'.Ah = r.Ah + k * (q / 3600)

theorem disLoop_ok (c : Cell) (hc : FullTables c) (h0 : c.AMp ≠ 0 ∧ c.AMn ≠ 0 ∧ c.cmaxp ≠ 0 ∧ c.cmaxn ≠ 0)
    (sp sn q Vend : ℚ) (fuel : ℕ) (s : DisState) (out : List DisState) (hs : s.stop = false → InsideC s)
    (hst : Stored c sp sn q Vend s out) (he : s.stop = false ∧ s.Ah = 0 ∨ (s.stop = true ↔ Ends Vend s)) :
    disLoop c q Vend fuel s out = .ub "out of fuel" ∨
      ∃ s' out', disLoop c q Vend fuel s out = .ok (s', out'.reverse) ∧ Stored c sp sn q Vend s' out' ∧ Ends Vend s' := by
  induction fuel generalizing s out with
  | zero => exact Or.inl rfl
  | succ fuel ih =>
    by_cases hstop : s.stop = true
    · right
      refine ⟨s, out, by rw [disLoop, if_pos hstop], hst, ?_⟩
      rcases he with he | he
      · rw [hstop] at he; cases he.1
      · exact he.mp hstop
    · have hstop' : s.stop = false := by simpa using hstop
      have hmem : s ∈ out := List.mem_of_head? hst.head
      obtain ⟨s', k, l1, l2, l3, l4, l5, l6, l7⟩ := microLoop_ok c hc h0 sp sn q Vend 100 s (hst.way s hmem) hs
      obtain ⟨l8, l9⟩ := l7 hstop' (by norm_num)
      have hst' : Stored c sp sn q Vend s' (s' :: out) := by
        obtain ⟨t, ht⟩ : ∃ t, out = s :: t := by
          cases out with
          | nil => simp at hmem
          | cons a t => have := hst.head; simp at this; exact ⟨t, by rw [this]⟩
        refine ⟨rfl, ?_, ?_, ?_, ?_⟩
        · obtain ⟨a, a1, a2⟩ := hst.first
          exact ⟨a, by rw [ht] at a1 ⊢; rw [List.getLast?_cons_cons]; exact a1, a2⟩
        · intro r hr
          rcases List.mem_cons.mp hr with rfl | hr
          · exact l2
          · exact hst.way r hr
        · intro r hr
          rw [List.tail_cons, ht] at hr
          rcases List.mem_cons.mp hr with rfl | hr
          · rcases he with he | he
            · exact Or.inl he.2
            · exact Or.inr fun h => hstop (he.mpr h)
          · exact hst.before r (by rw [ht]; exact hr)
        · rw [ht]
          refine List.IsChain.cons_cons ⟨k, l9, l4, l5⟩ ?_
          rw [← ht]; exact hst.steps
      rcases ih s' (s' :: out) l3 hst' (Or.inr l8) with h | ⟨r, out', h1, h2⟩
      · left; rw [disLoop, if_neg hstop, l1]; exact h
      · right; exact ⟨r, out', by rw [disLoop, if_neg hstop, l1]; exact h1, h2⟩

/-- **C80, partial.** A simulated discharge that ends has stored, from charge 0 on in steps of at most 100 time steps, points
whose lithium fractions are those after exchanging exactly the stored charge.  All stored points but the last one are
before the end of the discharge, the last one is its end, and the reported fractions are those at the start, at the end and
their mean.  Missing (and false): the stored voltages belong to the stored charge – except for the first point they belong
to the charge a time step (1/7200 of the capacity) before. -/
theorem discharge_partial (c : Cell) (hc : FullTables c) (h0 : c.AMp ≠ 0 ∧ c.AMn ≠ 0 ∧ c.cmaxp ≠ 0 ∧ c.cmaxn ≠ 0)
    (cap sp sn Vend : ℚ) (hsp : 0 ≤ sp ∧ sp ≤ 1) (hsn : 0 ≤ sn ∧ sn ≤ 1) (fuel : ℕ) :
    discharge c cap sp sn Vend fuel = .ub "out of fuel" ∨
    ∃ D first last, discharge c cap sp sn Vend fuel = .ok D ∧
      D.pts.head? = some first ∧ first.Ah = 0 ∧ OcvAt c sp sn 0 first.ocvp first.ocvn ∧
      D.pts.getLast? = some last ∧ Ends Vend last ∧ (∀ r ∈ D.pts.dropLast, r.Ah = 0 ∨ ¬ Ends Vend r) ∧
      (∀ r ∈ D.pts, OnWay c sp sn (cap / 2) r) ∧
      (D.pts.IsChain fun r r' => ∃ k : ℕ, 0 < k ∧ k ≤ 100 ∧ r'.Ah = r.Ah + k * (cap / 7200)) ∧
      D.fp = (sp, (sp + last.sp) / 2, last.sp) ∧ D.fn = (sn, (sn + last.sn) / 2, last.sn) := by
  have hin : InsideC ⟨0, sp, sn, 0, 0, 0, false⟩ := ⟨hsp, hsn⟩
  obtain ⟨vp, vn, i1, i2, i3⟩ := interpolate_ok c hc _ hin
  have hq : 1 / 10 * cap * 5 = cap / 2 := by ring
  obtain ⟨s0, hs0⟩ : ∃ s0 : DisState, s0 = ⟨0, sp, sn, vp, vn, vp - vn, false⟩ := ⟨_, rfl⟩
  have hat : OcvAt c sp sn 0 vp vn := by
    refine ⟨?_, ?_⟩
    · simpa [fracP] using i2
    · simpa [fracN] using i3
  have hw : OnWay c sp sn (cap / 2) s0 := by
    rw [hs0]
    exact ⟨by simp [fracP], by simp [fracN], rfl, Or.inl ⟨rfl, hat⟩⟩
  have hst : Stored c sp sn (cap / 2) Vend s0 [s0] :=
    ⟨rfl, ⟨s0, rfl, by rw [hs0], by rw [hs0]; exact hat⟩, by simpa using hw, by simp, List.IsChain.singleton _⟩
  have hd : discharge c cap sp sn Vend fuel = (disLoop c (cap / 2) Vend fuel s0 [s0]).bind fun r =>
      .ok { pts := r.2, fp := (sp, (sp + r.1.sp) / 2, r.1.sp), fn := (sn, (sn + r.1.sn) / 2, r.1.sn) } := by
    unfold discharge
    rw [if_neg (by rintro (h | h | h | h) <;> [exact h0.1 h; exact h0.2.1 h; exact h0.2.2.1 h; exact h0.2.2.2 h]), i1, hq,
      hs0]
    rfl
  rw [hd]
  rcases disLoop_ok c hc h0 sp sn (cap / 2) Vend fuel s0 [s0] (fun _ => by rw [hs0]; exact hin) hst
    (Or.inl (by rw [hs0]; exact ⟨rfl, rfl⟩)) with h | ⟨s', out, h1, h2, h3⟩
  · left; rw [h]; rfl
  · right
    obtain ⟨a, a1, a2, a3⟩ := h2.first
    refine ⟨_, a, s', by rw [h1]; rfl, ?_, a2, a3, ?_, h3, ?_, ?_, ?_, rfl, rfl⟩
    · simp only [List.head?_reverse]; exact a1
    · simp only [List.getLast?_reverse]; exact h2.head
    · simp only [List.dropLast_reverse, List.mem_reverse]; exact h2.before
    · simp only [List.mem_reverse]; exact h2.way
    · simp only [List.isChain_reverse]
      refine h2.steps.imp ?_
      rintro r r' ⟨k, k1, k2, k3⟩
      exact ⟨k, k1, k2, by simp only [k3]; ring⟩

theorem disLoop_ends (c : Cell) (hc : FullTables c) (h0 : c.AMp ≠ 0 ∧ c.AMn ≠ 0 ∧ c.cmaxp ≠ 0 ∧ c.cmaxn ≠ 0)
    (sp sn q Vend δ : ℚ) (hδ : δ = q / (F * c.AMp * c.cmaxp)) (hpos : 0 < δ) (fuel : ℕ) (s : DisState) (out : List DisState)
    (hw : OnWay c sp sn q s) (hs : s.stop = false → InsideC s) (hf : 1 - s.sp < fuel * δ) :
    ∃ r, disLoop c q Vend (fuel + 1) s out = .ok r := by
  induction fuel generalizing s out with
  | zero =>
    have hstop : s.stop = true := by
      by_contra h
      have := (hs (by simpa using h)).1.2
      push_cast at hf; linarith
    exact ⟨_, by rw [disLoop, if_pos hstop]⟩
  | succ fuel ih =>
    by_cases hstop : s.stop = true
    · exact ⟨_, by rw [disLoop, if_pos hstop]⟩
    · have hstop' : s.stop = false := by simpa using hstop
      obtain ⟨s', k, l1, l2, l3, l4, l5, l6, l7⟩ := microLoop_ok c hc h0 sp sn q Vend 100 s hw hs
      have hF : F ≠ 0 := by unfold F; norm_num
      have hk := (l7 hstop' (by norm_num)).2
      have hsp : s'.sp = s.sp + k * δ := by
        obtain ⟨a1, a2, a3, a4⟩ := h0
        rw [l2.1, hw.1, l5, hδ]
        unfold fracP
        field_simp
        ring
      have h1 : (1 : ℚ) ≤ k := by exact_mod_cast hk
      obtain ⟨r, hr⟩ := ih s' (s' :: out) l2 l3 (by
        rw [hsp]; push_cast at hf; nlinarith)
      exact ⟨r, by rw [disLoop, if_neg hstop, l1]; exact hr⟩

/-- **C80, termination.** For a positive capacity and a positive amount of cathode material the discharge ends. -/
theorem discharge_ends (c : Cell) (hc : FullTables c) (h0 : c.AMp ≠ 0 ∧ c.AMn ≠ 0 ∧ c.cmaxp ≠ 0 ∧ c.cmaxn ≠ 0)
    (cap sp sn Vend : ℚ) (hsp : 0 ≤ sp ∧ sp ≤ 1) (hsn : 0 ≤ sn ∧ sn ≤ 1) (hcap : 0 < cap) (hA : 0 < c.AMp * c.cmaxp) :
    ∃ N, ∀ fuel, N ≤ fuel → ∃ D, discharge c cap sp sn Vend fuel = .ok D := by
  have hF : 0 < F := by unfold F; norm_num
  have hδ : 0 < cap / 2 / (F * c.AMp * c.cmaxp) := by rw [mul_assoc]; positivity
  obtain ⟨N, hN⟩ := exists_nat_gt ((1 - sp) / (cap / 2 / (F * c.AMp * c.cmaxp)))
  rw [div_lt_iff₀ hδ] at hN
  refine ⟨N + 1, fun fuel hfuel => ?_⟩
  obtain ⟨f, rfl⟩ : ∃ f, fuel = f + 1 := ⟨fuel - 1, by omega⟩
  have hin : InsideC ⟨0, sp, sn, 0, 0, 0, false⟩ := ⟨hsp, hsn⟩
  obtain ⟨vp, vn, i1, i2, i3⟩ := interpolate_ok c hc _ hin
  have hle : (N : ℚ) ≤ f := by exact_mod_cast (by omega : N ≤ f)
  obtain ⟨r, hr⟩ := disLoop_ends c hc h0 sp sn (cap / 2) Vend _ rfl hδ f ⟨0, sp, sn, vp, vn, vp - vn, false⟩
    [⟨0, sp, sn, vp, vn, vp - vn, false⟩]
    ⟨by simp [fracP], by simp [fracN], rfl, Or.inl ⟨rfl, by simpa [fracP] using i2, by simpa [fracN] using i3⟩⟩
    (fun _ => hin) (by simp only; nlinarith)
  have hq : 1 / 10 * cap * 5 = cap / 2 := by ring
  refine ⟨{ pts := r.2, fp := (sp, (sp + r.1.sp) / 2, r.1.sp), fn := (sn, (sn + r.1.sn) / 2, r.1.sn) }, ?_⟩
  unfold discharge
  rw [if_neg (by rintro (h | h | h | h) <;> [exact h0.1 h; exact h0.2.1 h; exact h0.2.2.1 h; exact h0.2.2.2 h]), i1, hq]
  simp only [Outcome.ok_bind]
  rw [hr]; rfl

/-- With the capacity 0 (a measured curve that ends at charge 0) it never ends. -/
theorem discharge_zero_cap (c : Cell) (hc : FullTables c) (h0 : c.AMp ≠ 0 ∧ c.AMn ≠ 0 ∧ c.cmaxp ≠ 0 ∧ c.cmaxn ≠ 0)
    (sp sn Vend vp vn : ℚ) (hsp : 0 < sp ∧ sp < 1) (hsn : 0 < sn ∧ sn < 1) (hV : OcvAt c sp sn 0 vp vn)
    (hlt : Vend < vp - vn) (fuel : ℕ) : discharge c 0 sp sn Vend fuel = .ub "out of fuel" := by
  rcases discharge_partial c hc h0 0 sp sn Vend ⟨hsp.1.le, hsp.2.le⟩ ⟨hsn.1.le, hsn.2.le⟩ fuel with
    h | ⟨D, first, last, d1, d2, d3, d4, d5, d6, d7, d8, d9, d10⟩
  · exact h
  · exfalso
    have hz : ∀ r ∈ D.pts, r.Ah = 0 := by
      cases hp : D.pts with
      | nil => simp
      | cons a l =>
        rw [hp] at d2 d9
        simp only [List.head?_cons, Option.some.injEq] at d2
        have ha : a.Ah = 0 := by rw [d2]; exact d3
        clear d2 d5 d7 d8 d10 hp
        induction l generalizing a with
        | nil => simpa using ha
        | cons b l ih =>
          obtain ⟨⟨k, -, -, hk⟩, hl⟩ := List.isChain_cons_cons.mp d9
          intro r hr
          rcases List.mem_cons.mp hr with rfl | hr
          · exact ha
          · exact ih b hl (by rw [hk, ha]; ring) r hr
    have hm := List.mem_of_getLast? d5
    have hAh := hz _ hm
    obtain ⟨w1, w2, w3, w4⟩ := d8 _ hm
    rw [hAh] at w1 w2 w4
    have w5 : OcvAt c sp sn 0 last.ocvp last.ocvn := by
      rcases w4 with w4 | w4
      · exact w4.2
      · simpa using w4
    have e1 := onPolygon_unique _ _ hc.1.increasing w5.1 hV.1
    have e2 := onPolygon_unique _ _ hc.2.1.increasing w5.2 hV.2
    have f1 : last.sp = sp := by rw [w1]; simp [fracP]
    have f2 : last.sn = sn := by rw [w2]; simp [fracN]
    unfold Ends at d6
    rw [w3, e1, e2, f1, f2] at d6
    rcases d6 with h | h | h | h | h <;> linarith

/-- The full claim about the stored points: charge, fractions and voltages belong together. -/
def StoredTogether : Prop :=
  ∀ (c : Cell) (cap sp sn Vend : ℚ) (fuel : ℕ) (D : Discharge), FullTables c →
    (0 ≤ sp ∧ sp ≤ 1) → (0 ≤ sn ∧ sn ≤ 1) → discharge c cap sp sn Vend fuel = .ok D →
    ∀ r ∈ D.pts, OcvAt c sp sn r.Ah r.ocvp r.ocvn

/-- The full claim about the lithium fractions: they are between 0 and 1. -/
def FractionsInside : Prop :=
  ∀ (c : Cell) (cap sp sn Vend : ℚ) (fuel : ℕ) (D : Discharge), FullTables c →
    (0 ≤ sp ∧ sp ≤ 1) → (0 ≤ sn ∧ sn ≤ 1) → discharge c cap sp sn Vend fuel = .ok D →
    ∀ r ∈ D.pts, (0 ≤ r.sp ∧ r.sp ≤ 1) ∧ 0 ≤ r.sn ∧ r.sn ≤ 1

def cellW : Cell :=
  { p := ⟨[0, 1], [5, 4]⟩, n := ⟨[0, 1], [1, 0]⟩, AMp := 1 / F, AMn := 1 / F, cmaxp := 1, cmaxn := 1 }

theorem fullW : FullTables cellW := by
  refine ⟨⟨rfl, by decide, by decide +kernel⟩, ⟨rfl, by decide, by decide +kernel⟩, fun s h0 h1 => ⟨?_, ?_⟩⟩ <;>
    exact ⟨⟨0, by decide, h0⟩, 1, by decide, h1⟩

/-- A run of the discharge: two points, the second one after 4 time steps that move 1/5 of the lithium each. -/
theorem dischargeW : discharge cellW (2/5) (1/4) 1 3 5 = .ok
    { pts := [⟨0, 1/4, 1, 19/4, 0, 19/4, false⟩, ⟨1/4500, 21/20, 1/5, 83/20, 3/5, 71/20, true⟩]
      fp := (1/4, 13/20, 21/20)
      fn := (1, 3/5, 1/5) } := by decide +kernel

/-- The stored voltages do not belong to the stored charge. -/
theorem not_storedTogether : ¬ StoredTogether := by
  intro h
  have h1 := (h cellW (2/5) (1/4) 1 3 5 _ fullW (by norm_num) (by norm_num) dischargeW
    ⟨1/4500, 21/20, 1/5, 83/20, 3/5, 71/20, true⟩ (by simp)).2
  have hf : fracN cellW 1 (1/4500) = 1/5 := by decide +kernel
  simp only [hf] at h1
  have h2 : OnPolygon cellW.n.x cellW.n.y (1/5) (4/5) := by
    right
    refine ⟨0, by decide, by decide, ?_⟩
    decide +kernel
  exact absurd (onPolygon_unique _ _ fullW.2.1.increasing h1 h2) (by norm_num)

/-- The last stored fraction can be above 1 (by less than a time step). -/
theorem not_fractionsInside : ¬ FractionsInside := by
  intro h
  have h1 := (h cellW (2/5) (1/4) 1 3 5 _ fullW (by norm_num) (by norm_num) dischargeW
    ⟨1/4500, 21/20, 1/5, 83/20, 3/5, 71/20, true⟩ (by simp)).1.2
  norm_num at h1

end Slide.OcvFit

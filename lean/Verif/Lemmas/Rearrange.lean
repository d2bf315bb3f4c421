import Verif.Spec.Rearrange
import Verif.Props.Series
import Mathlib.Data.List.Perm.Basic

/-!
# Helper lemmas for C158
-/

namespace Slide
open StorageUnit Spec Cyc

/-! ## Readings do not depend on the order -/

section
variable {U : Type} [StorageUnit U]

theorem perm_tsum (f : U → ℚ) {ks ls : List (Kid U)} (h : ks.Perm ls) : tsum f ks = tsum f ls :=
  (h.map fun k : Kid U => f k.su).sum_eq

theorem perm_tsumOpt (f : U → Option ℚ) {ks ls : List (Kid U)} (h : ks.Perm ls) : tsumOpt f ks = tsumOpt f ls := by
  induction h with
  | nil => rfl
  | cons x _ ih => rw [tsumOpt, tsumOpt, ih]
  | swap x y l =>
    simp only [tsumOpt]
    rcases f x.su with _ | a <;> rcases f y.su with _ | b <;> rcases tsumOpt f l with _ | c <;> simp
    ring
  | trans _ _ h1 h2 => exact h1.trans h2

theorem perm_fold_max (f : U → ℚ) {ks ls : List (Kid U)} (h : ks.Perm ls) (a : ℚ) :
    ks.foldl (fun m k => max m (f k.su)) a = ls.foldl (fun m k => max m (f k.su)) a := by
  have : RightCommutative (fun (m : ℚ) (k : Kid U) => max m (f k.su)) := ⟨fun a b c => max_right_comm a _ _⟩
  exact h.foldl_eq a

theorem perm_fold_min (f : U → ℚ) {ks ls : List (Kid U)} (h : ks.Perm ls) (a : ℚ) :
    ks.foldl (fun m k => min m (f k.su)) a = ls.foldl (fun m k => min m (f k.su)) a := by
  have : RightCommutative (fun (m : ℚ) (k : Kid U) => min m (f k.su)) := ⟨fun a b c => min_right_comm a _ _⟩
  exact h.foldl_eq a

theorem perm_tmin (f : U → ℚ) {ks ls : List (Kid U)} (h : ks.Perm ls) : tmin f ks = tmin f ls := by
  induction h with
  | nil => rfl
  | cons x p _ => exact perm_fold_min f p _
  | swap x y l =>
    simp only [tmin, List.foldl_cons]
    rw [min_comm]
  | trans _ _ h1 h2 => exact h1.trans h2

theorem status_worst_right (a b c : Status) : Status.worst (Status.worst a b) c = Status.worst (Status.worst a c) b := by
  unfold Status.worst
  by_cases h1 : a.code < b.code <;> by_cases h2 : a.code < c.code <;> by_cases h3 : b.code < c.code <;>
    by_cases h4 : c.code < b.code <;> simp [h1, h2, h3, h4] <;> try omega
  exact Status.code_injective (by omega)

theorem perm_check {ks ls : List (Kid U)} (h : ks.Perm ls) : modCheckVoltage ks = modCheckVoltage ls := by
  have : RightCommutative (fun (r : Status) (k : Kid U) => Status.worst r (StorageUnit.checkVoltage k.su)) :=
    ⟨fun a b c => status_worst_right a _ _⟩
  exact h.foldl_eq _

theorem perm_vLoop {ks ls : List (Kid U)} (h : ks.Perm ls) : ModuleS.vLoop 0 ks = ModuleS.vLoop 0 ls := by
  by_cases hn : ∃ k ∈ ks, StorageUnit.V k.su ≤ 0
  · obtain ⟨k, hk, hv⟩ := hn
    rw [vLoop_nonpos ks 0 ⟨k, hk, hv⟩, vLoop_nonpos ls 0 ⟨k, h.mem_iff.mp hk, hv⟩]
  · have hp : ∀ k ∈ ks, 0 < StorageUnit.V k.su := fun k hk => not_le.mp fun hv => hn ⟨k, hk, hv⟩
    rw [vLoop_pos ks 0 hp, vLoop_pos ls 0 (fun k hk => hp k (h.mem_iff.mpr hk))]
    rw [(h.map fun k => StorageUnit.V k.su - k.rc * StorageUnit.I k.su).sum_eq]

theorem perm_rtot {m m' : ModuleS U} (h : m.kids.Perm m'.kids) : m.Rtot = m'.Rtot := by
  unfold ModuleS.Rtot
  rw [rtot_fold, rtot_fold, (h.map fun k => StorageUnit.Rtot k.su).sum_eq, (h.map Kid.rc).sum_eq]

theorem oneCurrent_I {m : ModuleS U} {i : ℚ} (h : ∀ k ∈ m.kids, StorageUnit.I k.su = i) :
    m.I = if m.kids = [] then 0 else i := by
  unfold ModuleS.I
  cases hm : m.kids with
  | nil => rfl
  | cons a l => simpa using h a (by simp [hm])

theorem perm_I {m m' : ModuleS U} (h : m.kids.Perm m'.kids) (hc : OneCurrent m) : m.I = m'.I := by
  obtain ⟨i, hi⟩ := hc
  rw [oneCurrent_I hi, oneCurrent_I (m := m') (i := i) fun k hk => hi k (h.mem_iff.mpr hk)]
  have : m.kids = [] ↔ m'.kids = [] := by
    constructor
    · intro e; rw [e] at h; exact h.symm.eq_nil
    · intro e; rw [e] at h; exact h.eq_nil
  simp only [this]

theorem perm_lim {m m' : ModuleS U} (h : m.kids.Perm m'.kids) : m.lim = m'.lim := by
  unfold ModuleS.lim
  rw [perm_tsum _ h, perm_tsum _ h, perm_tsum _ h, perm_tsum _ h]

theorem rearranged_readings {m m' : ModuleS U} (h : Rearranged m m') (hc : OneCurrent m) : SameTerminals m m' where
  V := perm_vLoop h.1
  I := perm_I h.1 hc
  OCV := perm_tsumOpt _ h.1
  Cap := perm_tmin _ h.1
  Rtot := perm_rtot h.1
  lim := perm_lim h.1
  Vlow := by
    show modVlow m.lim.Vmax m.kids = modVlow m'.lim.Vmax m'.kids
    rw [perm_lim h.1]; exact perm_fold_min _ h.1 _
  Vhigh := by
    show modVhigh m.lim.Vmin m.kids = modVhigh m'.lim.Vmin m'.kids
    rw [perm_lim h.1]; exact perm_fold_max _ h.1 _
  check := perm_check h.1
  T := h.2
  cells := (h.1.map _).sum_eq

/-! ## Calls -/

theorem rearranged_set [LawfulCurrent U] {m m' : ModuleS U} (h : Rearranged m m') (hl : m.kids.length ≤ 100) (i : ℚ) (b : Bool) :
    ((StringCall.setCurrent i b).Accepted m ↔ (StringCall.setCurrent i b).Accepted m') ∧
    ((StringCall.setCurrent i b).Accepted m →
      (setCurrent m i b).1 = .ok .Success ∧ (setCurrent m' i b).1 = .ok .Success ∧
      Rearranged (setCurrent m i b).2 (setCurrent m' i b).2 ∧ OneCurrent (setCurrent m i b).2 ∧
      (setCurrent m i b).2.kids.length ≤ 100) := by
  have hl' : m'.kids.length ≤ 100 := by rw [← h.1.length_eq]; exact hl
  obtain ⟨st, h1, hT, h2⟩ := series_setCurrent_partial m i b hl
  obtain ⟨st', h1', hT', h2'⟩ := series_setCurrent_partial m' i b hl'
  have acc : ∀ {m : ModuleS U} {st}, (m.setCurrent i b).1 = .ok st →
      ((StringCall.setCurrent i b).Accepted m ↔ st.isBad = false) := by
    intro m st h
    constructor
    · intro g; exact g st h
    · intro g s hs
      have : (m.setCurrent i b).1 = .ok s := hs
      rw [h] at this; cases this; exact g
  have key : ∀ {m m' : ModuleS U} {st st'}, m.kids.Perm m'.kids → m.kids.length ≤ 100 → m'.kids.length ≤ 100 →
      (m.setCurrent i b).1 = .ok st → (m'.setCurrent i b).1 = .ok st' → st.isBad = false → st'.isBad = false := by
    intro m m' st st' p q q' h h' g
    obtain ⟨s, e, f⟩ := setLoop_spec i b [] m.kids (by simpa using q) (by simp)
    simp only [List.map_nil, List.nil_append] at e f
    have hs : s = st := by
      have : (m.setCurrent i b).1 = .ok s := e
      rw [h] at this; cases this; rfl
    subst hs
    obtain ⟨s', e', f'⟩ := setLoop_spec i b [] m'.kids (by simpa using q') (by simp)
    simp only [List.map_nil, List.nil_append] at e' f'
    have hs' : s' = st' := by
      have : (m'.setCurrent i b).1 = .ok s' := e'
      rw [h'] at this; cases this; rfl
    subst hs'
    rcases f' with ⟨rfl, _⟩ | ⟨_, ⟨k, hk, hk2⟩, _⟩
    · rfl
    · rcases f with ⟨_, fa, _⟩ | ⟨fb, _⟩
      · obtain ⟨t, ht1, ht2⟩ := fa k (p.mem_iff.mpr hk)
        rw [hk2] at ht1; cases ht1; exact ht2
      · rw [fb] at g; cases g
  have e1 := acc h1
  have e2 := acc h1'
  refine ⟨⟨fun g => e2.mpr (key h.1 hl hl' h1 h1' (e1.mp g)), fun g => e1.mpr (key h.1.symm hl' hl h1' h1 (e2.mp g))⟩, ?_⟩
  intro g
  have g1 := e1.mp g
  have g2 := key h.1 hl hl' h1 h1' g1
  rcases h2 with ⟨rfl, hI, hk⟩ | ⟨hb, _⟩
  swap
  · rw [hb] at g1; cases g1
  rcases h2' with ⟨rfl, hI', hk'⟩ | ⟨hb, _⟩
  swap
  · rw [hb] at g2; cases g2
  refine ⟨h1, h1', ⟨?_, ?_⟩, ⟨i, hI⟩, ?_⟩
  · show (m.setCurrent i b).2.kids.Perm (m'.setCurrent i b).2.kids
    rw [hk, hk']; exact h.1.map _
  · exact hT.trans (h.2.trans hT'.symm)
  · show (m.setCurrent i b).2.kids.length ≤ 100
    rw [hk, List.length_map]; exact hl

theorem rearranged_step [LawfulStep U] {m m' : ModuleS U} (h : Rearranged m m') (hc : OneCurrent m) (hl : m.kids.length ≤ 100) (dt : ℚ)
    (n : ℕ) :
    (timeStep m dt n).1 = (timeStep m' dt n).1 ∧ Rearranged (timeStep m dt n).2 (timeStep m' dt n).2 ∧
      OneCurrent (timeStep m dt n).2 ∧ (timeStep m dt n).2.kids.length ≤ 100 := by
  show (m.timeStep dt n).1 = (m'.timeStep dt n).1 ∧ Rearranged (m.timeStep dt n).2 (m'.timeStep dt n).2 ∧
      OneCurrent (m.timeStep dt n).2 ∧ (m.timeStep dt n).2.kids.length ≤ 100
  unfold ModuleS.timeStep
  by_cases hd : dt < 0
  · rw [if_pos hd, if_pos hd]; exact ⟨rfl, h, hc, hl⟩
  · rw [if_neg hd, if_neg hd, stepKids_spec dt n (not_lt.mp hd), stepKids_spec dt n (not_lt.mp hd)]
    obtain ⟨i, hi⟩ := hc
    refine ⟨rfl, ⟨h.1.map _, h.2⟩, ⟨i, ?_⟩, by simpa using hl⟩
    intro k hk
    obtain ⟨j, hj, rfl⟩ := List.mem_map.mp hk
    exact (LawfulStep.keepsI j.su dt n).trans (hi j hj)

theorem unchecked_accepted [LawfulCurrent U] {m : ModuleS U} (hl : m.kids.length ≤ 100) (c : StringCall) (h : c.Unchecked) :
    c.Accepted m := by
  cases c with
  | step => trivial
  | setCurrent i b =>
    have hb : b = false := h
    subst hb
    intro st hst
    obtain ⟨s, h1, -, h2⟩ := series_setCurrent_partial m i false hl
    have e : s = st := by
      have : (m.setCurrent i false).1 = .ok st := hst
      rw [h1] at this; cases this; rfl
    subst e
    rcases h2 with ⟨rfl, _⟩ | ⟨hb, ⟨k, _, hk⟩, _⟩
    · rfl
    · rw [LawfulCurrent.unchecked] at hk
      cases hk; cases hb

end

/-! ## Units that answer unchecked calls alike -/

/-- `R` relates units that look the same to a cycler which does not check individual cells, and calls keep it so. -/
structure Bisim {A B : Type} [StorageUnit A] [StorageUnit B] (R : A → B → Prop) : Prop where
  V : ∀ {u w}, R u w → StorageUnit.V u = StorageUnit.V w
  Vlow : ∀ {u w}, R u w → StorageUnit.Vlow u = StorageUnit.Vlow w
  set : ∀ {u w}, R u w → ∀ i, (StorageUnit.setCurrent u i false).1 = .ok .Success ∧
    (StorageUnit.setCurrent w i false).1 = .ok .Success ∧
    R (StorageUnit.setCurrent u i false).2 (StorageUnit.setCurrent w i false).2
  step : ∀ {u w}, R u w → ∀ dt n, (StorageUnit.timeStep u dt n).1 = (StorageUnit.timeStep w dt n).1 ∧
    R (StorageUnit.timeStep u dt n).2 (StorageUnit.timeStep w dt n).2

section
variable {A B : Type} {R : A → B → Prop}

theorem like_withSU {c : Cyc A} {d : Cyc B} (h : LikeCycler R c d) {u : A} {w : B} (hu : R u w) :
    LikeCycler R (c.withSU u) (d.withSU w) := ⟨hu, h.index, h.diagnostic, h.log⟩

theorem like_storeIf (b : Bool) {c : Cyc A} {d : Cyc B} (h : LikeCycler R c d) : LikeCycler R (storeIf b c) (storeIf b d) := by
  cases b
  · exact h
  · show LikeCycler R c.storeData d.storeData
    unfold storeData writeData
    dsimp only
    rw [h.index]
    by_cases hi : CELL_NDATA_MAX ≤ d.index
    · rw [if_pos hi, if_pos hi]
      exact ⟨h.su, rfl, h.diagnostic, List.rel_append (List.rel_append h.log (.cons .write .nil)) (.cons (.store h.su) .nil)⟩
    · rw [if_neg hi, if_neg hi]
      exact ⟨h.su, by rw [h.index], h.diagnostic, List.rel_append h.log (.cons (.store h.su) .nil)⟩

theorem storeIf_diagnostic' (b : Bool) (c : Cyc A) : (storeIf b c).diagnostic = c.diagnostic := by
  cases b
  · rfl
  · show c.storeData.diagnostic = _
    unfold storeData writeData
    dsimp only
    split <;> rfl

variable [StorageUnit A] [StorageUnit B]

theorem like_set (hR : Bisim R) {c : Cyc A} {d : Cyc B} (h : LikeCycler R c d) (hd : c.diagnostic = false) (I vlim : ℚ) :
    ∃ st c' d', c.setCurrent I vlim = (.ok st, c') ∧ d.setCurrent I vlim = (.ok st, d') ∧ LikeCycler R c' d' ∧
      c'.diagnostic = false := by
  obtain ⟨a, b, r⟩ := hR.set h.su I
  have hd' : d.diagnostic = false := by rw [← h.diagnostic]; exact hd
  unfold Cyc.setCurrent
  dsimp only
  rw [hd, hd', hR.V h.su]
  generalize StorageUnit.setCurrent c.su I false = x at a r
  generalize StorageUnit.setCurrent d.su I false = y at b r
  obtain ⟨o, u1⟩ := x
  obtain ⟨o', w1⟩ := y
  dsimp only at a b r
  subst a b
  dsimp only
  rw [if_neg (show ¬ Status.Success.isVoltageLimitsViolated = true by decide),
    if_neg (show ¬ Status.Success.isVoltageLimitsViolated = true by decide), hR.V r]
  by_cases h1 : I < 0 ∧ V d.su ≤ vlim ∧ V w1 > vlim
  · rw [if_pos h1, if_pos h1]
    exact ⟨_, _, _, rfl, rfl, like_withSU h r, hd⟩
  · rw [if_neg h1, if_neg h1]
    by_cases h2 : V d.su ≥ vlim ∧ V w1 < vlim
    · rw [if_pos h2, if_pos h2]
      exact ⟨_, _, _, rfl, rfl, like_withSU h r, hd⟩
    · rw [if_neg h2, if_neg h2]
      exact ⟨_, _, _, rfl, rfl, like_withSU h r, hd⟩

theorem like_ccVoltage (hR : Bisim R) {c : Cyc A} {d : Cyc B} (h : LikeCycler R c d) (hd : c.diagnostic = false) :
    ccVoltage c = ccVoltage d := by
  have hd' : d.diagnostic = false := by rw [← h.diagnostic]; exact hd
  unfold ccVoltage
  rw [hd, hd', hR.V h.su]
  rfl

theorem like_ccBody (hR : Bisim R) (I vlim tlim : ℚ) (ndt : ℤ) (nMax : ℕ) (v : CCVars) {c : Cyc A} {d : Cyc B}
    (h : LikeCycler R c d) (hd : c.diagnostic = false) (th : Thr) :
    ∃ o c' d' th', ccBody I vlim tlim ndt nMax v c th = (o, c', th') ∧ ccBody I vlim tlim ndt nMax v d th = (o, d', th') ∧
      LikeCycler R c' d' ∧ c'.diagnostic = false := by
  obtain ⟨st, c1, d1, e1, e2, h1, hd1⟩ := like_set hR h hd I vlim
  unfold ccBody
  rw [e1, e2]
  dsimp only
  generalize (if v.nOnce * v.dti > tlim - v.ttot then 1 else v.nOnce) = n1
  generalize (if v.dti > tlim - v.ttot then tlim - v.ttot else v.dti) = t1
  obtain ⟨a, r⟩ := hR.step h1.su t1 n1
  generalize timeStep c1.su t1 n1 = x at a r
  generalize timeStep d1.su t1 n1 = y at a r
  obtain ⟨o, u2⟩ := x
  obtain ⟨o', w2⟩ := y
  dsimp only at a r
  subst a
  have h2 := like_withSU h1 r
  have hd2 : (c1.withSU u2).diagnostic = false := hd1
  rcases o with o | e | w
  · dsimp only
    rw [like_ccVoltage hR h2 hd2]
    rcases ccVoltage (d1.withSU w2) with st | vi
    · exact ⟨_, _, _, _, rfl, rfl, h2, hd2⟩
    · dsimp only
      generalize (decide (0 < ndt) && decide (ndt ≤ ((v.idat + n1 : ℕ) : ℤ))) = b
      have h3 := like_storeIf b h2
      have hd3 : (storeIf b (c1.withSU u2)).diagnostic = false := by rw [storeIf_diagnostic']; exact hd2
      rw [hR.Vlow h3.su]
      by_cases hc : (I < 0 ∧ vi > vlim) ∨ (I > 0 ∧ vi < vlim)
      · rw [if_pos hc, if_pos hc]
        exact ⟨_, _, _, _, rfl, rfl, h3, hd3⟩
      · rw [if_neg hc, if_neg hc]
        exact ⟨_, _, _, _, rfl, rfl, h3, hd3⟩
  · exact ⟨_, _, _, _, rfl, rfl, h2, hd2⟩
  · exact ⟨_, _, _, _, rfl, rfl, h2, hd2⟩

theorem like_ccLoop (hR : Bisim R) (I vlim tlim : ℚ) (ndt : ℤ) (nMax : ℕ) (fuel : ℕ) :
    ∀ (v : CCVars) {c : Cyc A} {d : Cyc B}, LikeCycler R c d → c.diagnostic = false → ∀ (th : Thr),
    ∃ o c' d' th', ccLoop I vlim tlim ndt nMax fuel v c th = (o, c', th') ∧ ccLoop I vlim tlim ndt nMax fuel v d th = (o, d', th') ∧
      LikeCycler R c' d' ∧ c'.diagnostic = false := by
  induction fuel with
  | zero =>
    intro v c d h hd th
    unfold ccLoop
    by_cases g : v.ttot < tlim
    · rw [if_pos g, if_pos g]; exact ⟨_, _, _, _, rfl, rfl, h, hd⟩
    · rw [if_neg g, if_neg g]; exact ⟨_, _, _, _, rfl, rfl, h, hd⟩
  | succ f ih =>
    intro v c d h hd th
    unfold ccLoop
    by_cases g : v.ttot < tlim
    · rw [if_pos g, if_pos g]
      obtain ⟨o, c1, d1, th1, e1, e2, h1, hd1⟩ := like_ccBody hR I vlim tlim ndt nMax v h hd th
      rw [e1, e2]
      rcases o with (st | v' | v') | e | w
      · exact ⟨_, _, _, _, rfl, rfl, h1, hd1⟩
      · exact ⟨_, _, _, _, rfl, rfl, h1, hd1⟩
      · exact ih v' h1 hd1 th1
      · exact ⟨_, _, _, _, rfl, rfl, h1, hd1⟩
      · exact ⟨_, _, _, _, rfl, rfl, h1, hd1⟩
    · rw [if_neg g, if_neg g]; exact ⟨_, _, _, _, rfl, rfl, h, hd⟩

theorem like_cc (hR : Bisim R) (fuel : ℕ) {c : Cyc A} {d : Cyc B} (h : LikeCycler R c d) (hd : c.diagnostic = false)
    (I vlim tlim dt : ℚ) (ndt : ℤ) (th : Thr) :
    ∃ o c' d' th', CC fuel c I vlim tlim dt ndt th = (o, c', th') ∧ CC fuel d I vlim tlim dt ndt th = (o, d', th') ∧
      LikeCycler R c' d' := by
  unfold CC
  dsimp only
  generalize decide (0 < ndt) = b
  have h0 := like_storeIf b h
  have hd0 : (storeIf b c).diagnostic = false := by rw [storeIf_diagnostic']; exact hd
  obtain ⟨st, c1, d1, e1, e2, h1, hd1⟩ := like_set hR h0 hd0 I vlim
  rw [e1, e2]
  dsimp only
  by_cases g : (!st.isSuccessful) = true
  · rw [if_pos g, if_pos g]; exact ⟨_, _, _, _, rfl, rfl, h1⟩
  · rw [if_neg g, if_neg g, hR.V h1.su]
    by_cases hc : (I < 0 ∧ V d1.su > vlim) ∨ (I > 0 ∧ V d1.su < vlim)
    · rw [if_pos hc, if_pos hc]; exact ⟨_, _, _, _, rfl, rfl, h1⟩
    · rw [if_neg hc, if_neg hc]
      obtain ⟨o, c2, d2, th2, e1, e2, h2, hd2⟩ := like_ccLoop hR I vlim tlim ndt (if b = true then min 2 ndt.toNat else 2) fuel
        ⟨dt, 0, 0, 1, V d1.su, V d1.su, true⟩ h1 hd1 th
      rw [e1, e2]
      rcases o with (st | ⟨v', q⟩) | e | w
      · exact ⟨_, _, _, _, rfl, rfl, h2⟩
      · dsimp only
        by_cases g1 : v'.ttot ≥ tlim
        · rw [if_pos g1, if_pos g1]; exact ⟨_, _, _, _, rfl, rfl, like_storeIf b h2⟩
        · rw [if_neg g1, if_neg g1]
          by_cases g2 : q = true
          · rw [if_pos g2, if_pos g2]; exact ⟨_, _, _, _, rfl, rfl, like_storeIf b h2⟩
          · rw [if_neg g2, if_neg g2]; exact ⟨_, _, _, _, rfl, rfl, h2⟩
      · exact ⟨_, _, _, _, rfl, rfl, h2⟩
      · exact ⟨_, _, _, _, rfl, rfl, h2⟩

theorem like_zero (hR : Bisim R) {c : Cyc A} {d : Cyc B} (h : LikeCycler R c d) :
    ∃ u w, StorageUnit.setCurrent c.su 0 false = (.ok .Success, u) ∧ StorageUnit.setCurrent d.su 0 false = (.ok .Success, w) ∧ R u w := by
  obtain ⟨a, b, r⟩ := hR.set h.su 0
  exact ⟨_, _, Prod.ext a rfl, Prod.ext b rfl, r⟩

theorem like_restLoop (hR : Bisim R) (tlim : ℚ) (ndt : ℤ) (nMax : ℕ) (fuel : ℕ) :
    ∀ (v : RestVars) {c : Cyc A} {d : Cyc B}, LikeCycler R c d →
    ∃ o c' d', restLoop tlim ndt nMax fuel v c = (o, c') ∧ restLoop tlim ndt nMax fuel v d = (o, d') ∧ LikeCycler R c' d' := by
  induction fuel with
  | zero =>
    intro v c d h
    unfold restLoop
    by_cases g : v.ttot < tlim
    · rw [if_pos g, if_pos g]; exact ⟨_, _, _, rfl, rfl, h⟩
    · rw [if_neg g, if_neg g]; exact ⟨_, _, _, rfl, rfl, h⟩
  | succ f ih =>
    intro v c d h
    unfold restLoop
    by_cases g : v.ttot < tlim
    · rw [if_pos g, if_pos g]
      obtain ⟨u1, w1, e1, e2, r1⟩ := like_zero hR h
      unfold restBody
      rw [e1, e2]
      dsimp only
      rw [if_neg (show ¬ Status.Success.isBad = true by decide), if_neg (show ¬ Status.Success.isBad = true by decide)]
      generalize (if v.nOnce * v.dti > tlim - v.ttot then 1 else v.nOnce) = n1
      generalize (if v.dti > tlim - v.ttot then tlim - v.ttot else v.dti) = t1
      obtain ⟨a, r⟩ := hR.step r1 t1 n1
      generalize timeStep u1 t1 n1 = x at a r
      generalize timeStep w1 t1 n1 = y at a r
      obtain ⟨o, u2⟩ := x
      obtain ⟨o', w2⟩ := y
      dsimp only at a r
      subst a
      rcases o with o | e | w
      · exact ih _ (like_storeIf _ (like_withSU h r))
      · exact ⟨_, _, _, rfl, rfl, like_withSU h r⟩
      · exact ⟨_, _, _, rfl, rfl, like_withSU h r⟩
    · rw [if_neg g, if_neg g]; exact ⟨_, _, _, rfl, rfl, h⟩

theorem like_rest (hR : Bisim R) (fuel : ℕ) {c : Cyc A} {d : Cyc B} (h : LikeCycler R c d) (tlim dt : ℚ) (ndt : ℤ) (th : Thr) :
    ∃ o c' d' th', rest fuel c tlim dt ndt th = (o, c', th') ∧ rest fuel d tlim dt ndt th = (o, d', th') ∧ LikeCycler R c' d' := by
  unfold rest
  dsimp only
  generalize decide (0 < ndt) = b
  obtain ⟨o, c1, d1, e1, e2, h1⟩ := like_restLoop hR tlim ndt (if b = true then min 10 ndt.toNat else 10) fuel
    { dti := dt, ttot := 0, idat := 0, nOnce := 1, ninc := true } (like_storeIf b h)
  rw [e1, e2]
  rcases o with (st | v') | e | w
  · exact ⟨_, _, _, _, rfl, rfl, h1⟩
  · dsimp only
    by_cases g1 : v'.ttot ≥ tlim ∧ |v'.ttot - tlim| < 1
    · rw [if_pos g1, if_pos g1]
      obtain ⟨u1, w1, e1, e2, r1⟩ := like_zero hR h1
      rw [e1, e2]
      exact ⟨_, _, _, _, rfl, rfl, like_storeIf b (like_withSU h1 r1)⟩
    · rw [if_neg g1, if_neg g1]; exact ⟨_, _, _, _, rfl, rfl, h1⟩
  · exact ⟨_, _, _, _, rfl, rfl, h1⟩
  · exact ⟨_, _, _, _, rfl, rfl, h1⟩

end

end Slide

import Verif.Model.SpmUnit
import Verif.Lemmas.States
import Verif.Spec.Cycler
import Verif.Props.SpmUse
import Verif.Props.SPMDiff

/-!
The laws of children of modules hold for single-particle cells without ageing and heat.
-/

namespace Slide
open Spec SPM StorageUnit

variable {N : ℕ}

/-- A cell with physical parameters has a voltage. -/
theorem sound_V {c : SPM N} (h : SpmSound c) : ∃ v, c.V.1 = .ok v := by
  unfold SPM.V
  by_cases hv : c.valid = true
  · rw [if_pos hv]; exact ⟨_, rfl⟩
  · rw [if_neg hv]
    have hc : (c.calcV = .ok none) ∨ ∃ v, c.calcV = .ok (some v) := by
      unfold calcV
      rw [if_neg (by rw [h.finite]; simp)]
      by_cases hk : c.concOk = true
      · rw [if_neg (by rw [hk]; simp)]
        unfold concOk at hk
        simp only [Bool.not_eq_true', Bool.or_eq_false_iff, decide_eq_false_iff_not, not_le, ge_iff_le] at hk
        obtain ⟨⟨⟨h1, h2⟩, h3⟩, h4⟩ := hk
        have hp := h.curves (c.cps / c.par.Cmaxpos) (div_pos h1 (h1.trans h3)) ((div_lt_one (h1.trans h3)).mpr h3)
        have hn := h.curves (c.cns / c.par.Cmaxneg) (div_pos h2 (h2.trans h4)) ((div_lt_one (h2.trans h4)).mpr h4)
        obtain ⟨d, hd⟩ := Option.isSome_iff_exists.mp hp.1
        obtain ⟨n, hn⟩ := Option.isSome_iff_exists.mp hn.2.1
        obtain ⟨p, hp⟩ := Option.isSome_iff_exists.mp hp.2.2
        have hn0 : c.par.n ≠ 0 := by
          have := h.finite
          unfold SPM.finite at this
          simp only [Bool.not_eq_true', Bool.or_eq_false_iff, decide_eq_false_iff_not] at this
          tauto
        have hF : Faraday ≠ 0 := by decide
        have hip : c.i0p ≠ 0 := by
          unfold i0p
          exact mul_ne_zero (mul_ne_zero (mul_ne_zero (mul_ne_zero h.kp (h.exp _)) hn0) hF)
            (h.sqrt _ (mul_pos (mul_pos h.elec h1) (sub_pos.mpr h3)))
        have hin : c.i0n ≠ 0 := by
          unfold i0n
          exact mul_ne_zero (mul_ne_zero (mul_ne_zero (mul_ne_zero h.kn (h.exp _)) hn0) hF)
            (h.sqrt _ (mul_pos (mul_pos h.elec h2) (sub_pos.mpr h4)))
        right
        unfold look
        rw [hd, hn, hp]
        simp only [bind, Outcome.bind]
        rw [if_neg (by simp [hip, hin])]
        exact ⟨_, rfl⟩
      · left; rw [if_pos (by simp [hk])]
    rcases hc with hc | ⟨v, hc⟩ <;> rw [hc] <;> exact ⟨_, rfl⟩

theorem good_V {c : SPM N} (h : SpmGood c) : ∃ v, c.V.1 = .ok v := sound_V h.toSpmSound

theorem good_checkV {c : SPM N} (h : SpmGood c) : ∃ s, c.checkV.1 = .ok s := by
  obtain ⟨v, hv⟩ := good_V h
  rw [checkV_fst, hv]; exact ⟨_, rfl⟩

theorem SpmUnit.ext' {a b : SpmUnit N} (h : a.cell = b.cell) : a = b := by
  cases a; cases b; cases h; rfl

theorem plain_plain (c : SPM N) : c.plain.plain = c.plain := rfl

theorem unit_valid (u : SpmUnit N) : u.cell.valid = false := by rw [← u.isPlain]; rfl

theorem unit_fresh (u : SpmUnit N) : Fresh u.cell := fresh_of_invalid (unit_valid u)

theorem alike_plain {a b : SPM N} (h : SpmAlike a b) : a.plain = b.plain := by
  rw [(sameRest_iff a b).mp (spmAlike_rest h)]; rfl

theorem plain_eq_memo (c : SPM N) : c.plain = { memo c 0 false with stress := noStress, block := c.block } := rfl

theorem alike_memo {c : SPM N} (h : Fresh c) : SpmAlike c (memo c 0 false) :=
  .inr ⟨(sameRest_iff _ _).mpr rfl, h, fresh_of_invalid rfl⟩

theorem checkV_core (c : SPM N) (s : SpmStress) (b : Bool) :
    ({ c with stress := s, block := b } : SPM N).checkV = (c.checkV.1, { c.checkV.2 with stress := s, block := b }) := by
  unfold checkV
  rw [V_core]
  rcases c.V with ⟨v | e | w, c'⟩ <;> rfl

theorem setCurrent_core (c : SPM N) (s : SpmStress) (b : Bool) (i : ℚ) (k : Bool) :
    ({ c with stress := s, block := b } : SPM N).setCurrent i k =
      ((c.setCurrent i k).1, { (c.setCurrent i k).2 with stress := s, block := b }) := by
  rw [spm_setCurrent_eq, spm_setCurrent_eq]
  have hc : (withCurrent ({ c with stress := s, block := b } : SPM N) i).checkCurrent k =
      (((withCurrent c i).checkCurrent k).1,
        { ((withCurrent c i).checkCurrent k).2 with stress := s, block := b }) := by
    cases k
    · rfl
    · exact checkV_core (withCurrent c i) s b
  rw [hc]
  rcases (withCurrent c i).checkCurrent k with ⟨r | e | w, c2⟩
  · simp only
    split <;> rfl
  · rfl
  · rfl

theorem checkStates_core (c : SPM N) (s : SpmStress) (b : Bool) (k : Bool) :
    ({ c with stress := s, block := b } : SPM N).checkStates k =
      ((c.checkStates k).1, { (c.checkStates k).2 with stress := s, block := b }) := by
  unfold checkStates
  have hv : ({ c with stress := s, block := b } : SPM N).validStates = c.validStates := rfl
  rw [hv]
  rcases c.validStates with (_ | _) | e | w
  · rfl
  · cases k
    · rfl
    · exact checkV_core c s b
  · rfl
  · rfl

theorem setStates_core (c : SPM N) (s : SpmStress) (b : Bool) (x : List ℚ) (k : Bool) :
    ({ c with stress := s, block := b } : SPM N).setStates x k =
      ((c.setStates x k).1, { (c.setStates x k).2 with stress := s, block := b }) := by
  unfold SPM.setStates
  rcases decode N x with _ | st
  · rfl
  · simp only
    rw [show ({ c with st := st, valid := false, stress := s, block := b } : SPM N) =
      { ({ c with st := st, valid := false } : SPM N) with stress := s, block := b } from rfl, checkStates_core]
    rcases ({ c with st := st, valid := false } : SPM N).checkStates k with ⟨r | e | w, c2⟩
    · simp only; split <;> rfl
    · rfl
    · rfl

/-- `setCurrent` of a cell and of its unit. -/
theorem plain_setCurrent {c : SPM N} (h : Fresh c) (i : ℚ) (k : Bool) :
    (c.plain.setCurrent i k).1 = (c.setCurrent i k).1 ∧
      (c.plain.setCurrent i k).2.plain = (c.setCurrent i k).2.plain := by
  obtain ⟨h1, h2⟩ := spmAlike_setCurrent (alike_memo h) i k
  rw [plain_eq_memo, setCurrent_core]
  refine ⟨h1.symm, ?_⟩
  rw [alike_plain h2]
  have hb : ((memo c 0 false).setCurrent i k).2.block = c.block := (SpmFrame.setCurrent _ i k).block
  simp only [SPM.plain, hb]

theorem plain_setStates {c : SPM N} (h : Fresh c) (x : List ℚ) (k : Bool) :
    (c.plain.setStates x k).1 = (c.setStates x k).1 ∧
      (c.plain.setStates x k).2.plain = (c.setStates x k).2.plain := by
  obtain ⟨h1, h2⟩ := spmAlike_setStates (alike_memo h) x k
  rw [plain_eq_memo, setStates_core]
  refine ⟨h1.symm, ?_⟩
  rw [alike_plain h2]
  have hb : ((memo c 0 false).setStates x k).2.block = c.block := by
    unfold SPM.setStates
    rcases decode N x with _ | st
    · rfl
    · simp only
      have hr := checkStates_rest ({ memo c 0 false with st := st, valid := false } : SPM N) k
      rcases hk : ({ memo c 0 false with st := st, valid := false } : SPM N).checkStates k with ⟨r | e | w, c2⟩ <;>
        rw [hk] at hr <;> simp only at hr ⊢
      · split <;> rw [hr] <;> rfl
      · rw [hr]; rfl
      · rw [hr]; rfl
  simp only [SPM.plain, hb]

theorem plain_timeStep {c : SPM N} (h : Fresh c) (hb : c.block = true) (dt : ℚ) (n : ℤ) :
    (c.plain.timeStep dt n).1 = (c.timeStep dt n).1 ∧
      (c.plain.timeStep dt n).2.plain = (c.timeStep dt n).2.plain := by
  by_cases hdt : dt < 0
  · rw [spm_negative_step _ n hdt, spm_negative_step _ n hdt]; exact ⟨rfl, rfl⟩
  · have hdt := not_lt.mp hdt
    rw [blocked_timeStep c n hdt hb, blocked_timeStep c.plain n hdt hb]
    obtain ⟨g1, g2, -⟩ := spmAlike_diffLoop dt n.toNat (spmAlike_rotate (alike_memo h) (n * dt))
    obtain ⟨s, hs⟩ := diffLoop_core dt true n.toNat ((memo c 0 false).rotate (n * dt)) (c.plain.rotate (n * dt)).stress
    have e : ({ (memo c 0 false).rotate (n * dt) with stress := (c.plain.rotate (n * dt)).stress, block := true } : SPM N) =
        c.plain.rotate (n * dt) := by
      unfold rotate SPM.plain memo; simp only; rw [← hb]
    rw [e] at hs
    rw [hs]
    refine ⟨g1.symm, ?_⟩
    rw [alike_plain g2]
    have hb' : (SPM.diffLoop dt n.toNat ((memo c 0 false).rotate (n * dt))).2.block = true :=
      ((SpmFrame.diffLoop dt n.toNat _).block).trans hb
    simp only [SPM.plain, hb']

/-- The loop of diffusion steps always ends normally for a good cell. -/
theorem good_diffLoop (dt : ℚ) (k : ℕ) : ∀ c : SPM N, SpmGood c → (SPM.diffLoop dt k c).1 = .ok () := by
  induction k with
  | zero => intro c _; rfl
  | succ k ih =>
    intro c h
    have hg : SpmGood (c.diffStep dt).2 := (SpmFrame.diffStep c dt).good h
    have hs : (c.diffStep dt).1 = .ok () := by
      unfold diffStep
      rw [if_neg (by simp [h.finite, h.cap])]
      obtain ⟨v, hv⟩ := good_V (c := c.diffState dt) (h.congr rfl rfl rfl)
      rcases hk : (c.diffState dt).V with ⟨v | e | w, c2⟩ <;> rw [hk] at hv
      · cases hv
      · cases hv
    rw [SPM.diffLoop]
    unfold SPM.andThen
    rw [hs]
    exact ih _ hg

theorem good_timeStep {c : SPM N} (h : SpmGood c) {dt : ℚ} (hdt : 0 ≤ dt) (n : ℤ) : (c.timeStep dt n).1 = .ok () := by
  rw [blocked_timeStep c n hdt h.block]
  exact good_diffLoop dt _ _ (h.congr rfl rfl rfl)

theorem good_setCurrent {c : SPM N} (h : SpmGood c) (i : ℚ) (k : Bool) : ∃ s, (c.setCurrent i k).1 = .ok s := by
  rw [spm_setCurrent_eq]
  have hc : ∃ s, ((withCurrent c i).checkCurrent k).1 = .ok s := by
    cases k
    · exact ⟨_, rfl⟩
    · exact good_checkV (h.congr rfl rfl rfl)
  obtain ⟨s, hs⟩ := hc
  rcases hk : (withCurrent c i).checkCurrent k with ⟨r | e | w, c2⟩ <;> rw [hk] at hs
  · simp only; split <;> exact ⟨_, rfl⟩
  · cases hs
  · cases hs

theorem onlyCurrent_plain {a b : SPM N} (h : OnlyCurrentDiffers a b) : (withCurrent b a.st.I).plain = a.plain := by
  have hst : ({ b.st with I := a.st.I, V := 0 } : SpmState N) = { a.st with V := 0 } :=
    congrArg (fun s : SpmState N => ({ s with V := 0 } : SpmState N)) h.st
  obtain ⟨h1, -, h3, ⟨h4, h5, h6, h7⟩, h8, h9, h10⟩ := h
  unfold SPM.plain withCurrent
  simp only
  rw [hst, h1, h4, h5, h6, h7, h8, h9, h10]

instance : LawfulCurrent (SpmUnit N) where
  returns u i b := good_setCurrent u.good i b
  sets u i b st h hb := (spm_setCurrent_accepted u.cell i b st h hb).1
  rejects u i b st h hb := SpmUnit.ext' (by
    show ((u.cell.setCurrent i b).2).plain = _
    rw [spm_setCurrent_refused u.cell i b st h hb, u.isPlain])
  undo u i b := SpmUnit.ext' (by
    show (withCurrent ((u.cell.setCurrent i b).2).plain u.cell.st.I).plain = u.cell
    rw [show (withCurrent ((u.cell.setCurrent i b).2).plain u.cell.st.I).plain =
      (withCurrent ((u.cell.setCurrent i b).2) u.cell.st.I).plain from rfl,
      onlyCurrent_plain (setCurrent_onlyCurrent u.cell i b), u.isPlain])
  unchecked u i := rfl

/-- A time step of a unit. -/
theorem unit_timeStep (u : SpmUnit N) (dt : ℚ) (n : ℕ) :
    (StorageUnit.timeStep u dt n).2.cell = (u.cell.timeStep dt n).2.plain := rfl

theorem blocked_step_I {c : SPM N} (hb : c.block = true) (dt : ℚ) (n : ℤ) : (c.timeStep dt n).2.st.I = c.st.I := by
  by_cases hdt : dt < 0
  · rw [spm_negative_step _ n hdt]
  · rw [blocked_timeStep c n (not_lt.mp hdt) hb]
    exact diffLoop_keeps (P := fun x : SPM N => x.st.I = c.st.I) dt (fun x h => by
      rw [← h]
      unfold diffStep
      split
      · rfl
      · have hr := SPM.V_rest (x.diffState dt)
        rcases hk : (x.diffState dt).V with ⟨v | e | w, c2⟩ <;> rw [hk] at hr <;> simp only at hr ⊢ <;> rw [hr] <;> rfl)
      _ _ rfl

theorem blocked_batch {c : SPM N} (h : SpmGood c) (dt : ℚ) (hdt : 0 ≤ dt) (a b : ℕ) :
    (c.timeStep dt ((a + b : ℕ) : ℤ)).2.plain = ((c.timeStep dt a).2.timeStep dt b).2.plain := by
  have hb := h.block
  have h1 : (c.timeStep dt a).2.block = true := (SpmFrame.timeStep hb dt a).block.trans hb
  rw [blocked_timeStep _ (b : ℤ) hdt h1, blocked_timeStep c _ hdt hb]
  rw [blocked_timeStep c _ hdt hb] at h1 ⊢
  rw [Int.toNat_natCast, Int.toNat_natCast, Int.toNat_natCast, diffLoop_add]
  rw [Int.toNat_natCast] at h1
  obtain ⟨s1, e1⟩ := diffLoop_core dt true a (c.rotate ((a : ℤ) * dt)) (c.rotate (((a + b : ℕ) : ℤ) * dt)).stress
  have e1' : ({ c.rotate ((a : ℤ) * dt) with stress := (c.rotate (((a + b : ℕ) : ℤ) * dt)).stress, block := true } : SPM N) =
      c.rotate (((a + b : ℕ) : ℤ) * dt) := by unfold rotate; simp only; rw [← hb]
  rw [e1', good_diffLoop dt a (c.rotate ((a : ℤ) * dt)) (h.congr rfl rfl rfl)] at e1
  unfold SPM.andThen
  rw [e1]
  simp only
  obtain ⟨s2, e2⟩ := diffLoop_core dt true b ((SPM.diffLoop dt a (c.rotate ((a : ℤ) * dt))).2.rotate ((b : ℤ) * dt)) s1
  have e2' : ({ (SPM.diffLoop dt a (c.rotate ((a : ℤ) * dt))).2.rotate ((b : ℤ) * dt) with stress := s1, block := true } : SPM N) =
      { (SPM.diffLoop dt a (c.rotate ((a : ℤ) * dt))).2 with stress := s1, block := true } := rfl
  rw [e2'] at e2
  rw [e2]
  have hb2 : (SPM.diffLoop dt b ((SPM.diffLoop dt a (c.rotate ((a : ℤ) * dt))).2.rotate ((b : ℤ) * dt))).2.block = true :=
    (SpmFrame.diffLoop dt b _).block.trans h1
  simp only [SPM.plain, hb2]

instance : LawfulStep (SpmUnit N) where
  returns u dt n h := good_timeStep u.good h n
  negative u dt n h := by
    have e := spm_negative_step u.cell (n : ℤ) h
    refine Prod.ext ?_ (SpmUnit.ext' ?_)
    · show (u.cell.timeStep dt n).1 = _; rw [e]
    · show (u.cell.timeStep dt n).2.plain = _; rw [e, u.isPlain]
  keepsI u dt n := blocked_step_I u.good.block dt n
  batch u dt a b h := SpmUnit.ext' (by
    show (u.cell.timeStep dt ((a + b : ℕ) : ℤ)).2.plain = ((u.cell.timeStep dt a).2.plain.timeStep dt b).2.plain
    have hf : Fresh (u.cell.timeStep dt a).2 := fresh_step_blocked dt a u.good.block (unit_fresh u)
    rw [(plain_timeStep hf ((SpmFrame.timeStep u.good.block dt a).block.trans u.good.block) dt b).2]
    exact blocked_batch u.good dt h a b)

/-- Everything but the state. -/
def SpmSame (a b : SPM N) : Prop := ({ a with st := b.st } : SPM N) = b

theorem spmSame_of_plain {a b : SPM N} (h1 : b.par = a.par) (h2 : b.Qgen = a.Qgen) (h3 : b.Qtot = a.Qtot)
    (h4 : b.thermTime = a.thermTime) (h5 : b.T_env = a.T_env) (h6 : b.deg = a.deg) (h7 : b.block = a.block)
    (h8 : b.parent = a.parent) (ha : a.plain = a) : SpmSame a b.plain := by
  unfold SpmSame
  rw [← ha]
  unfold SPM.plain
  simp only
  rw [h1, h2, h3, h4, h5, h6, h7, h8]

theorem diffLoop_shell (dt : ℚ) (k : ℕ) : ∀ c : SPM N, ∀ r, r = (SPM.diffLoop dt k c).2 → r.par = c.par ∧
    r.Qgen = c.Qgen ∧ r.Qtot = c.Qtot ∧ r.thermTime = c.thermTime ∧ r.T_env = c.T_env ∧ r.deg = c.deg ∧
    r.block = c.block ∧ r.parent = c.parent := by
  induction k with
  | zero => rintro c r rfl; exact ⟨rfl, rfl, rfl, rfl, rfl, rfl, rfl, rfl⟩
  | succ k ih =>
    rintro c r rfl
    have h : ∀ r, r = (c.diffStep dt).2 → r.par = c.par ∧ r.Qgen = c.Qgen ∧ r.Qtot = c.Qtot ∧
        r.thermTime = c.thermTime ∧ r.T_env = c.T_env ∧ r.deg = c.deg ∧ r.block = c.block ∧ r.parent = c.parent := by
      rintro r rfl
      unfold diffStep
      split
      · exact ⟨rfl, rfl, rfl, rfl, rfl, rfl, rfl, rfl⟩
      · have hr := SPM.V_rest (c.diffState dt)
        rcases hk : (c.diffState dt).V with ⟨v | e | w, c2⟩ <;> rw [hk] at hr <;> simp only at hr ⊢ <;> rw [hr] <;>
          exact ⟨rfl, rfl, rfl, rfl, rfl, rfl, rfl, rfl⟩
    rw [SPM.diffLoop]
    unfold SPM.andThen
    rcases (c.diffStep dt).1 with _ | e | w
    · simp only
      obtain ⟨a1, a2, a3, a4, a5, a6, a7, a8⟩ := h _ rfl
      obtain ⟨b1, b2, b3, b4, b5, b6, b7, b8⟩ := ih (c.diffStep dt).2 _ rfl
      exact ⟨b1.trans a1, b2.trans a2, b3.trans a3, b4.trans a4, b5.trans a5, b6.trans a6, b7.trans a7, b8.trans a8⟩
    · exact h _ rfl
    · exact h _ rfl

/-- A unit whose state `setStates` accepts. -/
def SpmValid (c : SPM N) : Prop := c.validStates = .ok true

noncomputable instance : LawfulStates (SpmUnit N) where
  Same a b := SpmSame a.cell b.cell
  Valid u := SpmValid u.cell
  refl u := rfl
  trans {a b c} h1 h2 := by
    unfold SpmSame at *
    rw [← h2, ← h1]
  setCurrent_same u i b := by
    obtain ⟨h1, -, -, ⟨h4, h5, h6, h7⟩, h8, h9, h10⟩ := setCurrent_onlyCurrent u.cell i b
    exact spmSame_of_plain h1 h4 h5 h6 h7 h8 h9 h10 u.isPlain
  timeStep_same u dt n := by
    show SpmSame u.cell (u.cell.timeStep dt n).2.plain
    by_cases hdt : dt < 0
    · rw [spm_negative_step _ _ hdt, u.isPlain]; rfl
    · rw [blocked_timeStep u.cell n (not_lt.mp hdt) u.good.block]
      obtain ⟨h1, h4, h5, h6, h7, h8, h9, h10⟩ := diffLoop_shell dt (n : ℤ).toNat (u.cell.rotate ((n : ℤ) * dt)) _ rfl
      exact spmSame_of_plain h1 h4 h5 h6 h7 h8 h9 h10 u.isPlain
  setStates_same u s b := by
    simp only [StorageUnit.setStates]
    split
    · show SpmSame u.cell (u.cell.setStates s b).2.plain
      unfold SPM.setStates
      rcases decode N s with _ | st
      · simp only; rw [u.isPlain]; rfl
      · simp only
        have hr := checkStates_rest ({ u.cell with st := st, valid := false } : SPM N) b
        rcases hk : ({ u.cell with st := st, valid := false } : SPM N).checkStates b with ⟨r | e | w, c2⟩ <;>
          rw [hk] at hr <;> simp only at hr ⊢
        · split <;> rw [hr] <;> exact spmSame_of_plain rfl rfl rfl rfl rfl rfl rfl rfl u.isPlain
        · rw [hr]; exact spmSame_of_plain rfl rfl rfl rfl rfl rfl rfl rfl u.isPlain
        · rw [hr]; exact spmSame_of_plain rfl rfl rfl rfl rfl rfl rfl rfl u.isPlain
    · rfl
  roundtrip u w rest hs hv := by
    have e0 : ({ w.cell with st := u.cell.st, valid := false } : SPM N) = u.cell := by
      have h : ({ u.cell with st := w.cell.st } : SPM N) = w.cell := hs
      rw [← h]
      have := unit_valid u
      rcases hu : u.cell with ⟨_, _, _, _, _, _, _, _, _, _, _⟩
      rw [hu] at this; simp only at this; subst this; rfl
    have hl : u.cell.getStates.length = 22 + 2 * N := by simp [SPM.getStates]; ring
    have e1 : w.cell.setStates (u.cell.getStates ++ rest) false = (.ok (.Success, rest), u.cell) := by
      rw [setStates_eq w.cell _ false u.cell.st (spm_decode_getStates u.cell rest), e0]
      unfold checkStates
      rw [show u.cell.validStates = .ok true from hv]
      simp only [Bool.false_eq_true, if_false]
      rw [if_neg (by decide), ← hl, List.drop_left]
    simp only [StorageUnit.setStates, StorageUnit.getStates]
    rw [dif_pos (by rw [e1]; exact u.good)]
    refine Prod.ext ?_ (SpmUnit.ext' ?_)
    · simp only [e1]
    · show (w.cell.setStates (u.cell.getStates ++ rest) false).2.plain = u.cell
      rw [e1, u.isPlain]

noncomputable instance : Clocked (SpmUnit N) where
  clocks u := [u.cell.st.time]
  set_clocks u i b := by
    have h := (setCurrent_onlyCurrent u.cell i b).st
    show [(u.cell.setCurrent i b).2.st.time] = [u.cell.st.time]
    rw [← h]
  step_clocks u dt n h := by
    show [(u.cell.timeStep dt n).2.st.time] = [u.cell.st.time + n * dt]
    rw [(spm_soc_charge u.cell dt n h).2.1]

end Slide

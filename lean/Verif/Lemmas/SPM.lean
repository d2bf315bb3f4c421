import Verif.Spec.SPM
import Verif.Tac

/-! Lemmas about the cached voltage of the single-particle cell. -/

namespace Slide
open Spec SPM

variable {N : ℕ}

/-- A concrete cell with one node used in examples and counterexamples. Its curves are linear, the libm functions are
replaced by simple ones. -/
def spm1 : SPM 1 where
  par := {
    exp := fun _ => 1, sqrt := fun x => max x 0, asinh := fun x => x, pow := fun _ _ => 1, tModel := 0,
    cap := 1, Cmaxpos := 2, Cmaxneg := 2, C_elec := 1, n := 1, kp := 1, kp_T := 1, kn := 1, kn_T := 1,
    Dp_T := 1, Dn_T := 1, T_ref := 298, Qch := 1, rho := 1, Cp := 1, L := 1, Acell := 1, elecSurf := 1,
    Rp := 1, Rn := 1, rsei := 1 / 10, nsei := 1, alphasei := 1, OCVsei := 1, rhosei := 1, c_elec0 := 1,
    Vmain := 1, Vsei := 1,
    sei := ⟨1, 1, 1, 1, 1, 1, 1, 1, 1, 1, 1, 1, 1, 1, 1⟩, cs := ⟨1, 1, 1, 1, 1, 1, 1, 1⟩, OCVnmc := 1,
    lam := ⟨1, 1, -1, 0, -1, 0, 1, 1, 1, 1, 1⟩, npl := 1, alphapl := 1, OCVpl := 0, rhopl := 1, pl := ⟨1, 1⟩,
    M := {
           ind := 0, xch := fun _ => 1, Ap := fun _ => 0, An := fun _ => 0, Bp := fun _ => 1, Bn := fun _ => 1,
           Cp := fun _ _ => 1, Cn := fun _ _ => 1, Cc := fun _ => -1, Dp := fun _ => 0, Dn := fun _ => 0,
           Vp := fun _ _ => 1, Vn := fun _ _ => 1 },
    ocvP := fun z => if 0 ≤ z ∧ z ≤ 1 then some (42 / 10 - z) else none,
    ocvN := fun z => if 0 ≤ z ∧ z ≤ 1 then some (1 / 10) else none,
    dTot := fun z => if 0 ≤ z ∧ z ≤ 1 then some (1 / 1000) else none,
    dNeg := fun z => if 0 ≤ z ∧ z ≤ 1 then some 0 else none,
    dai := fun s => (s.zp 0, s.zn 0), laresCurve := fun z => if 0 ≤ z ∧ z ≤ 1 then some z else none,
    varCap := 1, varR := 1, varSEI := 1, varLAM := 1 }
  st := {
    I := 0, V := 0, T := 298, delta := 1, LLI := 0, thickp := 1, thickn := 1, ep := 1, en := 1, ap := 3, an := 3,
    CS := 1 / 10, Dp := 1, Dn := 1, deltaPl := 0, zp := fun _ => 1, zn := fun _ => 1, rDCp := 1, rDCn := 1, rDCcc := 1,
    SOC := 1 / 2, time := 0, Ah := 0, Wh := 0 }
  valid := false
  stress := ⟨false, false, false, false, 0, 0, 0, 0, 0, 0, 1⟩
  Qgen := 0
  Qtot := 0
  thermTime := 0
  T_env := 298
  deg := { SEI := [1], SEIpor := 0, CS := [], CSdiff := 0, LAM := [], pl := 0 }
  block := false
  parent := false

theorem fresh_of_invalid {c : SPM N} (h : c.valid = false) : Fresh c := by
  have : ({ c with valid := false } : SPM N) = c := by cases c; simp_all
  rw [Fresh, this]

/-- Freshness only depends on the flag, the cached value and the value that would be computed. -/
theorem fresh_congr {a b : SPM N} (hv : a.valid = b.valid) (hV : a.st.V = b.st.V) (hc : a.calcV = b.calcV)
    (h : Fresh b) : Fresh a := by
  unfold Fresh at *
  have e1 : a.V.1 = b.V.1 := by
    unfold SPM.V; rw [hv, hV, hc]; split
    · rfl
    · split <;> rfl
  have e2 : ({ a with valid := false } : SPM N).V.1 = ({ b with valid := false } : SPM N).V.1 := by
    have ha : ({ a with valid := false } : SPM N).calcV = a.calcV := rfl
    have hb : ({ b with valid := false } : SPM N).calcV = b.calcV := rfl
    unfold SPM.V; rw [ha, hb, hc]
    simp only [Bool.false_eq_true, if_false]
    split <;> rfl
  rw [e1, e2, h]

/-- Reading the voltage keeps it up to date. -/
theorem fresh_V {c : SPM N} (h : Fresh c) : Fresh c.V.2 := by
  unfold SPM.V
  by_cases hv : c.valid = true
  · rw [if_pos hv]; exact h
  · rw [if_neg hv]
    have hv' : c.valid = false := by simpa using hv
    rcases hc : c.calcV with (_ | v) | e | w
    · exact h
    · show Fresh (c.cache v)
      have e1 : (c.cache v).V.1 = .ok v := rfl
      have e2 : ({ c.cache v with valid := false } : SPM N).V.1 = .ok v := by
        have : ({ c.cache v with valid := false } : SPM N).calcV = .ok (some v) := hc
        unfold SPM.V
        rw [if_neg (by simp), this]
      rw [Fresh, e1, e2]
    · exact h
    · exact h

/-- `V()` changes nothing but the cached value and its flag. -/
theorem V_frame (c : SPM N) : c.V.2.par = c.par ∧ c.V.2.stress = c.stress ∧ c.V.2.block = c.block ∧
    c.V.2.st = { c.st with V := c.V.2.st.V } := by
  unfold SPM.V
  by_cases hv : c.valid = true
  · rw [if_pos hv]; exact ⟨rfl, rfl, rfl, rfl⟩
  · rw [if_neg hv]
    rcases c.calcV with (_ | v) | e | w <;> exact ⟨rfl, rfl, rfl, rfl⟩

theorem checkV_snd (c : SPM N) : c.checkV.2 = c.V.2 := by
  unfold checkV
  rcases c.V with ⟨v | e | w, c'⟩ <;> rfl

theorem checkCurrent_snd (c : SPM N) (b : Bool) : (c.checkCurrent b).2 = if b then c.V.2 else c := by
  unfold checkCurrent; cases b
  · rfl
  · simp [checkV_snd]

theorem fresh_setCurrent {c : SPM N} (i : ℚ) (b : Bool) (h : Fresh c) : Fresh (c.setCurrent i b).2 := by
  unfold setCurrent
  set c1 : SPM N := { c with st := { c.st with I := i }, valid := false } with hc1
  have h1 : Fresh c1 := fresh_of_invalid rfl
  have hs := checkCurrent_snd c1 b
  rcases hk : c1.checkCurrent b with ⟨s | e | w, c2⟩
  · have hc2 : c2 = if b then c1.V.2 else c1 := by rw [← hs, hk]
    have h2 : Fresh c2 := by rw [hc2]; split; exacts [fresh_V h1, h1]
    simp only [hk]
    split
    · have hp : c2.par = c.par := by rw [hc2]; split; exacts [(V_frame c1).1, rfl]
      have hst : c2.st = { c1.st with V := c2.st.V } := by rw [hc2]; split; exacts [(V_frame c1).2.2.2, rfl]
      refine fresh_congr (b := c) rfl rfl ?_ h
      have : (({ c2 with st := { c2.st with I := c.st.I, V := c.st.V }, valid := c.valid } : SPM N)).calcV =
          ({ c with stress := c2.stress, Qgen := c2.Qgen, Qtot := c2.Qtot, thermTime := c2.thermTime, T_env := c2.T_env,
                    deg := c2.deg, block := c2.block, parent := c2.parent } : SPM N).calcV := by
        rw [hst, hp]
      exact this
    · exact h2
  · have hc2 : c2 = if b then c1.V.2 else c1 := by rw [← hs, hk]
    simp only [hk]
    rw [hc2]; split; exacts [fresh_V h1, h1]
  · have hc2 : c2 = if b then c1.V.2 else c1 := by rw [← hs, hk]
    simp only [hk]
    rw [hc2]; split; exacts [fresh_V h1, h1]

theorem fresh_setSOC {c : SPM N} (s : ℚ) (b : Bool) (h : Fresh c) : Fresh (c.setSOC s b).2 := by
  unfold setSOC
  split
  · exact h
  · set c1 : SPM N := { c with st := { c.st with SOC := s } } with hc1
    have h1 : Fresh c1 := fresh_congr (b := c) rfl rfl rfl h
    cases b
    · exact h1
    · have hs := checkV_snd c1
      have h2 := fresh_V h1
      rcases hk : c1.checkV with ⟨r | e | w, c2⟩
      · have hc2 : c2 = c1.V.2 := by rw [← hs, hk]
        rw [← hc2] at h2
        simp only [if_true, hk]
        split
        · exact fresh_congr (b := c2) rfl rfl rfl h2
        · exact h2
      · have hc2 : c2 = c1.V.2 := by rw [← hs, hk]
        simp only [if_true, hk]; rw [hc2]; exact h2
      · have hc2 : c2 = c1.V.2 := by rw [← hs, hk]
        simp only [if_true, hk]; rw [hc2]; exact h2

theorem checkStates_snd (c : SPM N) (b : Bool) : (c.checkStates b).2 = c ∨ (c.checkStates b).2 = c.V.2 := by
  unfold checkStates
  rcases c.validStates with v | e | w
  · cases v
    · exact .inl rfl
    · cases b
      · exact .inl rfl
      · right; simp [checkV_snd]
  · exact .inl rfl
  · exact .inl rfl

theorem SPM.V_rest (c : SPM N) : c.V.2 = { c with st := { c.st with V := c.V.2.st.V }, valid := c.V.2.valid } := by
  unfold SPM.V
  by_cases hv : c.valid = true
  · rw [if_pos hv]
  · rw [if_neg hv]
    rcases c.calcV with (_ | v) | e | w <;> rfl

theorem checkStates_rest (c : SPM N) (b : Bool) :
    (c.checkStates b).2 = { c with st := (c.checkStates b).2.st, valid := (c.checkStates b).2.valid } := by
  rcases checkStates_snd c b with h | h
  · rw [h]
  · rw [h]; rw [SPM.V_rest]

theorem fresh_setStates {c : SPM N} (s : List ℚ) (b : Bool) (h : Fresh c) : Fresh (c.setStates s b).2 := by
  unfold setStates
  rcases decode N s with _ | st
  · exact h
  · obtain ⟨c1, hc1⟩ : ∃ c1 : SPM N, c1 = { c with st := st, valid := false } := ⟨_, rfl⟩
    have h1 : Fresh c1 := fresh_of_invalid (by rw [hc1])
    have hs := checkStates_snd c1 b
    have hr := checkStates_rest c1 b
    have hF : Fresh (c1.checkStates b).2 := by
      rcases hs with e | e <;> rw [e]
      exacts [h1, fresh_V h1]
    rcases hk : c1.checkStates b with ⟨r | e | w, c2⟩
    · rw [hk] at hF hr; rw [hc1] at hr
      rw [hc1] at hk; simp only [hk]
      split
      · simp only at hr
        rw [hr]
        exact fresh_congr (b := c) rfl rfl rfl h
      · exact hF
    · rw [hk] at hF; rw [hc1] at hk; simp only [hk]; exact hF
    · rw [hk] at hF; rw [hc1] at hk; simp only [hk]; exact hF

theorem fresh_diffStep {c : SPM N} (dt : ℚ) (h : Fresh c) : Fresh (c.diffStep dt).2 := by
  unfold diffStep
  split
  · exact h
  · have h1 : Fresh (c.diffState dt) := fresh_of_invalid rfl
    have h2 := fresh_V h1
    rcases hk : (c.diffState dt).V with ⟨v | e | w, c2⟩
    · rw [hk] at h2
      exact fresh_congr (b := c2) rfl rfl rfl h2
    · rw [hk] at h2; exact h2
    · rw [hk] at h2; exact h2

theorem diffStep_block (c : SPM N) (dt : ℚ) : (c.diffStep dt).2.block = c.block := by
  unfold diffStep
  split
  · rfl
  · have h2 := (V_frame (c.diffState dt)).2.2.1
    rcases hk : (c.diffState dt).V with ⟨v | e | w, c2⟩
    all_goals
      rw [hk] at h2
      exact h2

/-- What holds of the state before, and is kept by both halves, holds after. -/
theorem andThen_keeps {P : SPM N → Prop} {r : Outcome Unit × SPM N} {f : SPM N → Outcome Unit × SPM N}
    (h1 : P r.2) (hf : ∀ c, P c → P (f c).2) : P (SPM.andThen r f).2 := by
  unfold SPM.andThen
  rcases hr : r.1 with _ | e | w
  · exact hf _ h1
  · exact h1
  · exact h1

theorem diffLoop_keeps {P : SPM N → Prop} (dt : ℚ) (hs : ∀ c, P c → P (c.diffStep dt).2) (k : ℕ) :
    ∀ c, P c → P (SPM.diffLoop dt k c).2 := by
  induction k with
  | zero => intro c h; exact h
  | succ k ih => intro c h; rw [SPM.diffLoop]; exact andThen_keeps (hs c h) ih

theorem fresh_step_blocked {c : SPM N} (dt : ℚ) (n : ℤ) (hb : c.block = true) (h : Fresh c) :
    Fresh (c.timeStep dt n).2 := by
  unfold timeStep
  split
  · exact h
  · have h0 : Fresh (c.rotate (n * dt)) := fresh_congr (b := c) rfl rfl rfl h
    have h1 := diffLoop_keeps (P := fun c => Fresh c ∧ c.block = true) dt
      (fun c h => ⟨fresh_diffStep dt h.1, (diffStep_block c dt).trans h.2⟩) n.toNat _ ⟨h0, hb⟩
    refine (andThen_keeps (P := fun c => Fresh c ∧ c.block = true) h1 ?_).1
    intro c1 h
    rw [if_pos h.2]; exact h

theorem fresh_after {c : SPM N} (o : SpmOp N) (hq : quiet c o) (h : Fresh c) : Fresh (spmAfter c o) := by
  cases o with
  | readV => exact fresh_V h
  | setCurrent i b => exact fresh_setCurrent i b h
  | setSOC s b => exact fresh_setSOC s b h
  | setT t => exact hq.elim
  | setTenv t =>
    show Fresh (c.setTenv t).2
    unfold setTenv; split
    · exact h
    · exact fresh_congr (b := c) rfl rfl rfl h
  | setC fp fn =>
    show Fresh (c.setC fp fn).2
    unfold setC; split
    · exact h
    · exact fresh_of_invalid rfl
  | setStates s b => exact fresh_setStates s b h
  | setStateObj st => exact fresh_of_invalid rfl
  | step dt n => exact fresh_step_blocked dt n hq h
  | block b => exact fresh_congr (b := c) rfl rfl rfl h
  | overwriteChar => exact hq.elim
  | overwriteGeo => exact hq.elim
  | setGeometric => exact fresh_of_invalid rfl
  | setCharacterisation => exact hq.elim

end Slide

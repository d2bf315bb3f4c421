import Verif.Spec.Reference
import Verif.Lemmas.SPMDiff
import Verif.Tac

/-! Lemmas: every function of the single-particle cell commutes with a change of the reference electrode. -/

namespace Slide
open Spec SPM

variable {N : ℕ}

theorem against_ocvN (x : ℚ) (c : SPM N) (z : ℚ) :
    look (against x c).par.ocvN z = (look c.par.ocvN z >>= fun y => .ok (y + x)) := by
  unfold look
  show (match (c.par.ocvN z).map (· + x) with | some y => _ | none => _) = _
  rcases c.par.ocvN z with _ | y <;> rfl

theorem against_ocvP (x : ℚ) (c : SPM N) (z : ℚ) :
    look (against x c).par.ocvP z = (look c.par.ocvP z >>= fun y => .ok (y + x)) := by
  unfold look
  show (match (c.par.ocvP z).map (· + x) with | some y => _ | none => _) = _
  rcases c.par.ocvP z with _ | y <;> rfl

theorem against_finite (x : ℚ) (c : SPM N) : (against x c).finite = c.finite := id rfl
theorem against_concOk (x : ℚ) (c : SPM N) : (against x c).concOk = c.concOk := id rfl
theorem against_cps (x : ℚ) (c : SPM N) : (against x c).cps = c.cps := id rfl
theorem against_cns (x : ℚ) (c : SPM N) : (against x c).cns = c.cns := id rfl
theorem against_i0p (x : ℚ) (c : SPM N) : (against x c).i0p = c.i0p := id rfl
theorem against_i0n (x : ℚ) (c : SPM N) : (against x c).i0n = c.i0n := id rfl
theorem against_etap (x : ℚ) (c : SPM N) : (against x c).etap = c.etap := id rfl
theorem against_etan (x : ℚ) (c : SPM N) : (against x c).etan = c.etan := id rfl
theorem against_Rdc (x : ℚ) (c : SPM N) : (against x c).Rdc = c.Rdc := id rfl
theorem against_arrh (x : ℚ) (c : SPM N) : (against x c).arrh = c.arrh := id rfl
theorem against_jp (x : ℚ) (c : SPM N) : (against x c).jp = c.jp := id rfl
theorem against_jn (x : ℚ) (c : SPM N) : (against x c).jn = c.jn := id rfl
theorem against_st (x : ℚ) (c : SPM N) : (against x c).st = c.st := id rfl

theorem against_calcV (x : ℚ) (c : SPM N) : (against x c).calcV = c.calcV := by
  unfold calcV
  rw [against_finite, against_concOk, against_cps, against_cns, against_i0p, against_i0n, against_etap, against_etan,
    against_Rdc, against_st, against_ocvN, against_ocvP]
  show (if (!c.finite) = true then _ else if (!c.concOk) = true then _ else
    look c.par.dTot (c.cps / c.par.Cmaxpos) >>= fun d => _) = _
  by_cases h1 : (!c.finite) = true
  · rw [if_pos h1, if_pos h1]
  rw [if_neg h1, if_neg h1]
  by_cases h2 : (!c.concOk) = true
  · rw [if_pos h2, if_pos h2]
  rw [if_neg h2, if_neg h2]
  rcases look c.par.dTot (c.cps / c.par.Cmaxpos) with d | e | w
  · simp only [Outcome.ok_bind]
    show (look c.par.ocvN (c.cns / c.par.Cmaxneg) >>= fun y => Outcome.ok (y + x)) >>= _ = _
    rcases look c.par.ocvN (c.cns / c.par.Cmaxneg) with n | e | w
    · simp only [Outcome.ok_bind]
      show (look c.par.ocvP (c.cps / c.par.Cmaxpos) >>= fun y => Outcome.ok (y + x)) >>= _ = _
      rcases look c.par.ocvP (c.cps / c.par.Cmaxpos) with p | e | w
      · simp only [Outcome.ok_bind]
        rw [show p + x - (n + x) = p - n by ring]; rfl
      · rfl
      · rfl
    · rfl
    · rfl
  · rfl
  · rfl

theorem against_getOCV (x : ℚ) (c : SPM N) : (against x c).getOCV = c.getOCV := by
  unfold getOCV
  rw [against_finite, against_cps, against_cns, against_st, against_ocvN, against_ocvP]
  show (if (!c.finite) = true then _ else
    look c.par.dTot (c.cps / c.par.Cmaxpos) >>= fun d => _) = _
  by_cases h1 : (!c.finite) = true
  · rw [if_pos h1, if_pos h1]
  rw [if_neg h1, if_neg h1]
  rcases look c.par.dTot (c.cps / c.par.Cmaxpos) with d | e | w
  · simp only [Outcome.ok_bind]
    show (look c.par.ocvN (c.cns / c.par.Cmaxneg) >>= fun y => Outcome.ok (y + x)) >>= _ = _
    rcases look c.par.ocvN (c.cns / c.par.Cmaxneg) with n | e | w
    · simp only [Outcome.ok_bind]
      show (look c.par.ocvP (c.cps / c.par.Cmaxpos) >>= fun y => Outcome.ok (y + x)) >>= _ = _
      rcases look c.par.ocvP (c.cps / c.par.Cmaxpos) with p | e | w
      · simp only [Outcome.ok_bind]
        rw [show p + x - (n + x) = p - n by ring]; rfl
      · rfl
      · rfl
    · rfl
    · rfl
  · rfl
  · rfl

/-- A call that behaves the same against both references. -/
def SameCall {α : Type} (x : ℚ) (r : Outcome α × SPM N) (s : Outcome α × SPM N) : Prop :=
  s = (r.1, against x r.2)

theorem against_V (x : ℚ) (c : SPM N) : SameCall x c.V (against x c).V := by
  unfold SameCall SPM.V
  show (if c.valid = true then _ else _) = _
  rw [against_calcV]
  by_cases h : c.valid = true
  · rw [if_pos h, if_pos h]; rfl
  · rw [if_neg h, if_neg h]
    rcases c.calcV with (_ | v) | e | w <;> rfl

theorem against_checkV (x : ℚ) (c : SPM N) : SameCall x c.checkV (against x c).checkV := by
  unfold SameCall checkV
  rw [against_V x c]
  rcases c.V with ⟨v | e | w, c'⟩ <;> rfl

theorem against_setCurrent (x : ℚ) (c : SPM N) (i : ℚ) (b : Bool) :
    SameCall x (c.setCurrent i b) ((against x c).setCurrent i b) := by
  unfold SameCall setCurrent
  obtain ⟨c1, h1⟩ : ∃ c1 : SPM N, c1 = { c with st := { c.st with I := i }, valid := false } := ⟨_, rfl⟩
  have h2 : ({ against x c with st := { (against x c).st with I := i }, valid := false } : SPM N) = against x c1 := by
    rw [h1]; rfl
  simp only
  rw [h2, ← h1]
  have h3 : (against x c1).checkCurrent b = ((c1.checkCurrent b).1, against x (c1.checkCurrent b).2) := by
    unfold checkCurrent
    cases b
    · rfl
    · exact against_checkV x c1
  rw [h3]
  rcases c1.checkCurrent b with ⟨s | e | w, c2⟩
  · simp only
    by_cases hb : s.isBad = true
    · rw [if_pos hb, if_pos hb]; rfl
    · rw [if_neg hb, if_neg hb]
  · rfl
  · rfl

theorem against_setSOC (x : ℚ) (c : SPM N) (v : ℚ) (b : Bool) :
    SameCall x (c.setSOC v b) ((against x c).setSOC v b) := by
  unfold SameCall setSOC
  by_cases hs : (!checkSOC v) = true
  · rw [if_pos hs, if_pos hs]
  rw [if_neg hs, if_neg hs]
  obtain ⟨c1, h1⟩ : ∃ c1 : SPM N, c1 = { c with st := { c.st with SOC := v } } := ⟨_, rfl⟩
  have h2 : ({ against x c with st := { (against x c).st with SOC := v } } : SPM N) = against x c1 := by
    rw [h1]; rfl
  simp only
  rw [h2, ← h1]
  cases b
  · rfl
  · simp only [if_true]
    rw [against_checkV x c1]
    rcases c1.checkV with ⟨s | e | w, c2⟩
    · simp only
      by_cases hb : s.isBad = true
      · rw [if_pos hb, if_pos hb]; rfl
      · rw [if_neg hb, if_neg hb]
    · rfl
    · rfl

theorem against_setTenv (x : ℚ) (c : SPM N) (t : ℚ) : SameCall x (c.setTenv t) ((against x c).setTenv t) := by
  unfold SameCall setTenv
  by_cases h : t < 273 ∨ t > 333
  · rw [if_pos h, if_pos h]
  · rw [if_neg h, if_neg h]; rfl

theorem against_setC (x : ℚ) (c : SPM N) (fp fn : ℚ) : SameCall x (c.setC fp fn) ((against x c).setC fp fn) := by
  unfold SameCall setC
  by_cases h : fp < 0 ∨ fp > 1 ∨ fn < 0 ∨ fn > 1
  · rw [if_pos h, if_pos h]
  · rw [if_neg h, if_neg h]; rfl

theorem against_checkStates (x : ℚ) (c : SPM N) (b : Bool) :
    SameCall x (c.checkStates b) ((against x c).checkStates b) := by
  unfold SameCall checkStates
  have h : (against x c).validStates = c.validStates := rfl
  rw [h]
  rcases c.validStates with (_ | _) | e | w
  · rfl
  · cases b
    · rfl
    · exact against_checkV x c
  · rfl
  · rfl

theorem against_setStates (x : ℚ) (c : SPM N) (s : List ℚ) (b : Bool) :
    SameCall x (c.setStates s b) ((against x c).setStates s b) := by
  unfold SameCall setStates
  rcases SPM.decode N s with _ | st
  · rfl
  · obtain ⟨c1, h1⟩ : ∃ c1 : SPM N, c1 = { c with st := st, valid := false } := ⟨_, rfl⟩
    have h2 : ({ against x c with st := st, valid := false } : SPM N) = against x c1 := by rw [h1]; rfl
    simp only
    rw [h2, ← h1, against_checkStates x c1 b]
    rcases c1.checkStates b with ⟨r | e | w, c2⟩
    · simp only
      by_cases hb : r.isBad = true
      · rw [if_pos hb, if_pos hb]; rfl
      · rw [if_neg hb, if_neg hb]
    · rfl
    · rfl

theorem against_diffStep (x : ℚ) (c : SPM N) (dt : ℚ) : SameCall x (c.diffStep dt) ((against x c).diffStep dt) := by
  unfold SameCall diffStep
  by_cases h : (!c.finite) = true ∨ c.par.cap = 0
  · rw [if_pos h, if_pos (show (!(against x c).finite) = true ∨ (against x c).par.cap = 0 from h)]
  · rw [if_neg h, if_neg (show ¬ ((!(against x c).finite) = true ∨ (against x c).par.cap = 0) from h)]
    have h2 : (against x c).diffState dt = against x (c.diffState dt) := rfl
    rw [h2, against_V x (c.diffState dt)]
    rcases (c.diffState dt).V with ⟨v | e | w, c'⟩ <;> rfl

theorem against_andThen (x : ℚ) {r s : Outcome Unit × SPM N} (h : SameCall x r s)
    {f : SPM N → Outcome Unit × SPM N} (hf : ∀ c, SameCall x (f c) (f (against x c))) :
    SameCall x (andThen r f) (andThen s f) := by
  unfold SameCall at h
  rw [h]
  unfold andThen
  rcases r with ⟨u | e | w, c⟩
  · exact hf c
  · rfl
  · rfl

theorem against_diffLoop (x dt : ℚ) (k : ℕ) : ∀ c : SPM N,
    SameCall x (diffLoop dt k c) (diffLoop dt k (against x c)) := by
  induction k with
  | zero => intro c; rfl
  | succ k ih =>
    intro c
    rw [diffLoop, diffLoop]
    exact against_andThen x (against_diffStep x c dt) ih

theorem against_thermStep (x : ℚ) (c : SPM N) (h : ℚ) : SameCall x (c.thermStep h) ((against x c).thermStep h) := by
  unfold SameCall thermStep
  have hq : (against x c).heat = c.heat := rfl
  rw [hq]
  rcases c.heat with q | e | w
  · obtain ⟨c1, h1⟩ : ∃ c1 : SPM N, c1 = { c with Qgen := c.Qgen + q * h, thermTime := c.thermTime + h } := ⟨_, rfl⟩
    have h2 : ({ against x c with Qgen := (against x c).Qgen + q * h, thermTime := (against x c).thermTime + h } :
        SPM N) = against x c1 := by rw [h1]; rfl
    simp only
    rw [h2, ← h1]
    unfold thermPass
    by_cases hp : c1.parent = true
    · rw [if_pos hp, if_pos (show (against x c1).parent = true from hp)]
    · rw [if_neg hp, if_neg (show ¬ (against x c1).parent = true from hp)]
      have h3 : (against x c1).thermAlone = (c1.thermAlone.1, against x c1.thermAlone.2) := by
        unfold thermAlone
        by_cases ht : c1.par.tModel = 0
        · rw [if_pos ht, if_pos (show (against x c1).par.tModel = 0 from ht)]; rfl
        rw [if_neg ht, if_neg (show ¬ (against x c1).par.tModel = 0 from ht)]
        by_cases hz : c1.par.rho * c1.par.Cp * c1.par.L * c1.par.elecSurf = 0
        · rw [if_pos hz, if_pos (show (against x c1).par.rho * (against x c1).par.Cp * (against x c1).par.L *
            (against x c1).par.elecSurf = 0 from hz)]
        rw [if_neg hz, if_neg (show ¬ (against x c1).par.rho * (against x c1).par.Cp * (against x c1).par.L *
            (against x c1).par.elecSurf = 0 from hz)]
        simp only
        by_cases hl : c1.st.T + (c1.Qgen + c1.par.Qch * c1.par.Acell * (c1.T_env - c1.st.T) * c1.thermTime) /
            (c1.par.rho * c1.par.Cp * c1.par.L * c1.par.elecSurf) > 333 ∨ c1.st.T + (c1.Qgen + c1.par.Qch *
            c1.par.Acell * (c1.T_env - c1.st.T) * c1.thermTime) /
            (c1.par.rho * c1.par.Cp * c1.par.L * c1.par.elecSurf) < 273
        · rw [if_pos hl]; exact if_pos hl
        · rw [if_neg hl]; exact if_neg hl
      rw [h3]
      rcases c1.thermAlone with ⟨t | e | w, c2⟩ <;> rfl
  · rfl
  · rfl

theorem against_etaSei (x : ℚ) (c : SPM N) (o : ℚ) : (against x c).etaSei (o + x) = c.etaSei o := by
  unfold etaSei
  show o + x + c.etan - (c.par.OCVsei + x) + c.par.rsei * c.st.delta * c.st.I = _
  ring

theorem against_seiModel (x : ℚ) (c : SPM N) (o : ℚ) (id : ℕ) :
    (against x c).seiModel (o + x) id = c.seiModel o id := by
  obtain ⟨d, hd⟩ : ∃ d, d = against x c := ⟨_, rfl⟩
  have e1 : d.etan = c.etan := hd ▸ against_etan x c
  have e2 : d.arrh = c.arrh := hd ▸ against_arrh x c
  have e3 : d.etaSei (o + x) = c.etaSei o := hd ▸ against_etaSei x c o
  have e4 : d.st = c.st := hd ▸ rfl
  have e5 : d.par.sei = c.par.sei := hd ▸ rfl
  have e6 : d.par.exp = c.par.exp := hd ▸ rfl
  have e7 : d.par.nsei = c.par.nsei := hd ▸ rfl
  have e8 : d.par.alphasei = c.par.alphasei := hd ▸ rfl
  have e9 : d.par.OCVsei = c.par.OCVsei + x := hd ▸ rfl
  have e0 : d.par.rsei = c.par.rsei := hd ▸ rfl
  have ea : d.par.c_elec0 = c.par.c_elec0 := hd ▸ rfl
  have h : o + x - (c.par.OCVsei + x) = o - c.par.OCVsei := by ring
  rw [← hd]
  unfold seiModel
  simp only [e1, e2, e3, e4, e5, e6, e7, e8, e9, e0, ea, h]

theorem sumModels_congr {f g : ℕ → Outcome ℚ} (h : ∀ i, f i = g i) (l : List ℕ) : sumModels f l = sumModels g l := by
  rw [show f = g from funext h]

theorem against_SEI (x : ℚ) (c : SPM N) (o : ℚ) : (against x c).SEI (o + x) = c.SEI o := by
  unfold SPM.SEI
  rw [sumModels_congr (against_seiModel x c o)]
  rfl

theorem against_csModel (x : ℚ) (c : SPM N) (o : ℚ) (id : ℕ) :
    (against x c).csModel (o + x) id = c.csModel o id := by
  unfold csModel
  rw [against_etaSei]
  match id with
  | 0 => rfl
  | 1 => rfl
  | 2 => rfl
  | 3 => rfl
  | 4 => rfl
  | 5 => rfl
  | _ + 6 => rfl

theorem against_crack (x : ℚ) (c : SPM N) (o : ℚ) : (against x c).crack (o + x) = c.crack o := by
  unfold crack
  rw [sumModels_congr (against_csModel x c o)]
  rfl

theorem lamModel_alike {c d : SPM N} (id : ℕ) (h3 : id ≠ 3) (hs : d.stress = c.stress) (ht : d.st = c.st)
    (ha : d.arrh = c.arrh) (hp : d.jp = c.jp) (hn : d.jn = c.jn) (he : d.par.exp = c.par.exp)
    (hq : d.par.sqrt = c.par.sqrt) (hl : d.par.lam = c.par.lam) : d.lamModel id = c.lamModel id := by
  match id, h3 with
  | 0, _ => unfold lamModel; simp only
  | 1, _ => unfold lamModel; simp only [hs, hl]
  | 2, _ => unfold lamModel; simp only [ha, hp, hn, he, hq, hl]
  | 3, h => exact absurd rfl h
  | 4, _ => unfold lamModel; simp only [ht, hl]
  | k + 5, _ => unfold lamModel; simp only

theorem against_lamModel (x : ℚ) (c : SPM N) (id : ℕ) : (against x c).lamModel id = c.lamModel id := by
  by_cases h3 : id = 3
  · subst h3
    obtain ⟨d, hd⟩ : ∃ d, d = against x c := ⟨_, rfl⟩
    have e1 : d.etap = c.etap := hd ▸ against_etap x c
    have e2 : d.arrh = c.arrh := hd ▸ against_arrh x c
    have e3 : d.cps = c.cps := hd ▸ against_cps x c
    have e4 : d.st = c.st := hd ▸ rfl
    have e5 : d.par.lam = c.par.lam := hd ▸ rfl
    have e6 : d.par.exp = c.par.exp := hd ▸ rfl
    have e7 : d.par.n = c.par.n := hd ▸ rfl
    have e8 : d.par.Cmaxpos = c.par.Cmaxpos := hd ▸ rfl
    have e9 : d.par.OCVnmc = c.par.OCVnmc + x := hd ▸ rfl
    have e0 : ∀ z, look d.par.ocvP z = (look c.par.ocvP z >>= fun y => .ok (y + x)) := hd ▸ against_ocvP x c
    rw [← hd]
    unfold lamModel
    simp only [e1, e2, e3, e4, e5, e6, e7, e8, e9, e0]
    rcases look c.par.ocvP (c.cps / c.par.Cmaxpos) with o | e | w
    · simp only [Outcome.ok_bind]
      rw [show o + x + c.etap - (c.par.OCVnmc + x) = o + c.etap - c.par.OCVnmc by ring]
    · simp only [Outcome.throw_bind]
    · simp only [Outcome.ub_bind]
  · exact lamModel_alike id h3 rfl rfl (against_arrh x c) (against_jp x c) (against_jn x c) rfl rfl rfl

theorem against_lamSum (x : ℚ) (c : SPM N) (l : List ℕ) : (against x c).lamSum l = c.lamSum l := by
  induction l with
  | nil => rfl
  | cons i l ih => rw [lamSum, lamSum, ih, against_lamModel]

theorem against_plating (x : ℚ) (c : SPM N) (o : ℚ) : (against x c).plating (o + x) = c.plating o := by
  unfold plating
  have h : o + x + (against x c).etan - (against x c).par.OCVpl + (against x c).par.rsei * (against x c).st.delta *
      (against x c).st.I = o + c.etan - c.par.OCVpl + c.par.rsei * c.st.delta * c.st.I := by
    show o + x + c.etan - (c.par.OCVpl + x) + c.par.rsei * c.st.delta * c.st.I = _; ring
  simp only
  rw [h]
  show (match c.deg.pl with | 0 => _ | 1 => _ | _ => _) = _
  match c.deg.pl with
  | 0 => rfl
  | 1 => rfl
  | _ + 2 => rfl

end Slide

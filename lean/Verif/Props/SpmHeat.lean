import Verif.Props.DefaultCell
import Verif.Spec.SpmHeat

/-!
Properties C91 (the heat of a single-particle cell is its voltage loss) and C92 (temperature of a stand-alone cell).
-/

namespace Slide
open Spec SPM

variable {N : ℕ}

/-! ### C91 -/

/-- The heat rate is the voltage loss times the current plus the entropic heat. -/
theorem heat_is_loss {c : SPM N} {q : ℚ} (h : c.heat = .ok q) (o : ℚ) (ho : c.getOCV = .ok o) :
    ∃ v d, ({ c with valid := false } : SPM N).V.1 = .ok v ∧ c.par.dTot (c.cps / c.par.Cmaxpos) = some d ∧
      q = lossHeat c.st.I c.st.T o v d := by
  unfold heat at h
  by_cases hf : c.finite = true
  · rw [hf] at h
    by_cases hk : c.concOk = true
    · rw [hk] at h
      by_cases hi : (decide (c.i0p = 0) || decide (c.i0n = 0)) = true
      · rw [if_neg (by simp), if_neg (by simp), if_pos hi] at h; cases h
      · rw [if_neg (by simp), if_neg (by simp), if_neg hi] at h
        obtain ⟨d, hd, h⟩ := Outcome.bind_eq_ok.mp h
        have hq := Outcome.ok.inj h
        unfold getOCV at ho
        rw [hf, if_neg (by simp)] at ho
        obtain ⟨d', hd', ho⟩ := Outcome.bind_eq_ok.mp ho
        obtain ⟨n, hn, ho⟩ := Outcome.bind_eq_ok.mp ho
        obtain ⟨p, hp, ho⟩ := Outcome.bind_eq_ok.mp ho
        have ho := Outcome.ok.inj ho
        rw [hd] at hd'
        have hdd := Outcome.ok.inj hd'
        refine ⟨p - n + (c.st.T - c.par.T_ref) * d + (c.etap - c.etan) - c.Rdc * c.st.I, d, ?_, ?_, ?_⟩
        · have hc : ({ c with valid := false } : SPM N).calcV =
              .ok (some (p - n + (c.st.T - c.par.T_ref) * d + (c.etap - c.etan) - c.Rdc * c.st.I)) := by
            show c.calcV = _
            unfold calcV
            rw [hf, hk, if_neg (by simp), if_neg (by simp), hd, hn, hp]
            show (if _ then _ else _) = _
            rw [if_neg hi]
          unfold SPM.V
          rw [hc]; rfl
        · unfold look at hd
          rcases hx : c.par.dTot (c.cps / c.par.Cmaxpos) with _ | y
          · rw [hx] at hd; cases hd
          · rw [hx] at hd; rw [Outcome.ok.inj hd]
        · rw [← hq, ← ho, ← hdd]; unfold lossHeat; ring
    · have : c.concOk = false := by simpa using hk
      rw [this] at h; simp at h
  · have : c.finite = false := by simpa using hf
    rw [this] at h; simp at h

/-- C91: the loss is never negative: discharging the voltage is at most the open-circuit voltage, charging it is at
least the open-circuit voltage. -/
theorem loss_nonneg {c : SPM N} (hl : LibmSigns c.par) (hs : LossSigns c) {o v : ℚ} (ho : c.getOCV = .ok o)
    (hv : c.calcV = .ok (some v)) : (0 ≤ c.st.I → v ≤ o) ∧ (c.st.I ≤ 0 → o ≤ v) := by
  unfold getOCV at ho
  unfold calcV at hv
  by_cases hf : c.finite = true
  · rw [hf, if_neg (by simp)] at ho hv
    by_cases hk : c.concOk = true
    · rw [hk, if_neg (by simp)] at hv
      obtain ⟨d, hd, ho⟩ := Outcome.bind_eq_ok.mp ho
      obtain ⟨n, hn, ho⟩ := Outcome.bind_eq_ok.mp ho
      obtain ⟨p, hp, ho⟩ := Outcome.bind_eq_ok.mp ho
      have ho := Outcome.ok.inj ho
      rw [hd, hn, hp] at hv
      have hv : (if (decide (c.i0p = 0) || decide (c.i0n = 0)) = true then Outcome.ub "division by zero"
        else .ok (some (p - n + (c.st.T - c.par.T_ref) * d + (c.etap - c.etan) - c.Rdc * c.st.I))) = .ok (some v) := hv
      by_cases hi : (decide (c.i0p = 0) || decide (c.i0n = 0)) = true
      · rw [if_pos hi] at hv; cases hv
      rw [if_neg hi] at hv
      have hv := Option.some.inj (Outcome.ok.inj hv)
      have hF : 0 < Faraday := by unfold Faraday; norm_num
      have hR : 0 < Rgas := by unfold Rgas; norm_num
      have i0p : 0 ≤ c.i0p := by
        unfold SPM.i0p
        have := (hl.exp (c.par.kp_T * c.arrh)).le
        exact mul_nonneg (mul_nonneg (mul_nonneg (mul_nonneg hs.kp this) hs.n.le) hF.le) (hl.sqrt _)
      have i0n : 0 ≤ c.i0n := by
        unfold SPM.i0n
        have := (hl.exp (c.par.kn_T * c.arrh)).le
        exact mul_nonneg (mul_nonneg (mul_nonneg (mul_nonneg hs.kn this) hs.n.le) hF.le) (hl.sqrt _)
      have hpre : 0 ≤ 2 * Rgas * c.st.T / (c.par.n * Faraday) := by
        have := hs.T; have := hs.n; positivity
      have hR0 : 0 ≤ c.Rdc := by
        unfold SPM.Rdc
        have := hs.an; have := hs.ap; have := hs.elecSurf; have := hs.thickp; have := hs.thickn
        obtain ⟨r1, r2, r3⟩ := hs.rDC
        have r0 := hs.rsei
        positivity
      have hap : 0 ≤ c.st.ap * c.st.thickp := (mul_pos hs.ap hs.thickp).le
      have han : 0 ≤ c.st.an * c.st.thickn := (mul_pos hs.an hs.thickn).le
      constructor
      · intro hI
        have ia : 0 ≤ c.iApp := div_nonneg hI hs.elecSurf.le
        have e1 : c.etap ≤ 0 := mul_nonpos_of_nonneg_of_nonpos hpre (hl.asinh_neg _
          (div_nonpos_of_nonpos_of_nonneg (div_nonpos_of_nonpos_of_nonneg (by linarith) hap) i0p))
        have e2 : 0 ≤ c.etan := mul_nonneg hpre (hl.asinh_pos _
          (div_nonneg (div_nonneg (by linarith) han) i0n))
        have e3 : 0 ≤ c.Rdc * c.st.I := mul_nonneg hR0 hI
        rw [← ho, ← hv]; linarith
      · intro hI
        have ia : c.iApp ≤ 0 := div_nonpos_of_nonpos_of_nonneg hI hs.elecSurf.le
        have e1 : 0 ≤ c.etap := mul_nonneg hpre (hl.asinh_pos _
          (div_nonneg (div_nonneg (by linarith) hap) i0p))
        have e2 : c.etan ≤ 0 := mul_nonpos_of_nonneg_of_nonpos hpre (hl.asinh_neg _
          (div_nonpos_of_nonpos_of_nonneg (div_nonpos_of_nonpos_of_nonneg (by linarith) han) i0n))
        have e3 : c.Rdc * c.st.I ≤ 0 := mul_nonpos_of_nonneg_of_nonpos hR0 hI
        rw [← ho, ← hv]; linarith
    · have : c.concOk = false := by simpa using hk
      rw [this] at hv; simp at hv
  · have : c.finite = false := by simpa using hf
    rw [this] at ho; simp at ho

/-! A step of the twin -/

theorem V_block (c : SPM N) (b : Bool) : ({ c with block := b } : SPM N).V = (c.V.1, { c.V.2 with block := b }) := by
  unfold SPM.V
  by_cases hv : c.valid = true
  · rw [if_pos hv, if_pos hv]
  · rw [if_neg hv, if_neg hv]
    have : ({ c with block := b } : SPM N).calcV = c.calcV := rfl
    rw [this]
    rcases c.calcV with (_ | v) | e | w <;> rfl

theorem diffStep_block_comm (c : SPM N) (b : Bool) (dt : ℚ) :
    ({ c with block := b } : SPM N).diffStep dt = ((c.diffStep dt).1, { (c.diffStep dt).2 with block := b }) := by
  unfold diffStep
  have h1 : ({ c with block := b } : SPM N).finite = c.finite := rfl
  have h2 : ({ c with block := b } : SPM N).diffState dt = { c.diffState dt with block := b } := rfl
  rw [h1, h2, V_block]
  split
  · rfl
  · rcases (c.diffState dt).V with ⟨v | e | w, c2⟩ <;> rfl

theorem diffLoop_block_comm (dt : ℚ) (b : Bool) (k : ℕ) : ∀ c : SPM N,
    SPM.diffLoop dt k { c with block := b } =
      ((SPM.diffLoop dt k c).1, { (SPM.diffLoop dt k c).2 with block := b }) := by
  induction k with
  | zero => intro c; rfl
  | succ k ih =>
    intro c
    rw [SPM.diffLoop, SPM.diffLoop, SPM.andThen, SPM.andThen, diffStep_block_comm]
    simp only
    rcases (c.diffStep dt).1 with u | e | w
    · exact ih _
    · rfl
    · rfl

theorem blockedTwin_eq (c : SPM N) {dt : ℚ} {n : ℤ} (hdt : 0 ≤ dt)
    (h : (SPM.diffLoop dt n.toNat (c.rotate (n * dt))).1 = .ok ()) :
    blockedTwin c dt n = { (SPM.diffLoop dt n.toNat (c.rotate (n * dt))).2 with block := true } := by
  unfold blockedTwin timeStep
  rw [if_neg (not_lt.mpr hdt)]
  have : ({ c with block := true } : SPM N).rotate (n * dt) = { c.rotate (n * dt) with block := true } := rfl
  rw [this, diffLoop_block_comm, SPM.andThen, h]
  rfl

/-- The stress bookkeeping and the degradation do not touch the heat. -/
theorem ageStep_heat (a : SPM N) (x : ℚ) : (a.ageStep x).2.Qgen = a.Qgen ∧ (a.ageStep x).2.Qtot = a.Qtot ∧
    (a.ageStep x).2.thermTime = a.thermTime ∧ (a.ageStep x).2.st.T = a.st.T := by
  have hu : a.updDai.updLares.2.Qgen = a.Qgen ∧ a.updDai.updLares.2.Qtot = a.Qtot ∧
      a.updDai.updLares.2.thermTime = a.thermTime ∧ a.updDai.updLares.2.st.T = a.st.T := by
    have hd : a.updDai.Qgen = a.Qgen ∧ a.updDai.Qtot = a.Qtot ∧ a.updDai.thermTime = a.thermTime ∧
        a.updDai.st.T = a.st.T := by unfold updDai; split <;> exact ⟨rfl, rfl, rfl, rfl⟩
    rw [← hd.1, ← hd.2.1, ← hd.2.2.1, ← hd.2.2.2]
    generalize a.updDai = b
    unfold updLares
    split
    · split
      · exact ⟨rfl, rfl, rfl, rfl⟩
      · split
        · exact ⟨rfl, rfl, rfl, rfl⟩
        · rcases look b.par.laresCurve (b.cns / b.par.Cmaxneg) with s | e | w <;> exact ⟨rfl, rfl, rfl, rfl⟩
    · exact ⟨rfl, rfl, rfl, rfl⟩
  unfold ageStep SPM.andThen
  rcases hr : a.updDai.updLares with ⟨_ | e | w, c1⟩
  · rw [hr] at hu
    simp only at hu ⊢
    rcases c1.degRate with d | e | w <;> exact hu
  · rw [hr] at hu; exact hu
  · rw [hr] at hu; exact hu

theorem diffLoop_heat (dt : ℚ) (k : ℕ) : ∀ c : SPM N, (SPM.diffLoop dt k c).2.Qgen = c.Qgen ∧
    (SPM.diffLoop dt k c).2.Qtot = c.Qtot ∧ (SPM.diffLoop dt k c).2.thermTime = c.thermTime ∧
    (SPM.diffLoop dt k c).2.T_env = c.T_env ∧ (SPM.diffLoop dt k c).2.parent = c.parent := by
  have step : ∀ c : SPM N, (c.diffStep dt).2.Qgen = c.Qgen ∧ (c.diffStep dt).2.Qtot = c.Qtot ∧
      (c.diffStep dt).2.thermTime = c.thermTime ∧ (c.diffStep dt).2.T_env = c.T_env ∧
      (c.diffStep dt).2.parent = c.parent := by
    intro c
    unfold diffStep
    split
    · exact ⟨rfl, rfl, rfl, rfl, rfl⟩
    · have h2 := SPM.V_rest (c.diffState dt)
      rcases hk : (c.diffState dt).V with ⟨v | e | w, c2⟩ <;> rw [hk] at h2 <;> simp only at h2 ⊢ <;> rw [h2] <;>
        exact ⟨rfl, rfl, rfl, rfl, rfl⟩
  induction k with
  | zero => intro c; exact ⟨rfl, rfl, rfl, rfl, rfl⟩
  | succ k ih =>
    intro c
    rw [SPM.diffLoop, SPM.andThen]
    rcases (c.diffStep dt).1 with u | e | w
    · obtain ⟨a1, a2, a3, a4, a5⟩ := ih (c.diffStep dt).2
      obtain ⟨b1, b2, b3, b4, b5⟩ := step c
      exact ⟨a1.trans b1, a2.trans b2, a3.trans b3, a4.trans b4, a5.trans b5⟩
    · exact step c
    · exact step c

/-- What a successful thermal part of a time step does. -/
theorem thermStep_heat {a : SPM N} {x : ℚ} (h : (a.thermStep x).1 = .ok ()) : ∃ q, a.heat = .ok q ∧
    (a.thermStep x).2.Qgen + (a.thermStep x).2.Qtot = a.Qgen + a.Qtot + q * x ∧
    (a.parent = true → (a.thermStep x).2.Qgen = a.Qgen + q * x ∧ (a.thermStep x).2.thermTime = a.thermTime + x ∧
      (a.thermStep x).2.st.T = a.st.T) ∧
    (a.parent = false → (a.thermStep x).2.Qgen = 0 ∧ (a.thermStep x).2.thermTime = 0 ∧
      (a.par.tModel = 0 → (a.thermStep x).2.st.T = a.st.T) ∧
      (a.par.tModel ≠ 0 → 273 ≤ (a.thermStep x).2.st.T ∧ (a.thermStep x).2.st.T ≤ 333 ∧
        a.par.rho * a.par.Cp * (a.par.L * a.par.elecSurf) * ((a.thermStep x).2.st.T - a.st.T) =
          (a.Qgen + q * x) + a.par.Qch * a.par.Acell * (a.T_env - a.st.T) * (a.thermTime + x))) := by
  unfold thermStep at h ⊢
  rcases hq : a.heat with q | e | w
  · rw [hq] at h
    simp only at h ⊢
    refine ⟨q, rfl, ?_⟩
    unfold thermPass at h ⊢
    by_cases hp : a.parent = true
    · simp only [hp, if_true]
      exact ⟨by ring, (fun _ => by simp), fun h' => by simp at h'⟩
    · have hp' : a.parent = false := by simpa using hp
      simp only [hp', Bool.false_eq_true, if_false] at h ⊢
      unfold thermAlone at h ⊢
      simp only at h ⊢
      by_cases h0 : a.par.tModel = 0
      · simp only [h0, if_true] at h ⊢
        refine ⟨?_, fun h' => by simp at h', fun _ => ⟨rfl, rfl, fun _ => rfl, fun h' => absurd rfl h'⟩⟩
        simp only [setT, thermDone]; ring
      · simp only [h0, if_false] at h ⊢
        by_cases hd : a.par.rho * a.par.Cp * a.par.L * a.par.elecSurf = 0
        · simp only [hd, if_true] at h; cases h
        · simp only [hd, if_false] at h ⊢
          by_cases ht : a.st.T + (a.Qgen + q * x + a.par.Qch * a.par.Acell * (a.T_env - a.st.T) * (a.thermTime + x)) /
              (a.par.rho * a.par.Cp * a.par.L * a.par.elecSurf) > 333 ∨
              a.st.T + (a.Qgen + q * x + a.par.Qch * a.par.Acell * (a.T_env - a.st.T) * (a.thermTime + x)) /
              (a.par.rho * a.par.Cp * a.par.L * a.par.elecSurf) < 273
          · rw [if_pos ht] at h; cases h
          · rw [if_neg ht]
            push Not at ht
            refine ⟨?_, fun h' => by simp at h', fun _ => ⟨rfl, rfl, (fun h' => h'.elim), fun _ => ⟨ht.2, ht.1, ?_⟩⟩⟩
            · simp only [setT, thermDone]; ring
            · show a.par.rho * a.par.Cp * (a.par.L * a.par.elecSurf) * (a.st.T + _ - a.st.T) = _
              rw [add_sub_cancel_left, ← mul_assoc, mul_div_cancel₀ _ hd]
  · rw [hq] at h; cases h
  · rw [hq] at h; cases h

/-- C91: every joule is metered once.  A successful time step adds the heat rate, taken at the end of the diffusion
steps, times the duration to the heat developed so far; that rate is the voltage loss times the current plus the
entropic heat.  While degradation and heat are blocked, nothing is added. -/
theorem timeStep_heat {c : SPM N} (hF : Fresh c) {dt : ℚ} {n : ℤ} (h : (c.timeStep dt n).1 = .ok ()) :
    (c.block = true → (c.timeStep dt n).2.Qgen = c.Qgen ∧ (c.timeStep dt n).2.Qtot = c.Qtot) ∧
    (c.block = false → ∀ o, (blockedTwin c dt n).getOCV = .ok o →
      ∃ v d, (blockedTwin c dt n).V.1 = .ok v ∧
        c.par.dTot ((blockedTwin c dt n).cps / c.par.Cmaxpos) = some d ∧
        (c.timeStep dt n).2.Qgen + (c.timeStep dt n).2.Qtot =
          c.Qgen + c.Qtot + lossHeat c.st.I c.st.T o v d * (dt * n)) := by
  obtain ⟨hdt, hl, hb, -⟩ := timeStep_ok h
  have hh := diffLoop_heat dt n.toNat (c.rotate (n * dt))
  have hf := (diffLoop_ok dt n.toNat _ hl).1
  constructor
  · intro hc
    rw [hb hc]
    exact ⟨hh.1, hh.2.1⟩
  · intro hc o ho
    have htw := blockedTwin_eq c hdt hl
    have hFt : Fresh (blockedTwin c dt n) := by
      refine fresh_step_blocked (c := { c with block := true }) dt n rfl ?_
      have h1 := V_block c true
      have h2 := V_block ({ c with valid := false } : SPM N) true
      exact (congrArg Prod.fst h1).trans (hF.trans (congrArg Prod.fst h2).symm)
    unfold timeStep at h ⊢
    rw [if_neg (not_lt.mpr hdt)] at h ⊢
    obtain ⟨-, h2, h3⟩ := andThen_ok h
    rw [h3]
    generalize ha : (SPM.diffLoop dt n.toNat (c.rotate (n * dt))).2 = a at *
    have hab : a.block = false := hf.block.trans hc
    rw [if_neg (by rw [hab]; simp)] at h2 ⊢
    obtain ⟨k1, k2, k3⟩ := andThen_ok h2
    rw [k3]
    obtain ⟨q, q1, q2, -⟩ := thermStep_heat k1
    obtain ⟨e1, e2, -⟩ := ageStep_heat (a.thermStep (dt * n)).2 (dt * n)
    have hq : (blockedTwin c dt n).heat = .ok q := by rw [htw]; exact q1
    obtain ⟨v, d, v1, d1, qq⟩ := heat_is_loss hq o ho
    refine ⟨v, d, hFt.trans v1, ?_, ?_⟩
    · rw [htw] at d1 ⊢
      have : c.par = a.par := hf.age.par.symm
      rw [this]; exact d1
    · rw [e1, e2, q2, hh.1, hh.2.1, qq, htw]
      have hI : a.st.I = c.st.I := hf.I
      have hT : a.st.T = c.st.T := hf.T
      show c.Qgen + c.Qtot + lossHeat a.st.I a.st.T o v d * (dt * n) = _
      rw [hI, hT]

/-! ### C92 -/

/-- C92: the environment temperature is accepted exactly from 0 °C to 60 °C; otherwise 102 is thrown and nothing
changes.  Nothing but the environment temperature ever changes. -/
theorem setTenv_range (c : SPM N) (t : ℚ) :
    ((c.setTenv t).1 = .ok () ↔ 273 ≤ t ∧ t ≤ 333) ∧
    ((c.setTenv t).1 = .ok () → (c.setTenv t).2 = { c with T_env := t }) ∧
    ((c.setTenv t).1 ≠ .ok () → c.setTenv t = (.throw 102, c)) := by
  unfold setTenv
  by_cases h : t < 273 ∨ t > 333
  · rw [if_pos h]
    refine ⟨⟨(fun h' => by cases h'), fun h' => ?_⟩, (fun h' => by cases h'), fun _ => rfl⟩
    rcases h with h | h
    · exact absurd h'.1 (not_le.mpr h)
    · exact absurd h'.2 (not_le.mpr h)
  · rw [if_neg h]
    push Not at h
    exact ⟨⟨fun _ => h, fun _ => rfl⟩, fun _ => rfl, fun h' => absurd rfl h'⟩

/-- C92: temperature of a cell after a successful time step.  Blocked, inside a module, or without thermal model it
stays; otherwise it is inside the limits and the heat balance with the environment holds exactly, over the whole time
since the last update. -/
theorem timeStep_temperature {c : SPM N} {dt : ℚ} {n : ℤ} (h : (c.timeStep dt n).1 = .ok ()) :
    ((c.block = true ∨ c.parent = true ∨ c.par.tModel = 0) → (c.timeStep dt n).2.st.T = c.st.T) ∧
    (c.block = true → (c.timeStep dt n).2.thermTime = c.thermTime) ∧
    (c.block = false → c.parent = true → (c.timeStep dt n).2.thermTime = c.thermTime + dt * n ∧
      (c.timeStep dt n).2.Qtot = c.Qtot) ∧
    (c.block = false → c.parent = false → (c.timeStep dt n).2.thermTime = 0 ∧ (c.timeStep dt n).2.Qgen = 0 ∧
      (c.par.tModel ≠ 0 → 273 ≤ (c.timeStep dt n).2.st.T ∧ (c.timeStep dt n).2.st.T ≤ 333 ∧
        c.par.rho * c.par.Cp * (c.par.L * c.par.elecSurf) * ((c.timeStep dt n).2.st.T - c.st.T) =
          ((c.timeStep dt n).2.Qtot - c.Qtot) +
            c.par.Qch * c.par.Acell * (c.T_env - c.st.T) * (c.thermTime + dt * n))) := by
  obtain ⟨hdt, hl, hb, -⟩ := timeStep_ok h
  have hh := diffLoop_heat dt n.toNat (c.rotate (n * dt))
  have hf := (diffLoop_ok dt n.toNat _ hl).1
  rcases hcb : c.block with _ | _
  · unfold timeStep at h ⊢
    rw [if_neg (not_lt.mpr hdt)] at h ⊢
    obtain ⟨-, h2, h3⟩ := andThen_ok h
    rw [h3]
    generalize ha : (SPM.diffLoop dt n.toNat (c.rotate (n * dt))).2 = a at *
    have hab : a.block = false := hf.block.trans hcb
    rw [if_neg (by rw [hab]; simp)] at h2 ⊢
    obtain ⟨k1, k2, k3⟩ := andThen_ok h2
    rw [k3]
    obtain ⟨q, q1, q2, q3, q4⟩ := thermStep_heat k1
    obtain ⟨e1, e2, e3, e4⟩ := ageStep_heat (a.thermStep (dt * n)).2 (dt * n)
    obtain ⟨b1, b2, b3, b4, b5⟩ := hh
    have hT : a.st.T = c.st.T := hf.T
    have hpar : a.par = c.par := hf.age.par
    have b5' : a.parent = c.parent := b5
    have b1' : a.Qgen = c.Qgen := b1
    have b2' : a.Qtot = c.Qtot := b2
    have b3' : a.thermTime = c.thermTime := b3
    have b4' : a.T_env = c.T_env := b4
    rw [e1, e2, e3, e4]
    rw [b5', b1', b3', b4', hpar, hT] at q4
    rw [b5', b1', b3', hT] at q3
    rw [b1', b2'] at q2
    refine ⟨?_, (fun h' => by cases h'), ?_, ?_⟩
    · rintro (h' | h' | h')
      · cases h'
      · exact (q3 h').2.2
      · rcases hp : c.parent with _ | _
        · exact (q4 hp).2.2.1 h'
        · exact (q3 hp).2.2
    · intro _ hp
      refine ⟨(q3 hp).2.1, ?_⟩
      have := (q3 hp).1
      linarith
    · intro _ hp
      obtain ⟨r1, r2, r3, r4⟩ := q4 hp
      refine ⟨r2, r1, fun h' => ?_⟩
      obtain ⟨s1, s2, s3⟩ := r4 h'
      refine ⟨s1, s2, ?_⟩
      rw [s3]
      rw [r1] at q2
      linarith
  · rw [hb hcb]
    refine ⟨fun _ => hf.T, fun _ => hh.2.2.1, (fun h' => by cases h'), fun h' => by cases h'⟩

/-- C92: a stand-alone cell that would leave the temperature range throws 9, keeps its temperature, and its heat is
counted. -/
theorem timeStep_overheat {c : SPM N} {dt : ℚ} {n : ℤ} (hdt : 0 ≤ dt) (hb : c.block = false) (hp : c.parent = false)
    (h0 : c.par.tModel ≠ 0) (hC : c.par.rho * c.par.Cp * c.par.L * c.par.elecSurf ≠ 0)
    (hl : (({ c with block := true } : SPM N).timeStep dt n).1 = .ok ()) {q T : ℚ}
    (hq : (blockedTwin c dt n).heat = .ok q)
    (hT : c.par.rho * c.par.Cp * (c.par.L * c.par.elecSurf) * (T - c.st.T) =
      (c.Qgen + q * (dt * n)) + c.par.Qch * c.par.Acell * (c.T_env - c.st.T) * (c.thermTime + dt * n))
    (hr : T < 273 ∨ 333 < T) :
    (c.timeStep dt n).1 = .throw 9 ∧ (c.timeStep dt n).2.st.T = c.st.T ∧
    (c.timeStep dt n).2.Qtot = c.Qtot + (c.Qgen + q * (dt * n)) ∧ (c.timeStep dt n).2.Qgen = 0 ∧
    (c.timeStep dt n).2.thermTime = 0 := by
  have hl' : (SPM.diffLoop dt n.toNat (c.rotate (n * dt))).1 = .ok () := by
    have h1 := (timeStep_ok hl).2.1
    have : ({ c with block := true } : SPM N).rotate (n * dt) = { c.rotate (n * dt) with block := true } := rfl
    rw [this, diffLoop_block_comm] at h1
    exact h1
  rw [blockedTwin_eq c hdt hl'] at hq
  obtain ⟨b1, b2, b3, b4, b5⟩ := diffLoop_heat dt n.toNat (c.rotate (n * dt))
  have hf := (diffLoop_ok dt n.toNat _ hl').1
  unfold timeStep
  rw [if_neg (not_lt.mpr hdt), SPM.andThen, hl']
  simp only
  generalize (SPM.diffLoop dt n.toNat (c.rotate (n * dt))).2 = a at *
  have hT' : a.st.T = c.st.T := hf.T
  have hpar : a.par = c.par := hf.age.par
  have b5' : a.parent = false := b5.trans hp
  have b1' : a.Qgen = c.Qgen := b1
  have b2' : a.Qtot = c.Qtot := b2
  have b3' : a.thermTime = c.thermTime := b3
  have b4' : a.T_env = c.T_env := b4
  have hab : a.block = false := hf.block.trans hb
  have hq' : a.heat = .ok q := hq
  rw [if_neg (by rw [hab]; simp)]
  have key : a.thermStep (dt * n) = (.throw 9,
      ({ a with Qgen := a.Qgen + q * (dt * n), thermTime := a.thermTime + dt * n } : SPM N).thermDone) := by
    unfold thermStep
    rw [hq']
    simp only
    unfold thermPass
    simp only [b5', Bool.false_eq_true, if_false]
    unfold thermAlone
    simp only [hpar, h0, if_false, hC]
    have ht : a.st.T + (a.Qgen + q * (dt * n) + c.par.Qch * c.par.Acell * (a.T_env - a.st.T) * (a.thermTime + dt * n)) /
        (c.par.rho * c.par.Cp * c.par.L * c.par.elecSurf) = T := by
      rw [hT', b1', b3', b4', ← hT, ← mul_assoc, mul_div_cancel_left₀ _ hC]; ring
    rw [ht, if_pos (hr.symm.imp id id)]
  rw [key]
  refine ⟨rfl, hT', ?_, rfl, rfl⟩
  show a.Qtot + (a.Qgen + q * (dt * n)) = _
  rw [b1', b2']

/-! A default cell with thermal model, discharged at 1C, and a libm with linear `asinh`. -/

def env1 : Default.Env := { env0 with asinh := fun x => x / 1000000 }

def warmCell : SPM 5 :=
  { Default.cell env1 with par := { Default.par env1 with tModel := 1 },
                           st := { (Default.cell env1).st with I := 16 }, block := false }

example : LibmSigns warmCell.par ∧ LossSigns warmCell ∧ Fresh warmCell ∧
    (∃ o, warmCell.getOCV = .ok o) ∧ (∃ v, warmCell.calcV = .ok (some v)) ∧
    (warmCell.timeStep 2 3).1 = .ok () ∧ (∃ o, (blockedTwin warmCell 2 3).getOCV = .ok o) ∧
    0 < (warmCell.timeStep 2 3).2.Qtot ∧ warmCell.st.T < (warmCell.timeStep 2 3).2.st.T := by
  have ok : ∀ {o : Outcome ℚ}, (match o with | .ok _ => true | _ => false) = true → ∃ x, o = .ok x := by
    intro o h; rcases o with x | e | w
    · exact ⟨x, rfl⟩
    · cases h
    · cases h
  have ok' : ∀ {o : Outcome (Option ℚ)}, (match o with | .ok (some _) => true | _ => false) = true →
      ∃ x, o = .ok (some x) := by
    intro o h; rcases o with (_ | x) | e | w
    · cases h
    · exact ⟨x, rfl⟩
    · cases h
    · cases h
  refine ⟨⟨fun _ => (by norm_num : (0 : ℚ) < 1), fun _ => (by norm_num : (0 : ℚ) ≤ 1), fun x h => div_nonneg h (by norm_num),
      fun x h => div_nonpos_of_nonpos_of_nonneg h (by norm_num)⟩,
    ⟨?_, ?_, ?_, ?_, ?_, ?_, ?_, ?_, ?_, ?_, ?_⟩, fresh_of_invalid (by decide +kernel), ok ?_, ok' ?_, ?_, ok ?_, ?_, ?_⟩ <;> decide +kernel

/-- An environment temperature inside and one outside of the limits; a time step after which the temperature would leave
the limits. -/
example : (warmCell.setTenv 300).1 = .ok () ∧ (warmCell.setTenv 340).1 ≠ .ok () ∧
    ((({ warmCell with st := { warmCell.st with T := 333 }, block := true } : SPM 5)).timeStep 2 3).1 = .ok () ∧
    (({ warmCell with st := { warmCell.st with T := 333 }, T_env := 333 } : SPM 5).timeStep 2 3).1 = .throw 9 := by
  decide +kernel

end Slide

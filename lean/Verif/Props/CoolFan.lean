import Verif.Spec.CoolFan
import Verif.Props.Cooling
import Mathlib.Tactic.LinearCombination
import Verif.Tac

/-!
# C96 A running fan carries heat away, and a hotter pack is cooled at least as well
# C97 The air conditioning costs what its coefficient of performance says
-/

namespace Slide
open Spec CoolSystem

/-- What the constructors establish and no call except `setControl` changes. -/
structure FanInv (n : ℕ) (k : ℤ) (q : ℚ) (c : CoolSystem) : Prop where
  kind : c.kind ≠ .openSys
  flr : c.flr = n / 2000
  across : c.Across = n / 40000
  Ton : c.Ton = 308
  Toff : c.Toff = 298
  propT : c.propT = 298
  gain : c.gain = 1 / 10
  strategy : c.strategy = k
  rho : c.rho = 49 / 40
  cp : c.cp = 1005
  eta : c.eta = 1 / 2
  COP : c.COP = 3
  flow : 0 ≤ c.flowrate
  always : k = 1 → c.flowrate = c.flr
  onoff : k = 2 ∨ k = 3 → c.flowrate = 0 ∨ c.flowrate = c.flr
  ac_lo : 0 ≤ c.Qac
  ac_hi : c.Qac ≤ c.acQ
  acQ : 0 ≤ c.acQ ∧ c.acQ ≤ 15 / 2 * n + q
  acGain : 0 ≤ c.acGain

theorem FanInv.of_built {n : ℕ} {k : ℤ} {q : ℚ} (hq : 0 ≤ q) {c : CoolSystem} (h : Built n k q c) :
    FanInv n k q c := by
  have h0 : (0 : ℚ) ≤ n := Nat.cast_nonneg n
  cases h with
  | fan =>
    constructor <;> simp only [make] <;> norm_num [T_ENV]
    case kind => intro h; cases h
    all_goals first | positivity | ring
  | hvac h =>
    unfold makeHVAC at h
    by_cases hn : n = 0
    · rw [if_pos hn] at h; cases h
    · rw [if_neg hn] at h
      cases h
      constructor <;> simp only [make] <;> norm_num [T_ENV]
      case kind => intro h; cases h
      case acGain => split_ifs <;> norm_num
      all_goals first | positivity | ring

theorem controlFan_inv {n : ℕ} {k : ℤ} {q : ℚ} {c : CoolSystem} (h : FanInv n k q c) (l g : ℚ) :
    FanInv n k q (c.controlFan l g) := by
  have hflr : 0 ≤ c.flr := by rw [h.flr]; positivity
  have hd := controlFan_design c l g
  have hkeep : (c.controlFan l g).Across = c.Across ∧ (c.controlFan l g).rho = c.rho ∧
      (c.controlFan l g).cp = c.cp ∧ (c.controlFan l g).eta = c.eta ∧ (c.controlFan l g).COP = c.COP := by
    unfold controlFan onOff prop; dsimp only; split_ifs <;> exact ⟨rfl, rfl, rfl, rfl, rfl⟩
  obtain ⟨k1, k2, k3, k4, k5⟩ := hkeep
  refine ⟨hd.kind ▸ h.kind, hd.flr.trans h.flr, k1.trans h.across, hd.Ton.trans h.Ton, hd.Toff.trans h.Toff,
    hd.propT.trans h.propT, hd.gain.trans h.gain, (controlFan_strategy ..).trans h.strategy, k2.trans h.rho,
    k3.trans h.cp, k4.trans h.eta, k5.trans h.COP, controlFan_flow_nonneg c l g hflr h.flow, ?_, ?_, ?_, ?_, ?_, ?_⟩
  · intro hk
    have : c.controlFan l g = c := by unfold controlFan; rw [if_pos (h.strategy.trans hk)]
    rw [this]; exact h.always hk
  · intro hk
    rw [controlFan_flow_onoff c l g (by rw [h.strategy]; exact hk) (by rw [h.Ton, h.Toff]; norm_num), hd.flr]
    split_ifs
    · exact .inr rfl
    · exact .inl rfl
    · exact h.onoff hk
  · rw [controlFan_Qac]; exact h.ac_lo
  · rw [controlFan_Qac, hd.acQ]; exact h.ac_hi
  · rw [hd.acQ]; exact h.acQ
  · rw [hd.acGain]; exact h.acGain

theorem controlAC_inv {n : ℕ} {k : ℤ} {q : ℚ} {c : CoolSystem} (h : FanInv n k q c) (g : ℚ) :
    FanInv n k q (c.controlAC g) := by
  have hd := controlAC_design c g
  have hkeep : (c.controlAC g).Across = c.Across ∧ (c.controlAC g).rho = c.rho ∧
      (c.controlAC g).cp = c.cp ∧ (c.controlAC g).eta = c.eta ∧ (c.controlAC g).COP = c.COP := by
    unfold controlAC acProp; dsimp only; split_ifs <;> exact ⟨rfl, rfl, rfl, rfl, rfl⟩
  obtain ⟨k1, k2, k3, k4, k5⟩ := hkeep
  have hb := controlAC_bounds c g
    ⟨by rw [h.flr]; positivity, h.acQ.1, h.acGain, by rw [h.gain]; norm_num⟩ ⟨h.ac_lo, h.ac_hi⟩
  refine ⟨hd.kind ▸ h.kind, hd.flr.trans h.flr, k1.trans h.across, hd.Ton.trans h.Ton, hd.Toff.trans h.Toff,
    hd.propT.trans h.propT, hd.gain.trans h.gain, (controlAC_strategy ..).trans h.strategy, k2.trans h.rho,
    k3.trans h.cp, k4.trans h.eta, k5.trans h.COP, ?_, ?_, ?_, hb.1, hd.acQ ▸ hb.2, hd.acQ ▸ h.acQ,
    hd.acGain ▸ h.acGain⟩
  · rw [controlAC_flow]; exact h.flow
  · rw [controlAC_flow, hd.flr]; exact h.always
  · rw [controlAC_flow, hd.flr]; exact h.onoff

theorem FanInv.control {n : ℕ} {k : ℤ} {q : ℚ} {c : CoolSystem} (h : FanInv n k q c) (l g : ℚ) :
    FanInv n k q (c.control l g) := by
  unfold CoolSystem.control
  split
  · exact controlFan_inv h l g
  · exact controlAC_inv (controlFan_inv h l g) g
  · exact absurd ‹_› h.kind

theorem FanInv.run {n : ℕ} {k : ℤ} {q : ℚ} {c : CoolSystem} (h : FanInv n k q c) {o : CoolOp} (ho : o.keeps) :
    FanInv n k q (o.run c) := by
  cases o with
  | control l g => exact h.control l g
  | setT t => 
    show FanInv n k q (c.setT t).2
    unfold setT
    split_ifs
    · exact h
    · cases h; constructor <;> assumption
  | setControl j => exact ho.elim
  | dstate a b t => 
    show FanInv n k q (c.dstate a b t).2
    unfold dstate
    split
    · dsimp only
      split_ifs
      · exact h
      · cases h; constructor <;> assumption
    · cases h; constructor <;> assumption
  | reset => 
    show FanInv n k q c.resetE
    unfold resetE
    cases h; constructor <;> assumption

theorem FanInv.of_used {n : ℕ} {k : ℤ} {q : ℚ} (hq : 0 ≤ q) {c : CoolSystem} (h : Used n k q c) :
    FanInv n k q c := by
  obtain ⟨c0, ops, hb, ho, rfl⟩ := h
  have := FanInv.of_built hq hb
  clear hb
  unfold runCool
  induction ops generalizing c0 with
  | nil => exact this
  | cons o os ih =>
    exact ih _ (fun x hx => ho x (List.mem_cons_of_mem _ hx)) (this.run (ho o List.mem_cons_self))

/-! ## C96 -/

/-- Speed of the air [m/s]. -/
def airSpeed (c : CoolSystem) : ℚ := c.flowrate / c.Across

theorem getH_eq {n : ℕ} {k : ℤ} {q : ℚ} {c : CoolSystem} (hn : 0 < n) (h : FanInv n k q c) :
    c.getH = .ok (if c.flowrate = 0 then 0 else
      1212 / 100 - 116 / 100 * (airSpeed c : ℝ) + 116 / 10 * √(airSpeed c : ℝ)) := by
  have hA : 0 < c.Across := by rw [h.across]; positivity
  have hv : ¬ c.flowrate / c.Across < 0 := not_lt.mpr (div_nonneg h.flow hA.le)
  have : c.getH = if c.flowrate = 0 then .ok 0
    else if c.Across = 0 then .ub "division by zero"
    else if c.flowrate / c.Across < 0 then .ub "square root of a negative number"
    else .ok (1212 / 100 - 116 / 100 * (airSpeed c : ℝ) + 116 / 10 * √(airSpeed c : ℝ)) := by
    unfold getH
    cases hk : c.kind with
    | openSys => exact absurd hk h.kind
    | conventional => rfl
    | hvac => rfl
  rw [this]
  by_cases h0 : c.flowrate = 0
  · rw [if_pos h0, if_pos h0]
  · rw [if_neg h0, if_neg h0, if_neg hA.ne', if_neg hv]

/-- **C96.** The coefficient is defined for every system built for at least one cell, after any history. -/
theorem getH_defined (n : ℕ) (k : ℤ) (q : ℚ) (c : CoolSystem) (hn : 0 < n) (hq : 0 ≤ q) (hu : Used n k q c) :
    ∃ h : ℝ, c.getH = .ok h ∧ h ≤ 4112 / 100 ∧ (c.flowrate = 0 → h = 0) := by
  have hi := FanInv.of_used hq hu
  refine ⟨_, getH_eq hn hi, ?_, fun h => if_pos h⟩
  by_cases h0 : c.flowrate = 0
  · rw [if_pos h0]; norm_num
  · rw [if_neg h0]
    have hA : 0 < c.Across := by rw [hi.across]; positivity
    have hv : (0 : ℝ) ≤ (airSpeed c : ℝ) := by exact_mod_cast div_nonneg hi.flow hA.le
    have := Real.sq_sqrt hv
    nlinarith [sq_nonneg (√(airSpeed c : ℝ) - 5)]

theorem flow_prop {n : ℕ} {k : ℤ} {q : ℚ} {c : CoolSystem} (h : FanInv n k q c) (hk : k = 4 ∨ k = 5) (l g : ℚ) :
    (c.control l g).flowrate =
      if 300 < watched k l g then n / 2000 * ((watched k l g - 298) / 10) else 0 := by
  rw [control_flow c l g h.kind]
  have : c.controlFan l g = c.prop (watched k l g) := by
    unfold controlFan watched
    rw [h.strategy]
    rcases hk with rfl | rfl <;> norm_num
  rw [this]
  generalize watched k l g = t
  unfold prop
  dsimp only
  rw [h.propT, h.gain, h.flr]
  by_cases ht : 300 < t
  · have : max (t - 298) 0 = t - 298 := max_eq_left (by linarith)
    rw [this, if_pos (show 1 / 10 * (t - 298) > 2 / 10 by linarith), if_pos ht]
    dsimp only
    ring
  · rw [if_neg ht, if_neg]
    have : max (t - 298) 0 ≤ 2 := max_le (by linarith) (by norm_num)
    linarith

theorem speed_prop {n : ℕ} {k : ℤ} {q : ℚ} {c : CoolSystem} (hn : 0 < n) (h : FanInv n k q c) (hk : k = 4 ∨ k = 5)
    (l g : ℚ) (ht : 300 < watched k l g) : airSpeed (c.control l g) = 2 * (watched k l g - 298) := by
  unfold airSpeed
  rw [flow_prop h hk, (h.control l g).across, if_pos ht]
  have : (n : ℚ) ≠ 0 := by positivity
  field_simp
  ring

/-- The coefficient after a control call, as a function of the watched temperature. -/
theorem getH_prop {n : ℕ} {k : ℤ} {q : ℚ} {c : CoolSystem} (hn : 0 < n) (h : FanInv n k q c) (hk : k = 4 ∨ k = 5)
    (l g : ℚ) : (c.control l g).getH = .ok (if 300 < watched k l g then
      1212 / 100 - 116 / 100 * ((2 * (watched k l g - 298) : ℚ) : ℝ) +
        116 / 10 * √((2 * (watched k l g - 298) : ℚ) : ℝ) else 0) := by
  rw [getH_eq hn (h.control l g)]
  by_cases ht : 300 < watched k l g
  · rw [if_pos ht, speed_prop hn h hk l g ht, if_neg]
    rw [flow_prop h hk, if_pos ht]
    have : (0 : ℚ) < n := by positivity
    have h2 : 0 < (watched k l g - 298) / 10 := by linarith
    positivity
  · rw [if_neg ht, if_pos]
    rw [flow_prop h hk, if_neg ht]

theorem getH_fixed {n : ℕ} {k : ℤ} {q : ℚ} {c : CoolSystem} (hn : 0 < n) (h : FanInv n k q c)
    (hf : c.flowrate = 0 ∨ c.flowrate = c.flr) :
    c.getH = .ok (if c.flowrate = 0 then 0 else 1212 / 100 - 116 / 100 * 20 + 116 / 10 * √20) := by
  rw [getH_eq hn h]
  by_cases h0 : c.flowrate = 0
  · rw [if_pos h0, if_pos h0]
  · rw [if_neg h0, if_neg h0]
    have : airSpeed c = 20 := by
      unfold airSpeed
      rw [hf.resolve_left h0, h.flr, h.across]
      have : (n : ℚ) ≠ 0 := by positivity
      field_simp
      norm_num
    rw [this]; norm_num

/-- **C96 (part that holds).** With an on/off strategy, and with a proportional strategy up to a hot spot of 37.5 °C, a
hotter pack is cooled at least as well. -/
theorem hotterIsCooledBetter_partial (n : ℕ) (k : ℤ) (q : ℚ) (c : CoolSystem) (hn : 0 < n) (hk : DocumentedStrategy k)
    (hq : 0 ≤ q) (hu : Used n k q c) (l₁ l₂ g₁ g₂ : ℚ) (hl : l₁ ≤ l₂) (hg : g₁ ≤ g₂)
    (hlim : 4 ≤ k → watched k l₂ g₂ ≤ 273 + 75 / 2) (h₁ h₂ : ℝ)
    (e₁ : (c.control l₁ g₁).getH = .ok h₁) (e₂ : (c.control l₂ g₂).getH = .ok h₂) : h₁ ≤ h₂ := by
  have hi := FanInv.of_used hq hu
  have i1 := hi.control l₁ g₁
  have i2 := hi.control l₂ g₂
  have hw : watched k l₁ g₁ ≤ watched k l₂ g₂ := by unfold watched; split_ifs <;> assumption
  obtain ⟨ha, hb⟩ := hk
  have hk : k = 1 ∨ (k = 2 ∨ k = 3) ∨ (k = 4 ∨ k = 5) := by omega
  rcases hk with hk | hk | hk
  · rw [getH_fixed hn i1 (.inr (i1.always hk))] at e₁
    rw [getH_fixed hn i2 (.inr (i2.always hk))] at e₂
    have : (c.control l₁ g₁).flowrate = (c.control l₂ g₂).flowrate := by
      rw [i1.always hk, i2.always hk, i1.flr, i2.flr]
    rw [this] at e₁
    exact (Outcome.ok.inj (e₁.symm.trans e₂)).le
  · rw [getH_fixed hn i1 (i1.onoff hk)] at e₁
    rw [getH_fixed hn i2 (i2.onoff hk)] at e₂
    have key : (c.control l₂ g₂).flowrate = 0 → (c.control l₁ g₁).flowrate = 0 := by
      have ht : c.Toff < c.Ton := by rw [hi.Ton, hi.Toff]; norm_num
      have hs : c.strategy = 2 ∨ c.strategy = 3 := by rw [hi.strategy]; exact hk
      have hflr : c.flr ≠ 0 := by rw [hi.flr]; positivity
      rw [control_flow c _ _ hi.kind, control_flow c _ _ hi.kind, controlFan_flow_onoff c _ _ hs ht,
        controlFan_flow_onoff c _ _ hs ht]
      have hse : seen c.strategy (l₁, g₁) ≤ seen c.strategy (l₂, g₂) := by
        unfold seen; dsimp only; split_ifs <;> assumption
      intro h
      by_cases a : c.Ton ≤ seen c.strategy (l₂, g₂)
      · rw [if_pos a] at h; exact absurd h hflr
      · rw [if_neg a] at h
        rw [if_neg (fun b => a (b.trans hse))]
        by_cases d : seen c.strategy (l₂, g₂) ≤ c.Toff
        · rw [if_pos (hse.trans d)]
        · rw [if_neg d] at h
          split_ifs
          · rfl
          · exact h
    have hpos : (0 : ℝ) ≤ 1212 / 100 - 116 / 100 * 20 + 116 / 10 * √20 := by
      have : (4 : ℝ) ≤ √20 := Real.le_sqrt_of_sq_le (by norm_num)
      linarith
    have e1 := Outcome.ok.inj e₁
    have e2 := Outcome.ok.inj e₂
    rw [← e1, ← e2]
    by_cases z2 : (c.control l₂ g₂).flowrate = 0
    · rw [if_pos z2, if_pos (key z2)]
    · rw [if_neg z2]
      split_ifs
      · exact hpos
      · exact le_rfl
  · have hlim := hlim (by omega)
    rw [getH_prop hn hi hk] at e₁ e₂
    have e1 := Outcome.ok.inj e₁
    have e2 := Outcome.ok.inj e₂
    rw [← e1, ← e2]
    generalize watched k l₁ g₁ = t₁ at *
    generalize watched k l₂ g₂ = t₂ at *
    by_cases a2 : 300 < t₂
    · rw [if_pos a2]
      have b2 : (0 : ℝ) ≤ ((2 * (t₂ - 298) : ℚ) : ℝ) := by exact_mod_cast (by linarith : (0 : ℚ) ≤ 2 * (t₂ - 298))
      have c2 : ((2 * (t₂ - 298) : ℚ) : ℝ) ≤ 25 := by exact_mod_cast (by linarith : 2 * (t₂ - 298) ≤ (25 : ℚ))
      have s2 := Real.sq_sqrt b2
      have p2 := Real.sqrt_nonneg ((2 * (t₂ - 298) : ℚ) : ℝ)
      have q2 : √((2 * (t₂ - 298) : ℚ) : ℝ) ≤ 5 := by
        rw [Real.sqrt_le_left (by norm_num)]; linarith
      by_cases a1 : 300 < t₁
      · rw [if_pos a1]
        have b1 : (0 : ℝ) ≤ ((2 * (t₁ - 298) : ℚ) : ℝ) := by exact_mod_cast (by linarith : (0 : ℚ) ≤ 2 * (t₁ - 298))
        have s1 := Real.sq_sqrt b1
        have q12 : √((2 * (t₁ - 298) : ℚ) : ℝ) ≤ √((2 * (t₂ - 298) : ℚ) : ℝ) :=
          Real.sqrt_le_sqrt (by exact_mod_cast (by linarith : 2 * (t₁ - 298) ≤ 2 * (t₂ - 298)))
        nlinarith
      · rw [if_neg a1]
        nlinarith
    · rw [if_neg a2, if_neg (fun b => a2 (lt_of_lt_of_le b hw))]

/-- A strip of three cells with a local proportional strategy; the hot spot rises from 30 °C to 37 °C. -/
example : ∃ c, Used 3 4 0 c ∧ (0 : ℕ) < 3 ∧ DocumentedStrategy 4 ∧ (4 ≤ (4 : ℤ) → watched 4 310 320 ≤ 273 + 75 / 2) ∧
    (c.control 303 300).flowrate < (c.control 310 320).flowrate :=
  ⟨_, ⟨_, [.setT 300], .fan, by simp [CoolOp.keeps], rfl⟩, by norm_num, by unfold DocumentedStrategy; norm_num,
    by unfold watched; norm_num, by decide +kernel⟩

/-- **C96 (part that holds).** While the watched hot spot is at most 75 °C (with a proportional strategy; always with the
others), a running fan carries at least 12.12 W/(m² K) away. -/
theorem neverHeatsTheCells_partial (n : ℕ) (k : ℤ) (q : ℚ) (c : CoolSystem) (hn : 0 < n) (hk : DocumentedStrategy k)
    (hq : 0 ≤ q) (hu : Used n k q c) (l g : ℚ) (hlim : 4 ≤ k → watched k l g ≤ 273 + 75) (h : ℝ)
    (e : (c.control l g).getH = .ok h) :
    ((c.control l g).flowrate = 0 ∧ h = 0) ∨ (0 < (c.control l g).flowrate ∧ 1212 / 100 ≤ h) := by
  have hi := FanInv.of_used hq hu
  have ic := hi.control l g
  have hsplit : k ≤ 3 → (c.control l g).flowrate = 0 ∨ (c.control l g).flowrate = (c.control l g).flr := by
    intro h3
    by_cases h1 : k = 1
    · exact .inr (ic.always h1)
    · exact ic.onoff (by have := hk.1; omega)
  by_cases h0 : (c.control l g).flowrate = 0
  · left
    rw [getH_eq hn ic, if_pos h0] at e
    exact ⟨h0, (Outcome.ok.inj e).symm⟩
  · right
    refine ⟨lt_of_le_of_ne ic.flow (Ne.symm h0), ?_⟩
    by_cases h3 : k ≤ 3
    · rw [getH_fixed hn ic (hsplit h3), if_neg h0] at e
      rw [← Outcome.ok.inj e]
      have : (4 : ℝ) ≤ √20 := Real.le_sqrt_of_sq_le (by norm_num)
      linarith
    · have h45 : k = 4 ∨ k = 5 := by have := hk.2; omega
      have hlim := hlim (by omega)
      have ht : 300 < watched k l g := by
        by_contra hc
        rw [flow_prop hi h45, if_neg hc] at h0
        exact h0 rfl
      rw [getH_prop hn hi h45, if_pos ht] at e
      rw [← Outcome.ok.inj e]
      generalize watched k l g = w at *
      have b2 : (0 : ℝ) ≤ ((2 * (w - 298) : ℚ) : ℝ) := by exact_mod_cast (by linarith : (0 : ℚ) ≤ 2 * (w - 298))
      have c2 : ((2 * (w - 298) : ℚ) : ℝ) ≤ 100 := by exact_mod_cast (by linarith : 2 * (w - 298) ≤ (100 : ℚ))
      have s2 := Real.sq_sqrt b2
      have p2 := Real.sqrt_nonneg ((2 * (w - 298) : ℚ) : ℝ)
      have q2 : √((2 * (w - 298) : ℚ) : ℝ) ≤ 10 := by
        rw [Real.sqrt_le_left (by norm_num)]; linarith
      nlinarith

/-- A fan running at its limit of 100 m/s. -/
example : ∃ c, Used 20 5 1 c ∧ watched 5 300 348 ≤ 273 + 75 ∧ (c.control 300 348).flowrate = 20 / 2000 * 5 :=
  ⟨_, ⟨_, [.setT 300], .fan, by simp [CoolOp.keeps], rfl⟩, by unfold watched; norm_num, by decide +kernel⟩

private theorem used4 : Used 1 4 0 (make 1 4) := ⟨_, [], .fan, by simp, rfl⟩

private theorem h4 (l : ℚ) (r : ℚ) (hr : 0 ≤ r) (hl : 300 < l) (e : 2 * (l - 298) = r ^ 2) :
    ((make 1 4).control l l).getH = .ok (((1212 / 100 - 116 / 100 * r ^ 2 + 116 / 10 * r : ℚ)) : ℝ) := by
  rw [getH_prop (by norm_num) (FanInv.of_used le_rfl used4) (.inl rfl)]
  have : watched 4 l l = l := by unfold watched; split_ifs <;> rfl
  rw [this, if_pos hl, e]
  push_cast
  rw [Real.sqrt_sq (by exact_mod_cast hr)]

/-- **C96 is false of the code**: with a proportional strategy the pack at 57 °C is cooled worse than at 37.5 °C. -/
theorem not_hotterIsCooledBetter : ¬ HotterIsCooledBetter := by
  intro h
  have := h 1 4 0 _ (by norm_num) (by unfold DocumentedStrategy; norm_num) le_rfl used4 (621 / 2) 330 (621 / 2) 330 (by norm_num)
    (by norm_num) _ _ (h4 _ 5 (by norm_num) (by norm_num) (by norm_num))
    (h4 _ 8 (by norm_num) (by norm_num) (by norm_num))
  norm_num at this

/-- **C96 is false of the code**: with a hot spot of 97 °C the coefficient is negative. -/
theorem not_neverHeatsTheCells : ¬ NeverHeatsTheCells := by
  intro h
  have := h 1 4 0 _ (by norm_num) (by unfold DocumentedStrategy; norm_num) le_rfl used4 370 370 _
    (h4 _ 12 (by norm_num) (by norm_num) (by norm_num))
  norm_num at this

/-! ## C97 -/

theorem dstate_ac {c : CoolSystem} (hk : c.kind = .hvac) {qtot qch t r : ℚ} {c' : CoolSystem}
    (h : c.dstate qtot qch t = (.ok r, c')) :
    acUsed c c' = c.acEnergy c.Qac t ∧ acRemoved c c' = c.Qac * t := by
  unfold dstate at h
  rw [hk] at h
  dsimp only at h
  by_cases ha : |qtot - qch| > 1 / 1000000000000
  · rw [if_pos ha] at h
    cases (Prod.mk.inj h).1
  rw [if_neg ha] at h
  obtain ⟨-, rfl⟩ := Prod.mk.inj h
  unfold acUsed acRemoved
  exact ⟨by ring, by ring⟩

private theorem dstate_hvac (c : CoolSystem) (hk : c.kind = .hvac) (x t : ℚ) :
    c.dstate x x t = (.ok (c.T + (x - c.Qac * t) / (c.rho * c.cp * c.vol)), (c.dstate x x t).2) := by
  unfold dstate
  rw [hk]
  dsimp only
  rw [if_neg (by norm_num)]

/-- An HVAC system after its temperature has been set. -/
private def hv (n : ℕ) (q T : ℚ) : CoolSystem :=
  runCool (match makeHVAC n 1 q with | .ok c => c | _ => make 1 1) [.setT T]

private theorem hv_used {n : ℕ} (hn : n ≠ 0) (q T : ℚ) : Used n 1 q (hv n q T) := by
  refine ⟨_, [.setT T], .hvac ?_, by simp [CoolOp.keeps], rfl⟩
  unfold makeHVAC
  rw [if_neg hn]

/-- **C97 (part that holds).** The air conditioning never gives energy back, costs nothing exactly when it removes no heat,
and in a warm environment costs the coefficient of performance times (not divided by) the heat it removes. -/
theorem compressorFollowsCOP_partial (n : ℕ) (k : ℤ) (q : ℚ) (c : CoolSystem) (hn : 0 < n) (hq : 0 ≤ q)
    (hu : Used n k q c) (hk : c.kind = .hvac) (qtot qch t r : ℚ) (c' : CoolSystem) (ht : 0 ≤ t)
    (h : c.dstate qtot qch t = (.ok r, c')) :
    0 ≤ acRemoved c c' ∧ 0 ≤ acUsed c c' ∧ (acUsed c c' = 0 ↔ acRemoved c c' = 0) ∧
      (c.T < T_ENV + 5 → acUsed c c' = c.COP * acRemoved c c') := by
  have hi := FanInv.of_used hq hu
  obtain ⟨e1, e2⟩ := dstate_ac hk h
  rw [e1, e2]
  have hA : 0 < c.Across := by rw [hi.across]; positivity
  have h1 := mul_nonneg hi.ac_lo ht
  unfold acEnergy
  by_cases h0 : c.Qac = 0 ∨ t = 0
  · rw [if_pos h0]
    have : c.Qac * t = 0 := by rcases h0 with h0 | h0 <;> rw [h0] <;> ring
    rw [this]; norm_num
  · rw [if_neg h0]
    push Not at h0
    have hq' : 0 < c.Qac := lt_of_le_of_ne hi.ac_lo (Ne.symm h0.1)
    have ht' : 0 < t := lt_of_le_of_ne ht (Ne.symm h0.2)
    by_cases hT : T_ENV > c.T - 5
    · rw [if_pos hT, hi.COP]
      have : 0 < c.Qac * t := by positivity
      exact ⟨this.le, by linarith, ⟨fun h => by linarith, fun h => by linarith⟩, fun _ => by ring⟩
    · rw [if_neg hT]
      dsimp only
      rw [hi.rho, hi.cp, hi.eta]
      have hT' : 0 < c.T - T_ENV := by push Not at hT; linarith
      have hp : 0 < c.Qac * t := by positivity
      have : ∀ x : ℚ, 0 < x → (x = 0 ↔ c.Qac * t = 0) := fun x hx => ⟨fun h => by linarith, fun h => by linarith⟩
      refine ⟨hp.le, ?_, this _ ?_, fun h => ?_⟩
      · positivity
      · positivity
      · push Not at hT; linarith

/-- **C97 (part that holds).** With ancillary losses of at most 14 W per cell, cooling with outside air never takes more
energy than the heat it removes. -/
theorem outsideAirIsCheap_partial (n : ℕ) (k : ℤ) (q : ℚ) (c : CoolSystem) (hn : 0 < n) (hq : 0 ≤ q) (hq' : q ≤ 14 * n)
    (hu : Used n k q c) (hk : c.kind = .hvac) (qtot qch t r : ℚ) (c' : CoolSystem) (ht : 0 ≤ t)
    (h : c.dstate qtot qch t = (.ok r, c')) (hT : T_ENV + 5 ≤ c.T) : acUsed c c' ≤ acRemoved c c' := by
  have hi := FanInv.of_used hq hu
  obtain ⟨e1, e2⟩ := dstate_ac hk h
  rw [e1, e2]
  have hn' : (0 : ℚ) < n := by exact_mod_cast hn
  have h1 := mul_nonneg hi.ac_lo ht
  unfold acEnergy
  by_cases h0 : c.Qac = 0 ∨ t = 0
  · rw [if_pos h0]; exact h1
  · rw [if_neg h0, if_neg (by linarith)]
    dsimp only
    rw [hi.rho, hi.cp, hi.eta, hi.across]
    have hQ : c.Qac ≤ 43 / 2 * n := by have := hi.ac_hi; have := hi.acQ.2; linarith
    have hd : 5 ≤ c.T - T_ENV := by linarith
    generalize c.T - T_ENV = d at *
    have hd3 : (125 : ℚ) ≤ d ^ 3 := by nlinarith [sq_nonneg (d - 5), sq_nonneg d]
    have hQ2 : c.Qac ^ 2 ≤ (43 / 2 * n) ^ 2 := pow_le_pow_left₀ hi.ac_lo hQ 2
    have key : (49 / 40 : ℚ) * c.Qac ^ 2 ≤ (49 / 40 * 1005 * d) ^ 3 * ((n : ℚ) / 40000 * 2) ^ 2 := by
      have : (49 / 40 * 1005 * d) ^ 3 * ((n : ℚ) / 40000 * 2) ^ 2
          = d ^ 3 * ((49 / 40 * 1005) ^ 3 * (n / 20000) ^ 2) := by ring
      rw [this]
      have h3 : 125 * ((49 / 40 * 1005) ^ 3 * ((n : ℚ) / 20000) ^ 2) ≤ d ^ 3 * ((49 / 40 * 1005) ^ 3 * (n / 20000) ^ 2) :=
        mul_le_mul_of_nonneg_right hd3 (by positivity)
      have h4 : (0 : ℚ) < n ^ 2 := by positivity
      nlinarith
    have hd0 : 0 < d := by linarith
    have e : 49 / 40 * ((n : ℚ) / 40000 * 2) * (c.Qac / (49 / 40 * 1005 * d) / (n / 40000 * 2)) ^ 3 / 2 / (1 / 2) * t
        = (49 / 40 * c.Qac ^ 2) / ((49 / 40 * 1005 * d) ^ 3 * ((n : ℚ) / 40000 * 2) ^ 2) * (c.Qac * t) := by
      field_simp
    rw [e]
    calc _ ≤ 1 * (c.Qac * t) := mul_le_mul_of_nonneg_right ((div_le_one (by positivity)).mpr key) h1
      _ = _ := one_mul _

/-- A running air-conditioning unit in a cold environment: a container at 30 °C. -/
example : ∃ c r c', Used 10 1 20 c ∧ (20 : ℚ) ≤ 14 * (10 : ℕ) ∧ c.kind = .hvac ∧ c.dstate 50 50 2 = (.ok r, c') ∧
    T_ENV + 5 ≤ c.T ∧ 0 < acUsed c c' ∧ acRemoved c c' = 190 :=
  ⟨hv 10 20 303, _, _, hv_used (by norm_num) _ _, by norm_num, by decide +kernel, dstate_hvac _ (by decide +kernel) _ _,
    by decide +kernel, by decide +kernel, by decide +kernel⟩

/-- **C97 is false of the code**: 7.5 J of heat cost 22.5 J instead of 2.5 J. -/
theorem not_compressorFollowsCOP : ¬ CompressorFollowsCOP := by
  intro h
  have := h 1 1 0 (hv 1 0 288) (by norm_num) le_rfl (hv_used (by norm_num) _ _) (by decide +kernel) 0 0 1 _ _
    (by norm_num) (dstate_hvac _ (by decide +kernel) _ _) (by decide +kernel)
  revert this
  decide +kernel

/-- **C97 is false of the code**: with large ancillary losses outside air costs more than the heat it removes, because the
cross section of the fan is that of the cells alone. -/
theorem not_outsideAirIsCheap : ¬ OutsideAirIsCheap := by
  intro h
  have := h 1 1 3000 (hv 1 3000 293) (by norm_num) (by norm_num) (hv_used (by norm_num) _ _) (by decide +kernel) 0 0 1 _ _
    (by norm_num) (dstate_hvac _ (by decide +kernel) _ _) (by decide +kernel)
  revert this
  decide +kernel

end Slide

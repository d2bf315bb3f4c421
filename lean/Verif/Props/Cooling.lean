import Verif.Spec.Cooling
import Verif.Tac

/-!
# C33 Cooling control is bounded and has hysteresis; C34 Cooling energy is reported exactly once
-/

namespace Slide
open Spec CoolSystem

/-! ## C33 -/

section fan

/-- Everything of a cooling system that calls other than the constructors and `setControl` leave alone. -/
structure SameDesign (a b : CoolSystem) : Prop where
  kind : b.kind = a.kind
  Ton : b.Ton = a.Ton
  Toff : b.Toff = a.Toff
  flr : b.flr = a.flr
  propT : b.propT = a.propT
  gain : b.gain = a.gain
  acTon : b.acTon = a.acTon
  acToff : b.acToff = a.acToff
  acQ : b.acQ = a.acQ
  acPropT : b.acPropT = a.acPropT
  acGain : b.acGain = a.acGain

theorem SameDesign.refl (a : CoolSystem) : SameDesign a a := by constructor <;> rfl

theorem SameDesign.trans {a b c : CoolSystem} (h : SameDesign a b) (k : SameDesign b c) : SameDesign a c := by
  constructor
  · exact k.kind.trans h.kind
  · exact k.Ton.trans h.Ton
  · exact k.Toff.trans h.Toff
  · exact k.flr.trans h.flr
  · exact k.propT.trans h.propT
  · exact k.gain.trans h.gain
  · exact k.acTon.trans h.acTon
  · exact k.acToff.trans h.acToff
  · exact k.acQ.trans h.acQ
  · exact k.acPropT.trans h.acPropT
  · exact k.acGain.trans h.acGain

theorem onOff_design (c : CoolSystem) (t : ℚ) : SameDesign c (c.onOff t) := by
  unfold onOff; dsimp only; split_ifs <;> constructor <;> rfl

theorem prop_design (c : CoolSystem) (t : ℚ) : SameDesign c (c.prop t) := by
  unfold prop; dsimp only; split_ifs <;> constructor <;> rfl

theorem controlFan_design (c : CoolSystem) (l g : ℚ) : SameDesign c (c.controlFan l g) := by
  unfold controlFan
  split_ifs
  · exact .refl _
  · exact onOff_design _ _
  · exact onOff_design _ _
  · exact prop_design _ _
  · exact prop_design _ _
  · exact .refl _

theorem acProp_design (c : CoolSystem) (t : ℚ) : SameDesign c (c.acProp t) := by
  unfold acProp; dsimp only; split_ifs <;> constructor <;> rfl

theorem controlAC_design (c : CoolSystem) (g : ℚ) : SameDesign c (c.controlAC g) := by
  unfold controlAC
  split_ifs <;> first | exact acProp_design _ _ | (constructor <;> rfl)

theorem control_design (c : CoolSystem) (l g : ℚ) : SameDesign c (c.control l g) := by
  unfold CoolSystem.control
  split
  · exact controlFan_design _ _ _
  · exact (controlFan_design _ _ _).trans (controlAC_design _ _)
  · constructor <;> rfl

theorem setT_design (c : CoolSystem) (t : ℚ) : SameDesign c (c.setT t).2 := by
  unfold setT; split_ifs <;> constructor <;> rfl

theorem dstate_design (c : CoolSystem) (a b t : ℚ) : SameDesign c (c.dstate a b t).2 := by
  unfold dstate
  split
  · dsimp only; split_ifs <;> constructor <;> rfl
  · constructor <;> rfl

theorem run_design (c : CoolSystem) (o : CoolOp) : SameDesign c (o.run c) := by
  cases o with
  | control l g => exact control_design c l g
  | setT t => exact setT_design c t
  | setControl k => constructor <;> rfl
  | dstate a b t => exact dstate_design c a b t
  | reset => constructor <;> rfl

theorem runCool_design (c : CoolSystem) (ops : List CoolOp) : SameDesign c (runCool c ops) := by
  unfold runCool
  induction ops generalizing c with
  | nil => exact .refl c
  | cons o os ih => exact (run_design c o).trans (ih _)

theorem onOff_flow (c : CoolSystem) (t : ℚ) (h : c.Toff < c.Ton) :
    (c.onOff t).flowrate = if c.Ton ≤ t then c.flr else if t ≤ c.Toff then 0 else c.flowrate := by
  unfold onOff
  dsimp only
  by_cases h1 : c.Ton ≤ t
  · rw [if_pos h1, if_pos (show t ≥ c.Ton from h1), if_neg]
    dsimp only
    linarith
  · rw [if_neg h1, if_neg (show ¬ t ≥ c.Ton from h1)]
    split_ifs <;> rfl

/-- The temperature an on/off strategy looks at: the local one for strategy 2, the global one for 3. -/
def seen (k : ℤ) (p : ℚ × ℚ) : ℚ := if k = 2 then p.1 else p.2

theorem twoPoint_step {lo hi on f0 f : ℚ} {t : ℚ} {ts : List ℚ} (h : lo < hi)
    (hf : TwoPoint lo hi on (if hi ≤ t then on else if t ≤ lo then 0 else f0) ts f) :
    TwoPoint lo hi on f0 (t :: ts) f := by
  constructor
  · intro pre s post he hs hp
    cases pre with
    | nil =>
      simp only [List.nil_append, List.cons.injEq] at he
      obtain ⟨rfl, rfl⟩ := he
      have := hf.kept hp
      rwa [if_pos hs] at this
    | cons a pre =>
      simp only [List.cons_append, List.cons.injEq] at he
      exact hf.switchedOn pre s post he.2 hs hp
  · intro pre s post he hs hp
    cases pre with
    | nil =>
      simp only [List.nil_append, List.cons.injEq] at he
      obtain ⟨rfl, rfl⟩ := he
      have := hf.kept hp
      rwa [if_neg (by linarith), if_pos hs] at this
    | cons a pre =>
      simp only [List.cons_append, List.cons.injEq] at he
      exact hf.switchedOff pre s post he.2 hs hp
  · intro hk
    have h1 := hk t List.mem_cons_self
    have := hf.kept (fun s hs => hk s (List.mem_cons_of_mem _ hs))
    rwa [if_neg (by linarith), if_neg (by linarith)] at this

theorem controlFan_flow_onoff (c : CoolSystem) (l g : ℚ) (hs : c.strategy = 2 ∨ c.strategy = 3) (h : c.Toff < c.Ton) :
    (c.controlFan l g).flowrate =
      if c.Ton ≤ seen c.strategy (l, g) then c.flr else if seen c.strategy (l, g) ≤ c.Toff then 0 else c.flowrate := by
  unfold controlFan seen
  rcases hs with hs | hs <;> rw [hs] <;> norm_num <;> exact onOff_flow c _ h

theorem controlAC_flow (c : CoolSystem) (g : ℚ) : (c.controlAC g).flowrate = c.flowrate := by
  unfold controlAC acProp; dsimp only; split_ifs <;> rfl

theorem controlAC_strategy (c : CoolSystem) (g : ℚ) : (c.controlAC g).strategy = c.strategy := by
  unfold controlAC acProp; dsimp only; split_ifs <;> rfl

theorem controlAC_T (c : CoolSystem) (g : ℚ) : (c.controlAC g).T = c.T := by
  unfold controlAC acProp; dsimp only; split_ifs <;> rfl

theorem controlFan_strategy (c : CoolSystem) (l g : ℚ) : (c.controlFan l g).strategy = c.strategy := by
  unfold controlFan onOff prop; dsimp only; split_ifs <;> rfl

theorem controlFan_T (c : CoolSystem) (l g : ℚ) : (c.controlFan l g).T = c.T := by
  unfold controlFan onOff prop; dsimp only; split_ifs <;> rfl

theorem controlFan_Qac (c : CoolSystem) (l g : ℚ) : (c.controlFan l g).Qac = c.Qac := by
  unfold controlFan onOff prop; dsimp only; split_ifs <;> rfl

theorem control_strategy (c : CoolSystem) (l g : ℚ) : (c.control l g).strategy = c.strategy := by
  unfold CoolSystem.control
  split
  · exact controlFan_strategy ..
  · rw [controlAC_strategy, controlFan_strategy]
  · rfl

theorem control_flow (c : CoolSystem) (l g : ℚ) (hk : c.kind ≠ .openSys) :
    (c.control l g).flowrate = (c.controlFan l g).flowrate := by
  unfold CoolSystem.control
  split
  · rfl
  · rw [controlAC_flow]
  · contradiction

/-- **C33, hysteresis.** With an on/off strategy (2: hottest child, 3: hottest cell) the flow after any sequence of
control calls is that of a two-point controller: on after the last temperature at or above the upper threshold,
off after the last one at or below the lower threshold, unchanged in between. -/
theorem fan_hysteresis (c : CoolSystem) (hk : c.kind ≠ .openSys) (hs : c.strategy = 2 ∨ c.strategy = 3)
    (h : c.Toff < c.Ton) (ts : List (ℚ × ℚ)) :
    TwoPoint c.Toff c.Ton c.flr c.flowrate (ts.map (seen c.strategy))
      (runCool c (ts.map fun p => .control p.1 p.2)).flowrate := by
  induction ts generalizing c with
  | nil =>
    constructor
    · intro pre t post he; simp at he
    · intro pre t post he; simp at he
    · intro _; rfl
  | cons p ts ih =>
    have hd := control_design c p.1 p.2
    have hst := control_strategy c p.1 p.2
    have := ih (c.control p.1 p.2) (by rw [hd.kind]; exact hk) (by rw [hst]; exact hs) (by rw [hd.Ton, hd.Toff]; exact h)
    rw [hst, hd.Ton, hd.Toff, hd.flr, control_flow c _ _ hk, controlFan_flow_onoff c _ _ hs h] at this
    exact twoPoint_step h this

/-- A fan of a system for 10 cells with strategy 2: on at 36 °C, still on at 30 °C, off at 24 °C. -/
example : (runCool (make 10 2) [.control 309 309, .control 303 303]).flowrate = 1 / 200 ∧
    (runCool (make 10 2) [.control 309 309, .control 303 303, .control 297 297]).flowrate = 0 := by
  decide +kernel

example : (make 10 2).Toff < (make 10 2).Ton := by decide +kernel

theorem prop_flow (c : CoolSystem) (t : ℚ) (hf : 0 ≤ c.flr) :
    (c.prop t).flowrate = 0 ∨ 2 / 10 * c.flr ≤ (c.prop t).flowrate := by
  unfold prop
  dsimp only
  split_ifs with h
  · right
    dsimp only
    nlinarith
  · left; rfl

/-- **C33, proportional strategies.** After a control call with strategy 4 or 5 the fan is off or gives at least 20 %
of the nominal flow, and never a negative flow. -/
theorem fan_proportional (c : CoolSystem) (l g : ℚ) (hk : c.kind ≠ .openSys)
    (hs : c.strategy = 4 ∨ c.strategy = 5) (hf : 0 ≤ c.flr) :
    0 ≤ (c.control l g).flowrate ∧
      ((c.control l g).flowrate = 0 ∨ 2 / 10 * c.flr ≤ (c.control l g).flowrate) := by
  have : (c.control l g).flowrate = 0 ∨ 2 / 10 * c.flr ≤ (c.control l g).flowrate := by
    rw [control_flow c l g hk]
    unfold controlFan
    rcases hs with hs | hs <;> rw [hs]
    · simpa only [if_neg, if_pos, reduceCtorEq, Int.reduceEq, if_true, if_false] using prop_flow c l hf
    · simpa only [if_neg, if_pos, reduceCtorEq, Int.reduceEq, if_true, if_false] using prop_flow c g hf
  refine ⟨?_, this⟩
  rcases this with h | h
  · exact h.ge
  · exact le_trans (by positivity) h

/-- The flow grows in proportion to the temperature excess of the hottest child without upper limit: at `k` times
the design excess the fan gives `k` times its nominal flow. -/
theorem fan_proportional_value (n : ℕ) (k : ℚ) (hk : 2 / 10 < k) (g : ℚ) :
    ((make n 4).control (298 + 10 * k) g).flowrate = k * (make n 4).flowrate := by
  have : ((make n 4).control (298 + 10 * k) g) = (make n 4).prop (298 + 10 * k) := by
    unfold CoolSystem.control controlFan make; norm_num
  rw [this]
  unfold prop make
  dsimp only
  have e : max (298 + 10 * k - (273 + 25)) 0 = 10 * k := by
    rw [max_eq_left] <;> norm_num
    linarith
  rw [e, if_pos]
  · norm_num; ring
  · norm_num; linarith

end fan

/-! ### The AC unit -/

/-- The design parameters of a system are sensible (what the constructors establish). -/
structure SaneDesign (c : CoolSystem) : Prop where
  flr : 0 ≤ c.flr
  acQ : 0 ≤ c.acQ
  acGain : 0 ≤ c.acGain
  gain : 0 ≤ c.gain

/-- What the property promises about the outputs. -/
structure Bounded (c : CoolSystem) : Prop where
  flow : 0 ≤ c.flowrate
  ac_lo : 0 ≤ c.Qac
  ac_hi : c.Qac ≤ c.acQ

theorem SaneDesign.of_same {a b : CoolSystem} (h : SameDesign a b) (s : SaneDesign a) : SaneDesign b where
  flr := by rw [h.flr]; exact s.flr
  acQ := by rw [h.acQ]; exact s.acQ
  acGain := by rw [h.acGain]; exact s.acGain
  gain := by rw [h.gain]; exact s.gain

theorem onOff_flow_nonneg (c : CoolSystem) (t : ℚ) (hf : 0 ≤ c.flr) (h : 0 ≤ c.flowrate) : 0 ≤ (c.onOff t).flowrate := by
  unfold onOff
  dsimp only
  by_cases h1 : t ≥ c.Ton
  · rw [if_pos h1]
    dsimp only
    by_cases h2 : t ≤ c.Toff
    · rw [if_pos h2]
    · rw [if_neg h2]; exact hf
  · rw [if_neg h1]
    by_cases h2 : t ≤ c.Toff
    · rw [if_pos h2]
    · rw [if_neg h2]; exact h

theorem prop_flow_nonneg (c : CoolSystem) (t : ℚ) (hf : 0 ≤ c.flr) : 0 ≤ (c.prop t).flowrate := by
  rcases prop_flow c t hf with h | h
  · exact h.ge
  · exact le_trans (by positivity) h

theorem controlFan_flow_nonneg (c : CoolSystem) (l g : ℚ) (hf : 0 ≤ c.flr) (h : 0 ≤ c.flowrate) :
    0 ≤ (c.controlFan l g).flowrate := by
  unfold controlFan
  split_ifs
  · exact h
  · exact onOff_flow_nonneg c _ hf h
  · exact onOff_flow_nonneg c _ hf h
  · exact prop_flow_nonneg c _ hf
  · exact prop_flow_nonneg c _ hf
  · exact h

theorem acProp_bounds (c : CoolSystem) (t : ℚ) (s : SaneDesign c) : 0 ≤ (c.acProp t).Qac ∧ (c.acProp t).Qac ≤ c.acQ := by
  have h1 := s.acQ
  have h2 := s.acGain
  have hm : 0 ≤ max (t - c.acPropT) 0 := le_max_right _ _
  have hg := mul_nonneg h2 hm
  unfold acProp
  dsimp only
  split_ifs
  · exact ⟨le_rfl, h1⟩
  · have := min_le_right (c.acGain * max (t - c.acPropT) 0) 1
    have h0 := le_min hg (zero_le_one (α := ℚ))
    dsimp only
    constructor <;> nlinarith
  · exact ⟨le_rfl, h1⟩

theorem controlAC_bounds (c : CoolSystem) (g : ℚ) (s : SaneDesign c) (b : 0 ≤ c.Qac ∧ c.Qac ≤ c.acQ) :
    0 ≤ (c.controlAC g).Qac ∧ (c.controlAC g).Qac ≤ c.acQ := by
  unfold controlAC
  split_ifs
  · exact ⟨le_rfl, s.acQ⟩
  · exact ⟨s.acQ, le_rfl⟩
  · exact ⟨le_rfl, s.acQ⟩
  · exact ⟨s.acQ, le_rfl⟩
  · exact b
  · exact ⟨le_rfl, s.acQ⟩
  · exact ⟨s.acQ, le_rfl⟩
  · exact b
  · exact acProp_bounds c _ s
  · exact acProp_bounds c _ s
  · exact b

theorem control_bounded (c : CoolSystem) (l g : ℚ) (s : SaneDesign c) (b : Bounded c) : Bounded (c.control l g) := by
  unfold CoolSystem.control
  split
  · have hd := controlFan_design c l g
    exact ⟨controlFan_flow_nonneg c l g s.flr b.flow, by rw [controlFan_Qac]; exact b.ac_lo,
      by rw [controlFan_Qac, hd.acQ]; exact b.ac_hi⟩
  · have hd := controlFan_design c l g
    have := controlAC_bounds (c.controlFan l g) g (s.of_same hd)
      (by rw [controlFan_Qac, hd.acQ]; exact ⟨b.ac_lo, b.ac_hi⟩)
    exact ⟨by rw [controlAC_flow]; exact controlFan_flow_nonneg c l g s.flr b.flow, this.1,
      by rw [(controlAC_design _ g).acQ]; exact this.2⟩
  · exact ⟨le_rfl, b.ac_lo, b.ac_hi⟩

theorem run_bounded (c : CoolSystem) (o : CoolOp) (s : SaneDesign c) (b : Bounded c) : Bounded (o.run c) := by
  cases o with
  | control l g => exact control_bounded c l g s b
  | setT t => show Bounded (c.setT t).2; unfold setT; split_ifs <;> exact ⟨b.flow, b.ac_lo, b.ac_hi⟩
  | setControl k => exact ⟨b.flow, b.ac_lo, b.ac_hi⟩
  | dstate x y t =>
    show Bounded (c.dstate x y t).2
    unfold dstate
    split
    · dsimp only; split_ifs <;> exact ⟨b.flow, b.ac_lo, b.ac_hi⟩
    · exact ⟨b.flow, b.ac_lo, b.ac_hi⟩
  | reset => exact ⟨b.flow, b.ac_lo, b.ac_hi⟩

theorem runCool_bounded (c : CoolSystem) (ops : List CoolOp) (s : SaneDesign c) (b : Bounded c) :
    Bounded (runCool c ops) := by
  unfold runCool
  induction ops generalizing c with
  | nil => exact b
  | cons o os ih => exact ih _ (s.of_same (run_design c o)) (run_bounded c o s b)

theorem make_sane (n : ℕ) (k : ℤ) : SaneDesign (make n k) ∧ Bounded (make n k) := by
  refine ⟨⟨?_, le_rfl, le_rfl, ?_⟩, ⟨?_, le_rfl, le_rfl⟩⟩ <;> unfold make <;> dsimp only
  · positivity
  · norm_num
  · positivity

theorem makeHVAC_sane (n : ℕ) (k : ℤ) (q : ℚ) (hq : 0 ≤ q) (c : CoolSystem) (h : makeHVAC n k q = .ok c) :
    SaneDesign c ∧ Bounded c ∧ c.kind = .hvac ∧ c.acQ = 75 / 10 * n + q ∧ c.acToff = 293 := by
  unfold makeHVAC at h
  split_ifs at h with hn
  all_goals
    cases h
    have h1 : (0 : ℚ) ≤ 5 / 10000 * n := by positivity
    have h2 : (0 : ℚ) ≤ 75 / 10 * n + q := by positivity
    exact ⟨⟨h1, h2, by norm_num, by norm_num [make]⟩, ⟨h1, h2, le_rfl⟩, rfl, rfl, by norm_num⟩

/-- **C33, bounds.** Whatever happens to a container's HVAC system after its construction (control calls with any
temperatures, strategy changes, heat exchange, ...): the flow is never negative and the AC power stays between 0
and the design power `7.5 W` per cell plus the ancillary losses. -/
theorem hvac_bounded (n : ℕ) (k : ℤ) (q : ℚ) (hq : 0 ≤ q) (c : CoolSystem) (h : makeHVAC n k q = .ok c)
    (ops : List CoolOp) :
    0 ≤ (runCool c ops).flowrate ∧ 0 ≤ (runCool c ops).Qac ∧ (runCool c ops).Qac ≤ 75 / 10 * n + q := by
  obtain ⟨s, b, _, hQ, _⟩ := makeHVAC_sane n k q hq c h
  have := runCool_bounded c ops s b
  refine ⟨this.flow, this.ac_lo, ?_⟩
  rw [← hQ, ← (runCool_design c ops).acQ]
  exact this.ac_hi

/-- The same for the fan of conventional and open systems. -/
theorem fan_nonneg (n : ℕ) (k : ℤ) (ops : List CoolOp) :
    0 ≤ (runCool (make n k) ops).flowrate ∧ 0 ≤ (runCool (makeOpen n k) ops).flowrate :=
  ⟨(runCool_bounded _ ops (make_sane n k).1 (make_sane n k).2).flow,
   (runCool_bounded (makeOpen n k) ops ⟨(make_sane n k).1.flr, (make_sane n k).1.acQ, (make_sane n k).1.acGain,
     (make_sane n k).1.gain⟩ ⟨le_rfl, le_rfl, le_rfl⟩).flow⟩

/-- Full statement: the AC is off after every control call in a container at or below its minimum temperature
(20 °C), for every documented strategy. -/
def ACOffWhenCold : Prop :=
  ∀ (n : ℕ) (k : ℤ) (q : ℚ) (c : CoolSystem) (ops : List CoolOp) (l g : ℚ), 0 ≤ q → makeHVAC n k q = .ok c →
    1 ≤ (runCool c ops).strategy ∧ (runCool c ops).strategy ≤ 5 →
    (runCool c ops).T ≤ 293 → ((runCool c ops).control l g).Qac = 0

/-- **C33 (part that holds).** Strictly below the minimum temperature the AC is always off; at exactly the minimum
temperature it is off for strategies 2 to 5. -/
theorem hvac_off_when_cold_partial (n : ℕ) (k : ℤ) (q : ℚ) (c : CoolSystem) (ops : List CoolOp) (l g : ℚ)
    (hq : 0 ≤ q) (h : makeHVAC n k q = .ok c)
    (hs : 1 ≤ (runCool c ops).strategy ∧ (runCool c ops).strategy ≤ 5)
    (hT : (runCool c ops).T < 293 ∨ (runCool c ops).T = 293 ∧ (runCool c ops).strategy ≠ 1) :
    ((runCool c ops).control l g).Qac = 0 := by
  obtain ⟨_, _, hk, _, h293⟩ := makeHVAC_sane n k q hq c h
  have hd := runCool_design c ops
  generalize runCool c ops = d at hd hs hT
  have hk' : d.kind = .hvac := hd.kind.trans hk
  have ht : d.acToff = 293 := hd.acToff.trans h293
  unfold CoolSystem.control
  rw [hk']
  dsimp only
  set e := d.controlFan l g with he
  have e1 : e.strategy = d.strategy := controlFan_strategy ..
  have e2 : e.T = d.T := controlFan_T ..
  have e3 : e.acToff = 293 := (controlFan_design d l g).acToff.trans ht
  have hle : e.T ≤ e.acToff := by
    rw [e2, e3]; rcases hT with h | h
    · exact h.le
    · exact h.1.le
  unfold controlAC acProp
  dsimp only
  split_ifs with s1 s1t s2 s2t s3 s4 <;> first | rfl | skip
  · exfalso
    rcases hT with h | h
    · rw [e2, e3] at s1t; exact s1t h
    · exact h.2 (e1 ▸ s1)
  · exfalso; omega

/-- With strategy 1 the AC runs at full power at exactly the minimum temperature. -/
theorem not_acOffWhenCold : ¬ ACOffWhenCold := by
  intro H
  obtain ⟨c, hc⟩ : ∃ c, makeHVAC 10 1 0 = .ok c := ⟨_, rfl⟩
  have := H 10 1 0 c [.setT 293] 300 300 le_rfl hc
  cases hc
  revert this
  decide +kernel

/-- A container for 100 cells with strategy 4: off at 20 °C, 80 % of the design power at 24 °C, never more than the
design power. -/
example : (makeHVAC 100 4 50).bind (fun c => .ok ((runCool c [.setT 293, .control 300 300]).Qac,
    (runCool c [.setT 297, .control 300 300]).Qac, (runCool c [.setT 340, .control 300 300]).Qac)) =
    .ok (0, 640, 800) := by decide +kernel

/-! ## C34 -/

namespace CoolTree
mutual
/-- Sum of the meters of all cooling systems. -/
def pending : CoolTree → ℚ
  | .cell => 0
  | .module c ks => c.Eoperate + pendingKids ks
def pendingKids : List CoolTree → ℚ
  | [] => 0
  | k :: ks => pending k + pendingKids ks
end

theorem pending_set (ks : List CoolTree) (i : ℕ) (k k' : CoolTree) (h : ks[i]? = some k) :
    pendingKids (ks.set i k') = pendingKids ks - pending k + pending k' := by
  induction ks generalizing i with
  | nil => simp at h
  | cons a ks ih =>
    cases i with
    | zero =>
      simp at h
      subst h
      simp [pendingKids]
      ring
    | succ i =>
      simp at h
      simp [pendingKids, ih i h]
      ring

theorem atPath_pending (s : ℚ) (f : CoolTree → ℚ × CoolTree) (hf : ∀ t, pending (f t).2 = pending t + s * (f t).1)
    (p : List ℕ) (t : CoolTree) : pending (atPath f p t).2 = pending t + s * (atPath f p t).1 := by
  induction p generalizing t with
  | nil => exact hf t
  | cons i p ih =>
    cases t with
    | cell => simp [atPath]
    | module c ks =>
      unfold atPath
      cases hk : ks[i]? with
      | none => simp
      | some k =>
        dsimp only
        simp only [pending]
        rw [pending_set ks i k _ hk, ih k]
        ring

mutual
theorem load_spec (t : CoolTree) : (load t).1 = pending t ∧ pending (load t).2 = 0 := by
  cases t with
  | cell => simp [load, pending]
  | module c ks =>
    have := loadKids_spec ks
    simp only [load, pending, resetE]
    exact ⟨by rw [this.1], by rw [this.2]; ring⟩
theorem loadKids_spec (ks : List CoolTree) : (loadKids ks).1 = pendingKids ks ∧ pendingKids (loadKids ks).2 = 0 := by
  cases ks with
  | nil => simp [loadKids, pendingKids]
  | cons k ks =>
    have h1 := load_spec k
    have h2 := loadKids_spec ks
    simp only [loadKids, pendingKids]
    refine ⟨by rw [h1.1, h2.1], ?_⟩
    rw [h2.2, add_zero]
    cases k with
    | cell => rfl
    | module c ks' =>
      have := h1.2
      simp only [load, pending, resetE] at this ⊢
      exact this
end

theorem fresh_pending {t : CoolTree} (h : FreshTree t) : pending t = 0 := by
  induction h with
  | cell => rfl
  | @module c ks h hk ih =>
    simp only [pending, h, zero_add]
    clear hk
    induction ks with
    | nil => rfl
    | cons k ks ihk =>
      simp only [pendingKids]
      rw [ih k List.mem_cons_self, ihk (fun k' hk' => ih k' (List.mem_cons_of_mem _ hk')), add_zero]

end CoolTree

/-- `dstate` either throws and changes nothing, or increases the energy meter by the physical consumption. -/
theorem dstate_consumption (c : CoolSystem) (a b t : ℚ) :
    match c.dstate a b t with
    | (.ok _, c') => c'.Eoperate = c.Eoperate + consumption c t
    | (_, c') => c' = c := by
  have fan : c.fanPower * t = fanEnergy c.rho c.eta c.Across c.flowrate t := by
    unfold fanPower fanEnergy
    by_cases hA : c.Across = 0
    · rw [hA]; simp
    · by_cases he : c.eta = 0
      · rw [he]; simp
      · field_simp
  unfold dstate
  cases hk : c.kind with
  | hvac =>
    dsimp only
    split_ifs with h
    · rfl
    · dsimp only
      unfold consumption
      rw [fan, hk, if_pos rfl]
      congr 2
      unfold acEnergy
      by_cases h0 : c.Qac = 0 ∨ t = 0
      · rw [if_pos h0]
        rcases h0 with h0 | h0 <;> rw [h0] <;> simp [fanEnergy]
      · rw [if_neg h0]
        by_cases hT : c.T < CoolSystem.T_ENV + 5
        · rw [if_pos hT, if_pos (by linarith)]
        · rw [if_neg hT, if_neg (by linarith)]
          unfold fanEnergy
          dsimp only
          by_cases hA : c.Across = 0
          · rw [hA]; simp
          · by_cases he : c.eta = 0
            · rw [he]; simp
            · field_simp
              try ring
  | conventional =>
    dsimp only
    unfold consumption
    rw [fan, hk]
    simp
  | openSys =>
    dsimp only
    unfold consumption
    rw [fan, hk]
    simp

theorem control_E (c : CoolSystem) (l g : ℚ) : (c.control l g).Eoperate = c.Eoperate := by
  have h1 : ∀ (d : CoolSystem), (d.controlFan l g).Eoperate = d.Eoperate := by
    intro d; unfold controlFan onOff prop; dsimp only; split_ifs <;> rfl
  have h2 : ∀ (d : CoolSystem), (d.controlAC g).Eoperate = d.Eoperate := by
    intro d; unfold controlAC acProp; dsimp only; split_ifs <;> rfl
  unfold CoolSystem.control
  split
  · exact h1 c
  · rw [h2, h1]
  · rfl

theorem perform_pending (o : TreeOp) (x : CoolTree) :
    (o.perform x).2.2.pending = x.pending + (o.perform x).1 - (o.perform x).2.1 := by
  cases o with
  | run a b t p =>
    have := CoolTree.atPath_pending 1 (runModule a b t) (fun y => by
      cases y with
      | cell => simp [runModule]
      | module c ks =>
        have := dstate_consumption c a b t
        unfold runModule
        revert this
        cases h : c.dstate a b t with
        | mk o c' =>
          cases o <;> intro this <;> dsimp only at this <;> simp only [h, CoolTree.pending] <;> rw [this] <;> ring) p x
    simp only [TreeOp.perform]
    rw [this]; ring
  | adjust l g t p =>
    have := CoolTree.atPath_pending 0 (adjustModule l g t) (fun y => by
      cases y with
      | cell => simp [adjustModule]
      | module c ks =>
        simp only [adjustModule, CoolTree.pending]
        have : ((c.control l g).setT t).2.Eoperate = c.Eoperate := by
          rw [← control_E c l g]; unfold setT; split_ifs <;> rfl
        rw [this]; ring) p x
    simp only [TreeOp.perform]
    rw [this]; ring
  | read p =>
    have := CoolTree.atPath_pending (-1) CoolTree.load (fun y => by
      rw [(CoolTree.load_spec y).1, (CoolTree.load_spec y).2]; ring) p x
    simp only [TreeOp.perform]
    rw [this]; ring

theorem performAll_pending (os : List TreeOp) (x : CoolTree) :
    (performAll os x).2.2.pending = x.pending + (performAll os x).1 - (performAll os x).2.1 := by
  induction os generalizing x with
  | nil => simp [performAll]
  | cons o os ih =>
    simp only [performAll]
    rw [ih, perform_pending]
    ring

theorem performAll_append (os os' : List TreeOp) (x : CoolTree) :
    (performAll (os ++ os') x).1 = (performAll os x).1 + (performAll os' (performAll os x).2.2).1 ∧
    (performAll (os ++ os') x).2.1 = (performAll os x).2.1 + (performAll os' (performAll os x).2.2).2.1 := by
  induction os generalizing x with
  | nil => simp [performAll]
  | cons o os ih =>
    simp only [performAll, List.cons_append]
    rw [(ih _).1, (ih _).2]
    constructor <;> ring

/-- **C34.** Take any new tree of modules and let its cooling systems run, be controlled and be read out at any
module, in any order.  After a final `getCoolingLoad` on the top module, the energies returned by all readouts add up
to exactly the energy that all cooling systems consumed (the physical consumption `Spec.consumption`). -/
theorem cooling_energy_once (x : CoolTree) (h : FreshTree x) (os : List TreeOp) :
    (performAll (os ++ [.read []]) x).2.1 = (performAll (os ++ [.read []]) x).1 := by
  have h1 := performAll_pending os x
  rw [CoolTree.fresh_pending h] at h1
  rw [(performAll_append _ _ _).1, (performAll_append _ _ _).2]
  simp only [performAll, TreeOp.perform, atPath]
  rw [(CoolTree.load_spec _).1, h1]
  ring

/-- Reading twice without running in between returns 0 the second time. -/
theorem cooling_reread_zero (x : CoolTree) : (x.load.2.load).1 = 0 := by
  rw [(CoolTree.load_spec _).1, (CoolTree.load_spec _).2]

/-- **C34 for a battery:** `Battery::getCoolingLoad` returns the pending energy of its own HVAC system and of all
systems inside, and leaves nothing pending. -/
theorem battery_cooling_load (b : BatteryCool) :
    b.load.1 = b.cool.Eoperate + b.cells.pending ∧ b.load.2.cool.Eoperate = 0 ∧ b.load.2.cells.pending = 0 ∧
      b.load.2.load.1 = 0 := by
  have h := CoolTree.load_spec b.cells
  refine ⟨?_, rfl, h.2, ?_⟩
  · show b.cool.Eoperate + b.cells.load.1 = _
    rw [h.1]
  · show (0 : ℚ) + (CoolTree.load b.cells.load.2).1 = 0
    rw [cooling_reread_zero]; ring

/-- Two nested modules, both running; the inner one is read in between. -/
example : (performAll [.run 5 5 100 [], .run 3 3 50 [0], .read [0], .run 1 1 10 [0], .read []]
    (.module (make 10 1) [.module (make 5 1) [.cell, .cell], .cell])).2.1 =
      (245 * 100) / 100 + (1225 * 60) / 1000 := by decide +kernel

example : FreshTree (.module (make 10 1) [.module (make 5 1) [.cell, .cell], .cell]) := by
  refine .module rfl ?_
  intro k hk
  simp at hk
  rcases hk with rfl | rfl
  · refine .module rfl ?_
    intro k hk
    simp at hk
    subst hk
    exact .cell
  · exact .cell

end Slide

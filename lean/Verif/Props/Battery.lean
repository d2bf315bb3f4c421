import Verif.Model.Battery
import Verif.Lemmas.EcmLaws
import Verif.Lemmas.CellLaws
import Verif.Props.Frame
import Verif.Props.ParallelEq
import Verif.Props.Tree
import Verif.Tac

/-!
# C31 Battery-level scaling; C58 converter losses are metered; C59 battery state vectors
-/

namespace Slide
open StorageUnit Spec

/-! ## C31 -/

section scaling
variable {M : Type} [StorageUnit M]

/-- **C31, readings.** A battery of `ns × np` copies reports `ns` times the module's voltages and limits, `np` times
its current and capacity, the resistance of `np` parallel strings of `ns` modules, and the product of all counts of
cells. -/
theorem battery_scaling (b : Battery M) :
    V b = b.ns * V b.cells ∧ I b = b.np * I b.cells ∧ Cap b = b.np * Cap b.cells ∧
    OCV b = (OCV b.cells).map (fun o : ℚ => (b.ns : ℚ) * o) ∧
    (lim b).Vmin = b.ns * (lim b.cells).Vmin ∧ (lim b).Vmax = b.ns * (lim b.cells).Vmax ∧
    (lim b).VMIN = b.ns * (lim b.cells).VMIN ∧ (lim b).VMAX = b.ns * (lim b.cells).VMAX ∧
    Vhigh b = b.ns * Vhigh b.cells ∧ Vlow b = b.ns * Vlow b.cells ∧
    nCells b = b.ns * b.np * nCells b.cells ∧ StorageUnit.checkVoltage b = StorageUnit.checkVoltage b.cells := by
  refine ⟨mul_comm _ _, mul_comm _ _, mul_comm _ _, ?_, mul_comm _ _, mul_comm _ _, mul_comm _ _, mul_comm _ _,
    mul_comm _ _, mul_comm _ _, ?_, rfl⟩
  · show (OCV b.cells).map _ = _
    cases OCV b.cells with
    | none => rfl
    | some o => simp [mul_comm]
  · show nCells b.cells * b.ns * b.np = _
    ring

/-- **C31, power.** The power of the battery is `ns · np` times the power of its module. -/
theorem battery_power (b : Battery M) : V b * I b = b.ns * b.np * (V b.cells * I b.cells) := by
  rw [(battery_scaling b).1, (battery_scaling b).2.1]; ring

/-- **C31, Ohm's law.** If the module's voltage is its open-circuit voltage minus resistance times current, the same holds
at battery level. -/
theorem battery_ohmic (b : Battery M) (hp : 0 < b.np) (h : OhmicUnit b.cells) : OhmicUnit b := by
  obtain ⟨o, h1, h2⟩ := h
  refine ⟨o * b.ns, ?_, ?_⟩
  · show (OCV b.cells).map _ = _
    rw [h1]; rfl
  · show V b.cells * b.ns = o * b.ns - I b.cells * b.np * (Rtot b.cells * b.ns / b.np)
    have : (b.np : ℚ) ≠ 0 := by positivity
    rw [h2]
    field_simp

/-- A unit that, when it accepts a current, reports exactly that current. -/
def ReportsSet (m : M) : Prop := ∀ i b st, (setCurrent m i b).1 = .ok st → st.isBad = false →
  I (setCurrent m i b).2 = i

/-- **C31, current.** With such a module and at least one parallel copy, an accepted battery current is reported
exactly. -/
theorem battery_setCurrent_exact (b : Battery M) (hp : 0 < b.np) (h : ReportsSet b.cells) : ReportsSet b := by
  intro i c st h1 h2
  have hp' : (b.np : ℚ) ≠ 0 := by positivity
  have h1' : (StorageUnit.setCurrent b.cells (i / b.np) c).1 = .ok st := by
    change (Battery.setCurrent b i c).1 = _ at h1
    unfold Battery.setCurrent at h1
    rw [if_neg (by omega)] at h1
    exact h1
  have := h _ _ _ h1' h2
  show Battery.I (Battery.setCurrent b i c).2 = i
  unfold Battery.setCurrent Battery.I
  rw [if_neg (by omega)]
  dsimp only
  rw [this]
  field_simp

/-- Setting a current divides it by the number of copies; without copies the code divides by zero. -/
theorem battery_setCurrent_no_copies (b : Battery M) (hp : b.np = 0) (i : ℚ) (c : Bool) :
    (setCurrent b i c).1 = .ub "division by zero copies" := by
  show (Battery.setCurrent b i c).1 = _
  unfold Battery.setCurrent
  rw [if_pos hp]

end scaling

theorem setLoop_accept {U : Type} [StorageUnit U] (i : ℚ) (b : Bool) (ks : List (Kid U)) (done : List (ℚ × Kid U))
    (st : Status) (h : (ModuleS.setLoop i b done ks).1 = .ok st) (hb : st.isBad = false) :
    (ModuleS.setLoop i b done ks).2 = done.map Prod.snd ++ ks.map (fun k => { k with su := (setCurrent k.su i b).2 }) ∧
    ∀ k ∈ ks, ∃ s, (setCurrent k.su i b).1 = .ok s ∧ s.isBad = false := by
  induction ks generalizing done with
  | nil => simp [ModuleS.setLoop]
  | cons k ks ih =>
    unfold ModuleS.setLoop at h ⊢
    by_cases hl : NSUs_MAX ≤ done.length
    · rw [if_pos hl] at h; cases h
    · rw [if_neg hl] at h ⊢
      dsimp only at h ⊢
      cases hr : setCurrent k.su i b with
      | mk o su' =>
        rw [hr] at h
        cases o with
        | ok s =>
          dsimp only at h ⊢
          by_cases hs : s.isBad = true
          · rw [if_pos hs] at h
            cases h
            rw [hs] at hb; cases hb
          · rw [if_neg hs] at h ⊢
            obtain ⟨h1, h2⟩ := ih _ h
            refine ⟨?_, ?_⟩
            · rw [h1]
              simp [hr]
            · intro k' hk'
              rcases List.mem_cons.mp hk' with rfl | hk'
              · exact ⟨s, by rw [hr], by simpa using hs⟩
              · exact h2 k' hk'
        | throw c => dsimp only at h; cases h
        | ub w => dsimp only at h; cases h

/-- Series strings (any nesting, no empty module) of ECM cells report an accepted current exactly. -/
theorem seriesString_reportsSet {n : ℕ} (d : ℕ) (t : Tree (ECM n) d) (h : SeriesString d t) (hne : NoEmpty d t) :
    ReportsSet t := by
  induction d with
  | zero =>
    intro i b st h1 h2
    exact LawfulCurrent.sets (U := ECM n) t i b st h1 h2
  | succ d ih =>
    cases t with
    | cell c =>
      intro i b st h1 h2
      exact LawfulCurrent.sets (U := ECM n) c i b st h1 h2
    | parallel m => exact h.elim
    | series m =>
      intro i b st h1 h2
      have h1' : (ModuleS.setLoop i b [] m.kids).1 = .ok st := h1
      obtain ⟨e, hk⟩ := setLoop_accept i b m.kids [] st h1' h2
      show ModuleS.I { m with kids := (ModuleS.setLoop i b [] m.kids).2 } = i
      rw [e]
      cases hm : m.kids with
      | nil => exact absurd hm hne.1
      | cons k ks =>
        have hmem : k ∈ m.kids := by rw [hm]; exact List.mem_cons_self
        obtain ⟨s, hs1, hs2⟩ := hk k hmem
        exact ih k.su (h.2 k hmem) (hne.2 k hmem) i b s hs1 hs2

/-- Full statement of the current part of C31, for every tree of modules. -/
def BatteryReportsCurrent (n : ℕ) : Prop :=
  ∀ (d : ℕ) (b : Battery (Tree (ECM n) d)), 0 < b.np → 0 < b.ns → NoEmpty d b.cells → ReportsSet b

/-- **C31 (part that holds).** For series strings of ECM cells. -/
theorem battery_reports_current_partial {n : ℕ} (d : ℕ) (b : Battery (Tree (ECM n) d)) (hp : 0 < b.np)
    (h : SeriesString d b.cells) (hne : NoEmpty d b.cells) : ReportsSet b :=
  battery_setCurrent_exact b hp (seriesString_reportsSet d b.cells h hne)

/-- The module with two unequal parallel cells of `parallel_setCurrent_wrong_total` in a battery: 1.5 A are accepted
but 1.6875 A are reported. -/
theorem not_batteryReportsCurrent : ¬ BatteryReportsCurrent 0 := by
  intro H
  let t : Tree (ECM 0) 1 := Node.parallel unequal
  let b : Battery (Tree (ECM 0) 1) := { cells := t, cool := CoolSystem.make 2 1, conv := Converter.init }
  have hne : NoEmpty 1 b.cells := ⟨(by show unequal.kids ≠ []; intro h; exact List.cons_ne_nil _ _ h), fun _ _ => trivial⟩
  have hs : StorageUnit.setCurrent b ((3/2 : ℚ) * (1 : ℕ)) true =
      ((unequal.setCurrent (3/2) true).1, { b with cells := Node.parallel (unequal.setCurrent (3/2) true).2 }) := by
    show Battery.setCurrent b _ true = _
    unfold Battery.setCurrent
    rw [if_neg (by show ¬ (1 : ℕ) = 0; decide)]
    have e : ((3/2 : ℚ) * (1 : ℕ)) / (b.np : ℚ) = 3/2 := by
      have : b.np = 1 := rfl
      rw [this]; norm_num
    rw [e]
    generalize hq : unequal.setCurrent (3/2) true = q
    have : StorageUnit.setCurrent b.cells (3/2) true = (q.1, Node.parallel q.2) := by
      rw [← hq]; rfl
    rw [this]
    rfl
  have := H 1 b (by show 0 < 1; decide) (by show 0 < 1; decide) hne ((3/2 : ℚ) * (1 : ℕ)) true .Success
    (by rw [hs]; exact parallel_setCurrent_wrong_total.1) (by decide)
  rw [hs] at this
  have h2 := parallel_setCurrent_wrong_total.2
  generalize unequal.setCurrent (3/2) true = q at this h2
  have e : StorageUnit.I ({ b with cells := Node.parallel q.2 } : Battery (Tree (ECM 0) 1)) = totalCurrent q.2.kids * (1 : ℕ) := rfl
  rw [e, h2] at this
  norm_num at this

/-- A battery of 3 × 2 copies of a string of two cells; 4 A at the terminals are 2 A in every cell. -/
example : let b : Battery (ModuleS (ECM 0)) :=
      { cells := { T := 288, kids := [⟨0, bucket half 0⟩, ⟨0, bucket half 0⟩] }, cool := CoolSystem.make 2 1,
        conv := Converter.init, ns := 3, np := 2 }
    (setCurrent b 4 true).1 = .ok .Success ∧ I (setCurrent b 4 true).2 = 4 ∧
      I (setCurrent b 4 true).2.cells = 2 := by decide +kernel

/-! ## C58 Converter losses are metered -/

section losses
variable {M : Type} [StorageUnit M]

/-- Calls on a battery that may change or read its loss meters. -/
inductive BatOp where
  | step (dt : ℚ) (n : ℕ)
  | setCurrent (i : ℚ) (check : Bool)
  | setStates (s : List ℚ) (check : Bool)
  | readLosses

/-- Energy lost in the converter during a step, as seen from outside: the loss power at the voltage and current after the
step, times its duration; and what `getAndResetConvLosses` returns. -/
def BatOp.run (b : Battery M) : BatOp → ℚ × ℚ × Battery M
  | .step dt n =>
    let r := StorageUnit.timeStep b dt n
    (match r.1 with
      | .ok () =>
        match b.conv.getLosses (V r.2) (I r.2) with
        | .ok p => p * (dt * n)
        | _ => 0
      | _ => 0, 0, r.2)
  | .setCurrent i c => (0, 0, (StorageUnit.setCurrent b i c).2)
  | .setStates s c => (0, 0, (StorageUnit.setStates b s c).2)
  | .readLosses => let r := b.getAndResetConvLosses; (0, r.1, r.2)

/-- Totals over a history: lost energy, energy returned by readings. -/
def BatOp.runAll : List BatOp → Battery M → ℚ × ℚ × Battery M
  | [], b => (0, 0, b)
  | o :: os, b =>
    let r := o.run b
    let s := runAll os r.2.2
    (r.1 + s.1, r.2.1 + s.2.1, s.2.2)

theorem batOp_run (b : Battery M) (o : BatOp) :
    (o.run b).2.2.convlosses = b.convlosses + (o.run b).1 - (o.run b).2.1 ∧
    (o.run b).2.2.convlossesTot = b.convlossesTot + (o.run b).1 := by
  cases o with
  | step dt n =>
    simp only [BatOp.run]
    have key : ∀ tl tg : M → ℚ, match b.timeStepWith dt n tl tg with
        | (.ok (), b') => ∃ l, b.conv.getLosses (V b') (I b') = .ok l ∧
            b'.convlosses = b.convlosses + l * dt * n ∧ b'.convlossesTot = b.convlossesTot + l * dt * n
        | (_, b') => b'.convlosses = b.convlosses ∧ b'.convlossesTot = b.convlossesTot := by
      intro tl tg
      unfold Battery.timeStepWith
      cases h : StorageUnit.timeStep b.cells dt n with
      | mk o m' =>
        cases o with
        | ok u =>
          dsimp only
          cases h2 : b.conv.getLosses (Battery.V { b with cells := m' }) (Battery.I { b with cells := m' }) with
          | ok l => exact ⟨l, h2, rfl, rfl⟩
          | throw c => exact ⟨rfl, rfl⟩
          | ub w => exact ⟨rfl, rfl⟩
        | throw c => exact ⟨rfl, rfl⟩
        | ub w => exact ⟨rfl, rfl⟩
    have k := key StorageUnit.T StorageUnit.T
    have e : StorageUnit.timeStep b dt n = b.timeStepWith dt n StorageUnit.T StorageUnit.T := rfl
    rw [e]
    generalize b.timeStepWith dt n StorageUnit.T StorageUnit.T = r at k ⊢
    obtain ⟨o, b'⟩ := r
    cases o with
    | ok u =>
      cases u
      obtain ⟨l, h1, h2, h3⟩ := k
      dsimp only
      rw [h1, h2, h3]
      dsimp only
      constructor <;> ring
    | throw c => dsimp only at k ⊢; rw [k.1, k.2]; constructor <;> ring
    | ub w => dsimp only at k ⊢; rw [k.1, k.2]; constructor <;> ring
  | setCurrent i c =>
    simp only [BatOp.run]
    have : (StorageUnit.setCurrent b i c).2.convlosses = b.convlosses ∧
        (StorageUnit.setCurrent b i c).2.convlossesTot = b.convlossesTot := by
      show (Battery.setCurrent b i c).2.convlosses = _ ∧ (Battery.setCurrent b i c).2.convlossesTot = _
      unfold Battery.setCurrent
      by_cases h : b.np = 0
      · rw [if_pos h]; exact ⟨rfl, rfl⟩
      · rw [if_neg h]; exact ⟨rfl, rfl⟩
    rw [this.1, this.2]
    constructor <;> ring
  | setStates s c =>
    simp only [BatOp.run]
    have : (StorageUnit.setStates b s c).2.convlosses = b.convlosses ∧
        (StorageUnit.setStates b s c).2.convlossesTot = b.convlossesTot := by
      show (Battery.setStates b s c).2.convlosses = _ ∧ (Battery.setStates b s c).2.convlossesTot = _
      unfold Battery.setStates
      split
      · split
        · exact ⟨rfl, rfl⟩
        · split <;> exact ⟨rfl, rfl⟩
      · exact ⟨rfl, rfl⟩
      · exact ⟨rfl, rfl⟩
    rw [this.1, this.2]
    constructor <;> ring
  | readLosses =>
    simp only [BatOp.run, Battery.getAndResetConvLosses]
    constructor <;> ring

theorem batOp_runAll (os : List BatOp) (b : Battery M) :
    (BatOp.runAll os b).2.2.convlosses = b.convlosses + (BatOp.runAll os b).1 - (BatOp.runAll os b).2.1 ∧
    (BatOp.runAll os b).2.2.convlossesTot = b.convlossesTot + (BatOp.runAll os b).1 := by
  induction os generalizing b with
  | nil => simp [BatOp.runAll]
  | cons o os ih =>
    simp only [BatOp.runAll]
    have h1 := batOp_run b o
    have h2 := ih (o.run b).2.2
    rw [h2.1, h2.2, h1.1, h1.2]
    constructor <;> ring

/-- **C58.** Over any history of a new battery the lifetime total of the converter losses equals the energy actually
lost, and the values returned by `getAndResetConvLosses` plus what the next reading would return add up to it: nothing
is lost or reported twice. -/
theorem battery_losses_metered (os : List BatOp) (b : Battery M) (h0 : b.convlosses = 0) (h1 : b.convlossesTot = 0) :
    let r := BatOp.runAll os b
    r.2.2.convlossesTot = r.1 ∧ r.2.1 + (r.2.2.getAndResetConvLosses).1 = r.1 := by
  have h := batOp_runAll os b
  rw [h0, h1] at h
  refine ⟨by rw [h.2]; ring, ?_⟩
  show _ + (BatOp.runAll os b).2.2.convlosses = _
  rw [h.1]; ring

/-- **C58.** `resetConvLosses` discards what has not been read yet: from then on readings count the later losses only,
and the lifetime total is not affected. -/
theorem battery_losses_reset (os : List BatOp) (b : Battery M) :
    let r := BatOp.runAll os b.resetConvLosses
    r.2.2.convlossesTot = b.convlossesTot + r.1 ∧ r.2.1 + (r.2.2.getAndResetConvLosses).1 = r.1 := by
  have h := batOp_runAll os b.resetConvLosses
  refine ⟨h.2, ?_⟩
  show _ + (BatOp.runAll os b.resetConvLosses).2.2.convlosses = _
  have h0 : b.resetConvLosses.convlosses = 0 := rfl
  rw [h.1, h0]; ring

/-- A single-cell battery at rest for 10 s loses 15 kJ, which the first of two readings returns. -/
example : let b : Battery (ECM 0) := { cells := bucket half 0, cool := CoolSystem.make 2 1, conv := Converter.init }
    let r := BatOp.runAll [.step 2 5, .readLosses, .readLosses] b
    15010 < r.2.1 ∧ r.2.1 < 15020 ∧ r.2.1 = r.1 := by decide +kernel

end losses

/-! ## C59 Battery state vectors -/

section states
variable {M : Type} [StorageUnit M]

/-- **C59, round trip.** If the module restores its own state vector, so does the battery, whatever happened to the
target battery in between, provided the saved temperature is one the cooling system accepts (0 to 75 °C).  The vector must
not be followed by further entries. -/
theorem battery_states_roundtrip (b w : Battery M)
    (hm : ∀ rest, StorageUnit.setStates w.cells (StorageUnit.getStates b.cells ++ rest) false =
      (.ok (.Success, rest), b.cells))
    (hT : 273 ≤ b.cool.T ∧ b.cool.T ≤ 348) :
    (StorageUnit.setStates w (StorageUnit.getStates b) false).1 = .ok (.Success, [b.cool.T]) ∧
    (StorageUnit.setStates w (StorageUnit.getStates b) false).2.cells = b.cells ∧
    StorageUnit.T (StorageUnit.setStates w (StorageUnit.getStates b) false).2 = StorageUnit.T b := by
  have hset : w.cool.setT b.cool.T = (.ok (), { w.cool with T := b.cool.T }) := by
    unfold CoolSystem.setT
    rw [if_neg]
    push Not
    exact ⟨hT.1, by linarith [hT.2]⟩
  have : StorageUnit.setStates w (StorageUnit.getStates b) false =
      (.ok (.Success, [b.cool.T]), { w with cells := b.cells, cool := { w.cool with T := b.cool.T } }) := by
    show Battery.setStates w (StorageUnit.getStates b.cells ++ [b.cool.T]) false = _
    unfold Battery.setStates
    rw [hm]
    simp only [List.getLast?_singleton]
    rw [hset]
  rw [this]
  exact ⟨rfl, rfl, rfl⟩

/-- For every tree of modules of ECM cells with valid states. -/
theorem battery_states_roundtrip_tree {n : ℕ} (d : ℕ) (b w : Battery (Tree (ECM n) d))
    (hs : SameStructure d b.cells w.cells) (hv : ValidStates d b.cells) (hT : 273 ≤ b.cool.T ∧ b.cool.T ≤ 348) :
    (StorageUnit.setStates w (StorageUnit.getStates b) false).1 = .ok (.Success, [b.cool.T]) ∧
    (StorageUnit.setStates w (StorageUnit.getStates b) false).2.cells = b.cells ∧
    StorageUnit.T (StorageUnit.setStates w (StorageUnit.getStates b) false).2 = StorageUnit.T b :=
  battery_states_roundtrip b w (fun rest => tree_states_roundtrip d b.cells w.cells rest hs hv) hT

/-- Full statement: a battery rejecting a state vector is not changed (here for modules that are themselves atomic). -/
def BatterySetStatesAtomic : Prop :=
  ∀ (b : Battery (ECM 0)) (s : List ℚ) (check : Bool) (st : Status) (rest : List ℚ),
    (StorageUnit.setStates b s check).1 = .ok (st, rest) → st.isBad = true → (StorageUnit.setStates b s check).2 = b

/-- False of the code: an invalid vector (SOC 2) is rejected, yet the battery's temperature becomes the last entry. -/
theorem not_batterySetStatesAtomic : ¬ BatterySetStatesAtomic := by
  intro H
  let b : Battery (ECM 0) := { cells := bucket half 0, cool := CoolSystem.make 2 1, conv := Converter.init }
  have h := H b [0, 2, 288, 0, 0, 0, 300] true
  have e : (StorageUnit.setStates b [0, 2, 288, 0, 0, 0, 300] true).2.cool.T = 300 := by decide +kernel
  have e2 : ∃ st rest, (StorageUnit.setStates b [0, 2, 288, 0, 0, 0, 300] true).1 = .ok (st, rest) ∧ st.isBad = true :=
    ⟨.Invalid_states, [300], by decide +kernel, by decide⟩
  obtain ⟨st, rest, e3, e4⟩ := e2
  rw [h st rest e3 e4] at e
  revert e
  decide +kernel

/-- **C59 (part that holds).** A rejected vector leaves the module's part as the module leaves it and changes nothing
else but the temperature. -/
theorem battery_setStates_rejected_partial (b : Battery M) (s : List ℚ) (check : Bool) :
    ∃ t, (StorageUnit.setStates b s check).2 =
      { b with cells := (StorageUnit.setStates b.cells s check).2, cool := { b.cool with T := t } } := by
  show ∃ t, (Battery.setStates b s check).2 = _
  unfold Battery.setStates
  cases h : StorageUnit.setStates b.cells s check with
  | mk o m' =>
    cases o with
    | ok p =>
      obtain ⟨st, s'⟩ := p
      dsimp only
      cases s'.getLast? with
      | none => exact ⟨b.cool.T, rfl⟩
      | some t =>
        dsimp only
        unfold CoolSystem.setT
        by_cases ht : t < 273 ∨ t > 273 + 75
        · rw [if_pos ht]; exact ⟨b.cool.T, rfl⟩
        · rw [if_neg ht]; exact ⟨t, rfl⟩
    | throw c => exact ⟨b.cool.T, rfl⟩
    | ub w => exact ⟨b.cool.T, rfl⟩

end states
end Slide

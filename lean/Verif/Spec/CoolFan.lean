import Verif.Model.CoolFan
import Verif.Spec.Cooling

/-!
Vocabulary for the fan and the air conditioning of a cooling system: systems as they are built for `n` cells with a
control strategy, after any history of calls that leaves the strategy alone.
-/

namespace Slide
namespace Spec

/-- A system built for `n` cells with control strategy `k` and (for an HVAC system) ancillary losses `q`. -/
inductive Built (n : ℕ) (k : ℤ) (q : ℚ) : CoolSystem → Prop
  | fan : Built n k q (CoolSystem.make n k)
  | hvac {c : CoolSystem} (h : CoolSystem.makeHVAC n k q = .ok c) : Built n k q c

/-- A call that does not change the strategy. -/
def CoolOp.keeps : CoolOp → Prop
  | .setControl _ => False
  | _ => True

/-- The system after a history of calls. -/
def Used (n : ℕ) (k : ℤ) (q : ℚ) (c : CoolSystem) : Prop :=
  ∃ c0 ops, Built n k q c0 ∧ (∀ o ∈ ops, CoolOp.keeps o) ∧ c = runCool c0 ops

/-- The strategies the library documents. -/
def DocumentedStrategy (k : ℤ) : Prop := 1 ≤ k ∧ k ≤ 5

/-- The temperature a strategy looks at: that of the hottest child (2, 4) or that of the hottest cell. -/
def watched (k : ℤ) (l g : ℚ) : ℚ := if k = 2 ∨ k = 4 then l else g

/-- After hotter readings the system exchanges heat at least as well as after colder ones. -/
def HotterIsCooledBetter : Prop :=
  ∀ n k q c, 0 < n → DocumentedStrategy k → 0 ≤ q → Used n k q c → ∀ l₁ l₂ g₁ g₂ : ℚ, l₁ ≤ l₂ → g₁ ≤ g₂ →
    ∀ h₁ h₂ : ℝ, (c.control l₁ g₁).getH = .ok h₁ → (c.control l₂ g₂).getH = .ok h₂ → h₁ ≤ h₂

/-- The coefficient is never negative, i.e. heat never flows from the cold side to the hot side. -/
def NeverHeatsTheCells : Prop :=
  ∀ n k q c, 0 < n → DocumentedStrategy k → 0 ≤ q → Used n k q c → ∀ (l g : ℚ) (h : ℝ), (c.control l g).getH = .ok h → 0 ≤ h

/-- Electrical energy used by, and heat removed by, the air conditioning during one exchange of heat. -/
def acUsed (c c' : CoolSystem) : ℚ := c'.Eac - c.Eac
def acRemoved (c c' : CoolSystem) : ℚ := c'.QcoolAC - c.QcoolAC

/-- In a warm environment the compressor needs the heat divided by its coefficient of performance. -/
def CompressorFollowsCOP : Prop :=
  ∀ n k q c, 0 < n → 0 ≤ q → Used n k q c → c.kind = .hvac → ∀ qtot qch t r c', 0 ≤ t →
    c.dstate qtot qch t = (.ok r, c') → c.T < CoolSystem.T_ENV + 5 → acUsed c c' = acRemoved c c' / c.COP

/-- In a cold environment, blowing in outside air never takes more energy than the heat it removes. -/
def OutsideAirIsCheap : Prop :=
  ∀ n k q c, 0 < n → 0 ≤ q → Used n k q c → c.kind = .hvac → ∀ qtot qch t r c', 0 ≤ t →
    c.dstate qtot qch t = (.ok r, c') → CoolSystem.T_ENV + 5 ≤ c.T → acUsed c c' ≤ acRemoved c c'

end Spec
end Slide

import Verif.Model.ECM
import Verif.Model.SPM

/-!
Vocabulary for C141: setting the state of charge of a cell.
-/

namespace Slide.Spec

/-- The cell `b` is the cell `a` with the state of charge `s`, and nothing else is different. -/
structure WithSoc {n : ℕ} (a b : ECM n) (s : ℚ) : Prop where
  soc : b.st.SOC = s
  par : b.par = a.par
  T : b.st.T = a.st.T
  I : b.st.I = a.st.I
  Ir : b.st.Ir = a.st.Ir
  time : b.st.time = a.st.time
  Ah : b.st.Ah = a.st.Ah
  Wh : b.st.Wh = a.st.Wh

/-- A voltage at which the present current is not allowed: no voltage at all, below 2.0 V and still discharging, or above
4.3 V and still charging. -/
def Forbidden (v I : ℚ) : Prop := v ≤ 0 ∨ (v < 2 ∧ 0 < I) ∨ (43/10 < v ∧ I < 0)

/-- What a request for the state of charge `s` has to do to the equivalent-circuit cell `a`. -/
structure SocRequest {n : ℕ} (a : ECM n) (s : ℚ) (check : Bool) (st : Status) (b : ECM n) : Prop where
  /-- Impossible values are refused. -/
  impossible : (s < 0 ∨ 1 < s) → st = .SOC_limits_violation ∧ b = a
  /-- Without check every possible value is set. -/
  unchecked : 0 ≤ s → s ≤ 1 → check = false → st = .Success ∧ WithSoc a b s
  /-- With check it is set if the cell is then at an allowed voltage; the answer is the voltage status it then has. -/
  accepted : 0 ≤ s → s ≤ 1 → check = true → ∀ c, WithSoc a c s → ¬ Forbidden c.V c.st.I → st = c.checkV ∧ st.isBad = false ∧ b = c
  /-- Otherwise nothing changes, and the answer says why. -/
  refused : 0 ≤ s → s ≤ 1 → check = true → ∀ c, WithSoc a c s → Forbidden c.V c.st.I → st = c.checkV ∧ st.isBad = true ∧ b = a

/-- Documented (`Cell_ECM.hpp`, comment of `setSOC`): a state of charge at which the voltage is outside the safety limits is
not kept. -/
def UnsafeSocNotKept : Prop :=
  ∀ (n : ℕ) (a : ECM n) (s : ℚ), 0 ≤ s → s ≤ 1 → ∀ c, WithSoc a c s → (c.V < 2 ∨ 43/10 < c.V) → (a.setSOC s true).2 = a

/-- A single-particle cell that is told two different states of charge has two different open-circuit voltages (as an
equivalent-circuit cell with a rising open-circuit voltage does). -/
def SocMovesVoltage : Prop :=
  ∀ (N : ℕ) (c : SPM N) (s t : ℚ), s < t → (c.setSOC s false).1 = .ok .Success → (c.setSOC t false).1 = .ok .Success →
    ∀ v, (c.setSOC s false).2.getOCV = .ok v → (c.setSOC t false).2.getOCV ≠ .ok v

/-- Everything of a single-particle cell but the state of charge and the stored voltage. -/
def forgetSoc {N : ℕ} (c : SPM N) : SPM N := { c with st := { c.st with SOC := 0, V := 0 }, valid := false }

end Slide.Spec

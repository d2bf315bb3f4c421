import Verif.Spec.SPM
import Verif.Model.SpmVoltage

/-!
Specifications for everyday use of the single-particle cell (C102–C105): taking and refusing currents, the meters,
reading without effect, and setting a voltage.
-/

namespace Slide.Spec

variable {N : ℕ}

/-- `b` is `a` except for the current and the voltage memory (the stored voltage and whether it is valid). -/
structure OnlyCurrentDiffers (a b : SPM N) : Prop where
  par : b.par = a.par
  st : { b.st with I := a.st.I, V := a.st.V } = a.st
  stress : b.stress = a.stress
  heat : b.Qgen = a.Qgen ∧ b.Qtot = a.Qtot ∧ b.thermTime = a.thermTime ∧ b.T_env = a.T_env
  rest : b.deg = a.deg ∧ b.block = a.block ∧ b.parent = a.parent

/-- The cell with another current and an empty voltage memory. -/
def withCurrent (c : SPM N) (i : ℚ) : SPM N := { c with st := { c.st with I := i }, valid := false }

/-- What can be seen of a cell from outside, apart from the voltage it has stored: two cells with the same rest are told
apart only by their voltage. -/
def SameRest (a b : SPM N) : Prop :=
  ({ a with st := { a.st with V := 0 }, valid := false } : SPM N) =
    { b with st := { b.st with V := 0 }, valid := false }

/-- C104: what the caller gets back from an operation. -/
inductive SpmAnswer where
  | none
  | voltage (r : Outcome ℚ)
  | status (r : Outcome Status)
  | states (r : Outcome (Status × List ℚ))
  | done (r : Outcome Unit)
  deriving DecidableEq

def spmAnswer (c : SPM N) : SpmOp N → SpmAnswer
  | .readV => .voltage c.V.1
  | .setCurrent i b => .status (c.setCurrent i b).1
  | .setSOC s b => .status (c.setSOC s b).1
  | .setTenv t => .done (c.setTenv t).1
  | .setC fp fn => .done (c.setC fp fn).1
  | .setStates s b => .states (c.setStates s b).1
  | .step dt n => .done (c.timeStep dt n).1
  | _ => .none

/-- The answers to all operations of a sequence. -/
def spmAnswers (c : SPM N) : List (SpmOp N) → List SpmAnswer
  | [] => []
  | o :: os => spmAnswer c o :: spmAnswers (spmAfter c o) os

/-- The operations of C104: everything except setting the temperature by hand and the parametrisation functions that
do not forget the stored voltage (C35). -/
def forgetful : SpmOp N → Prop
  | .setT _ => False
  | .overwriteChar .. => False
  | .overwriteGeo .. => False
  | .setCharacterisation .. => False
  | .step _ n => 0 < n
  | _ => True

/-- C104: a script is a sequence of operations with further readings of the voltage (`none`) in between; the cell at the
end of it. -/
def scriptEnd (c : SPM N) : List (Option (SpmOp N)) → SPM N
  | [] => c
  | none :: os => scriptEnd c.V.2 os
  | some o :: os => scriptEnd (spmAfter c o) os

/-- C104: the answers to the operations of a script, those to the further readings left out. -/
def scriptAnswers (c : SPM N) : List (Option (SpmOp N)) → List SpmAnswer
  | [] => []
  | none :: os => scriptAnswers c.V.2 os
  | some o :: os => spmAnswer c o :: scriptAnswers (spmAfter c o) os

/-- C104: the script without the further readings. -/
def withoutReadings (os : List (Option (SpmOp N))) : List (SpmOp N) := os.filterMap id

/-- C104, full statement: whatever is done with a cell, further readings of its voltage change no answer. -/
def SpmReadingNoEffect (N : ℕ) : Prop :=
  ∀ (c : SPM N) (os : List (Option (SpmOp N))), scriptAnswers c os = spmAnswers c (withoutReadings os)

/-- C103: a cell with degradation and heat switched off. -/
def blocked (c : SPM N) : SPM N := { c with block := true }

/-- C103: the operations that move time or nothing (everything except putting in new states). -/
def keepsMeters : SpmOp N → Prop
  | .setStates .. => False
  | .setStateObj _ => False
  | _ => True

/-- C103: the three meters of a cell did not run backwards. -/
structure MetersForward (a b : SPM N) : Prop where
  time : a.st.time ≤ b.st.time
  Ah : a.st.Ah ≤ b.st.Ah
  Wh : a.st.Wh ≤ b.st.Wh

/-- C105: the cell reports the voltage `Vset`, up to a microvolt. -/
def ReportsVoltage (c : SPM N) (Vset : ℚ) : Prop := ∃ v, c.V.1 = .ok v ∧ |Vset - v| < 1 / 1000000

/-- C105, full statement: setting a voltage on a cell that can report its own either reaches that voltage and answers
Success, or gives another answer and leaves the current as it was. -/
def SpmSetVoltageOrRefuse (N : ℕ) : Prop :=
  ∀ (c : SPM N) (Vset v : ℚ), c.V.1 = .ok v →
    ((c.setVoltage Vset).1 = .ok .Success ∧ ReportsVoltage (c.setVoltage Vset).2 Vset) ∨
    (∃ r, (c.setVoltage Vset).1 = .ok r ∧ r ≠ .Success ∧ (c.setVoltage Vset).2.st.I = c.st.I)

end Slide.Spec

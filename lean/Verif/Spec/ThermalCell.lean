import Verif.Model.ThermalCell
import Mathlib.Data.List.Forall2

/-!
Specification vocabulary for the thermal model of each cell on its own.
-/

namespace Slide.Spec
open Slide

/-- `t` solves the heat balance of the cell on its own: heat capacity times change of temperature is the heat generated
since the last update and the heat exchanged with the environment. -/
def OwnBalance (e : EnvCell) (t : ℚ) : Prop :=
  e.c.C ≠ 0 ∧ e.c.C * (t - e.c.T) = e.c.Qgen + e.Qch * e.c.A * (e.Tenv - e.c.T) * e.c.time

/-- The temperature is allowed for the cell. -/
def Allowed (e : EnvCell) (t : ℚ) : Prop := e.c.Tmin ≤ t ∧ t ≤ e.c.Tmax

/-- The cell has a new temperature that solves its own heat balance and is allowed; the heat has moved to the total, and
nothing else of the cell has changed. -/
structure OwnUpdate (e e' : EnvCell) : Prop where
  balance : OwnBalance e e'.c.T
  allowed : Allowed e e'.c.T
  total : e'.c.Qgentot = e.c.Qgentot + e.c.Qgen
  noHeat : e'.c.Qgen = 0
  noTime : e'.c.time = 0
  rest : e'.c.A = e.c.A ∧ e'.c.C = e.c.C ∧ e'.c.Tmin = e.c.Tmin ∧ e'.c.Tmax = e.c.Tmax ∧ e'.Tenv = e.Tenv ∧ e'.Qch = e.Qch

mutual
/-- The single-particle cells of a unit, in order. -/
def heatCells : ITree → List EnvCell
  | .cell e => [e]
  | .plain _ => []
  | .module _ _ ks => heatCellss ks
termination_by structural u => u
def heatCellss : List ITree → List EnvCell
  | [] => []
  | u :: us => heatCells u ++ heatCellss us
termination_by structural us => us
end

mutual
/-- The temperatures of everything else: the cells without thermal model, and the cooling systems of the modules. -/
def otherParts : ITree → List (ℚ ⊕ CoolSystem)
  | .cell _ => []
  | .plain t => [.inl t]
  | .module _ cool ks => .inr cool :: otherPartss ks
termination_by structural u => u
def otherPartss : List ITree → List (ℚ ⊕ CoolSystem)
  | [] => []
  | u :: us => otherParts u ++ otherPartss us
termination_by structural us => us
end

/-- A coolant temperature that a cooling system can be given. -/
def CoolantOK (t : ℚ) : Prop := 273 ≤ t ∧ t ≤ 273 + 75

mutual
/-- No module of the unit has more children than the program supports, and the coolants of the modules are at allowed
temperatures. -/
def Supported : ITree → Prop
  | .cell _ => True
  | .plain _ => True
  | .module _ cool ks => ks.length ≤ 100 ∧ CoolantOK cool.T ∧ Supporteds ks
termination_by structural u => u
def Supporteds : List ITree → Prop
  | [] => True
  | u :: us => Supported u ∧ Supporteds us
termination_by structural us => us
end

/-- What one would expect of a thermal model of each cell on its own: what becomes of a cell does not depend on the others.
Every cell that has an allowed solution of its own heat balance gets it, at its place. -/
def EachOnItsOwn : Prop :=
  ∀ th cool ks, Supported (.module th cool ks) →
    List.Forall₂ (fun e e' => (∃ t, OwnBalance e t ∧ Allowed e t) → OwnUpdate e e') (heatCellss ks)
      (heatCells (ITree.module th cool ks).thermal.2)

end Slide.Spec

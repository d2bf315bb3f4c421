import Verif.Model.Study
import Verif.Model.Balance
import Verif.Spec.SpmAged
import Verif.Spec.Tree

/-! What a whole ageing study may do to the cells of a pack (C112). -/

namespace Slide.Spec

variable {N : ℕ}

/-- `b` is not younger than `a`: it has the same parameters and ageing models, its meters did not run back, and, if its
parameters are physical, neither the SEI layer nor the cracks nor the plated lithium have shrunk.  Nothing is said about the
switch for ageing. -/
structure StudyAged (a b : SPM N) : Prop where
  par : b.par = a.par
  deg : b.deg = a.deg
  meters : MetersForward a b
  sei : SpmPhysical a.par → 0 ≤ a.st.delta → a.st.delta ≤ b.st.delta
  cracks : SpmPhysical a.par → 0 ≤ a.st.delta → a.st.CS ≤ b.st.CS
  plated : SpmPhysical a.par → 0 ≤ a.st.delta → a.st.deltaPl ≤ b.st.deltaPl

/-- The unit is a module. -/
def IsModule {C : Type} : (d : ℕ) → Tree C d → Prop
  | 0, _ => False
  | _ + 1, .cell _ => False
  | _ + 1, _ => True

/-- A pack of single-particle cells as `Model/Balance.lean` has it; every unit carries the given switch. -/
def toPack {C : Type} (b : Bool) : (d : ℕ) → Tree C d → Pack C
  | 0, c => .cell true b c
  | _ + 1, .cell c => .cell true b c
  | d + 1, .series m => .module b (m.kids.map fun k => toPack b d k.su)
  | d + 1, .parallel m => .module b (m.kids.map fun k => toPack b d k.su)

end Slide.Spec

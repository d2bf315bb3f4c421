import Verif.Model.Modules
import Verif.Model.Cycler

/-!
Vocabulary for C144: the charge counters of the cells of a unit.
-/

namespace Slide.Spec

/-- The charge [Ah] counted by the cells of a module, added up. -/
def countedAh (l : List (Kid (ECM 0))) : ℚ := (l.map fun k => k.su.st.Ah).sum

end Slide.Spec

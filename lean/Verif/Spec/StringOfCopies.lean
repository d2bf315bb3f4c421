import Verif.Model.Cycler

/-!
Vocabulary for C140: a string of copies of one unit, connected to a cycler.
-/

namespace Slide.Spec

/-- A series string of `N` copies of a unit, without contact resistances. -/
def stringOf {U : Type} (N : ℕ) (T : ℚ) (u : U) : ModuleS U := { T := T, kids := List.replicate N ⟨0, u⟩ }

/-- The same call recorded for the string. -/
def Ev.stringOf {U : Type} (N : ℕ) (T : ℚ) : Ev U → Ev (ModuleS U)
  | .store u => .store (Spec.stringOf N T u)
  | .write => .write

/-- A cycler connected to the string instead of the unit. -/
def cycString {U : Type} (N : ℕ) (T : ℚ) (c : Cyc U) : Cyc (ModuleS U) :=
  { su := stringOf N T c.su, index := c.index, diagnostic := c.diagnostic, log := c.log.map (Ev.stringOf N T) }

/-- Throughput of the string: the same time and charge, `N` times the energy. -/
def thrString (N : ℕ) (th : Thr) : Thr := { time := th.time, Ah := th.Ah, Wh := N * th.Wh }

end Slide.Spec

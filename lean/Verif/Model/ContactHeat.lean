import Verif.Model.Modules

/-!
Heat generated in the contact resistances of a module during a time step: the statements that add to `therm.Qcontact` in
`Module_s::timeStep_CC` and `Module_p::timeStep_CC`.
-/

namespace Slide
variable {U : Type} [StorageUnit U]

/-- `for (const auto r : Rcontact) therm.Qcontact += r * sqr(I()) * nstep * dt;` –
`/repo/src/modules/Module_s.cpp:157-158`; skipped when `blockDegAndTherm` (line 151). -/
def ModuleS.contactHeat (m : ModuleS U) (block : Bool) (q0 dt : ℚ) (n : ℕ) : ℚ :=
  if block then q0
  else m.kids.foldl (fun q k => q + k.rc * m.I ^ 2 * n * dt) q0

/-- The loop of `/repo/src/modules/Module_p.cpp:313-320`.  `Ii` is declared before the loop and is *not* reset for the
next resistor. -/
def ModuleP.contactLoop (dt : ℚ) (n : ℕ) : ℚ → ℚ → List (Kid U) → ℚ
  | q, _, [] => q
  | q, Ii, k :: ks =>
    let Ii' := (k :: ks).foldl (fun s j => s + StorageUnit.I j.su) Ii
    contactLoop dt n (q + k.rc * Ii' ^ 2 * n * dt) Ii' ks

/-- The heat after the loop – `Module_p.cpp:308-320`. -/
def ModuleP.contactHeat (m : ModuleP U) (block : Bool) (q0 dt : ℚ) (n : ℕ) : ℚ :=
  if block then q0 else ModuleP.contactLoop dt n q0 0 m.kids

end Slide

import Verif.Model.Modules

/-!
Model of the cached voltage of a series module: the members `Vmodule`, `Vmodule_valid` of `Module`
(`/repo/src/modules/Module.hpp:53-54`) and every place where they are read or written.

The voltages of the children are taken to be what the children compute (`StorageUnit.V`), i.e. the cache of one module is
studied at a time; for nested modules the theorem about this module applies to each level.
-/

namespace Slide

/-- A series module with its voltage cache. -/
structure CachedS (U : Type) where
  m : ModuleS U
  /-- `Vmodule` -/
  vmod : ℚ
  /-- `Vmodule_valid` -/
  valid : Bool

namespace CachedS
variable {U : Type} [StorageUnit U]

/-- A module as the constructor leaves it (`Vmodule_valid{ false }`, `Module.hpp:54`). -/
def new (m : ModuleS U) : CachedS U := { m := m, vmod := 0, valid := false }

/-- The loop of `Module_s::V` – `/repo/src/modules/Module_s.cpp:63-72`: new `Vmodule`, and whether the loop ran to its
end. -/
def vLoop : ℚ → List (Kid U) → ℚ × Bool
  | acc, [] => (acc, true)
  | acc, k :: ks =>
    if StorageUnit.V k.su ≤ 0 then (acc, false)
    else vLoop (acc + (StorageUnit.V k.su - k.rc * StorageUnit.I k.su)) ks

/-- `Module_s::V` – `Module_s.cpp:53-75`: value returned and module afterwards. -/
def V (c : CachedS U) : ℚ × CachedS U :=
  if c.valid then (c.vmod, c)
  else
    match vLoop 0 c.m.kids with
    | (v, true) => (v, { c with vmod := v, valid := true })
    | (v, false) => (0, { c with vmod := v })

/-- `Module_s::setCurrent` – `Module_s.cpp:93` invalidates first, whatever happens later. -/
def setCurrent (c : CachedS U) (i : ℚ) (check : Bool) : Outcome Status × CachedS U :=
  let r := c.m.setCurrent i check
  (r.1, { c with m := r.2, valid := false })

/-- `Module::setStates` – `/repo/src/modules/Module.cpp:221` invalidates before the children are changed. -/
def setStates (c : CachedS U) (s : List ℚ) (check : Bool) : Outcome (Status × List ℚ) × CachedS U :=
  let r := c.m.setStates s check
  (r.1, { c with m := r.2, valid := false })

/-- Set the contact resistances one by one. -/
def zipRc : List (Kid U) → List ℚ → List (Kid U)
  | k :: ks, r :: rs => { k with rc := r } :: zipRc ks rs
  | ks, _ => ks

/-- `Module::setRcontact` – `Module.hpp:118-128`; the assertion on the length is a precondition. -/
def setRcontact (c : CachedS U) (rs : List ℚ) : Outcome Unit × CachedS U :=
  if rs.length ≠ c.m.kids.length then (.ub "assert(Rc.size() == getNSUs())", c)
  else (.ok (), { c with m := { c.m with kids := zipRc c.m.kids rs }, valid := false })

/-- Successful `Module::setSUs` – `Module.cpp:97-110`: new children, zero contact resistances. -/
def setSUs (c : CachedS U) (us : List U) : CachedS U :=
  { c with m := { c.m with kids := us.map fun u => { rc := 0, su := u } }, valid := false }

/-- `Module_s::timeStep_CC` – `Module_s.cpp:120-196`.  `therm` is the exception that leaves the thermal part
(lines 151-193), for instance 14 for a top-level module without HVAC system.  The cache is only invalidated in the last
line, which an exception skips. -/
def timeStep (c : CachedS U) (dt : ℚ) (n : ℕ) (therm : Option ℤ) : Outcome Unit × CachedS U :=
  if dt < 0 then (.throw 10, c)
  else
    match stepKids dt n c.m.kids with
    | (.ok (), ks) =>
      match therm with
      | some e => (.throw e, { c with m := { c.m with kids := ks } })
      | none => (.ok (), { c with m := { c.m with kids := ks }, valid := false })
    | (.throw e, ks) => (.throw e, { c with m := { c.m with kids := ks } })
    | (.ub w, ks) => (.ub w, { c with m := { c.m with kids := ks } })

/-- Calls on the module, and changes of a child through `operator[]` / `getSUs()` (`Module.hpp`), which the module does
not notice. -/
inductive Op (U : Type) where
  | V
  | setCurrent (i : ℚ) (check : Bool)
  | setStates (s : List ℚ) (check : Bool)
  | setRcontact (rs : List ℚ)
  | setSUs (us : List U)
  | timeStep (dt : ℚ) (n : ℕ) (therm : Option ℤ)
  | child (f : U → U) (i : ℕ)

/-- Effect of a call (the caller catches exceptions). -/
def apply (c : CachedS U) : Op U → CachedS U
  | .V => c.V.2
  | .setCurrent i b => (c.setCurrent i b).2
  | .setStates s b => (c.setStates s b).2
  | .setRcontact rs => (c.setRcontact rs).2
  | .setSUs us => c.setSUs us
  | .timeStep dt n t => (c.timeStep dt n t).2
  | .child f i => { c with m := { c.m with kids := c.m.kids.modify i fun k => { k with su := f k.su } } }

/-- A history of calls. -/
def run (c : CachedS U) : List (Op U) → CachedS U
  | [] => c
  | o :: os => run (c.apply o) os

end CachedS
end Slide

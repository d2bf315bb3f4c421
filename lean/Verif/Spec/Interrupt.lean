import Verif.Model.Cycler

/-!
# Specification for C159: phases can be interrupted
-/

namespace Slide.Spec
open Slide StorageUnit

variable {U : Type} [StorageUnit U]

/-- The unit after `n` steps of length `dt`; without a step nothing happens. -/
def stepped (u : U) (dt : ℚ) (n : ℕ) : U := if n = 0 then u else (timeStep u dt n).2

/-- What a phase that lasts `T` at the current `i` does to a unit: the current is set; then come as many full steps `dt`
as there are in `T`, and a shorter one for the rest of the time if there is one. -/
def courseOf (u : U) (i T dt : ℚ) : U :=
  let n := ⌊T / dt⌋.toNat
  let u1 := stepped (StorageUnit.setCurrent u i false).2 dt n
  if T = n * dt then u1 else (timeStep u1 (T - n * dt) 1).2

/-- Full statement of C159 for constant current: a phase of `a` steps followed by a phase that lasts `T` leaves the unit in
the state in which one phase of the total length leaves it. -/
def InterruptionHarmless (U : Type) [StorageUnit U] : Prop :=
  ∀ (f1 f2 f3 : ℕ) (u : U) (I vlim dt T : ℚ) (a : ℕ) (ndt : ℤ), 0 < dt → 0 ≤ T →
    let r1 := Cyc.CC f1 { su := u } I vlim (a * dt) dt ndt Thr.zero
    let r2 := Cyc.CC f2 r1.2.1 I vlim T dt ndt r1.2.2
    let r := Cyc.CC f3 { su := u } I vlim (a * dt + T) dt ndt Thr.zero
    (∃ s, r1.1 = .ok s) → (∃ s, r2.1 = .ok s) → (∃ s, r.1 = .ok s) → r2.2.1.su = r.2.1.su

end Slide.Spec

import Verif.Model.SpmUnit
import Verif.Spec.SpmUnit
import Verif.Spec.SpmUse
import Verif.Spec.Frame

/-! What cycling does to the single-particle cells of a pack (C109). -/

namespace Slide.Spec
open SPM

variable {N : ℕ}

/-- The second cell is the first one, except (possibly) for its current. -/
def SpmOnlyCurrent (a b : SpmUnit N) : Prop :=
  b.cell = { a.cell with st := { a.cell.st with I := b.cell.st.I } }

/-- `b` is the cell `a` after it has carried the current `I` for `τ` seconds: nothing but the current, the
concentration profiles and the meters differ, and clock, state of charge, charge counter and the lithium content of both
electrodes (the amplitudes that do not decay by diffusion) have changed by what the charge `I * τ` amounts to. -/
structure Carried (I τ : ℚ) (a b : SPM N) : Prop where
  frame : ({ b with st := { b.st with
    I := a.st.I, zp := a.st.zp, zn := a.st.zn, SOC := a.st.SOC, time := a.st.time, Ah := a.st.Ah, Wh := a.st.Wh } } : SPM N) = a
  time : b.st.time = a.st.time + τ
  soc : b.st.SOC = a.st.SOC - I * τ / 3600 / a.par.cap
  ah : b.st.Ah = a.st.Ah + |I| * τ / 3600
  cathode : ∀ j, a.par.M.Ap j = 0 → b.st.zp j =
    a.st.zp j - I * τ * (a.par.M.Bp j / (a.par.elecSurf * (a.st.ap * a.par.n * Faraday * a.st.thickp)))
  anode : ∀ j, a.par.M.An j = 0 → b.st.zn j =
    a.st.zn j + I * τ * (a.par.M.Bn j / (a.par.elecSurf * (a.st.an * a.par.n * Faraday * a.st.thickn)))

end Slide.Spec

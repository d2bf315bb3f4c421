import Verif.Spec.SPM
import Verif.Model.DefaultCell

/-!
Specification for the default single-particle cell (C88) and for the check of the discretisation (C89).
-/

namespace Slide.Spec

/-- Faraday's law for the default cell, in numbers of its data sheet: lithium fraction of the cathode at the state of
charge `s`, when it is 0.689332 at 50 %.  16 Ah move `16 · 3600 / 96487` mol; the cathode has 0.62 m² × 70 µm with half of
the volume active, and holds at most 51385 mol/m³. -/
def faradayP (s : ℚ) : ℚ :=
  689332 / 1000000 + (1 / 2 - s) * (16 * 3600 / 96487) / (62 / 100 * (70 / 1000000) * (1 / 2) * 51385)

/-- The same for the anode: 0.479283 at 50 %, 0.62 m² × 73.5 µm, half of it active, at most 30555 mol/m³. -/
def faradayN (s : ℚ) : ℚ :=
  479283 / 1000000 - (1 / 2 - s) * (16 * 3600 / 96487) / (62 / 100 * (735 / 10000000) * (1 / 2) * 30555)

/-- The cell with the same amounts of lithium evenly distributed in both particles and no current. -/
def equalised {N : ℕ} (c : SPM N) : SPM N :=
  { c with st := { c.st with
      I := 0,
      zp := fun j => if j = c.par.M.ind then c.st.zp j else 0,
      zn := fun j => if j = c.par.M.ind then c.st.zn j else 0 } }

/-- What is used of libm: `exp` is positive, `sqrt` is not negative and positive for positive arguments, `asinh 0 = 0`. -/
structure Libm (e : Default.Env) : Prop where
  exp : ∀ x, 0 < e.exp x
  sqrt : ∀ x, 0 ≤ e.sqrt x
  sqrt_pos : ∀ x, 0 < x → 0 < e.sqrt x
  asinh : e.asinh 0 = 0

/-- C89: the inputs the discretisation was computed for are those of the program, up to a relative error of 1e-10. -/
def InputsAgree (input : List ℚ) (nch : ℕ) (Rp Rn : ℚ) : Prop :=
  ∃ i0 i1 i2 i3, input = [i0, i1, i2, i3] ∧ |i0 - nch| ≤ 1 / 10000000000 * |i0| ∧
    |i1 - Rp| ≤ 1 / 10000000000 * |i1| ∧ |i2 - Rn| ≤ 1 / 10000000000 * |i2|

/-- C89, full statement: a discretisation computed for another number of nodes or other radii, or whose marked row is
not the one of the uniform concentration, is refused with 110. -/
def WrongDiscretisationRefused : Prop :=
  ∀ (i0 i1 i2 : ℚ) (a nch : ℕ) (Rp Rn : ℚ) (Ap An : List ℚ) (hp : a < Ap.length) (hn : a < An.length),
    (¬ InputsAgree [i0, i1, i2, a] nch Rp Rn ∨ 1 / 10000000000 < |Ap[a]| ∨ 1 / 10000000000 < |An[a]|) →
    checkModelparam [i0, i1, i2, a] nch Rp Rn Ap An = .throw 110

end Slide.Spec

import Verif.Model.Dai

/-!
Specification of the stress in a spherical particle (Dai, Cai & White 2014, equations 13, 31 and 33): stress follows the
difference between the mean concentration and the local one.
-/

namespace Slide.Spec

variable {N : ℕ}

/-- Value at the node number `j` of the whole diameter of a profile given from the surface to the centre: `j` and its
mirror image have the same distance to the centre `N + 1`. -/
def onDiameter (c : Fin (N + 2) → ℚ) (j : Fin (2 * N + 3)) : ℚ :=
  c ⟨N + 1 - (j.val - (N + 1) + (N + 1 - j.val)), by omega⟩

/-- Radius of the node number `k` from the surface: 1, the inner nodes, 0. -/
def radius (xch : Fin N → ℚ) (k : Fin (N + 2)) : ℚ :=
  if h : 0 < k.val ∧ k.val ≤ N then xch ⟨k.val - 1, by omega⟩ else if k.val = 0 then 1 else 0

/-- `∫ c x² dx` from the centre to the node `k` (from the surface), by the quadrature matrix `Q`. -/
def content (xch : Fin N → ℚ) (Q : Fin (2 * N + 3) → Fin (2 * N + 3) → ℚ) (c : Fin (N + 2) → ℚ) (k : Fin (N + 2)) : ℚ :=
  ∑ j, (Q ⟨2 * N + 2 - k.val, by omega⟩ j - Q ⟨N + 1, by omega⟩ j) *
    (onDiameter c j * onDiameter (radius xch) j ^ 2)

/-- Mean concentration of the particle. -/
def mean (xch : Fin N → ℚ) (Q : Fin (2 * N + 3) → Fin (2 * N + 3) → ℚ) (c : Fin (N + 2) → ℚ) : ℚ :=
  3 * content xch Q c 0

/-- Hydrostatic stress where the concentration is `c`. -/
def hydrostatic (m : Dai.Material) (mean c : ℚ) : ℚ := 2 * m.omega * m.E / (9 * (1 - m.nu)) * (mean - c)

/-- The quadrature is exact for `x²`. -/
def Exact (xch : Fin N → ℚ) (Q : Fin (2 * N + 3) → Fin (2 * N + 3) → ℚ) : Prop :=
  ∀ k, content xch Q (fun _ => 1) k = radius xch k ^ 3 / 3

end Slide.Spec

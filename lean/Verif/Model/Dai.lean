import Verif.Model.SPM

/-!
Model of the stress according to Dai, Cai & White: `Cell_SPM::getDaiStress`,
`/repo/src/cells/Cell_SPM/Cell_SPM_degradation.cpp:484-615`.

Both electrodes are treated alike, so the model is written for one particle and used twice.  Arrays of the fixed lengths
`nch + 2` and `2 nch + 3` are functions on `Fin`, so that every index is inside its array by typing.  A division by zero
(a Poisson ratio of 1, an inner node at the centre) is the outcome `ub`.
-/

namespace Slide.Dai

variable {N : ℕ}

/-- Young's modulus, Poisson's ratio and partial molar volume of an electrode –
`/repo/src/cells/Cell_SPM/param/StressParam.hpp:15-21`. -/
structure Material where
  omega : ℚ
  E : ℚ
  nu : ℚ

/-- `xp`: the positive nodes, surface first, centre last – lines 508-513. -/
def xp (xch : Fin N → ℚ) (i : Fin (N + 2)) : ℚ :=
  if i.val = 0 then 1 else if h : i.val - 1 < N then xch ⟨i.val - 1, h⟩ else 0

/-- `xtot`, `CP`, `CN`: an array given at the positive nodes `[surface .. centre]` is spread over all nodes
`[-surface .. centre .. +surface]`, with the factor `s` on the negative side – lines 515-537. -/
def spread (s : ℚ) (a : Fin (N + 2) → ℚ) (j : Fin (2 * N + 3)) : ℚ :=
  if h : j.val < N + 1 then s * a ⟨j.val, by omega⟩
  else if j.val = N + 1 then a ⟨N + 1, by omega⟩
  else a ⟨N - (j.val - (N + 2)), by omega⟩

/-- `Fp`: the integrals of `c x²` from the negative surface to every node – lines 561-570. -/
def integral (Q : Fin (2 * N + 3) → Fin (2 * N + 3) → ℚ) (x C : Fin (2 * N + 3) → ℚ) (i : Fin (2 * N + 3)) : ℚ :=
  ∑ j, Q i j * C j * (x j * x j)

/-- The positive node number `i`, counted from the centre, in an array over all nodes: `[nch + 1 + i]`. -/
def pos (i : Fin (N + 2)) : Fin (2 * N + 3) := ⟨N + 1 + i.val, by omega⟩

/-- `ap = Fp[2 nch + 2] - Fp[nch + 1]` – lines 573-574. -/
def total (F : Fin (2 * N + 3) → ℚ) : ℚ := F ⟨2 * N + 2, by omega⟩ - F ⟨N + 1, by omega⟩

/-- `bp_x` – lines 581-583. -/
def inner (F x : Fin (2 * N + 3) → ℚ) (i : Fin (N + 2)) : ℚ :=
  (F (pos i) - F ⟨N + 1, by omega⟩) / (x (pos i) * x (pos i) * x (pos i))

/-- Radial stress at the `i`-th node from the centre – lines 591-599. -/
def sigmaR (m : Material) (F x C : Fin (2 * N + 3) → ℚ) (i : Fin (N + 2)) : ℚ :=
  if i.val = 0 then 2 * m.omega * m.E / (9 * (1 - m.nu)) * (3 * total F - C ⟨N + 1, by omega⟩)
  else 2 * m.omega * m.E / (3 * (1 - m.nu)) * (total F - inner F x i)

/-- Tangential stress at the `i`-th node from the centre – lines 595-602.  `c` is the array ordered from the surface,
and it is read at `i`, not at the reversed index. -/
def sigmaT (m : Material) (F x C : Fin (2 * N + 3) → ℚ) (c : Fin (N + 2) → ℚ) (i : Fin (N + 2)) : ℚ :=
  if i.val = 0 then 2 * m.omega * m.E / (9 * (1 - m.nu)) * (3 * total F - C ⟨N + 1, by omega⟩)
  else m.omega * m.E / (3 * (1 - m.nu)) * (2 * total F + inner F x i - c i)

/-- Hydrostatic stress – lines 606-607. -/
def sigmaH (m : Material) (F x C : Fin (2 * N + 3) → ℚ) (c : Fin (N + 2) → ℚ) (i : Fin (N + 2)) : ℚ :=
  (sigmaR m F x C i + 2 * sigmaT m F x C c i) / 3

/-- The value with the largest modulus – lines 576, 610-613. -/
def largest (l : List ℚ) : ℚ := l.foldl (fun s h => if |h| > |s| then h else s) 0

/-- The results of `getDaiStress` for one particle: the maximum, and the stresses at the nodes ordered from the surface
to the centre (`i_rev`). -/
structure Stress (N : ℕ) where
  max : ℚ
  r : Fin (N + 2) → ℚ
  t : Fin (N + 2) → ℚ
  h : Fin (N + 2) → ℚ

/-- `getDaiStress` for one particle with the concentrations `c` at the positive nodes. -/
def particle (m : Material) (xch : Fin N → ℚ) (Q : Fin (2 * N + 3) → Fin (2 * N + 3) → ℚ) (c : Fin (N + 2) → ℚ) :
    Outcome (Stress N) :=
  let x := spread (-1) (xp xch)
  let C := spread 1 c
  let F := integral Q x C
  if m.nu = 1 ∨ (∃ j, xch j = 0) then .ub "division by zero"
  else .ok
    { max := largest (List.ofFn (sigmaH m F x C c))
      r := fun k => sigmaR m F x C k.rev
      t := fun k => sigmaT m F x C c k.rev
      h := fun k => sigmaH m F x C c k.rev }

/-- `getC` as arrays of length `nch + 2` – `Cell_SPM.cpp:149-201`. -/
def concP (c : SPM N) (i : Fin (N + 2)) : ℚ := if h : i.val < N + 1 then c.nodeP ⟨i.val, h⟩ else c.centreP
def concN (c : SPM N) (i : Fin (N + 2)) : ℚ := if h : i.val < N + 1 then c.nodeN ⟨i.val, h⟩ else c.centreN

/-- `updateDaiStress` – `Cell_SPM_degradation.cpp:617-630`: the stresses of the cathode and of the anode. -/
def ofCell (mp mn : Material) (Q : Fin (2 * N + 3) → Fin (2 * N + 3) → ℚ) (c : SPM N) : Outcome (ℚ × ℚ) := do
  let p ← particle mp c.par.M.xch Q (concP c)
  let n ← particle mn c.par.M.xch Q (concN c)
  pure (p.max, n.max)

end Slide.Dai

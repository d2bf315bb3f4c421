import Verif.Model.Pack
import Verif.Spec.Structure

/-!
What the properties of the ready-made packs (C93–C95) talk about.
-/

namespace Slide.Spec
open StorageUnit Pack

/-- What a unit without current reports: voltage `v`, open-circuit voltage `v`, capacity and total resistance between
given bounds, number of cells, voltage limits, environmental temperature and a valid voltage. -/
structure Reads {U : Type} [StorageUnit U] (u : U) (v clo chi rlo rhi : ℚ) (n : ℕ) (L : VLimits) : Prop where
  volt : StorageUnit.V u = v
  ocv : StorageUnit.OCV u = some v
  curr : StorageUnit.I u = 0
  temp : StorageUnit.T u = 288
  cap_lo : clo ≤ StorageUnit.Cap u
  cap_hi : StorageUnit.Cap u ≤ chi
  r_lo : rlo ≤ StorageUnit.Rtot u
  r_hi : StorageUnit.Rtot u ≤ rhi
  cells : StorageUnit.nCells u = n
  limits : StorageUnit.lim u = L
  ok : StorageUnit.checkVoltage u = Status.Success

/-- `k` times the limits of a cell. -/
def timesLimits (k : ℚ) (L : VLimits) : VLimits where
  Vmin := k * L.Vmin
  Vmax := k * L.Vmax
  VMIN := k * L.VMIN
  VMAX := k * L.VMAX

/-- Resistance of a ladder with `n + 1` rungs `r`, with `rc` in front of every rung: `rc` in series with the first rung
parallel to the rest of the ladder. -/
def ladder (rc r : ℚ) : ℕ → ℚ
  | 0 => rc + r
  | n + 1 => rc + r * ladder rc r n / (r + ladder rc r n)

/-- A string of `n` units of a kind, at 15 °C, with the contact resistance `rc` in front of every unit. -/
def StringOf {U : Type} (n : ℕ) (rc : ℚ) (P : U → Prop) (m : ModuleS U) : Prop :=
  m.T = 288 ∧ m.kids.length = n ∧ ∀ k ∈ m.kids, k.rc = rc ∧ P k.su

/-- A block of `n` parallel units of a kind. -/
def BlockOf {U : Type} (n : ℕ) (rc : ℚ) (P : U → Prop) (m : ModuleP U) : Prop :=
  m.T = 288 ∧ m.kids.length = n ∧ ∀ k ∈ m.kids, k.rc = rc ∧ P k.su

/-- The constructor arguments of the next `n` cells: for every cell fresh draws, in the order capacity, resistance,
degradation (twice), for the properties that are spread; 1 for the others. -/
def freshDraws {G : Type} (gen : Gen G) (cfg : Cfg) : ℕ → G → List Factors
  | 0, _ => []
  | n + 1, g =>
    let c := if cfg.capSpread then gen.c g else (1, g)
    let r := if cfg.RSpread then gen.r c.2 else (1, c.2)
    let a := if cfg.degSpread then gen.d r.2 else (1, r.2)
    let b := if cfg.degSpread then gen.d a.2 else (1, a.2)
    ⟨c.1, r.1, a.1, b.1⟩ :: freshDraws gen cfg n b.2

/-- Every module of a pack is cooled by a system for exactly the cells it holds: heat exchanging surface 0.042 m² per
cell, coolant flow 0.0005 m³/s per cell, strategy as requested. -/
def CoolingFits (control : ℤ) (o : Obj Part) : Prop :=
  ∀ p u par th A cool rc, at? o p = some u → u.data = .module par th A cool rc →
    A = 42 / 1000 * cellsReached u ∧ cool.flr = 5 / 10000 * cellsReached u ∧ cool.strategy = control

/-- Every unit of a pack has its own full identifier. -/
def DistinctFullIDs (o : Obj Part) : Prop :=
  ∀ p q u v fuel, at? o p = some u → at? o q = some v → p.length < fuel → q.length < fuel →
    Obj.fullID o fuel u = Obj.fullID o fuel v → p = q

/-- What every ready-made pack is: it reports and contains `N` cells; all its units have their own full identifier; the
cooling systems of its modules fit; its cells are made with fresh draws for every cell; its air conditioning follows the
requested strategy and its converter is rated for the capacity at maximum voltage. -/
structure IsPack {G C U : Type} [StorageUnit U] (mk : Factors → C) (gen : Gen G) (cfg : Cfg) (g0 : G) (N : ℕ)
    (cs : U → List C) (o : Obj Part) (b : Battery U) : Prop where
  count : o.getNcells = .ok N
  reached : cellsReached o = N
  ids : DistinctFullIDs o
  cooling : CoolingFits cfg.coolControl o
  made : cs b.cells = (freshDraws gen cfg N g0).map mk
  hvac : b.cool.kind = .hvac ∧ b.cool.strategy = cfg.coolControl
  converter : b.conv.Pnom = StorageUnit.Cap b * (StorageUnit.lim b).Vmax

/-- The cells of a block of strings of modules. -/
def cells3 {C : Type} (m : ModuleP (ModuleS (ModuleS C))) : List C :=
  m.kids.flatMap fun x => x.su.kids.flatMap fun y => y.su.kids.flatMap fun z => [z.su]

/-- The cells of a string of strings of blocks. -/
def cells3' {C : Type} (m : ModuleS (ModuleS (ModuleP C))) : List C :=
  m.kids.flatMap fun x => x.su.kids.flatMap fun y => y.su.kids.flatMap fun z => [z.su]

/-- The cells of a battery of racks. -/
def cells4 {C : Type} (m : ModuleP (ModuleS (ModuleS (ModuleP C)))) : List C :=
  m.kids.flatMap fun x => x.su.kids.flatMap fun y => y.su.kids.flatMap fun z => z.su.kids.flatMap fun w => [w.su]

/-- The cells of one block. -/
def cells1 {C : Type} (m : ModuleP C) : List C := m.kids.flatMap fun w => [w.su]

/-- C93, full statement: the number of cells a factory prints is the number of cells of its pack; here for packs which
could be made from any kind of cell. -/
def PrintsNumberOfCells : Prop :=
  ∀ (G C : Type) [StorageUnit C] (mk : DegSel → Factors → C) (gen : Gen G) (cfg : Cfg) (g0 : G) (toStr : ℚ → List Char)
    (add : List Char) (RM : ℚ) (balance : Bool),
    (∀ o b s', makeBattery mk gen cfg { gen := g0 } balance = (.ok (o, b), s') → announced (cellsReached o) .pss = cellsReached o) ∧
    (∀ o b s', makeBattery2 mk gen cfg { gen := g0 } balance = (.ok (o, b), s') → announced (cellsReached o) .ssp = cellsReached o) ∧
    (∀ o b s', makeEPFLsmaller mk gen cfg { gen := g0 } toStr add RM = (.ok (o, b), s') →
      announced (cellsReached o) .epflSmaller = cellsReached o) ∧
    (∀ o b s', makeEPFL mk gen cfg { gen := g0 } toStr add RM = (.ok (o, b), s') →
      announced (cellsReached o) .epfl = cellsReached o) ∧
    (∀ o b s', makeTest mk gen cfg { gen := g0 } toStr add RM = (.ok (o, b), s') →
      announced (cellsReached o) .test = cellsReached o) ∧
    (∀ o b s', makeTestParallel mk gen cfg { gen := g0 } toStr add RM = (.ok (o, b), s') →
      announced (cellsReached o) .testParallel = cellsReached o)

/-- The single-particle cells of a pack: the constructor with variation factors. -/
def spmCells {N : ℕ} (c : SPM N) (deg : DegSel) (f : Factors) : SPM N := c.build deg f.capf f.Rf f.degf f.degflam

/-- C94, full statement: asked for a spread of the degradation rates, the factory gives every cell its own: the rate
constants of SEI growth are multiplied with the factor drawn for this cell, those of the loss of active material with the
second one. -/
def SpreadOfAgeing : Prop :=
  ∀ (N : ℕ) (c : SPM N) (G : Type) (gen : Gen G) (cfg : Cfg) (g0 : G), cfg.degSpread = true →
    c.par.varSEI = 1 → c.par.varLAM = 1 →
    ∀ b s', module1 (spmCells c) gen cfg { gen := g0 } = (.ok b, s') →
      (cells3 b.su).map (fun x => (x.par.sei.k1, x.par.lam.p1)) =
        (freshDraws gen cfg 2700 g0).map fun f => (c.par.sei.k1 * f.degf, c.par.lam.p1 * f.degflam)

/-- What the spread of a pack of single-particle cells amounts to: every cell has its own capacity and resistance,
according to its own draws; the parameters of the degradation models are those of the unvaried cell in all cells. -/
def SpreadOfSPM {N : ℕ} (c : SPM N) (fs : List Factors) (cells : List (SPM N)) : Prop :=
  cells.map (fun x => x.par.cap) = fs.map (fun f => c.par.cap * f.capf) ∧
  cells.map (fun x => (x.st.rDCp, x.st.rDCn, x.st.rDCcc)) =
    fs.map (fun f => (c.st.rDCp * f.Rf, c.st.rDCn * f.Rf, c.st.rDCcc * f.Rf)) ∧
  ∀ x ∈ cells, x.par.sei.k1 = c.par.sei.k1 * c.par.varSEI ∧ x.par.cs.a1 = c.par.cs.a1 * c.par.varSEI ∧
    x.par.lam.p1 = c.par.lam.p1 * c.par.varLAM ∧ x.par.pl.k = c.par.pl.k * c.par.varSEI

/-- C95, full statement: packs made by different factories, or with different settings, have different names. -/
def NamesTellPacksApart : Prop :=
  ∀ (G C : Type) [StorageUnit C] (mk : DegSel → Factors → C) (gen : Gen G) (toStr : ℚ → List Char) (add : List Char) (RM : ℚ),
    (∀ cfg cfg' s bal bal' o b s1 o' b' s2, makeBattery mk gen cfg s bal = (.ok (o, b), s1) →
      makeBattery mk gen cfg' s bal' = (.ok (o', b'), s2) → o.id = o'.id → cfg = cfg' ∧ bal = bal') ∧
    (∀ cfg cfg' s bal bal' o b s1 o' b' s2, makeBattery mk gen cfg s bal = (.ok (o, b), s1) →
      makeBattery2 mk gen cfg' s bal' = (.ok (o', b'), s2) → o.id ≠ o'.id) ∧
    (∀ cfg cfg' s bal bal' o b s1 o' b' s2, makeBattery2 mk gen cfg s bal = (.ok (o, b), s1) →
      makeBattery2 mk gen cfg' s bal' = (.ok (o', b'), s2) → o.id = o'.id → cfg = cfg' ∧ bal = bal') ∧
    (∀ cfg s o b s1 o' b' s2, makeEPFL mk gen cfg s toStr add RM = (.ok (o, b), s1) →
      makeTest mk gen cfg s toStr add RM = (.ok (o', b'), s2) → o.id ≠ o'.id)

end Slide.Spec

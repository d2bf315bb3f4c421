import Verif.Model.Structure
import Verif.Model.Battery
import Verif.Model.SPM

/-!
Model of the ready-made battery packs – `/repo/src/factories/makeBattery.cpp`.

A pack is put together from cells, modules and a battery exactly as by the library: every object is created (`make`) with
the next free address, connected with `Module::setSUs` / `Battery::setModule`, and carries its electrical part as a value
of the module models.  The class of the cells is a parameter: `mk deg f` is the cell made by the constructor
`Cell_SPM(ID, deg, capf, resf, degfsei, degflam)`.

The random number generator with the three normal distributions is a parameter (`Gen`).  `std::to_string` of the double
`RM` is a parameter.  The arrays of contact resistances, filled with the same number for all units of a level, are that
number.  Printing is left out, except for the announced number of cells.
-/

namespace Slide
namespace Pack

/-- `std::to_string` of a natural number. -/
def dec (n : ℕ) : List Char := Nat.toDigits 10 n

/-- `std::to_string(int)`. -/
def decZ (z : ℤ) : List Char := if z < 0 then '-' :: dec z.natAbs else dec z.natAbs

/-- The switches of the factories – `makeBattery.hpp:15-20`. -/
structure Cfg where
  capSpread : Bool
  RSpread : Bool
  degSpread : Bool
  contactR : Bool
  coolControl : ℤ

/-- `generator` with `distribution_c`, `distribution_r`, `distribution_d` – `makeBattery.cpp:49-52`. -/
structure Gen (G : Type) where
  c : G → ℚ × G
  r : G → ℚ × G
  d : G → ℚ × G

/-- `capf, Rf, degf, degflam` – `makeBattery.cpp:54-57`; 1 at the start. -/
structure Factors where
  capf : ℚ := 1
  Rf : ℚ := 1
  degf : ℚ := 1
  degflam : ℚ := 1
  deriving DecidableEq, Repr

/-- The draws for one cell – `makeBattery.cpp:126-133`. -/
def draw {G : Type} (gen : Gen G) (cfg : Cfg) (f : Factors) (g : G) : Factors × G :=
  let p1 := if cfg.capSpread then ({ f with capf := (gen.c g).1 }, (gen.c g).2) else (f, g)
  let p2 := if cfg.RSpread then ({ p1.1 with Rf := (gen.r p1.2).1 }, (gen.r p1.2).2) else p1
  if cfg.degSpread then
    let a := gen.d p2.2
    let b := gen.d a.2
    ({ p2.1 with degf := a.1, degflam := b.1 }, b.2)
  else p2

/-- What else is in an object of the pack. -/
inductive Part where
  /-- A cell and its constructor arguments. -/
  | cell (deg : DegSel) (f : Factors)
  /-- A module: parallel or series, multithreaded, `therm.A`, cooling system, contact resistance of its units. -/
  | module (parallel : Bool) (threads : Bool) (area : ℚ) (cool : CoolSystem) (rc : ℚ)
  | battery

/-- A unit of the pack: the object and its electrical part. -/
structure Built (U : Type) where
  obj : Obj Part
  su : U

/-- The variables of a factory while it runs: generator, factors, next free address. -/
structure St (G : Type) where
  gen : G
  f : Factors := {}
  next : ℕ := 0

variable {G C U : Type}

/-- A loop `for (i = from; i < from + n; i++)` that makes one unit per round. -/
def collect {β σ : Type} (mkOne : ℕ → σ → Outcome β × σ) : ℕ → ℕ → σ → Outcome (List β) × σ
  | _, 0, s => (.ok [], s)
  | i, n + 1, s =>
    match mkOne i s with
    | (.ok b, s') =>
      match collect mkOne (i + 1) n s' with
      | (.ok bs, s'') => (.ok (b :: bs), s'')
      | (.throw e, s'') => (.throw e, s'')
      | (.ub w, s'') => (.ub w, s'')
    | (.throw e, s') => (.throw e, s')
    | (.ub w, s') => (.ub w, s')

/-- `make<Cell_SPM>("cell" + std::to_string(ic), deg, capf, Rf, degf, degflam)` after the draws –
`makeBattery.cpp:125-136`. -/
def mkCell (mk : DegSel → Factors → C) (gen : Gen G) (cfg : Cfg) (deg : DegSel) (i : ℕ) (s : St G) :
    Outcome (Built C) × St G :=
  let d := draw gen cfg s.f s.gen
  (.ok ⟨.mk s.next .cell (['c', 'e', 'l', 'l'] ++ dec i) none (.cell deg d.1) [], mk deg d.1⟩,
    { gen := d.2, f := d.1, next := s.next + 1 })

/-- The cooling system made by the constructor of a module – `Module.cpp:47-55` (type 1 is not used by the factories). -/
def coolOf (ncells : ℕ) (control : ℤ) (cooltype : ℕ) : CoolSystem :=
  if cooltype = 2 then CoolSystem.makeOpen ncells control else CoolSystem.make ncells control

/-- `make<Module_?>(id, T_ENV, true, threads, ncells, coolControl, cooltype)` – `Module.cpp:24-56` – followed by
`setSUs(units, checkCells, true)` and `setRcontact(Rc)` with the same `rc` for all units. -/
def mkObj (parallel threads : Bool) (id : List Char) (ncells : ℕ) (control : ℤ) (cooltype : ℕ) (rc : ℚ)
    (units : List (Obj Part)) (next : ℕ) : Outcome Unit × Obj Part :=
  (Obj.mk next (.module none) id none
    (.module parallel threads (42 / 10000 * 10 * ncells) (coolOf ncells control cooltype) rc) []).setSUs units true

/-- A series module. -/
def mkS (threads : Bool) (id : List Char) (ncells : ℕ) (control : ℤ) (cooltype : ℕ) (rc : ℚ) (units : List (Built U))
    (s : St G) : Outcome (Built (ModuleS U)) × St G :=
  match mkObj false threads id ncells control cooltype rc (units.map Built.obj) s.next with
  | (.ok (), o) =>
    (.ok ⟨o, { T := CoolSystem.T_ENV, kids := units.map fun u => ⟨rc, u.su⟩ }⟩, { s with next := s.next + 1 })
  | (.throw e, _) => (.throw e, { s with next := s.next + 1 })
  | (.ub w, _) => (.ub w, { s with next := s.next + 1 })

/-- A parallel module. -/
def mkP (threads : Bool) (id : List Char) (ncells : ℕ) (control : ℤ) (cooltype : ℕ) (rc : ℚ) (units : List (Built U))
    (s : St G) : Outcome (Built (ModuleP U)) × St G :=
  match mkObj true threads id ncells control cooltype rc (units.map Built.obj) s.next with
  | (.ok (), o) =>
    (.ok ⟨o, { T := CoolSystem.T_ENV, kids := units.map fun u => ⟨rc, u.su⟩ }⟩, { s with next := s.next + 1 })
  | (.throw e, _) => (.throw e, { s with next := s.next + 1 })
  | (.ub w, _) => (.ub w, { s with next := s.next + 1 })

/-- Make the units of a level in a loop, then the module that holds them. -/
def level {V : Type} (one : ℕ → St G → Outcome (Built U) × St G) (n : ℕ)
    (wrap : List (Built U) → St G → Outcome (Built V) × St G) (s : St G) : Outcome (Built V) × St G :=
  match collect one 0 n s with
  | (.ok us, s') => wrap us s'
  | (.throw e, s') => (.throw e, s')
  | (.ub w, s') => (.ub w, s')

/-- `getCoolSystem` of a module – `Module.hpp:116`. -/
def getCoolSystem (o : Obj Part) : Option CoolSystem :=
  match o.data with
  | .module _ _ _ cool _ => some cool
  | _ => none

/-- `make<Battery>(id)` and `setModule(module)` – `Battery.cpp:19-84` –, and the battery as an object. -/
def mkBattery [StorageUnit U] (id : List Char) (r : Outcome (Built U) × St G) :
    Outcome (Obj Part × Battery U) × St G :=
  match r with
  | (.ok u, s) =>
    match (Obj.mk s.next (.battery 1 1) id none Part.battery []).setModule u.obj with
    | (.ok (), o) =>
      match Battery.setModule u.su u.obj.parent.isSome (getCoolSystem u.obj) 1 1 with
      | .ok b => (.ok (o, b), { s with next := s.next + 1 })
      | .throw e => (.throw e, s)
      | .ub w => (.ub w, s)
    | (.throw e, _) => (.throw e, s)
    | (.ub w, _) => (.ub w, s)
  | (.throw e, s) => (.throw e, s)
  | (.ub w, s) => (.ub w, s)

/-- The settings in the name – `makeBattery.cpp:40-45`, `186-191`. -/
def settingsStr (cfg : Cfg) (balance : Bool) : List Char :=
  "cool".toList ++ decZ cfg.coolControl ++ (if cfg.capSpread then "_capSpread".toList else []) ++
    (if cfg.RSpread then "_RSpread".toList else []) ++ (if cfg.degSpread then "_degSpread".toList else []) ++
    (if cfg.contactR then "_contactR".toList else []) ++ (if balance then "_balance".toList else [])

/-- The settings in the name with the resistance multiplier – `makeBattery.cpp:324-333`, `463-472`, `598-607`, `733-742`. -/
def settingsStrRM (toStr : ℚ → List Char) (cfg : Cfg) (add : List Char) (RM : ℚ) : List Char :=
  "cool".toList ++ decZ cfg.coolControl ++ (if cfg.capSpread then "_capSpread".toList else []) ++
    (if cfg.RSpread then "_RSpread".toList else []) ++ (if cfg.degSpread then "_degSpread".toList else []) ++
    (if cfg.contactR then "_contactR".toList ++ toStr RM else []) ++ add

/-- Degradation models of `makeBattery` – `makeBattery.cpp:76, 101-109`. -/
def deg1 : DegSel := { SEI := [4], SEIpor := 1, CS := [0], CSdiff := 0, LAM := [0], pl := 0 }

/-- Degradation models of the other packs – `makeBattery.cpp:243-251`, `501-510`, `636-645`, `771-780`. -/
def deg2 : DegSel := { deg1 with LAM := [1] }

/-- Degradation models of `makeBattery_EPFL_smaller` – `makeBattery.cpp:362-371`. -/
def deg3 : DegSel := { deg2 with SEIpor := 0 }

/-- The module of `makeBattery` – `makeBattery.cpp:59-74, 111-153`: 9 strings of 15 modules of 20 cells. -/
def module1 (mk : DegSel → Factors → C) (gen : Gen G) (cfg : Cfg) : St G → Outcome (Built (ModuleP (ModuleS (ModuleS C)))) × St G :=
  let nc := 20; let ns := 15; let np := 9
  let Rc_p : ℚ := if cfg.contactR then 1 / 1000 / 5 else 0
  let Rc_s : ℚ := if cfg.contactR then 1 / 10000 else 0
  level
    (fun ip => level
      (fun is => level (mkCell mk gen cfg deg1) nc (mkS false ('s' :: dec is) nc cfg.coolControl 0 Rc_s)) ns
      (mkS false ('s' :: dec ip) (nc * ns) cfg.coolControl 2 Rc_s)) np
    (mkP true ['p'] (nc * ns * np) cfg.coolControl 2 Rc_p)

/-- The module of `makeBattery2` – `makeBattery.cpp:205-217, 253-297`: 20 strings of 15 blocks of 9 cells. -/
def module2 (mk : DegSel → Factors → C) (gen : Gen G) (cfg : Cfg) : St G → Outcome (Built (ModuleS (ModuleS (ModuleP C)))) × St G :=
  let nc := 9; let ns := 15; let np := 20
  let Rc_p : ℚ := if cfg.contactR then 1 / 1000 / 5 else 0
  let Rc_s : ℚ := if cfg.contactR then 1 / 10000 else 0
  level
    (fun ip => level
      (fun is => level (mkCell mk gen cfg deg2) nc (mkP false ('p' :: dec is) nc cfg.coolControl 0 Rc_p)) ns
      (mkS false ('s' :: dec ip) (nc * ns) cfg.coolControl 2 Rc_s)) np
    (mkS true ['s'] (nc * ns * np) cfg.coolControl 2 Rc_s)

/-- The four-level module of `makeBattery_EPFL_smaller`, `makeBattery_EPFL` and `makeBattery_Test` –
`makeBattery.cpp:350-433`, `489-571`, `624-707` – whose code only differs in the numbers and the degradation models. -/
def moduleEPFL (deg : DegSel) (ncp ncs nmodules nracks : ℕ) (mk : DegSel → Factors → C) (gen : Gen G) (cfg : Cfg) (RM : ℚ) :
    St G → Outcome (Built (ModuleP (ModuleS (ModuleS (ModuleP C))))) × St G :=
  let Rc_p_cells : ℚ := if cfg.contactR then 75 / 10000 * (1 / 1000) * RM else 0
  let Rc_s_cells : ℚ := if cfg.contactR then 75 / 10000 * (1 / 1000) * RM else 0
  let Rc_p : ℚ := if cfg.contactR then 25 / 100 * (1 / 1000) * RM else 0
  let Rc_s : ℚ := if cfg.contactR then 25 / 100 * (1 / 1000) * RM else 0
  level
    (fun ip => level
      (fun is => level
        (fun ics => level (mkCell mk gen cfg deg) ncp (mkP false ('p' :: dec ics) ncp cfg.coolControl 2 Rc_p_cells)) ncs
        (mkS false ('s' :: dec is) (ncp * ncs) cfg.coolControl 0 Rc_s_cells)) nmodules
      (mkS false ('s' :: dec ip) (ncp * ncs * nmodules) cfg.coolControl 2 Rc_s)) nracks
    (mkP true ['p'] (ncp * ncs * nmodules * nracks) cfg.coolControl 2 Rc_p)

/-- The module of `makeBattery_TestParallel` – `makeBattery.cpp:759-814`: one block. -/
def moduleTestParallel (mk : DegSel → Factors → C) (gen : Gen G) (cfg : Cfg) (RM : ℚ) :
    St G → Outcome (Built (ModuleP C)) × St G :=
  let ncp := 3
  let Rc_p_cells : ℚ := if cfg.contactR then 75 / 10000 * (1 / 1000) * RM else 0
  level (mkCell mk gen cfg deg2) ncp (mkP false ('p' :: dec 0) ncp cfg.coolControl 2 Rc_p_cells)

section batteries
variable [StorageUnit C] (mk : DegSel → Factors → C) (gen : Gen G) (cfg : Cfg) (s : St G)

/-- `makeBattery` – `makeBattery.cpp:27-172`. -/
def makeBattery (balance : Bool) : Outcome (Obj Part × Battery (ModuleP (ModuleS (ModuleS C)))) × St G :=
  mkBattery (settingsStr cfg balance ++ "_pss".toList) (module1 mk gen cfg s)

/-- `makeBattery2` – `makeBattery.cpp:174-308`. -/
def makeBattery2 (balance : Bool) : Outcome (Obj Part × Battery (ModuleS (ModuleS (ModuleP C)))) × St G :=
  mkBattery (settingsStr cfg balance ++ "_ssp".toList) (module2 mk gen cfg s)

variable (toStr : ℚ → List Char) (add : List Char) (RM : ℚ)

/-- `makeBattery_EPFL_smaller` – `makeBattery.cpp:310-447`. -/
def makeEPFLsmaller : Outcome (Obj Part × Battery (ModuleP (ModuleS (ModuleS (ModuleP C))))) × St G :=
  mkBattery (settingsStrRM toStr cfg add RM ++ "_EPFL".toList) (moduleEPFL deg3 7 3 3 2 mk gen cfg RM s)

/-- `makeBattery_EPFL` – `makeBattery.cpp:449-582`. -/
def makeEPFL : Outcome (Obj Part × Battery (ModuleP (ModuleS (ModuleS (ModuleP C))))) × St G :=
  mkBattery (settingsStrRM toStr cfg add RM ++ "_EPFL".toList) (moduleEPFL deg2 7 20 15 9 mk gen cfg RM s)

/-- `makeBattery_Test` – `makeBattery.cpp:584-717`. -/
def makeTest : Outcome (Obj Part × Battery (ModuleP (ModuleS (ModuleS (ModuleP C))))) × St G :=
  mkBattery (settingsStrRM toStr cfg add RM ++ "_EPFL".toList) (moduleEPFL deg2 3 4 2 3 mk gen cfg RM s)

/-- `makeBattery_TestParallel` – `makeBattery.cpp:719-877`. -/
def makeTestParallel : Outcome (Obj Part × Battery (ModuleP C)) × St G :=
  mkBattery (settingsStrRM toStr cfg add RM ++ "_ParTest".toList) (moduleTestParallel mk gen cfg RM s)

end batteries

/-- The number of cells a factory prints – `makeBattery.cpp:117, 258, 439, 577, 652, 787`. -/
inductive Which where
  | pss | ssp | epflSmaller | epfl | test | testParallel

/-- The printed number: constants in four factories, `getNcells()` of the pack in the two EPFL packs (`n`). -/
def announced (n : ℕ) : Which → ℕ
  | .pss => 20 * 15 * 9
  | .ssp => 9 * 15 * 20
  | .epflSmaller => n
  | .epfl => n
  | .test => 3 * 4 * 2 * 3
  | .testParallel => 3 * 4 * 2 * 3

end Pack
end Slide

import Verif.Model.Cooling

/-!
Model of the coupled thermal model (`settings::T_MODEL == 2`): `Cell_SPM::thermalModel`
(`/repo/src/cells/Cell_SPM/Cell_SPM_thermal.cpp`), `Module::thermalModel` (`/repo/src/modules/Module.cpp`) and
`Battery::thermalModel` (`/repo/src/system/Battery.cpp`).

The heat-transfer coefficient `getH()` of a cooling system (a square root of the flow speed) is an arbitrary function `H`
of the cooling system; heat generated inside the cells (`Therm_Qgen`) is an arbitrary number.  With a heat capacity of 0
the C++ code computes an infinity or a NaN, which its range checks refuse; the model throws the same error directly.
-/

namespace Slide

/-- What a unit is told about one neighbour: temperature, heat-transfer constant and area – one entry of `Tneighbours`,
`Kneighbours`, `Aneighb`. -/
structure Neigh where
  T : ℚ
  K : ℚ
  A : ℚ
  deriving DecidableEq, Repr

/-- The thermal members of `Cell_SPM` – `Cell_SPM.hpp:64-66`; `C` stands for `rho * Cp * geo.L * geo.elec_surf`, `A` for
`getThermalSurface()` (`Cell_SPM_thermal.cpp:23-32`). -/
structure ThermCell where
  T : ℚ
  A : ℚ
  C : ℚ
  Qgen : ℚ
  time : ℚ
  Qgentot : ℚ := 0
  Tmin : ℚ := 273
  Tmax : ℚ := 333
  deriving DecidableEq, Repr

namespace ThermCell

/-- The cumulative variables are reset whatever happens – `Cell_SPM_thermal.cpp:203-217`. -/
def done (c : ThermCell) : ThermCell := { c with Qgentot := c.Qgentot + c.Qgen, Qgen := 0, time := 0 }

/-- `Cell_SPM::thermalModel` with `thermalModel_coupled` – `Cell_SPM_thermal.cpp:80-168, 193-221`. -/
def thermal (c : ThermCell) (ns : List Neigh) (tim : ℚ) : Outcome ℚ × ThermCell :=
  if |c.time - tim| > 1 then (.throw 8, c.done)
  else if c.C = 0 then (.throw 9, c.done)
  else
    let etot := ns.foldl (fun e n => e + n.K * min n.A c.A * (n.T - c.T) * c.time) c.Qgen
    let t := c.T + etot / c.C
    if t > c.Tmax ∨ t < c.Tmin then (.throw 9, c.done) else (.ok t, c.done)

/-- `Cell_SPM::setT` – `Cell_SPM.cpp:546-560` (no check). -/
def setT (c : ThermCell) (t : ℚ) : ThermCell := { c with T := t }

end ThermCell

/-- `ModuleThermalParam` – `Module.hpp:25-33`. -/
structure ModTherm where
  A : ℚ
  k : ℚ
  Qcontact : ℚ := 0
  time : ℚ := 0
  deriving DecidableEq, Repr

/-- A storage unit as the thermal model sees it: an SPM cell, a cell without thermal model (`Cell_ECM`, `Cell.hpp:100-103`
and `Cell_ECM.hpp:76, 83`), or a module with its cooling system and children. -/
inductive HTree where
  | cell (c : ThermCell)
  | plain (T : ℚ)
  | module (th : ModTherm) (cool : CoolSystem) (kids : List HTree)

namespace HTree

/-- `T()` – `Cell_SPM.hpp`, `Cell_ECM.hpp`, `Module.hpp:104` (the coolant temperature). -/
def T : HTree → ℚ
  | .cell c => c.T
  | .plain t => t
  | .module _ cool _ => cool.T

/-- `getThermalSurface()` – `Cell_SPM_thermal.cpp:23-32`, `Cell_ECM.hpp:76`, `Module.hpp:106`. -/
def A : HTree → ℚ
  | .cell c => c.A
  | .plain _ => 0
  | .module th _ _ => th.A

/-- `setT` – `Cell_SPM.cpp:546`, `Cell_ECM.hpp:83`, `Module.hpp:186`. -/
def setT : HTree → ℚ → Outcome Unit × HTree
  | .cell c, t => (.ok (), .cell (c.setT t))
  | .plain _, t => (.ok (), .plain t)
  | .module th cool ks, t =>
    let r := cool.setT t
    (r.1, .module th r.2 ks)

/-- `for (i...) SUs[i]->setT(Tnew[i]);` – `Module.cpp:426-427`. -/
def setKids : List HTree → List ℚ → Outcome Unit × List HTree
  | [], _ => (.ok (), [])
  | u :: us, [] => (.ub "Tnew not set", u :: us)
  | u :: us, t :: ts =>
    match u.setT t with
    | (.ok (), u') =>
      let r := setKids us ts
      (r.1, u' :: r.2)
    | (.throw e, u') => (.throw e, u' :: us)
    | (.ub w, u') => (.ub w, u' :: us)

/-- The heat the coolant takes from the children – `Module.cpp:389-401`; `n` is the number of children, `i` the index. -/
def coolLoop (h k A Tm tim : ℚ) (n : ℕ) : ℕ → ℚ → List HTree → ℚ
  | _, e, [] => e
  | i, e, u :: us =>
    let a := min A u.A
    let e := e + h * a * (u.T - Tm) * tim
    let e := if i = 0 then e + k * a * (u.T - Tm) * tim else e
    let e := if i = n - 1 then e + k * a * (u.T - Tm) * tim else e
    coolLoop h k A Tm tim n (i + 1) e us

/-- The wrapper resets the cumulative variables whatever happens – `Module.cpp:468-481`. -/
def reset (th : ModTherm) : ModTherm := { th with Qcontact := 0, time := 0 }

/-- `settings::MODULE_NSUs_MAX` – `/repo/src/settings/settings.hpp:66`. -/
def maxKids : ℕ := 100

/-- The part of `thermalModel_coupled` after the loop over the children (`r` is the result of that loop) –
`Module.cpp:388-440`. -/
def finish (H : CoolSystem → ℚ) (th : ModTherm) (cool : CoolSystem) (n : ℕ) (ns : List Neigh) (tim : ℚ)
    (r : Outcome (List ℚ) × List HTree) : Outcome ℚ × HTree :=
  match r with
  | (.throw e, ks) => (.throw e, .module (reset th) cool ks)
  | (.ub w, ks) => (.ub w, .module (reset th) cool ks)
  | (.ok ts, ks) =>
    let ech := coolLoop (H cool) th.k th.A cool.T tim n 0 0 ks + th.Qcontact
    let etot := ns.foldl (fun e n => e + n.K * min n.A th.A * (n.T - cool.T) * tim) ech
    match cool.dstate etot ech tim with
    | (.throw e, cool') => (.throw e, .module (reset th) cool' ks)
    | (.ub w, cool') => (.ub w, .module (reset th) cool' ks)
    | (.ok t, cool') =>
      match setKids ks ts with
      | (.throw e, ks') => (.throw e, .module (reset th) cool' ks')
      | (.ub w, ks') => (.ub w, .module (reset th) cool' ks')
      | (.ok (), ks') =>
        if cool.rho * cool.cp * cool.vol = 0 ∨ t < 273 ∨ t > 273 + 75 then (.throw 99, .module (reset th) cool' ks')
        else (.ok t, .module (reset th) cool' ks')

/-- Temperature and area of the right neighbour: the next child, or the module (`m`) for the last one –
`Module.cpp:365-376`. -/
def rightOf (m : Neigh) : List HTree → ℚ × ℚ
  | [] => (m.T, m.A)
  | v :: _ => (v.T, v.A)

mutual
/-- `thermalModel(Nneighbours, Tneighbours, Kneighbours, Aneighb, tim)`: the new temperature (not set) –
`Cell_SPM_thermal.cpp:193-221`, `Cell.hpp:100-103`, `Module.cpp:306-481`. -/
def thermal (H : CoolSystem → ℚ) (ns : List Neigh) (tim : ℚ) : HTree → Outcome ℚ × HTree
  | .cell c =>
    let r := c.thermal ns tim
    (r.1, .cell r.2)
  | .plain t => (.ok t, .plain t)
  | .module th cool ks =>
    if |th.time - tim| > 1 then (.throw 98, .module (reset th) cool ks)
    else if tim = 0 then (.ok cool.T, .module (reset th) cool ks)
    else if ks.length > maxKids then (.ub "Tnew out of bounds", .module (reset th) cool ks)
    else finish H th cool ks.length ns tim (thermalKids H ⟨cool.T, H cool, th.A⟩ th.k tim (cool.T, th.A) ks)
termination_by structural u => u
/-- The loop over the children – `Module.cpp:352-386`; `m` describes the coolant, `l` is the temperature and the area of
the left neighbour (the module itself for the first child). -/
def thermalKids (H : CoolSystem → ℚ) (m : Neigh) (k tim : ℚ) (l : ℚ × ℚ) : List HTree → Outcome (List ℚ) × List HTree
  | [] => (.ok [], [])
  | u :: us =>
    let r := rightOf m us
    match thermal H [m, ⟨l.1, k, l.2⟩, ⟨r.1, k, r.2⟩] tim u with
    | (.ok t, u') =>
      match thermalKids H m k tim (u'.T, u'.A) us with
      | (.ok ts, us') => (.ok (t :: ts), u' :: us')
      | (.throw e, us') => (.throw e, u' :: us')
      | (.ub w, us') => (.ub w, u' :: us')
    | (.throw e, u') => (.throw e, u' :: us)
    | (.ub w, u') => (.ub w, u' :: us)
termination_by structural us => us
end

end HTree

/-- The thermal part of a `Battery` – `Battery.hpp:22-36`; `losses` is `conv.getLosses(V(), I())`. -/
structure BatteryTherm where
  cells : HTree
  cool : CoolSystem
  ns : ℕ
  np : ℕ

/-- `Battery::thermalModel` – `Battery.cpp:120-175`, called with `nNeigh` neighbours. -/
def BatteryTherm.thermal (H : CoolSystem → ℚ) (b : BatteryTherm) (losses : ℚ) (nNeigh : ℕ) (tim : ℚ) :
    Outcome ℚ × BatteryTherm :=
  match b.cells.thermal H [⟨b.cool.T, H b.cool, b.cells.A⟩] tim with
  | (.throw e, u) => (.throw e, { b with cells := u })
  | (.ub w, u) => (.ub w, { b with cells := u })
  | (.ok tc, u) =>
    let ech := H b.cool * b.cells.A * (u.T - b.cool.T) * tim
    let ech := ech + losses * tim
    if nNeigh ≠ 0 then (.throw 10, { b with cells := u })
    else
      match b.cool.dstate ech ech tim with
      | (.throw e, c) => (.throw e, { b with cells := u, cool := c })
      | (.ub w, c) => (.ub w, { b with cells := u, cool := c })
      | (.ok t, c) =>
        if b.cool.rho * b.cool.cp * b.cool.vol = 0 ∨ t < 273 ∨ t > 273 + 75 then
          (.throw 99, { b with cells := u, cool := c })
        else
          match u.setT tc with
          | (.throw e, u') => (.throw e, { b with cells := u', cool := c })
          | (.ub w, u') => (.ub w, { b with cells := u', cool := c })
          | (.ok (), u') =>
            match c.setT t with
            | (.ok (), c') => (.ok t, { b with cells := u', cool := c' })
            | (.throw e, c') => (.throw e, { b with cells := u', cool := c' })
            | (.ub w, c') => (.ub w, { b with cells := u', cool := c' })

end Slide

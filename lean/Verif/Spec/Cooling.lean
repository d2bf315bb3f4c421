import Verif.Model.Cooling

/-!
Specifications for the cooling systems: histories of calls, hysteresis, energy metering.
-/

namespace Slide
namespace Spec

/-- A call on a cooling system. -/
inductive CoolOp where
  | control (local_ global : ℚ)
  | setT (t : ℚ)
  | setControl (k : ℤ)
  | dstate (qtot qch t : ℚ)
  | reset

/-- Perform a call (an exception leaves what it leaves). -/
def CoolOp.run (c : CoolSystem) : CoolOp → CoolSystem
  | .control l g => c.control l g
  | .setT t => (c.setT t).2
  | .setControl k => c.setControl k
  | .dstate a b t => (c.dstate a b t).2
  | .reset => c.resetE

/-- Perform a sequence of calls. -/
def runCool (c : CoolSystem) (ops : List CoolOp) : CoolSystem := ops.foldl CoolOp.run c

/-- `f` is what a two-point controller with thresholds `lo`, `hi` and output `on` shows after seeing the
temperatures `ts`, if it showed `f0` before: the last temperature outside the dead band decides. -/
structure TwoPoint (lo hi on f0 : ℚ) (ts : List ℚ) (f : ℚ) : Prop where
  switchedOn : ∀ pre t post, ts = pre ++ t :: post → hi ≤ t → (∀ s ∈ post, lo < s ∧ s < hi) → f = on
  switchedOff : ∀ pre t post, ts = pre ++ t :: post → t ≤ lo → (∀ s ∈ post, lo < s ∧ s < hi) → f = 0
  kept : (∀ s ∈ ts, lo < s ∧ s < hi) → f = f0

/-- Energy [J] a fan with efficiency `eta` needs during `t` seconds to move the flow `q` of a fluid of density `rho`
through the cross section `a`:  ρ q³ t / (2 η a²). -/
def fanEnergy (rho eta a q t : ℚ) : ℚ := rho * q ^ 3 * t / (2 * eta * a ^ 2)

/-- Energy [J] needed to run a cooling system for `t` seconds: its fan and, for an HVAC system, the AC unit: either a
multiple of the heat (hot environment) or a second fan of twice the cross section that moves enough outside air. -/
def consumption (c : CoolSystem) (t : ℚ) : ℚ :=
  fanEnergy c.rho c.eta c.Across c.flowrate t +
    (if c.kind = .hvac then
      (if c.T < CoolSystem.T_ENV + 5 then c.COP * c.Qac * t
       else fanEnergy c.rho c.eta (2 * c.Across) (c.Qac / (c.rho * c.cp * (c.T - CoolSystem.T_ENV))) t)
     else 0)

/-! ### Trees -/

/-- What can happen to the cooling systems of a tree; the path selects a module. -/
inductive TreeOp where
  /-- the module's cooling system exchanges heat for `t` seconds -/
  | run (qtot qch t : ℚ) (path : List ℕ)
  /-- any call that neither runs nor resets the system (control, temperature) -/
  | adjust (local_ global tnew : ℚ) (path : List ℕ)
  /-- the user calls `getCoolingLoad` on the module -/
  | read (path : List ℕ)

/-- Apply `f` to the module at a path; invalid paths and cells do nothing. -/
def atPath (f : CoolTree → ℚ × CoolTree) : List ℕ → CoolTree → ℚ × CoolTree
  | [], t => f t
  | _ :: _, .cell => (0, .cell)
  | i :: p, .module c ks =>
    match ks[i]? with
    | none => (0, .module c ks)
    | some k => let r := atPath f p k; (r.1, .module c (ks.set i r.2))

/-- Run a module's cooling system; the value is the energy it consumes (0 if the call throws). -/
def runModule (qtot qch t : ℚ) : CoolTree → ℚ × CoolTree
  | .cell => (0, .cell)
  | .module c ks =>
    match c.dstate qtot qch t with
    | (.ok _, c') => (consumption c t, .module c' ks)
    | (_, c') => (0, .module c' ks)

/-- Control a module's cooling system and set its temperature. -/
def adjustModule (l g t : ℚ) : CoolTree → ℚ × CoolTree
  | .cell => (0, .cell)
  | .module c ks => (0, .module ((c.control l g).setT t).2 ks)

/-- Consumed energy, returned energy, and the tree after an operation. -/
def TreeOp.perform : TreeOp → CoolTree → ℚ × ℚ × CoolTree
  | .run a b t p, x => let r := atPath (runModule a b t) p x; (r.1, 0, r.2)
  | .adjust l g t p, x => let r := atPath (adjustModule l g t) p x; (0, 0, r.2)
  | .read p, x => let r := atPath CoolTree.load p x; (0, r.1, r.2)

/-- Totals of consumed and returned energy over a history. -/
def performAll : List TreeOp → CoolTree → ℚ × ℚ × CoolTree
  | [], x => (0, 0, x)
  | o :: os, x =>
    let r := o.perform x
    let s := performAll os r.2.2
    (r.1 + s.1, r.2.1 + s.2.1, s.2.2)

/-- No meter of the tree shows anything yet (as after construction). -/
inductive FreshTree : CoolTree → Prop
  | cell : FreshTree .cell
  | module {c : CoolSystem} {ks : List CoolTree} (h : c.Eoperate = 0) (hk : ∀ k ∈ ks, FreshTree k) :
      FreshTree (.module c ks)

end Spec
end Slide

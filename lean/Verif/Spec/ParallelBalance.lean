import Verif.Spec.UniformPack
import Verif.Spec.Parallel

/-!
# Specification: balancing of parallel cells (C149)
-/

namespace Slide.Spec

/-- Between any two points the curve rises by at least `lo` and at most `hi` volts per unit of state of charge. -/
structure CurveSlopes (f : ℚ → Option ℚ) (lo hi : ℚ) : Prop where
  pos : 0 < lo
  le : lo ≤ hi
  rise : ∀ y z v w, y ≤ z → f y = some v → f z = some w → lo * (z - y) ≤ w - v ∧ w - v ≤ hi * (z - y)

/-- Cells of the same type (resistance `R`, capacity `c`, curve `f`) in parallel without contact resistances; their states may
differ. -/
def ParallelTwins (R c : ℚ) (f : ℚ → Option ℚ) (m : ModuleP (ECM 0)) : Prop :=
  ∀ k ∈ m.kids, k.rc = 0 ∧ k.su.par.Rdc = R ∧ k.su.par.cap = c ∧ k.su.par.ocv = f

/-- All cells read a positive voltage. -/
def Reading (m : ModuleP (ECM 0)) : Prop := ∀ k ∈ m.kids, 0 < k.su.V

/-- The voltages of the cells are valid and differ by less than a nanovolt. -/
def EqualVoltages (m : ModuleP (ECM 0)) : Prop :=
  Reading m ∧ Agree (1 / 1000000000) (m.kids.map fun k => k.su.V)

/-- The operations are carried out: every requested current leaves the voltages equal, every simulation succeeds and leaves the
cells with a valid voltage. -/
def CarriedOut : List UseOp → ModuleP (ECM 0) → Prop
  | [], _ => True
  | .ask i :: os, m => EqualVoltages (UseOp.perform 1 (.ask i) m).2 ∧ CarriedOut os (UseOp.perform 1 (.ask i) m).2
  | .simulate dt n :: os, m => (UseOp.perform 1 (.simulate dt n) m).1 = .ok true ∧
      Reading (UseOp.perform 1 (.simulate dt n) m).2 ∧ CarriedOut os (UseOp.perform 1 (.simulate dt n) m).2

/-- The factor by which differences shrink: `1 - lo * t / (R * C)` for every simulation of `t` seconds, with `C = 3600 * c`
coulombs per unit of state of charge. -/
def remaining (R c lo : ℚ) : List UseOp → ℚ
  | [] => 1
  | .ask _ :: os => remaining R c lo os
  | .simulate dt n :: os => (1 - lo * (n * dt / (3600 * c * R))) * remaining R c lo os

/-- No simulation without equalisation is longer than `R * C / hi`. -/
def ShortSimulations (R c hi : ℚ) (ops : List UseOp) : Prop :=
  ∀ dt n, UseOp.simulate dt n ∈ ops → hi * (n * dt / (3600 * c * R)) ≤ 1

/-- Any two cells of the module differ by at most `D` in state of charge. -/
def WithinSOC (D : ℚ) (m : ModuleP (ECM 0)) : Prop := ∀ a ∈ m.kids, ∀ b ∈ m.kids, |a.su.st.SOC - b.su.st.SOC| ≤ D

end Slide.Spec

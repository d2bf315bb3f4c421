import Verif.Spec.Parallel

/-!
# Specification: the currents of an electrical circuit of branches in parallel (C155)

Independent of the module's own functions: a branch is a voltage source with a series resistance; the branches hang on a
ladder whose rungs are separated by contact resistances.
-/

namespace Slide.Spec

/-- A branch: source voltage, resistance, and the contact resistance between this branch and its neighbour on the side of the
terminal. -/
structure Arm where
  emf : ℚ
  res : ℚ
  rc : ℚ

/-- Kirchhoff's laws, walking away from the terminal, which is at voltage `v`: the contact carries the current of this branch
and of all branches behind it, so the node behind it is at `v + rc * (i + is.sum)`; that is the voltage of the branch, and the
remaining branches hang on this node. -/
def Kirchhoff : ℚ → List Arm → List ℚ → Prop
  | _, [], [] => True
  | v, a :: as, i :: is =>
    a.emf - a.res * i = v + a.rc * (i + is.sum) ∧ Kirchhoff (v + a.rc * (i + is.sum)) as is
  | _, _, _ => False

/-- All branches have a resistance of at least `R`, and no contact resistance is negative. -/
def AtLeast (R : ℚ) (as : List Arm) : Prop := ∀ a ∈ as, R ≤ a.res ∧ 0 ≤ a.rc

/-- Resistance of the circuit between its terminals, by the rules for resistances in series and in parallel. -/
def circuitR : List Arm → ℚ
  | [] => 0
  | [a] => a.rc + a.res
  | a :: b :: as => a.rc + 1 / (1 / a.res + 1 / circuitR (b :: as))

/-- Voltage of the circuit without a load: every junction is at the average of its two sides, weighted by conductance. -/
def circuitE : List Arm → ℚ
  | [] => 0
  | [a] => a.emf
  | a :: b :: as => (a.emf / a.res + circuitE (b :: as) / circuitR (b :: as)) / (1 / a.res + 1 / circuitR (b :: as))

/-- An equivalent-circuit cell is a source of voltage `e` behind a resistance `r`: the source voltage is the open-circuit
voltage at its state of charge less the voltages of its RC pairs. -/
def CellSource {n : ℕ} (c : ECM n) (e r : ℚ) : Prop :=
  ∃ o, c.par.ocv c.st.SOC = some o ∧ e = o - ∑ j, c.par.Rp j * c.st.Ir j ∧ r = c.par.Rdc

/-- A string of such cells: all carry the current of the string and read a positive voltage; source voltages and resistances,
those of the contacts included, add up. -/
def StringSource {n : ℕ} (m : ModuleS (ECM n)) (e r : ℚ) : Prop :=
  ∃ as : List Arm, List.Forall₂ (fun k a => CellSource k.su a.emf a.res ∧ k.rc = a.rc ∧
      k.su.st.I = StorageUnit.I m ∧ 0 < a.emf - a.res * k.su.st.I) m.kids as ∧
    e = (as.map Arm.emf).sum ∧ r = (as.map fun a => a.res + a.rc).sum

/-- The circuit of a parallel module whose branches are sources in the sense of `P`. -/
def IsCircuit {U : Type} (P : U → ℚ → ℚ → Prop) (ks : List (Kid U)) (as : List Arm) : Prop :=
  List.Forall₂ (fun k a => P k.su a.emf a.res ∧ k.rc = a.rc) ks as

/-- The branches at currents `is` and the terminal voltage `V` behave as the circuit does under the same total current: the
circuit has exactly one distribution of that current, every branch is within `tol / R` of it, and the terminal voltage is
that of the loaded circuit up to `tol` times the ratio of the first branch's resistance to `R`. -/
def FollowsCircuit (tol R V : ℚ) (is : List ℚ) (as : List Arm) : Prop :=
  ∃ js, (∀ v js', Kirchhoff v as js' ∧ js'.sum = is.sum ↔ v = circuitE as - circuitR as * is.sum ∧ js' = js) ∧
    List.Forall₂ (fun i j => |i - j| ≤ tol / R) is js ∧
    ∀ a ∈ as.head?, |V - (circuitE as - circuitR as * is.sum)| ≤ a.res * (tol / R)

end Slide.Spec

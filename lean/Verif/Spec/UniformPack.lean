import Verif.Model.Modules

/-!
Vocabulary for C139: packs that consist of copies of one cell, and the operations performed on them.
-/

namespace Slide.Spec
open StorageUnit

/-- The pack consists of copies of the cell `c` (same parameters, same state), connected without contact resistances in
the same way everywhere: `s` cells between the terminals in series, `p` in parallel; at most 100 units per module. -/
def UniformPack {C : Type} (c : C) : (d : ℕ) → ℕ → ℕ → Tree C d → Prop
  | 0, s, p, t => t = c ∧ s = 1 ∧ p = 1
  | _ + 1, s, p, .cell x => x = c ∧ s = 1 ∧ p = 1
  | d + 1, s, p, .series m => ∃ N s' t, 1 ≤ N ∧ N ≤ 100 ∧ s = N * s' ∧ m.kids = List.replicate N ⟨0, t⟩ ∧
      UniformPack c d s' p t
  | d + 1, s, p, .parallel m => ∃ N p' t, 1 ≤ N ∧ N ≤ 100 ∧ p = N * p' ∧ m.kids = List.replicate N ⟨0, t⟩ ∧
      UniformPack c d s p' t

/-- Operations on a unit: ask for a current (with the voltage check), or simulate `n` steps of `dt` seconds. -/
inductive UseOp where
  | ask (i : ℚ)
  | simulate (dt : ℚ) (n : ℕ)

/-- The operation performed on a unit that takes `p` times the current.  The outcome tells whether a current was accepted. -/
def UseOp.perform {U : Type} [StorageUnit U] (p : ℚ) : UseOp → U → Outcome Bool × U
  | .ask i, u =>
    match setCurrent u (p * i) true with
    | (.ok st, u') => (.ok !st.isBad, u')
    | (.throw e, u') => (.throw e, u')
    | (.ub w, u') => (.ub w, u')
  | .simulate dt n, u =>
    match timeStep u dt n with
    | (.ok (), u') => (.ok true, u')
    | (.throw e, u') => (.throw e, u')
    | (.ub w, u') => (.ub w, u')

/-- A history: the outcomes of all operations and the unit at the end. -/
def useAll {U : Type} [StorageUnit U] (p : ℚ) : List UseOp → U → List (Outcome Bool) × U
  | [], u => ([], u)
  | o :: os, u =>
    let r := o.perform p u
    let q := useAll p os r.2
    (r.1 :: q.1, q.2)

/-- What is read at the terminals of the pack, compared with the cell. -/
structure ScaledReadings {C : Type} [StorageUnit C] (c : C) (d s p : ℕ) (t : Tree C d) : Prop where
  voltage : 0 < V c → V t = s * V c
  current : I t = p * I c
  capacity : Cap t = p * Cap c
  openCircuit : OCV t = (OCV c).map fun v => (s : ℚ) * v
  resistance : Rtot t = s * Rtot c / p
  number : nCells t = s * p * nCells c
  Vmin : (lim t).Vmin = s * (lim c).Vmin
  Vmax : (lim t).Vmax = s * (lim c).Vmax
  VMIN : (lim t).VMIN = s * (lim c).VMIN
  VMAX : (lim t).VMAX = s * (lim c).VMAX
  status : 0 ≤ (StorageUnit.checkVoltage c).code → StorageUnit.checkVoltage t = StorageUnit.checkVoltage c

end Slide.Spec

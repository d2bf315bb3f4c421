import Verif.Spec.Cycler

/-!
# What a cycler records (C124), and whether recording changes what happens (C125)

The log of a cycler is the list of its calls `storeData` (with the unit at that moment) and `writeData` on the unit.
-/

namespace Slide.Spec
open StorageUnit

variable {U : Type}

/-- The data points `l` were recorded between `c` and `c'`, in this order. -/
def RecordsBetween (c c' : Cyc U) (l : List U) : Prop := ∃ es, c'.log = c.log ++ es ∧ stored es = l

/-- `u` is a unit in which `t` seconds have been simulated since `u0`. -/
def After [StorageUnit U] [Clocked U] (u0 : U) (t : ℚ) (u : U) : Prop :=
  Clocked.clocks u = (Clocked.clocks u0).map fun s => s + t

/-- Moments of recording during a phase of `T` seconds, after a record at `p`: each is at least `g` after the one before, or
is the end of the phase; at most `G` after the one before; and the phase does not last `g` longer after the last one. -/
def Spaced (g G T : ℚ) : ℚ → List ℚ → Prop
  | p, [] => p ≤ T ∧ T < p + g
  | p, t :: ts => p < t ∧ t ≤ p + G ∧ (p + g ≤ t ∨ t = T) ∧ Spaced g G T t ts

/-- The records of a phase of `T` seconds: one of the unit at the start, one of the unit at the end, and in between units at
moments spaced by `g` to `G` seconds. -/
def PhaseRecorded [StorageUnit U] [Clocked U] (g G T : ℚ) (c c' : Cyc U) : Prop :=
  ∃ mid ts, RecordsBetween c c' (c.su :: (mid ++ [c'.su])) ∧ List.Forall₂ (After c.su) ts mid ∧ Spaced g G T 0 ts ∧
    After c.su T c'.su

/-- C124, full statement (as documented for `rest`): with `ndt ≤ 0` nothing is recorded; otherwise the unit is recorded at the
beginning, at the end, and every `ndt*dt` seconds in between. -/
def RestRecordsAsDocumented (U : Type) [StorageUnit U] [Clocked U] : Prop :=
  ∀ (fuel : ℕ) (c c' : Cyc U) (tlim dt : ℚ) (ndt : ℤ) (th th' : Thr), 0 < dt → 0 ≤ tlim →
    c.rest fuel tlim dt ndt th = (.ok .ReachedTimeLimit, c', th') →
    (ndt ≤ 0 → c'.log = c.log) ∧ (0 < ndt → PhaseRecorded (ndt * dt) (ndt * dt) tlim c c')

/-- Data points held in memory after the calls, with `n` before. -/
def held : ℕ → List (Ev U) → ℕ
  | n, [] => n
  | n, .store _ :: l => held (n + 1) l
  | _, .write :: l => held 0 l

/-- With `n` data points in memory before: never more than 100000 are held, and they are written exactly when another one is
to be stored and the memory is full. -/
def WrittenWhenFull : ℕ → List (Ev U) → Prop
  | _, [] => True
  | n, .store _ :: l => n < 100000 ∧ WrittenWhenFull (n + 1) l
  | n, .write :: l => n = 100000 ∧ WrittenWhenFull 0 l

/-- What a cycler does to its log in a call: data points and exports are appended; its count of the points in memory stays
right, and it exports when the memory is full and only then. -/
def LogsWell (c c' : Cyc U) : Prop :=
  ∃ es, c'.log = c.log ++ es ∧ c'.index = held c.index es ∧
    (c.index ≤ 100000 → WrittenWhenFull c.index es ∧ c'.index ≤ 100000)

/-- Same result, same unit, same report. -/
def SameBut {A : Type} (a b : A × Cyc U × Thr) : Prop := a.1 = b.1 ∧ a.2.1.su = b.2.1.su ∧ a.2.2 = b.2.2

/-- C125, full statement: whether and how often data is recorded makes no difference to what happens. -/
def RecordingHarmless (U : Type) [StorageUnit U] [VoltageUnit U] : Prop :=
  ∀ (fuel : ℕ) (c : Cyc U) (ndt : ℤ) (th : Thr),
    (∀ tlim dt, SameBut (c.rest fuel tlim dt ndt th) (c.rest fuel tlim dt 0 th)) ∧
    (∀ I vlim tlim dt, SameBut (c.CC fuel I vlim tlim dt ndt th) (c.CC fuel I vlim tlim dt 0 th)) ∧
    (∀ Vset Ilim tlim dt, SameBut (c.CV Vset Ilim tlim dt ndt th) (c.CV Vset Ilim tlim dt 0 th)) ∧
    (∀ I Vset Ilim tlim dt, SameBut (c.CCCVt fuel I Vset Ilim tlim dt ndt th) (c.CCCVt fuel I Vset Ilim tlim dt 0 th))

end Slide.Spec

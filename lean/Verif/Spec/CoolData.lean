import Verif.Model.CoolData
import Verif.Spec.Cooling
import Verif.Spec.Containers

/-!
What the recording of a cooling system should contain, in terms of the cooling system without recording: the lifetime
meters (heat from the children, energy of the fan, time) read at the moments the data is stored.
-/

namespace Slide
namespace Spec

/-- Calls on a cooling system with recording. -/
inductive CRecOp where
  | sys (o : CoolOp)
  | store (n : ℕ)
  | write (canOpen : Bool)

/-- The state after a call. -/
def CRecOp.run (mode : ℕ) (c : CoolRec) : CRecOp → CoolRec
  | .sys (.dstate a b t) => (c.dstate a b t).2
  | .sys o => { c with sys := o.run c.sys }
  | .store n => (c.store mode n).2
  | .write b => (c.write mode b).2

def runCRec (mode : ℕ) (c : CoolRec) (ops : List CRecOp) : CoolRec := ops.foldl (CRecOp.run mode) c

/-- A system that has not exchanged heat yet. -/
def FreshSys (c : CoolSystem) : Prop := c.Qevac = 0 ∧ c.E = 0 ∧ c.tLife = 0

/-- The data-collection intervals of a history: the system (without recording) at the beginning and at the end of each.
An interval ends when data is stored and time has passed. -/
def intervals (p c : CoolSystem) : List CRecOp → List (CoolSystem × CoolSystem)
  | [] => []
  | .sys o :: ops => intervals p (o.run c) ops
  | .store _ :: ops => if c.tLife = p.tLife then intervals p c ops else (p, c) :: intervals c c ops
  | .write _ :: ops => intervals p c ops

/-- Mean cooling power and mean fan power of an interval. -/
def meanQ (i : CoolSystem × CoolSystem) : ℚ := (i.2.Qevac - i.1.Qevac) / (i.2.tLife - i.1.tLife)
def meanE (i : CoolSystem × CoolSystem) : ℚ := (i.2.E - i.1.E) / (i.2.tLife - i.1.tLife)

/-- The data point of an interval. -/
def meanPoint (i : CoolSystem × CoolSystem) : CoolPoint := ⟨i.2.tLife, meanQ i, meanE i, i.2.flowrate⟩

/-- The systems at the moments data is stored, once time has passed. -/
def storedSys (c : CoolSystem) : List CRecOp → List CoolSystem
  | [] => []
  | .sys o :: ops => storedSys (o.run c) ops
  | .store _ :: ops => if c.tLife = 0 then storedSys c ops else c :: storedSys c ops
  | .write _ :: ops => storedSys c ops

/-- The rows written and still to be written. -/
def allRows (c : CoolRec) : List Tok := c.file ++ c.points.flatMap CoolRec.row

/-- Instantaneous data: one row per interval with the means of this interval, whenever the data is written. -/
def PointsAreIntervalMeans : Prop :=
  ∀ c0 n r ops, FreshSys c0 → CoolRec.init 2 c0 n = .ok r →
    allRows (runCRec 2 r ops) = (intervals c0 c0 ops).flatMap fun i => CoolRec.row (meanPoint i)

/-- Every call to store is for the right number of cells. -/
def StoresFor (n : ℕ) (ops : List CRecOp) : Prop := ∀ k, CRecOp.store k ∈ ops → k = n

/-- A histogram over `lo .. hi` with 100 bins holds exactly the samples. -/
def Holds (h : Histogram) (lo hi : ℚ) (xs : List ℚ) : Prop :=
  h.xMin = lo ∧ h.xMax = hi ∧ h.bins.length = 102 ∧ ∀ i < 102, h.bins[i]? = some (binCount lo hi 100 xs i)

/-- Range of the fan power [W per cell]: twice the power at 110 % of the design flow. -/
def eRange : ℚ := 2 * fanEnergy (49 / 40) (1 / 2) (1 / 40000) (11 / 20000) 1

/-- No sample of a history is absurdly far outside the ranges. -/
def Moderate (n : ℕ) (is : List (CoolSystem × CoolSystem)) : Prop :=
  ∀ i ∈ is, NotHuge 0 5 100 (meanQ i / n) ∧ NotHuge 0 eRange 100 (meanE i / n) ∧ NotHuge 273 373 100 i.2.T ∧
    NotHuge 0 (11 / 20000) 100 (i.2.flowrate / n)

/-- The system without recording after a history. -/
def runPlain (c : CoolSystem) : List CRecOp → CoolSystem
  | [] => c
  | .sys o :: ops => runPlain (o.run c) ops
  | _ :: ops => runPlain c ops

/-- The system at the beginning of the interval that is not finished after a history. -/
def intervalStart (p c : CoolSystem) : List CRecOp → CoolSystem
  | [] => p
  | .sys o :: ops => intervalStart p (o.run c) ops
  | .store _ :: ops => if c.tLife = p.tLife then intervalStart p c ops else intervalStart c c ops
  | .write _ :: ops => intervalStart p c ops

/-- A histogram file starts with the number of cells and the total energy of the fan [J]. -/
def PrintsTotalEnergy : Prop :=
  ∀ c0 n r ops r', FreshSys c0 → CoolRec.init 1 c0 n = .ok r → 0 < n → StoresFor n ops →
    Moderate n (intervals c0 c0 ops) → (runCRec 1 r ops).write 1 true = (.ok (), r') →
    ∃ rest, r'.file = (runCRec 1 r ops).file ++
      [.num n, .nl, .num (fmt6 (runPlain c0 ops).E), .nl] ++ rest

/-- The air conditioning of an HVAC system is recorded as often as its fan. -/
def ACPointsRecorded : Prop :=
  ∀ c0 n r ops, FreshSys c0 → c0.kind = .hvac → CoolRec.init 2 c0 n = .ok r → (∀ b, CRecOp.write b ∉ ops) →
    (runCRec 2 r ops).acPoints.length = (runCRec 2 r ops).points.length

/-- The check-up document shows a histogram with one sample per interval for the air conditioning. -/
def ACHistogramsRecorded : Prop :=
  ∀ c0 n r ops, FreshSys c0 → c0.kind = .hvac → CoolRec.init 1 c0 n = .ok r → 0 < n → StoresFor n ops →
    Moderate n (intervals c0 c0 ops) →
    ∀ h, ("Eac", h) ∈ (runCRec 1 r ops).checkHist → h.bins.sum = (intervals c0 c0 ops).length

end Spec
end Slide

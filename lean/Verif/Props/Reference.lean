import Verif.Lemmas.Reference2

/-! C119: a single-particle cell does not depend on the reference electrode its potentials are measured against. -/

namespace Slide
open Spec SPM

variable {N : ℕ}

theorem against_after (x : ℚ) (c : SPM N) (o : SpmOp N) :
    spmAnswer (against x c) o = spmAnswer c o ∧ spmAfter (against x c) o = against x (spmAfter c o) := by
  cases o with
  | readV => exact ⟨congrArg _ (congrArg Prod.fst (against_V x c)), congrArg Prod.snd (against_V x c)⟩
  | setCurrent i b =>
    exact ⟨congrArg _ (congrArg Prod.fst (against_setCurrent x c i b)), congrArg Prod.snd (against_setCurrent x c i b)⟩
  | setSOC s b =>
    exact ⟨congrArg _ (congrArg Prod.fst (against_setSOC x c s b)), congrArg Prod.snd (against_setSOC x c s b)⟩
  | setT t => exact ⟨rfl, rfl⟩
  | setTenv t =>
    exact ⟨congrArg _ (congrArg Prod.fst (against_setTenv x c t)), congrArg Prod.snd (against_setTenv x c t)⟩
  | setC fp fn =>
    exact ⟨congrArg _ (congrArg Prod.fst (against_setC x c fp fn)), congrArg Prod.snd (against_setC x c fp fn)⟩
  | setStates s b =>
    exact ⟨congrArg _ (congrArg Prod.fst (against_setStates x c s b)), congrArg Prod.snd (against_setStates x c s b)⟩
  | setStateObj st => exact ⟨rfl, rfl⟩
  | step dt n =>
    exact ⟨congrArg _ (congrArg Prod.fst (against_timeStep x c dt n)), congrArg Prod.snd (against_timeStep x c dt n)⟩
  | block b => exact ⟨rfl, rfl⟩
  | overwriteChar a b r => exact ⟨rfl, rfl⟩
  | overwriteGeo a b e f g h => exact ⟨rfl, rfl⟩
  | setGeometric a b e f g h => exact ⟨rfl, rfl⟩
  | setCharacterisation a b e f g => exact ⟨rfl, rfl⟩

/-- C119: whatever is done with a single-particle cell – currents, time steps with all ageing and thermal models, saving
and restoring, re-parametrisation –, measuring all potentials against another electrode changes no answer and no state. -/
theorem reference_irrelevant (x : ℚ) (ops : List (SpmOp N)) : ∀ c : SPM N,
    spmAnswers (against x c) ops = spmAnswers c ops ∧ spmRun (against x c) ops = against x (spmRun c ops) ∧
    (spmRun (against x c) ops).st = (spmRun c ops).st := by
  induction ops with
  | nil => intro c; exact ⟨rfl, rfl, rfl⟩
  | cons o os ih =>
    intro c
    obtain ⟨h1, h2⟩ := against_after x c o
    obtain ⟨i1, i2, i3⟩ := ih (spmAfter c o)
    refine ⟨?_, ?_, ?_⟩
    · show spmAnswer (against x c) o :: spmAnswers (spmAfter (against x c) o) os = _
      rw [h1, h2, i1]; rfl
    · show spmRun (spmAfter (against x c) o) os = _
      rw [h2]; exact i2
    · show (spmRun (spmAfter (against x c) o) os).st = _
      rw [h2]; exact i3

/-- C119: nor the open-circuit voltage. -/
theorem reference_ocv (x : ℚ) (c : SPM N) : (against x c).getOCV = c.getOCV := against_getOCV x c

/-- C119: the constructor makes the same cell against either reference. -/
theorem reference_build (x : ℚ) (c : SPM N) (deg : DegSel) (capf resf fsei flam : ℚ) :
    (against x c).build deg capf resf fsei flam = against x (c.build deg capf resf fsei flam) := rfl

/-- A growing, positive function with rational values, in the role of the exponential function. -/
def growing (x : ℚ) : ℚ := if x ≤ 0 then 1 / (1 - x) else 1 + x

/-- A cell in which every process that knows a potential is at work. -/
def spmPot : SPM 1 :=
  { spm1 with
    par := { spm1.par with
      exp := growing,
      sei := ⟨1 / 10000, 1, 1 / 10000, 1, 1, 1, 1 / 10000, 1, 1, 1, 1 / 10000, 1, 1, 1, 1⟩,
      pl := { spm1.par.pl with k := 1 / 10000 }, lam := { spm1.par.lam with k3 := 1 / 10000000 },
      cs := { spm1.par.cs with k5 := 1 / 1000000000 } },
    st := { spm1.st with zn := fun _ => 3 / 2 },
    deg := { spm1.deg with SEI := [1, 2, 3, 4], CS := [5], LAM := [3], pl := 1 } }

/-- The sequence runs, and the cell ages by every process. -/
example : let ops : List (SpmOp 1) := [.setCurrent (-1 / 100) true, .step (1 / 1000000) 1, .readV]
    let d := spmRun spmPot ops
    spmAnswers spmPot ops = [.status (.ok .Success), .done (.ok ()), .voltage (.ok d.st.V)] ∧
    spmPot.st.delta < d.st.delta ∧ spmPot.st.CS < d.st.CS ∧ d.st.ep < spmPot.st.ep ∧
    spmPot.st.deltaPl < d.st.deltaPl := by decide +kernel

/-- Shifting only one of the potentials does matter, for each of them. -/
example : let p := spmPot.par
    let ageing := fun q : SpmPar 1 => (spmRun ({ spmPot with par := q } : SPM 1) [.step (1 / 1000000) 1]).st
    (ageing { p with OCVsei := p.OCVsei + 1 }).delta ≠ (ageing p).delta ∧
    (ageing { p with OCVpl := p.OCVpl + 1 }).deltaPl ≠ (ageing p).deltaPl ∧
    (ageing { p with OCVnmc := p.OCVnmc - 1 }).ep ≠ (ageing p).ep ∧
    ({ spmPot with par := { p with ocvN := fun z => (p.ocvN z).map (· + 1) } } : SPM 1).V.1 ≠ spmPot.V.1 ∧
    ({ spmPot with par := { p with ocvP := fun z => (p.ocvP z).map (· + 1) } } : SPM 1).V.1 ≠ spmPot.V.1 := by
  decide +kernel

end Slide

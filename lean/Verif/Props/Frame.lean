import Verif.Lemmas.EcmLaws
import Verif.Props.ParallelEq

/-!
C53 (setting a current or a voltage changes nothing but cell currents) and C54 (a time step of a tree steps every
cell exactly once), for trees of any depth.
-/

namespace Slide
open StorageUnit Spec

variable {n : ℕ}

/-- C53: setting the current of any tree – checked or not, accepted, rejected, throwing or undefined – changes
nothing but cell currents: shape, contact resistances, temperatures, SOC, RC currents and all counters stay. -/
theorem tree_setCurrent_only_current (d : ℕ) (t : Tree (ECM n) d) (i : ℚ) (b : Bool) :
    CellWise OnlyCurrent d t (setCurrent t i b).2 :=
  cells_setCurrent_only d t i b

/-- C53: setting the voltage of any tree changes nothing but cell currents. -/
theorem tree_setVoltage_only_current (d : ℕ) (t : Tree (ECM n) d) (v : ℚ) :
    CellWise OnlyCurrent d t (VoltageUnit.setVoltage t v).2 :=
  cells_setVoltage_only d t v

/-- C53: re-equalising the branches of a parallel module changes nothing but cell currents. -/
theorem tree_redistribute_only_current (d : ℕ) (m : ModuleP (Tree (ECM n) d)) :
    CellWise (C := ECM n) OnlyCurrent (d + 1) (.parallel m) (.parallel m.redistribute.2) :=
  cells_redistribute_only d m

/-- C54: an accepted time step of any tree steps every cell exactly once, at the current it had before the call;
the later re-equalisation of parallel modules only changes currents. -/
theorem tree_timeStep_steps_cells (d : ℕ) (t : Tree (ECM n) d) (dt : ℚ) (k : ℕ) (h : (timeStep t dt k).1 = .ok ()) :
    CellWise (Stepped dt k) d t (timeStep t dt k).2 :=
  cellWise_trans (Q := Eq) (fun _ _ _ h1 h2 => h2 ▸ h1.2) d (cells_timeStep_steps d t dt k h) (cellWise_refl (fun _ => rfl) d _)

/-- C54, in numbers: after an accepted time step of any tree every cell – in order – has its clock advanced by
`k*dt`, its charge throughput by `|I|*k*dt/3600` and its SOC lowered by `I*k*dt/3600/capacity`, with `I` its
current before the call, and its parameters and temperature are unchanged. -/
theorem tree_timeStep_cells (d : ℕ) (t : Tree (ECM n) d) (dt : ℚ) (k : ℕ) (h : (timeStep t dt k).1 = .ok ())
    (hdt : 0 ≤ dt) :
    List.Forall₂ (fun a b : ECM n => b.par = a.par ∧ b.st.T = a.st.T ∧ b.st.time = a.st.time + k * dt ∧
        b.st.Ah = a.st.Ah + |a.st.I| * (k * dt) / 3600 ∧ b.st.SOC = a.st.SOC - a.st.I * (k * dt) / 3600 / a.par.cap)
      (cells d t) (cells d (timeStep t dt k).2) := by
  refine List.Forall₂.imp ?_ (cellWise_cells d (tree_timeStep_steps_cells d t dt k h))
  intro a b hab
  obtain ⟨i, hi⟩ := (onlyCurrent_iff _ _).mp hab
  have hstep : (timeStep a dt k).2 = a.steps dt k := by
    show (ECM.timeStep a dt k).2 = _
    unfold ECM.timeStep
    rw [if_neg (not_lt.mpr hdt)]
  rw [hstep] at hi
  subst hi
  refine ⟨by simp, by simp [ECM.withI], ?_, ?_, ?_⟩
  · show (a.steps dt k).st.time = _
    rw [ECM.steps_time]
  · show (a.steps dt k).st.Ah = _
    rw [ECM.steps_Ah, abs_mul, abs_of_nonneg (by positivity : (0:ℚ) ≤ dt / 3600)]
    ring
  · show (a.steps dt k).st.SOC = _
    rw [ECM.steps_SOC]
    ring

/-- Non-vacuity: a series module of a cell and a parallel module (itself with one branch) accepts a time step. -/
example : ∃ (t : Tree (ECM 0) 2), (cells 2 t).length = 2 ∧ (timeStep t 2 3).1 = .ok () := by
  let c : ECM 0 := ⟨⟨16, 1/1000, fun _ => 0, fun _ => 0, ECM.defaultOCV⟩, ⟨293, 1/2, 1, fun _ => 0, 0, 0, 0⟩⟩
  refine ⟨(.series ⟨293, [⟨0, .cell c⟩, ⟨0, .parallel ⟨293, [⟨0, c⟩]⟩⟩]⟩ : Node _ _), rfl, ?_⟩
  show (ModuleS.timeStep _ 2 3).1 = _
  unfold ModuleS.timeStep
  rw [if_neg (by norm_num)]
  have h1 : timeStep (U := Tree (ECM 0) 1) (.cell c) 2 3 = (.ok (), .cell (c.steps 2 3)) := by
    show ((ECM.timeStep c 2 3).1, Node.cell (ECM.timeStep c 2 3).2) = _
    unfold ECM.timeStep
    rw [if_neg (by norm_num)]
    rfl
  have h0 : timeStep (U := Tree (ECM 0) 0) c 2 3 = (.ok (), c.steps 2 3) := by
    show ECM.timeStep c 2 3 = _
    unfold ECM.timeStep
    rw [if_neg (by norm_num)]
  have h2 : timeStep (U := Tree (ECM 0) 1) (.parallel ⟨293, [⟨0, c⟩]⟩) 2 3 =
      (.ok (), .parallel ⟨293, [⟨0, c.steps 2 3⟩]⟩) := by
    show ((ModuleP.timeStep (U := Tree (ECM 0) 0) ⟨293, [⟨0, c⟩]⟩ 2 3).1,
      Node.parallel (ModuleP.timeStep (U := Tree (ECM 0) 0) ⟨293, [⟨0, c⟩]⟩ 2 3).2) = _
    unfold ModuleP.timeStep
    rw [if_neg (by norm_num)]
    simp [stepKids, h0, ModuleP.redistribute]; rfl
  simp [stepKids, h1, h2]

end Slide

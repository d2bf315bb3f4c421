import Verif.Props.CyclerCV

/-!
C24: the capacity test.
-/

namespace Slide
open StorageUnit Spec Cyc

variable {n : ℕ}

/-- C24 as documented: a capacity test leaves the unit as it was. -/
def CapacityTestRestores : Prop :=
  ∀ (fuel : ℕ) (c c' : Cyc (ECM 0)) (Ah Ah' ttot ttot' q : ℚ),
    testCapacity fuel c Ah ttot = (.ok q, c', Ah', ttot') → c'.su.st = c.su.st

/-- A cell with a steep OCV curve: 1 V per second at C/25. -/
def steepCell : ECM 0 := ⟨⟨1, 0, fun _ => 0, fun _ => 0, fun s => some (7/2 + (s - 1/2) * 90000)⟩,
  ⟨293, 1/2, 0, fun _ => 0, 0, 0, 0⟩⟩

/-- C24 is false of the code: after a successful test of this cell (3 s of charging and discharging) its state of
charge, current and counters are those at the end of the discharge. -/
theorem capacityTest_not_restored : ¬ CapacityTestRestores := by
  intro hall
  have h1 : (testCapacity 10 { su := steepCell } 0 0).1 = .ok (2/90000) := by decide +kernel
  have h2 : (testCapacity 10 { su := steepCell } 0 0).2.1.su.st.SOC = 1/2 - 1/90000 := by decide +kernel
  have := hall 10 { su := steepCell } _ 0 _ 0 _ _ (Prod.ext h1 rfl)
  rw [this] at h2
  norm_num [steepCell] at h2

/-- C24, what does hold: when the charge or the discharge does not reach its voltage limit, the test reports capacity
0 and the unit – any tree with valid states – is restored completely. -/
theorem capacityTest_failure_restores_partial (d fuel : ℕ) (c : Cyc (Tree (ECM n) d)) (Ah ttot : ℚ)
    (hv : ValidStates d c.su) :
    (∀ st c1 th1, CC fuel c (-(1/25) * Cap c.su) (lim c.su).Vmax TIME_INF 1 0 Thr.zero = (.ok st, c1, th1) →
      st ≠ .ReachedVoltageLimit →
      testCapacity fuel c Ah ttot = (.ok 0, { c1 with su := c.su }, Ah, ttot + th1.time)) ∧
    (∀ c1 th1 st c2 th2, CC fuel c (-(1/25) * Cap c.su) (lim c.su).Vmax TIME_INF 1 0 Thr.zero =
        (.ok .ReachedVoltageLimit, c1, th1) →
      CC fuel c1 (1/25 * Cap c.su) (lim c1.su).Vmin TIME_INF 1 0 Thr.zero = (.ok st, c2, th2) →
      st ≠ .ReachedVoltageLimit →
      testCapacity fuel c Ah ttot = (.ok 0, { c2 with su := c.su }, Ah, ttot + th1.time + th2.time)) :=
  lawful_capacityTest_failure fuel c Ah ttot (valid_of_validStates d c.su hv)

/-- Non-vacuity: a cell whose voltage cannot reach 4.2 V makes the test fail (here: its OCV lookup stops working). -/
example : (CC 10 { su := { steepCell with par := { steepCell.par with ocv := fun s => if s ≤ 1/2 then some 3 else none } } }
    (-(1/25) * 1) (42/10) TIME_INF 1 0 Thr.zero).1 = .ok .V_not_calculated ∧ ValidStates 0 (n := 0) steepCell := by
  refine ⟨by decide +kernel, ?_⟩
  norm_num [ValidStates, steepCell]

/-- C24: what a successful test leaves behind, on every series string without individual voltage checks: the charge
throughput counter of every cell has grown by exactly the reported charge – so the unit is *not* as before whenever
any charge was moved. -/
theorem capacityTest_success_leaves_charge (d fuel : ℕ) (c c1 c2 : Cyc (Tree (ECM n) d)) (Ah ttot : ℚ) (th1 th2 : Thr)
    (hs : SeriesString d c.su) (hdiag : c.diagnostic = false)
    (h1 : CC fuel c (-(1/25) * Cap c.su) (lim c.su).Vmax TIME_INF 1 0 Thr.zero = (.ok .ReachedVoltageLimit, c1, th1))
    (h2 : CC fuel c1 (1/25 * Cap c.su) (lim c1.su).Vmin TIME_INF 1 0 Thr.zero = (.ok .ReachedVoltageLimit, c2, th2)) :
    ∃ Ah', testCapacity fuel c Ah ttot = (.ok th2.Ah, c2, Ah', ttot + th1.time + th2.time) ∧
      (cells d c2.su).map (fun x => x.st.Ah) = (cells d c.su).map fun x => x.st.Ah + Ah' :=
  cells_capacityTest_success d fuel c c1 c2 Ah ttot th1 th2 hs hdiag h1 h2

end Slide

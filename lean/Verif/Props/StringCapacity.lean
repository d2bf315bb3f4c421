import Verif.Props.StringOfCopies
import Verif.Props.CapacityMeasured
import Verif.Lemmas.States

/-!
C142: the capacity test of a string of identical cells.
-/

namespace Slide
open StorageUnit Spec Cyc

section
variable {U : Type} [StorageUnit U] {N : ℕ} {T : ℚ}

theorem stringOf_Cap (hN : 1 ≤ N) (u : U) : Cap (stringOf N T u) = Cap u := tmin_replicate _ u hN

theorem stringOf_lim (u : U) : (lim (stringOf N T u)).Vmax = N * (lim u).Vmax ∧
    (lim (stringOf N T u)).Vmin = N * (lim u).Vmin :=
  ⟨tsum_replicate (fun u => (lim u).Vmax) u 0 N, tsum_replicate (fun u => (lim u).Vmin) u 0 N⟩

theorem stringOf_same [LawfulStates U] {u w : U} (h : Same u w) : Same (stringOf N T u) (stringOf N T w) := by
  show SameKids (List.replicate N ⟨0, u⟩) (List.replicate N ⟨0, w⟩)
  unfold SameKids
  induction N with
  | zero => exact List.Forall₂.nil
  | succ k ih =>
    rw [List.replicate_succ, List.replicate_succ]
    exact List.Forall₂.cons ⟨rfl, h⟩ ih

theorem stringOf_valid [LawfulStates U] {u : U} (h : Valid u) (hT : 273 ≤ T) : Valid (stringOf N T u) :=
  ⟨hT, fun _ hk => by rw [List.eq_of_mem_replicate hk]; exact h⟩

/-- **The capacity test of a string is the capacity test of one of its cells**: the same report – a capacity, the 0 of a test
that failed, or an exception –, the same charge and time, and the cells end as the single cell does (after a failed test, as
they were). -/
theorem string_testCapacity [LawfulCurrent U] [LawfulStep U] [LawfulStates U] (hN : 1 ≤ N) (hN' : N ≤ 100) (hT : 273 ≤ T)
    (hl : HighLimits U) (hl' : ∀ u : U, 0 < (lim u).Vmin) (fuel : ℕ) (c : Cyc U) (hd : c.diagnostic = false)
    (hv : Valid c.su) (hc : 0 < Cap c.su) (hstart : 0 < V (setCurrent c.su (-(1/25) * Cap c.su) false).2) (Ah ttot : ℚ) :
    testCapacity fuel (cycString N T c) Ah ttot =
      let r := testCapacity fuel c Ah ttot
      (r.1, cycString N T r.2.1, r.2.2) := by
  have hset : ∀ (u : U) i b, Same c.su u → Same c.su (setCurrent u i b).2 := fun u i b h =>
    LawfulStates.trans h (LawfulStates.setCurrent_same u i b)
  have hstep : ∀ (u : U) dt k, Same c.su u → Same c.su (timeStep u dt k).2 := fun u dt k h =>
    LawfulStates.trans h (LawfulStates.timeStep_same u dt k)
  have hrt : ∀ w, Same c.su w → setStates w (getStates c.su) false = (.ok (.Success, []), c.su) := fun w hw => by
    have := LawfulStates.roundtrip c.su w [] hw hv
    rwa [List.append_nil] at this
  have hrt' : ∀ w, Same c.su w → setStates (stringOf N T w) (getStates (stringOf N T c.su)) false =
      (.ok (.Success, []), stringOf N T c.su) := fun w hw => by
    have := LawfulStates.roundtrip (stringOf N T c.su) (stringOf N T w) [] (stringOf_same hw) (stringOf_valid hv hT)
    rwa [List.append_nil] at this
  have hz : thrString N Thr.zero = Thr.zero := by
    show (⟨0, 0, N * 0⟩ : Thr) = ⟨0, 0, 0⟩
    rw [mul_zero]
  have hsu : ∀ d : Cyc U, (cycString N T d).su = stringOf N T d.su := fun _ => rfl
  have h1 := string_cc (T := T) hN hN' hl fuel c hd (-(1/25) * Cap c.su)
    (vlim := (lim c.su).Vmax) (lt_of_lt_of_le (by norm_num) (hl _)) TIME_INF 1 0 Thr.zero (.inr hstart)
  have k1 := CC_keeps (P := fun u => Same c.su u) hset hstep fuel c (-(1/25) * Cap c.su) (lim c.su).Vmax TIME_INF 1 0
    Thr.zero (LawfulStates.refl _)
  unfold testCapacity
  dsimp only
  rw [hsu, stringOf_Cap hN, (stringOf_lim c.su).1]
  rw [hz] at h1
  rw [h1]
  dsimp only
  generalize CC fuel c (-(1/25) * Cap c.su) (lim c.su).Vmax TIME_INF 1 0 Thr.zero = r1 at k1 ⊢
  obtain ⟨st1 | e | w, c1, th1⟩ := r1
  · dsimp only at k1 ⊢
    rw [show (thrString N th1).time = th1.time from rfl, show (thrString N th1).Ah = th1.Ah from rfl]
    by_cases hs1 : st1 ≠ .ReachedVoltageLimit
    · rw [if_pos hs1, if_pos hs1, hsu, hrt _ k1.1, hrt' _ k1.1]
      rfl
    · rw [if_neg hs1, if_neg hs1, hsu, (stringOf_lim c1.su).2]
      have h2 := string_cc (T := T) hN hN' hl fuel c1 (k1.2.trans hd) (1/25 * Cap c.su)
        (vlim := (lim c1.su).Vmin) (hl' _) TIME_INF 1 0 Thr.zero (.inl (by positivity))
      rw [hz] at h2
      have k2 := CC_keeps (P := fun u => Same c.su u) hset hstep fuel c1 (1/25 * Cap c.su) (lim c1.su).Vmin TIME_INF 1 0
        Thr.zero k1.1
      rw [h2]
      dsimp only
      generalize CC fuel c1 (1/25 * Cap c.su) (lim c1.su).Vmin TIME_INF 1 0 Thr.zero = r2 at k2 ⊢
      obtain ⟨st2 | e | w, c2, th2⟩ := r2
      · dsimp only at k2 ⊢
        rw [show (thrString N th2).time = th2.time from rfl, show (thrString N th2).Ah = th2.Ah from rfl]
        by_cases hs2 : st2 ≠ .ReachedVoltageLimit
        · rw [if_pos hs2, if_pos hs2, hsu, hrt _ k2.1, hrt' _ k2.1]
          rfl
        · rw [if_neg hs2, if_neg hs2]
      · rfl
      · rfl
  · rfl
  · rfl

end

/-- **The capacity of a string of identical equivalent-circuit cells**: if the test reports one, it is the charge of one cell
between the states of charge at which its open-circuit voltage equals the limits, with the tolerance of C133 – whatever the
number of cells. -/
theorem string_capacity {n N fuel : ℕ} {T : ℚ} {c : Cyc (ECM n)} {S' : Cyc (ModuleS (ECM n))} {q a t a' t' m zfull zempty : ℚ}
    (hN : 1 ≤ N) (hN' : N ≤ 100) (hT : 273 ≤ T) (hd : c.diagnostic = false) (hp : CircuitSound c.su.par)
    (hr : ReadyForTest c.su) (hv : c.su.validStates = true) (hm : 0 < m) (hsl : SlopeAtLeast c.su.par m)
    (hstart : 0 < (c.su.withI (-(1/25) * c.su.par.cap)).V)
    (hfull : c.su.par.ocv zfull = some (42 / 10)) (hempty : c.su.par.ocv zempty = some (27 / 10)) (hq : q ≠ 0)
    (h : testCapacity fuel (cycString N T c) a t = (.ok q, S', a', t')) :
    |q - c.su.par.cap * (zfull - zempty)| ≤
      2 * (c.su.par.cap * dropAt c.su.par (c.su.par.cap / 25) / m + 2 * (c.su.par.cap / 25) / 3600) := by
  have e := string_testCapacity (T := T) hN hN' hT ecm_highLimits
    (fun _ => show (0 : ℚ) < cellLimits.Vmin by decide +kernel) fuel c hd
    ((ecm_validStates_iff c.su).mp hv) hp.cap (show 0 < ECM.V (ECM.setCurrent c.su _ false).2 by
      rw [ECM.setCurrent_unchecked]; exact hstart) a t
  rw [e] at h
  dsimp only at h
  rcases hh : testCapacity fuel c a t with ⟨o, c', a2, t2⟩
  rw [hh] at h
  have ho : o = .ok q := congrArg Prod.fst h
  rw [ho] at hh
  exact capacity_measured hd hp hr hm hsl hfull hempty hq hh

/-- Four of the cells of C133 in series: the test reports the capacity of one. -/
example : testedCell.validStates = true ∧ 0 < (testedCell.withI (-(1/25) * testedCell.par.cap)).V ∧
    (testCapacity 100 (cycString 4 293 { su := testedCell }) 0 0).1 = .ok (1 / 9000) :=
  ⟨by decide +kernel, by decide +kernel, by decide +kernel⟩

end Slide

import Verif.Lemmas.EqualiseStrings

/-!
# C156 for strings in parallel
-/

namespace Slide
open StorageUnit Spec

variable {U : Type} [StorageUnit U]

/-! ## Helper lemmas: any kind of branch that can be steered -/

theorem steered_setCurrent {m : ModuleP U} {I c R D B v : ℚ} {b : Bool} {as : List Arm} {js : List ℚ}
    {Q : ℚ → U → ℚ → ℚ → ℚ → Prop} {P : U → Prop} (hQ : ∀ j, Steerable B j (Q j) P)
    (hne : as ≠ []) (hlen : as.length ≤ 100) (hc : BranchesOf Q c m.kids as js)
    (hg : Gentle c R as) (hk : Kirchhoff v as js) (hI : js.sum = I)
    (hr : Reachable c R D B (1 / 1000000000) 10549 as
      (m.kids.map fun k => StorageUnit.I k.su + (I - StorageUnit.I m) / as.length) js) :
    (m.setCurrent I b).1 = .ok .Success ∧ StorageUnit.I (m.setCurrent I b).2 = I ∧
      FollowsCircuit (1 / 1000000000) R (StorageUnit.V (m.setCurrent I b).2)
        ((m.setCurrent I b).2.kids.map fun k => StorageUnit.I k.su) as := by
  obtain ⟨fs, hS, -⟩ := steers_of hQ hc
  have hl := steers_length hS
  have hkne : m.kids ≠ [] := by
    intro h
    rw [h] at hl
    exact hne (List.length_eq_zero_iff.mp hl.symm)
  have hlq : (as.length : ℚ) ≠ 0 := by
    have := List.length_pos_iff.mpr hne
    exact_mod_cast (by omega : as.length ≠ 0)
  have hdev := reachable_dev hg hk hr
  have hIm : StorageUnit.I m = tsum StorageUnit.I m.kids := rfl
  have hsum : (m.kids.map fun k => StorageUnit.I k.su + (I - StorageUnit.I m) / as.length).sum = js.sum := by
    have : ∀ (x : ℚ) (l : List (Kid U)), (l.map fun k => StorageUnit.I k.su + x).sum = tsum StorageUnit.I l + l.length * x := by
      intro x l
      induction l with
      | nil => simp [tsum]
      | cons k l ih =>
        rw [tsum_eq_sum] at ih ⊢
        simp only [List.map_cons, List.sum_cons, ih, List.length_cons]
        push_cast
        ring
    rw [this, hI, hIm, hl]
    field_simp
    ring
  obtain ⟨st, -, hinit⟩ := initLoop_steered (dI := (I - StorageUnit.I m) / as.length) .Success (by decide) hS hdev
  obtain ⟨is', h1, h2, h3⟩ := reachable_steered hg hS hk (by norm_num) hne hsum hr
  obtain ⟨hci, hIs⟩ := steered_circuit hS h2
  have hsp := eqLoop_spread (1 / 1000000000) 10550 _ (by rw [h1])
  rw [h1] at hsp
  have hset : m.setCurrent I b = (.ok .Success, { m with kids := ModuleP.kidsOf (steered as fs is') }) := by
    unfold ModuleP.setCurrent
    rw [if_neg hkne, if_neg (by simp only [NSUs_MAX]; omega)]
    dsimp only
    rw [← hIm, hl, hinit]
    dsimp only
    rw [h1]
    rfl
  rw [hset]
  refine ⟨rfl, ?_, ?_⟩
  · show tsum StorageUnit.I (ModuleP.kidsOf (steered as fs is')) = I
    rw [tsum_eq_sum, hIs, h3, hI]
  · exact follows_of_spread (m := { m with kids := ModuleP.kidsOf (steered as fs is') }) (P := Reads) (fun _ _ _ h => h) hg.res hne hci
      hg.least hsp.le

theorem steered_timeStep [LawfulStep U] {m : ModuleP U} {dt c R D B v : ℚ} {s : ℕ} {as : List Arm} {js : List ℚ}
    {Q : ℚ → U → ℚ → ℚ → ℚ → Prop} {P : U → Prop} (hQ : ∀ j, Steerable B j (Q j) P) (hdt : 0 ≤ dt)
    (hne : as ≠ []) (hlen : as.length ≤ 100)
    (hc : BranchesOf Q c (m.kids.map fun k => { k with su := (StorageUnit.timeStep k.su dt s).2 }) as js)
    (hP : ∀ k ∈ m.kids, P (StorageUnit.timeStep k.su dt s).2)
    (hg : Gentle c R as) (hk : Kirchhoff v as js) (hI : js.sum = StorageUnit.I m)
    (hr : Reachable c R D B (1 / 10000000000) 2499 as (m.kids.map fun k => StorageUnit.I k.su) js) :
    (m.timeStep dt s).1 = .ok () ∧ StorageUnit.I (m.timeStep dt s).2 = StorageUnit.I m ∧
      FollowsCircuit (1 / 10000000000) R (StorageUnit.V (m.timeStep dt s).2)
        ((m.timeStep dt s).2.kids.map fun k => StorageUnit.I k.su) as := by
  have hstep := stepKids_spec dt s hdt m.kids
  generalize hks : (m.kids.map fun k => ({ k with su := (StorageUnit.timeStep k.su dt s).2 } : Kid U)) = ks at hc hstep
  obtain ⟨fs, hS, hst⟩ := steers_of hQ hc
  have hst := hst (by
    intro k hk
    rw [← hks] at hk
    obtain ⟨x, hx, rfl⟩ := List.mem_map.mp hk
    exact hP x hx)
  have hcur : (ks.map fun k => StorageUnit.I k.su) = m.kids.map fun k => StorageUnit.I k.su := by
    rw [← hks, List.map_map]
    apply List.map_congr_left
    intro k _
    exact LawfulStep.keepsI ..
  have hIm : StorageUnit.I m = (m.kids.map fun k => StorageUnit.I k.su).sum := tsum_eq_sum _ _
  have hl := steers_length hS
  have hdev := reachable_dev hg hk hr
  have hred : ∃ m' : ModuleP U, ModuleP.redistribute { m with kids := ks } = (.ok .Success, m') ∧
      IsCircuit Reads m'.kids as ∧ (m'.kids.map fun k => StorageUnit.I k.su).sum = js.sum := by
    unfold ModuleP.redistribute
    by_cases h1 : ks.length ≤ 1
    · rw [if_pos h1]
      obtain ⟨hci, -⟩ := steered_circuit hS hdev
      rw [← hcur, ← hst] at hci
      refine ⟨_, rfl, ?_, by show (ks.map fun k => StorageUnit.I k.su).sum = _; rw [hcur, hI, hIm]⟩
      simpa [ModuleP.kidsOf, Function.comp_def] using hci
    · rw [if_neg h1, if_neg (by simp only [NSUs_MAX]; omega)]
      dsimp only
      rw [hst, hcur]
      obtain ⟨is', h1, h2, h3⟩ := reachable_steered hg hS hk (by norm_num) hne (hIm.symm.trans hI.symm) hr
      rw [h1]
      obtain ⟨hci, hIs⟩ := steered_circuit hS h2
      exact ⟨_, rfl, hci, by show ((ModuleP.kidsOf (steered as fs is')).map fun k => StorageUnit.I k.su).sum = _; rw [hIs, h3]⟩
  obtain ⟨m', hm, hci, htot⟩ := hred
  have hts : m.timeStep dt s = (.ok (), m') := by
    unfold ModuleP.timeStep
    rw [if_neg (not_lt.mpr hdt), hstep]
    dsimp only
    rw [hm]
    rfl
  have hok : (m.timeStep dt s).1 = .ok () := by rw [hts]
  refine ⟨hok, ?_, ?_⟩
  · rw [hts]
    show tsum StorageUnit.I m'.kids = _
    rw [tsum_eq_sum, htot, hI]
  · have hsp := timeStep_spread m dt s hok
    rw [hts] at hsp ⊢
    exact follows_of_spread (m := m') (P := Reads) (fun _ _ _ h => h) hg.res hne hci hg.least hsp.le

/-! ## C156 -/

/-- C156 for strings in parallel: `setCurrent` reports success, the total current is exactly the requested one, and every string
carries the current of the circuit. -/
theorem strings_setCurrent_converges {n : ℕ} {m : ModuleP (ModuleS (ECM n))} {I c R D B v : ℚ} {b : Bool} {as : List Arm}
    {js : List ℚ} (hne : as ≠ []) (hlen : as.length ≤ 100) (hc : BranchesOf (fun j => InSeries B j (SafeCell B j)) c m.kids as js)
    (hg : Gentle c R as) (hk : Kirchhoff v as js) (hI : js.sum = I)
    (hr : Reachable c R D B (1 / 1000000000) 10549 as
      (m.kids.map fun k => StorageUnit.I k.su + (I - StorageUnit.I m) / as.length) js) :
    (m.setCurrent I b).1 = .ok .Success ∧ StorageUnit.I (m.setCurrent I b).2 = I ∧
      FollowsCircuit (1 / 1000000000) R (StorageUnit.V (m.setCurrent I b).2)
        ((m.setCurrent I b).2.kids.map fun k => StorageUnit.I k.su) as :=
  steered_setCurrent (fun j => inSeries_steerable (safeCell_steerable B j)) hne hlen hc hg hk hI hr

/-- C156 for racks, strings of strings, in parallel. -/
theorem racks_setCurrent_converges {n : ℕ} {m : ModuleP (ModuleS (ModuleS (ECM n)))} {I c R D B v : ℚ} {b : Bool} {as : List Arm}
    {js : List ℚ} (hne : as ≠ []) (hlen : as.length ≤ 100)
    (hc : BranchesOf (fun j => InSeries B j (InSeries B j (SafeCell B j))) c m.kids as js)
    (hg : Gentle c R as) (hk : Kirchhoff v as js) (hI : js.sum = I)
    (hr : Reachable c R D B (1 / 1000000000) 10549 as
      (m.kids.map fun k => StorageUnit.I k.su + (I - StorageUnit.I m) / as.length) js) :
    (m.setCurrent I b).1 = .ok .Success ∧ StorageUnit.I (m.setCurrent I b).2 = I ∧
      FollowsCircuit (1 / 1000000000) R (StorageUnit.V (m.setCurrent I b).2)
        ((m.setCurrent I b).2.kids.map fun k => StorageUnit.I k.su) as :=
  steered_setCurrent (fun j => inSeries_steerable (inSeries_steerable (safeCell_steerable B j))) hne hlen hc hg hk hI hr

/-- C156 for strings in parallel: a simulation step succeeds and keeps the total current, and every string then carries the
current of the circuit. -/
theorem strings_timeStep_converges {n : ℕ} {m : ModuleP (ModuleS (ECM n))} {dt c R D B v : ℚ} {s : ℕ} {as : List Arm}
    {js : List ℚ} (hdt : 0 ≤ dt) (hne : as ≠ []) (hlen : as.length ≤ 100)
    (hc : BranchesOf (fun j => InSeries B j (SafeCell B j)) c
      (m.kids.map fun k => { k with su := (StorageUnit.timeStep k.su dt s).2 }) as js)
    (hone : ∀ k ∈ m.kids, ∀ x ∈ k.su.kids, x.su.st.I = StorageUnit.I k.su)
    (hg : Gentle c R as) (hk : Kirchhoff v as js) (hI : js.sum = StorageUnit.I m)
    (hr : Reachable c R D B (1 / 10000000000) 2499 as (m.kids.map fun k => StorageUnit.I k.su) js) :
    (m.timeStep dt s).1 = .ok () ∧ StorageUnit.I (m.timeStep dt s).2 = StorageUnit.I m ∧
      FollowsCircuit (1 / 10000000000) R (StorageUnit.V (m.timeStep dt s).2)
        ((m.timeStep dt s).2.kids.map fun k => StorageUnit.I k.su) as := by
  refine steered_timeStep (P := SharesCurrent fun _ => True) (fun j => inSeries_steerable (safeCell_steerable B j)) hdt hne hlen hc ?_ hg hk hI hr
  intro k hk x hx
  refine ⟨?_, trivial⟩
  rw [LawfulStep.keepsI]
  have e : (StorageUnit.timeStep k.su dt s).2.kids = k.su.kids.map fun y => { y with su := (StorageUnit.timeStep y.su dt s).2 } := by
    show (ModuleS.timeStep k.su dt s).2.kids = _
    unfold ModuleS.timeStep
    rw [if_neg (not_lt.mpr hdt), stepKids_spec dt s hdt]
  rw [e] at hx
  obtain ⟨y, hy, rfl⟩ := List.mem_map.mp hx
  show StorageUnit.I (StorageUnit.timeStep y.su dt s).2 = _
  rw [LawfulStep.keepsI]
  exact hone k hk y hy

/-! ### A concrete case

Two strings of two cells of 16 Ah each; the cells of the second have twice the resistance.  Asked for 7.5 A, the first carries
5 A, the second 2.5 A. -/

/-- The strings. -/
def twoStrings (soc i : ℚ) : ModuleP (ModuleS (ECM 0)) :=
  { T := 288, kids :=
    [⟨1/1000, { T := 288, kids := [⟨0, cellRC (2/1000) 16 soc i⟩, ⟨1/1000, cellRC (2/1000) 16 soc i⟩] }⟩,
     ⟨1/1000, { T := 288, kids := [⟨0, cellRC (4/1000) 16 soc i⟩, ⟨1/1000, cellRC (4/1000) 16 soc i⟩] }⟩] }

/-- Their circuit. -/
def twoArms (e : ℚ) : List Arm := [⟨e, 5/1000, 1/1000⟩, ⟨e, 9/1000, 1/1000⟩]

theorem two_gentle (e : ℚ) : Gentle 16 (5/1000) (twoArms e) where
  cap := by norm_num
  res := by norm_num
  least := by
    intro a ha
    simp only [twoArms, List.mem_cons, List.not_mem_nil, or_false] at ha
    rcases ha with rfl | rfl <;> norm_num
  most := by
    intro a ha
    have hs : ((twoArms e).map Arm.rc).sum = 2/1000 := by norm_num [twoArms]
    have hl : (twoArms e).length = 2 := rfl
    rw [hs, hl]
    simp only [twoArms, List.mem_cons, List.not_mem_nil, or_false] at ha
    rcases ha with rfl | rfl <;> norm_num

theorem two_reach (e : ℚ) {tol : ℚ} {N : ℕ} (hN : 900 ≤ N) (ht : 1 / 10000000000 ≤ tol) :
    Reachable 16 (5/1000) (5/4) 7 tol N (twoArms e) [15/4, 15/4] [5, 5/2] where
  start := by
    refine List.Forall₂.cons ?_ (List.Forall₂.cons ?_ List.Forall₂.nil)
    all_goals rw [abs_le]; constructor <;> norm_num
  room := by
    have hl : (twoArms e).length = 2 := rfl
    rw [hl]; norm_num
  pos := by norm_num
  enough := by
    have hl : (twoArms e).length = 2 := rfl
    rw [hl]
    obtain ⟨q, hq⟩ : ∃ q : ℚ, q = 1 - 16 * (5 / 1000) := ⟨_, rfl⟩
    rw [← hq]
    have h1 : q ^ N ≤ q ^ (9 * 100) :=
      pow_le_pow_of_le_one (by rw [hq]; norm_num) (by rw [hq]; norm_num) (by norm_num; exact hN)
    rw [pow_mul] at h1
    have h3 : q ^ 9 ≤ 1 / 2 := by rw [hq]; norm_num
    have h4 : (q ^ 9) ^ 100 ≤ (1 / 2) ^ 100 := pow_le_pow_left₀ (pow_nonneg (by rw [hq]; norm_num) _) h3 100
    have h7 := h1.trans h4
    generalize q ^ N = x at h7
    clear h1 h3 h4
    have h5 : (1 / 10000000000 : ℚ) * (1 / 10000000000) ≤ tol * tol := mul_le_mul ht ht (by norm_num) (by linarith)
    have h6 : ((1 : ℚ) / 2) ^ 100 * (2 * 2 * (5 / 4 * (5 / 4))) < 16 * 16 * (1 / 10000000000 * (1 / 10000000000)) := by
      norm_num
    generalize ((1 : ℚ) / 2) ^ 100 = y at h6 h7
    push_cast
    linarith

theorem safeCell_of {B j r e c : ℚ} {u : ECM 0} (h1 : u.par.ocv u.st.SOC = some e) (h2 : u.par.Rdc = r) (h3 : u.par.cap = c)
    (h4 : ∀ i, |i - j| ≤ B → 2 ≤ e - r * i ∧ e - r * i ≤ 43 / 10) : SafeCell B j u e r c :=
  ⟨⟨e, h1, by simp, h2.symm⟩, h3, h4⟩

/-- A string of two equal cells with a contact. -/
theorem pair_inSeries {j r : ℚ} {u : ECM 0} (h1 : u.par.ocv u.st.SOC = some (63/20)) (h2 : u.par.Rdc = r) (h3 : u.par.cap = 16)
    (hr : 0 ≤ r ∧ r ≤ 4/1000) (hj : 0 ≤ j ∧ j ≤ 5) :
    InSeries 7 j (SafeCell 7 j) { T := 288, kids := [⟨0, u⟩, ⟨1/1000, u⟩] } (63/10) (2 * r + 1/1000) 16 := by
  have hb : ∀ i : ℚ, |i - j| ≤ 7 → -(28/1000) ≤ r * i ∧ r * i ≤ 48/1000 := by
    intro i hi
    have := abs_le.mp hi
    constructor <;> nlinarith [this.1, this.2, hr.1, hr.2, hj.1, hj.2]
  have hs : SafeCell 7 j u (63/20) r 16 := safeCell_of h1 h2 h3 fun i hi => by
    have := hb i hi
    constructor <;> linarith [this.1, this.2]
  refine ⟨by simp, by simp, [(⟨63/20, r, 0⟩, 16), (⟨63/20, r, 1/1000⟩, 16)], ?_, by norm_num, ?_, ⟨_, List.mem_cons_self, rfl⟩, ?_, ?_⟩
  · exact List.Forall₂.cons ⟨hs, rfl⟩ (List.Forall₂.cons ⟨hs, rfl⟩ List.Forall₂.nil)
  · simp only [List.map_cons, List.map_nil, List.sum_cons, List.sum_nil]; ring
  · intro x hx
    simp only [List.mem_cons, List.not_mem_nil, or_false] at hx
    rcases hx with rfl | rfl <;> exact le_rfl
  · intro i hi
    have h := hb i hi
    have := abs_le.mp hi
    nlinarith [this.1, this.2, h.1, h.2, hj.1, hj.2]

theorem half_ocv (r : ℚ) (i : ℚ) : (cellRC r 16 (1/2) i).par.ocv (cellRC r 16 (1/2) i).st.SOC = some (63/20) := by
  simp only [cellRC, ECM.defaultOCV_eq]
  norm_num

/-- Non-vacuity of `strings_setCurrent_converges`. -/
example : ∃ (m : ModuleP (ModuleS (ECM 0))) (as : List Arm) (js : List ℚ), as ≠ [] ∧ as.length ≤ 100 ∧
    BranchesOf (fun j => InSeries 7 j (SafeCell 7 j)) 16 m.kids as js ∧ Gentle 16 (5/1000) as ∧ Kirchhoff (62675/10000) as js ∧
    js.sum = 15/2 ∧ Reachable 16 (5/1000) (5/4) 7 (1 / 1000000000) 10549 as
      (m.kids.map fun k => StorageUnit.I k.su + (15/2 - StorageUnit.I m) / as.length) js := by
  refine ⟨twoStrings (1/2) 0, twoArms (63/10), [5, 5/2], by simp [twoArms], by simp [twoArms], ?_, two_gentle _,
    by norm_num [twoArms, Kirchhoff], by norm_num, ?_⟩
  · refine ⟨⟨?_, rfl⟩, ⟨?_, rfl⟩, trivial⟩
    · have := pair_inSeries (j := 5) (r := 2/1000) (half_ocv (2/1000) 0) rfl rfl (by norm_num) (by norm_num)
      rwa [show (2:ℚ) * (2/1000) + 1/1000 = 5/1000 by norm_num] at this
    · have := pair_inSeries (j := 5/2) (r := 4/1000) (half_ocv (4/1000) 0) rfl rfl (by norm_num) (by norm_num)
      rwa [show (2:ℚ) * (4/1000) + 1/1000 = 9/1000 by norm_num] at this
  · have e : ((twoStrings (1/2) 0).kids.map fun k => StorageUnit.I k.su +
        (15/2 - StorageUnit.I (twoStrings (1/2) 0)) / ((twoArms (63/10)).length : ℚ)) = [15/4, 15/4] := by decide +kernel
    rw [e]
    exact two_reach _ (by norm_num) (by norm_num)

/-- A rack of two such strings. -/
theorem pair_rack {j r : ℚ} {u : ECM 0} (h1 : u.par.ocv u.st.SOC = some (63/20)) (h2 : u.par.Rdc = r) (h3 : u.par.cap = 16)
    (hr : 0 ≤ r ∧ r ≤ 4/1000) (hj : 0 ≤ j ∧ j ≤ 5) :
    InSeries 7 j (InSeries 7 j (SafeCell 7 j)) { T := 288, kids := [⟨0, { T := 288, kids := [⟨0, u⟩, ⟨1/1000, u⟩] }⟩,
      ⟨0, { T := 288, kids := [⟨0, u⟩, ⟨1/1000, u⟩] }⟩] } (63/5) (4 * r + 2/1000) 16 := by
  have hs := pair_inSeries h1 h2 h3 hr hj
  refine ⟨by simp, by simp, [(⟨63/10, 2 * r + 1/1000, 0⟩, 16), (⟨63/10, 2 * r + 1/1000, 0⟩, 16)], ?_, by norm_num, ?_,
    ⟨_, List.mem_cons_self, rfl⟩, ?_, ?_⟩
  · exact List.Forall₂.cons ⟨hs, rfl⟩ (List.Forall₂.cons ⟨hs, rfl⟩ List.Forall₂.nil)
  · simp only [List.map_cons, List.map_nil, List.sum_cons, List.sum_nil]; ring
  · intro x hx
    simp only [List.mem_cons, List.not_mem_nil, or_false] at hx
    rcases hx with rfl | rfl <;> exact le_rfl
  · intro i hi
    obtain ⟨-, -, -, -, -, -, -, -, h⟩ := hs
    have := h i hi
    nlinarith

/-- Non-vacuity of `racks_setCurrent_converges`. -/
example : ∃ (m : ModuleP (ModuleS (ModuleS (ECM 0)))) (as : List Arm) (js : List ℚ), as ≠ [] ∧ as.length ≤ 100 ∧
    BranchesOf (fun j => InSeries 7 j (InSeries 7 j (SafeCell 7 j))) 16 m.kids as js ∧ Gentle 16 (5/1000) as ∧
    Kirchhoff (125675/10000) as js ∧ js.sum = 15/2 ∧ Reachable 16 (5/1000) (5/4) 7 (1 / 1000000000) 10549 as
      (m.kids.map fun k => StorageUnit.I k.su + (15/2 - StorageUnit.I m) / as.length) js := by
  refine ⟨{ T := 288, kids := [⟨1/1000, { T := 288, kids :=
      [⟨0, { T := 288, kids := [⟨0, cellRC (3/4000) 16 (1/2) 0⟩, ⟨1/1000, cellRC (3/4000) 16 (1/2) 0⟩] }⟩,
       ⟨0, { T := 288, kids := [⟨0, cellRC (3/4000) 16 (1/2) 0⟩, ⟨1/1000, cellRC (3/4000) 16 (1/2) 0⟩] }⟩] }⟩,
     ⟨1/1000, { T := 288, kids :=
      [⟨0, { T := 288, kids := [⟨0, cellRC (7/4000) 16 (1/2) 0⟩, ⟨1/1000, cellRC (7/4000) 16 (1/2) 0⟩] }⟩,
       ⟨0, { T := 288, kids := [⟨0, cellRC (7/4000) 16 (1/2) 0⟩, ⟨1/1000, cellRC (7/4000) 16 (1/2) 0⟩] }⟩] }⟩] },
    twoArms (63/5), [5, 5/2], by simp [twoArms], by simp [twoArms], ?_, two_gentle _,
    by norm_num [twoArms, Kirchhoff], by norm_num, ?_⟩
  · refine ⟨⟨?_, rfl⟩, ⟨?_, rfl⟩, trivial⟩
    · have := pair_rack (j := 5) (r := 3/4000) (half_ocv (3/4000) 0) rfl rfl (by norm_num) (by norm_num)
      rwa [show (4:ℚ) * (3/4000) + 2/1000 = 5/1000 by norm_num] at this
    · have := pair_rack (j := 5/2) (r := 7/4000) (half_ocv (7/4000) 0) rfl rfl (by norm_num) (by norm_num)
      rwa [show (4:ℚ) * (7/4000) + 2/1000 = 9/1000 by norm_num] at this
  · refine Eq.mp (congrArg (fun is => Reachable 16 (5/1000) (5/4) 7 (1 / 1000000000) 10549 (twoArms (63/5)) is [5, 5/2]) ?_)
      (two_reach (63/5) (N := 10549) (tol := 1 / 1000000000) (by norm_num) (by norm_num))
    decide +kernel

theorem stepped_string (m : ModuleS (ECM 0)) : (StorageUnit.timeStep m 576 1).2 =
    { m with kids := m.kids.map fun y => { y with su := (StorageUnit.timeStep y.su 576 1).2 } } := by
  show (ModuleS.timeStep m 576 1).2 = _
  unfold ModuleS.timeStep
  rw [if_neg (by norm_num), stepKids_spec 576 1 (by norm_num)]

/-- Non-vacuity of `strings_timeStep_converges`: both strings carry 3.75 A before the step. -/
example : ∃ (m : ModuleP (ModuleS (ECM 0))) (as : List Arm) (js : List ℚ), as ≠ [] ∧ as.length ≤ 100 ∧
    BranchesOf (fun j => InSeries 7 j (SafeCell 7 j)) 16
      (m.kids.map fun k => { k with su := (StorageUnit.timeStep k.su 576 1).2 }) as js ∧
    (∀ k ∈ m.kids, ∀ x ∈ k.su.kids, x.su.st.I = StorageUnit.I k.su) ∧ Gentle 16 (5/1000) as ∧ Kirchhoff (62675/10000) as js ∧
    js.sum = StorageUnit.I m ∧
    Reachable 16 (5/1000) (5/4) 7 (1 / 10000000000) 2499 as (m.kids.map fun k => StorageUnit.I k.su) js := by
  refine ⟨twoStrings (1/2 + 375/10000) (15/4), twoArms (63/10), [5, 5/2], by simp [twoArms], by simp [twoArms], ?_, by decide +kernel,
    two_gentle _, by norm_num [twoArms, Kirchhoff], by decide +kernel, ?_⟩
  · refine ⟨⟨?_, rfl⟩, ⟨?_, rfl⟩, trivial⟩
    · have := pair_inSeries (j := 5) (r := 2/1000) (u := (StorageUnit.timeStep (cellRC (2/1000) 16 (1/2 + 375/10000) (15/4)) 576 1).2)
        (by decide +kernel) (by decide +kernel) (by decide +kernel) (by norm_num) (by norm_num)
      rw [show (2:ℚ) * (2/1000) + 1/1000 = 5/1000 by norm_num] at this
      beta_reduce
      dsimp only
      rw [stepped_string]
      exact this
    · have := pair_inSeries (j := 5/2) (r := 4/1000) (u := (StorageUnit.timeStep (cellRC (4/1000) 16 (1/2 + 375/10000) (15/4)) 576 1).2)
        (by decide +kernel) (by decide +kernel) (by decide +kernel) (by norm_num) (by norm_num)
      rw [show (2:ℚ) * (4/1000) + 1/1000 = 9/1000 by norm_num] at this
      beta_reduce
      dsimp only
      rw [stepped_string]
      exact this
  · have e : ((twoStrings (1/2 + 375/10000) (15/4)).kids.map fun k => StorageUnit.I k.su) = [15/4, 15/4] := by decide +kernel
    rw [e]
    exact two_reach _ (by norm_num) (by norm_num)

end Slide

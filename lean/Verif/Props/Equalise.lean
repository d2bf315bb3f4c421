import Verif.Lemmas.Equalise

/-!
# C156: the equalisation of a parallel module converges
-/

namespace Slide
open StorageUnit Spec

variable {n : ℕ}

/-! ## Helper lemmas -/

theorem safe_kids {B : ℚ} (f : Kid (ECM n) → ℚ) : ∀ {ks : List (Kid (ECM n))} {as : List Arm} {js : List ℚ},
    IsCircuit CellSource ks as → SafeAround B as js → DevLe B (ks.map f) js →
    ∀ k ∈ ks, 2 ≤ (k.su.withI (f k)).V ∧ (k.su.withI (f k)).V ≤ 43 / 10
  | [], _, _, _, _, _ => by simp
  | _ :: _, [], _, h, _, _ => by cases h
  | _ :: _, _ :: _, [], _, h, _ => by cases h
  | k :: ks, a :: as, j :: js, hc, hs, hd => by
    obtain ⟨h1, h2⟩ := List.forall₂_cons.mp hc
    obtain ⟨h3, h4⟩ := List.forall₂_cons.mp hs
    obtain ⟨h5, h6⟩ := List.forall₂_cons.mp (show List.Forall₂ _ (f k :: ks.map f) _ from hd)
    intro x hx
    rcases List.mem_cons.mp hx with rfl | hx
    · have := h3 _ h5
      rwa [← safe_V h1.1] at this
    · exact safe_kids f h2 h4 h6 x hx

theorem atCurrents_map (ks : List (Kid (ECM n))) (f : Kid (ECM n) → ℚ) : atCurrents ks (ks.map f) =
    ks.map fun k => ({ kid := { k with su := k.su.withI (f k) }, ia := f k } : ModuleP.Branch (ECM n)) := by
  induction ks with
  | nil => rfl
  | cons k ks ih =>
    simp only [atCurrents] at ih
    simp only [atCurrents, List.map_cons, List.zipWith_cons_cons, ih]

theorem reachable_dev {c R B D tol v : ℚ} {as : List Arm} {is js : List ℚ} {N : ℕ} (hg : Gentle c R as)
    (hk : Kirchhoff v as js) (hr : Reachable c R D B tol N as is js) : DevLe B is js := by
  have hj := kirchhoff_length _ _ _ hk
  have hl : is.length = as.length := hr.start.length_eq.trans hj
  refine dev_of_energy hg.res hr.pos hg.least hl hj ?_
  have h1 : c * devEnergy as is js ≤ c * (R * (B * B)) := by
    have := hr.room
    have := start_energy hg hl hr.start
    linarith
  exact le_of_mul_le_mul_left h1 hg.cap

/-! ## C156 -/

/-- C156: under the conditions of `Gentle`, `SafeAround` and `Reachable`, `setCurrent` of a parallel module reports success,
the total current is exactly the requested one, and every branch carries the current of the circuit. -/
theorem parallel_setCurrent_converges {m : ModuleP (ECM n)} {I c R D B v : ℚ} {b : Bool} {as : List Arm} {js : List ℚ}
    (hne : as ≠ []) (hlen : as.length ≤ 100) (hc : IsCircuit CellSource m.kids as) (hcap : SameCap c m.kids)
    (hg : Gentle c R as) (hk : Kirchhoff v as js) (hI : js.sum = I) (hsafe : SafeAround B as js)
    (hr : Reachable c R D B (1 / 1000000000) 10549 as
      (m.kids.map fun k => k.su.st.I + (I - StorageUnit.I m) / as.length) js) :
    (m.setCurrent I b).1 = .ok .Success ∧ StorageUnit.I (m.setCurrent I b).2 = I ∧
      FollowsCircuit (1 / 1000000000) R (StorageUnit.V (m.setCurrent I b).2)
        ((m.setCurrent I b).2.kids.map fun k => k.su.st.I) as := by
  have hl := hc.length_eq
  have hIm : StorageUnit.I m = totalCurrent m.kids := rfl
  have hkne : m.kids ≠ [] := by
    intro h
    rw [h] at hl
    exact hne (List.length_eq_zero_iff.mp hl.symm)
  rw [hIm, ← hl] at hr
  have hdev := reachable_dev hg hk hr
  obtain ⟨st, -, hset⟩ := setCurrent_of_init m I _ b hkne (by omega) rfl (safe_kids _ hc hsafe hdev)
  have hlq : (m.kids.length : ℚ) ≠ 0 := by
    have := List.length_pos_iff.mpr hkne
    exact_mod_cast (by omega : m.kids.length ≠ 0)
  have hsum : (m.kids.map fun k => k.su.st.I + (I - totalCurrent m.kids) / m.kids.length).sum = js.sum := by
    have : ∀ (x : ℚ) (l : List (Kid (ECM n))), (l.map fun k => k.su.st.I + x).sum = totalCurrent l + l.length * x := by
      intro x l
      induction l with
      | nil => simp [totalCurrent]
      | cons k l ih =>
        simp only [List.map_cons, List.sum_cons, ih, totalCurrent, List.length_cons]
        push_cast
        show k.su.st.I + x + _ = k.su.st.I + _ + _
        ring
    rw [this, hI]
    field_simp
    ring
  obtain ⟨is', h1, h2, h3⟩ := reachable_converges hg hc hcap hk hsafe (by norm_num) hne hsum hr
  rw [← atCurrents_map, h1] at hset
  dsimp only at hset
  obtain ⟨hci, hIs⟩ := atCurrents_circuit hc is' h2
  have hsp := eqLoop_spread (1 / 1000000000) 10550 _ (by rw [h1])
  rw [h1] at hsp
  rw [hset]
  refine ⟨rfl, ?_, ?_⟩
  · show tsum StorageUnit.I (ModuleP.kidsOf (atCurrents m.kids is')) = I
    rw [tsum_eq_sum, hIs, h3, hI]
  · exact follows_of_spread (m := { m with kids := ModuleP.kidsOf (atCurrents m.kids is') }) cellSource_V hg.res hne hci
      hg.least hsp.le

/-- C156: a simulation step under these conditions succeeds and keeps the total current. -/
theorem parallel_timeStep_converges {m : ModuleP (ECM n)} {dt c R D B v : ℚ} {s : ℕ} {as : List Arm} {js : List ℚ}
    (hdt : 0 ≤ dt) (hne : as ≠ []) (hlen : as.length ≤ 100)
    (hc : IsCircuit CellSource (m.kids.map fun k => { k with su := k.su.steps dt s }) as) (hcap : SameCap c m.kids)
    (hg : Gentle c R as) (hk : Kirchhoff v as js) (hI : js.sum = StorageUnit.I m) (hsafe : SafeAround B as js)
    (hr : Reachable c R D B (1 / 10000000000) 2499 as (m.kids.map fun k => k.su.st.I) js) :
    (m.timeStep dt s).1 = .ok () ∧ StorageUnit.I (m.timeStep dt s).2 = StorageUnit.I m ∧
      FollowsCircuit (1 / 10000000000) R (StorageUnit.V (m.timeStep dt s).2)
        ((m.timeStep dt s).2.kids.map fun k => k.su.st.I) as := by
  have hstep : stepKids dt s m.kids = (.ok (), m.kids.map fun k => { k with su := k.su.steps dt s }) := by
    rw [stepKids_spec dt s hdt]
    have e : ∀ u : ECM n, (StorageUnit.timeStep u dt s).2 = u.steps dt s := by
      intro u
      show (ECM.timeStep u dt s).2 = _
      unfold ECM.timeStep; rw [if_neg (not_lt.mpr hdt)]
    simp only [e]
  generalize hks : (m.kids.map fun k => ({ k with su := k.su.steps dt s } : Kid (ECM n))) = ks at hc hstep
  have hcur : (ks.map fun k => StorageUnit.I k.su) = m.kids.map fun k => k.su.st.I := by
    rw [← hks, List.map_map]
    apply List.map_congr_left
    intro k _
    exact ECM.steps_I ..
  have hcap' : SameCap c ks := by
    rw [← hks]
    intro k hk
    obtain ⟨x, hx, rfl⟩ := List.mem_map.mp hk
    show (x.su.steps dt s).par.cap = c
    rw [ECM.steps_par]; exact hcap x hx
  have hIm : StorageUnit.I m = (m.kids.map fun k => k.su.st.I).sum := tsum_eq_sum _ _
  have hl := hc.length_eq
  have hred : ∃ m' : ModuleP (ECM n), ModuleP.redistribute { m with kids := ks } = (.ok .Success, m') ∧
      IsCircuit CellSource m'.kids as ∧ (m'.kids.map fun k => StorageUnit.I k.su).sum = js.sum := by
    unfold ModuleP.redistribute
    by_cases h1 : ks.length ≤ 1
    · rw [if_pos h1]
      exact ⟨_, rfl, hc, by show (ks.map fun k => StorageUnit.I k.su).sum = _; rw [hcur, hI, hIm]⟩
    · rw [if_neg h1, if_neg (by simp only [NSUs_MAX]; omega)]
      dsimp only
      have hb : (ks.map fun k => ({ kid := k, ia := StorageUnit.I k.su } : ModuleP.Branch (ECM n))) =
          atCurrents ks (ks.map fun k => k.su.st.I) := by
        rw [atCurrents_map]
        rfl
      have hcur' : (ks.map fun k => k.su.st.I) = m.kids.map fun k => k.su.st.I := hcur
      rw [hb, hcur']
      obtain ⟨is', h1, h2, h3⟩ := reachable_converges hg hc hcap' hk hsafe (by norm_num) hne (hIm.symm.trans hI.symm) hr
      rw [h1]
      obtain ⟨hci, hIs⟩ := atCurrents_circuit hc is' h2
      exact ⟨_, rfl, hci, by show ((ModuleP.kidsOf (atCurrents ks is')).map fun k => StorageUnit.I k.su).sum = _; rw [hIs, h3]⟩
  obtain ⟨m', hm, hci, htot⟩ := hred
  have hts : m.timeStep dt s = (.ok (), m') := by
    unfold ModuleP.timeStep
    rw [if_neg (not_lt.mpr hdt), hstep]
    dsimp only
    rw [hm]
    rfl
  have hok : (m.timeStep dt s).1 = .ok () := by rw [hts]
  refine ⟨hok, ?_, ?_⟩
  · rw [hts]
    show tsum StorageUnit.I m'.kids = _
    rw [tsum_eq_sum, htot, hI]
  · refine parallel_follows_circuit hg.res hne hok ?_ hg.least
    rw [hts]; exact hci

/-! ### A concrete case

Two cells of 16 Ah and of 2 and 4 milliohm behind contacts of a milliohm, asked for 7 A: the circuit gives 5 A and 2 A. -/

/-- The two cells. -/
def unequalPair (soc i : ℚ) : ModuleP (ECM 0) :=
  { T := 288, kids := [⟨1/1000, cellRC (2/1000) 16 soc i⟩, ⟨1/1000, cellRC (4/1000) 16 soc i⟩] }

/-- Their circuit at half charge. -/
def unequalArms : List Arm := [⟨2 + 23/20, 2/1000, 1/1000⟩, ⟨2 + 23/20, 4/1000, 1/1000⟩]

theorem unequal_gentle : Gentle 16 (2/1000) unequalArms where
  cap := by norm_num
  res := by norm_num
  least := by
    intro a ha
    simp only [unequalArms, List.mem_cons, List.not_mem_nil, or_false] at ha
    rcases ha with rfl | rfl <;> norm_num
  most := by
    intro a ha
    have hs : (unequalArms.map Arm.rc).sum = 2/1000 := by norm_num [unequalArms]
    have hl : unequalArms.length = 2 := rfl
    rw [hs, hl]
    simp only [unequalArms, List.mem_cons, List.not_mem_nil, or_false] at ha
    rcases ha with rfl | rfl <;> norm_num

theorem unequal_safe : SafeAround 12 unequalArms [5, 2] := by
  refine List.Forall₂.cons ?_ (List.Forall₂.cons ?_ List.Forall₂.nil)
  all_goals
    intro i hi
    have h1 := abs_le.mp hi
    constructor <;> dsimp only <;> linarith [h1.1, h1.2]

theorem unequal_reach {tol : ℚ} {N : ℕ} (hN : 2400 ≤ N) (ht : 1 / 10000000000 ≤ tol) :
    Reachable 16 (2/1000) (3/2) 12 tol N unequalArms [7/2, 7/2] [5, 2] where
  start := by
    refine List.Forall₂.cons ?_ (List.Forall₂.cons ?_ List.Forall₂.nil)
    all_goals rw [abs_le]; constructor <;> norm_num
  room := by
    have hl : unequalArms.length = 2 := rfl
    rw [hl]; norm_num
  pos := by norm_num
  enough := by
    have hl : unequalArms.length = 2 := rfl
    rw [hl]
    obtain ⟨q, hq⟩ : ∃ q : ℚ, q = 1 - 16 * (2 / 1000) := ⟨_, rfl⟩
    rw [← hq]
    have h1 : q ^ N ≤ q ^ (24 * 100) :=
      pow_le_pow_of_le_one (by rw [hq]; norm_num) (by rw [hq]; norm_num) (by norm_num; exact hN)
    rw [pow_mul] at h1
    have h3 : q ^ 24 ≤ 1 / 2 := by rw [hq]; norm_num
    have h4 : (q ^ 24) ^ 100 ≤ (1 / 2) ^ 100 := pow_le_pow_left₀ (pow_nonneg (by rw [hq]; norm_num) _) h3 100
    have h7 := h1.trans h4
    generalize q ^ N = x at h7
    clear h1 h3 h4
    have h5 : (1 / 10000000000 : ℚ) * (1 / 10000000000) ≤ tol * tol := mul_le_mul ht ht (by norm_num) (by linarith)
    have h6 : ((1 : ℚ) / 2) ^ 100 * (2 * 2 * (3 / 2 * (3 / 2))) < 16 * 16 * (1 / 10000000000 * (1 / 10000000000)) := by
      norm_num
    generalize ((1 : ℚ) / 2) ^ 100 = y at h6 h7
    push_cast
    linarith

theorem unequal_circuit (i : ℚ) : IsCircuit CellSource (unequalPair (1/2) i).kids unequalArms := by
  refine isCircuit_of_map _ _ ?_
  simp only [unequalPair, unequalArms, cellRC, List.map_cons, List.map_nil, ECM.defaultOCV_eq]
  norm_num

example : ∃ (m : ModuleP (ECM 0)) (as : List Arm) (js : List ℚ), as ≠ [] ∧ as.length ≤ 100 ∧ IsCircuit CellSource m.kids as ∧
    SameCap 16 m.kids ∧ Gentle 16 (2/1000) as ∧ Kirchhoff (3133/1000) as js ∧ js.sum = 7 ∧ SafeAround 12 as js ∧
    Reachable 16 (2/1000) (3/2) 12 (1 / 1000000000) 10549 as
      (m.kids.map fun k => k.su.st.I + (7 - StorageUnit.I m) / as.length) js := by
  refine ⟨unequalPair (1/2) 0, unequalArms, [5, 2], by simp [unequalArms], by simp [unequalArms], unequal_circuit 0, ?_,
    unequal_gentle, by norm_num [unequalArms, Kirchhoff], by norm_num, unequal_safe, ?_⟩
  · intro k hk
    simp only [unequalPair, List.mem_cons, List.not_mem_nil, or_false] at hk
    rcases hk with rfl | rfl <;> rfl
  · have e : ((unequalPair (1/2) 0).kids.map fun k => k.su.st.I +
        (7 - StorageUnit.I (unequalPair (1/2) 0)) / (unequalArms.length : ℚ)) = [7/2, 7/2] := by decide +kernel
    rw [e]
    exact unequal_reach (by norm_num) (by norm_num)

example : ∃ (m : ModuleP (ECM 0)) (as : List Arm) (js : List ℚ), as ≠ [] ∧ as.length ≤ 100 ∧
    IsCircuit CellSource (m.kids.map fun k => { k with su := k.su.steps 576 1 }) as ∧
    SameCap 16 m.kids ∧ Gentle 16 (2/1000) as ∧ Kirchhoff (3133/1000) as js ∧ js.sum = StorageUnit.I m ∧ SafeAround 12 as js ∧
    Reachable 16 (2/1000) (3/2) 12 (1 / 10000000000) 2499 as (m.kids.map fun k => k.su.st.I) js := by
  refine ⟨unequalPair (1/2 + 35/1000) (7/2), unequalArms, [5, 2], by simp [unequalArms], by simp [unequalArms],
    isCircuit_of_map _ _ (by decide +kernel), ?_, unequal_gentle, by norm_num [unequalArms, Kirchhoff], by decide +kernel,
    unequal_safe, ?_⟩
  · intro k hk
    simp only [unequalPair, List.mem_cons, List.not_mem_nil, or_false] at hk
    rcases hk with rfl | rfl <;> rfl
  · have e : ((unequalPair (1/2 + 35/1000) (7/2)).kids.map fun k => k.su.st.I) = [7/2, 7/2] := by decide +kernel
    rw [e]
    exact unequal_reach (by norm_num) (by norm_num)

end Slide

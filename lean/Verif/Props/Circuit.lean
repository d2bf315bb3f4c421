import Verif.Props.ParallelEq
import Verif.Lemmas.CellLaws
import Verif.Spec.Circuit

/-!
# C155: the currents of a parallel module are those of the circuit
-/

namespace Slide
open StorageUnit Spec

/-! ## Helper lemmas: circuits -/

/-- Terminal voltage seen through each branch carrying any currents. -/
def armVolts : List Arm → List ℚ → List ℚ
  | a :: as, i :: is => ((a.emf - a.res * i) :: armVolts as is).map (fun v => v - (i + is.sum) * a.rc)
  | _, _ => []

/-- `∑ (i - j) * (v - x)`. -/
def work (x : ℚ) : List ℚ → List ℚ → List ℚ → ℚ
  | i :: is, j :: js, v :: vs => (i - j) * (v - x) + work x is js vs
  | _, _, _ => 0

/-- `∑ (i - j)²`. -/
def devSq : List ℚ → List ℚ → ℚ
  | i :: is, j :: js => (i - j) * (i - j) + devSq is js
  | _, _ => 0

theorem armVolts_length : ∀ (as : List Arm) (is : List ℚ), is.length = as.length →
    (armVolts as is).length = as.length
  | [], [], _ => rfl
  | [], _ :: _, h => by cases h
  | _ :: _, [], h => by cases h
  | a :: as, i :: is, h => by
    have := armVolts_length as is (by simpa using h)
    simp [armVolts, this]

theorem work_map (x c : ℚ) : ∀ (is js vs : List ℚ),
    work x is js (vs.map fun v => v - c) = work (x + c) is js vs
  | [], _, _ => by simp [work]
  | _ :: _, [], _ => by simp [work]
  | _ :: _, _ :: _, [] => by simp [work]
  | i :: is, j :: js, v :: vs => by
    simp only [List.map_cons, work]
    rw [work_map x c is js vs]; ring

theorem work_shift (x y : ℚ) : ∀ (is js vs : List ℚ), is.length = vs.length → js.length = vs.length →
    work x is js vs = work y is js vs + (y - x) * (is.sum - js.sum)
  | [], [], [], _, _ => by simp [work]
  | i :: is, j :: js, v :: vs, h1, h2 => by
    simp only [work, List.sum_cons]
    rw [work_shift x y is js vs (by simpa using h1) (by simpa using h2)]; ring
  | [], _ :: _, [], _, h => by cases h
  | [], _, _ :: _, h, _ => by cases h
  | _ :: _, _, [], h, _ => by cases h
  | _ :: _, [], _ :: _, _, h => by cases h

theorem kirchhoff_length : ∀ (v : ℚ) (as : List Arm) (js : List ℚ), Kirchhoff v as js → js.length = as.length
  | _, [], [], _ => rfl
  | _, [], _ :: _, h => h.elim
  | _, _ :: _, [], h => h.elim
  | v, a :: as, j :: js, h => by
    have := kirchhoff_length _ as js h.2
    simp [this]

/-- The power balance of the difference of two current distributions. -/
theorem work_le {R : ℚ} : ∀ (as : List Arm) (is js : List ℚ) (v : ℚ), AtLeast R as → is.length = as.length →
    Kirchhoff v as js → work v is js (armVolts as is) ≤ -(R * devSq is js)
  | [], [], [], _, _, _, _ => by simp [work, devSq]
  | [], [], _ :: _, _, _, _, h => h.elim
  | [], _ :: _, _, _, _, h, _ => by cases h
  | _ :: _, [], _, _, _, h, _ => by cases h
  | _ :: _, _ :: _, [], _, _, _, h => h.elim
  | a :: as, i :: is, j :: js, v, hR, hl, hk => by
    have hl' : is.length = as.length := by simpa using hl
    have hj' := kirchhoff_length _ _ _ hk.2
    have ih := work_le as is js _ (fun b hb => hR b (List.mem_cons_of_mem _ hb)) hl' hk.2
    obtain ⟨hres, hrc⟩ := hR a List.mem_cons_self
    have e := hk.1
    have e' : a.emf = v + a.rc * (j + js.sum) + a.res * j := by linarith
    simp only [armVolts]
    rw [work_map]
    simp only [work, devSq]
    rw [e']
    rw [work_shift _ (v + a.rc * (j + js.sum)) is js (armVolts as is) (by rw [armVolts_length _ _ hl', hl'])
      (by rw [armVolts_length _ _ hl', hj'])]
    nlinarith [mul_nonneg hrc (mul_self_nonneg ((i + is.sum) - (j + js.sum))),
      mul_nonneg (sub_nonneg.mpr hres) (mul_self_nonneg (i - j))]

/-- All differences are at most `M`. -/
def DevLe (M : ℚ) (is js : List ℚ) : Prop := List.Forall₂ (fun i j => |i - j| ≤ M) is js

theorem work_ge {M c : ℚ} (hM : 0 ≤ M) : ∀ (is js vs : List ℚ), vs.length = is.length → DevLe M is js →
    -(M * (vs.map fun v => |c - v|).sum) ≤ work c is js vs
  | [], _, [], _, _ => by simp [work]
  | [], _, _ :: _, h, _ => by cases h
  | _ :: _, _, [], h, _ => by cases h
  | i :: is, [], v :: vs, _, hd => by cases hd
  | i :: is, j :: js, v :: vs, h, hd => by
    obtain ⟨h1, h2⟩ := List.forall₂_cons.mp hd
    have ih := work_ge (c := c) hM is js vs (by simpa using h) h2
    simp only [List.map_cons, List.sum_cons, work]
    have : -(M * |c - v|) ≤ (i - j) * (v - c) := by
      have h3 : |(i - j) * (v - c)| ≤ M * |c - v| := by
        rw [abs_mul, abs_sub_comm v c]
        exact mul_le_mul_of_nonneg_right h1 (abs_nonneg _)
      linarith [neg_abs_le ((i - j) * (v - c))]
    linarith

/-- The largest difference is attained. -/
theorem dev_max : ∀ (is js : List ℚ), is.length = js.length →
    ∃ M, 0 ≤ M ∧ DevLe M is js ∧ M * M ≤ devSq is js
  | [], [], _ => ⟨0, le_refl _, List.Forall₂.nil, by simp [devSq]⟩
  | [], _ :: _, h => by cases h
  | _ :: _, [], h => by cases h
  | i :: is, j :: js, h => by
    obtain ⟨M, h0, h1, h2⟩ := dev_max is js (by simpa using h)
    simp only [devSq]
    by_cases hc : |i - j| ≤ M
    · exact ⟨M, h0, List.Forall₂.cons hc h1, by nlinarith [mul_self_nonneg (i - j)]⟩
    · refine ⟨|i - j|, abs_nonneg _, List.Forall₂.cons (le_refl _) ?_, ?_⟩
      · exact h1.imp fun a b hab => hab.trans (not_le.mp hc).le
      · rw [abs_mul_abs_self]
        nlinarith [mul_self_nonneg M]

/-- Currents whose terminal voltages deviate by less than `tol` in total are those of the circuit. -/
theorem near_circuit {R tol c v : ℚ} (hR : 0 < R) (as : List Arm) (is js : List ℚ) (ha : AtLeast R as)
    (hl : is.length = as.length) (hk : Kirchhoff v as js) (hs : is.sum = js.sum)
    (hd : ((armVolts as is).map fun x => |c - x|).sum ≤ tol) : DevLe (tol / R) is js := by
  have hj := kirchhoff_length _ _ _ hk
  obtain ⟨M, h0, h1, h2⟩ := dev_max is js (by rw [hl, hj])
  have hw := work_le as is js v ha hl hk
  rw [work_shift v c is js _ (by rw [armVolts_length _ _ hl, hl]) (by rw [armVolts_length _ _ hl, hj]), hs, sub_self,
    mul_zero, add_zero] at hw
  have hg := work_ge (c := c) h0 is js _ (by rw [armVolts_length _ _ hl, hl]) h1
  have hM : R * (M * M) ≤ M * tol := by
    have := mul_le_mul_of_nonneg_left h2 hR.le
    have := mul_le_mul_of_nonneg_left hd h0
    linarith
  have hMt : M ≤ tol / R := by
    rw [le_div_iff₀ hR]
    rcases h0.eq_or_lt with e | hp
    · rw [← e, zero_mul]
      exact (List.sum_nonneg (by simp only [List.mem_map]; rintro _ ⟨x, _, rfl⟩; exact abs_nonneg _)).trans hd
    · nlinarith
  exact h1.imp fun a b hab => hab.trans hMt

theorem kirchhoff_volts : ∀ (v : ℚ) (as : List Arm) (js : List ℚ), Kirchhoff v as js → ∀ x ∈ armVolts as js, x = v
  | _, [], [], _ => by simp [armVolts]
  | _, [], _ :: _, h => h.elim
  | _, _ :: _, [], h => h.elim
  | v, a :: as, j :: js, h => by
    have ih := kirchhoff_volts _ as js h.2
    intro x hx
    simp only [armVolts, List.map_cons, List.mem_cons, List.mem_map] at hx
    rcases hx with rfl | ⟨y, hy, rfl⟩
    · rw [h.1]; ring
    · rw [ih y hy]; ring

theorem circuitR_pos : ∀ (as : List Arm), as ≠ [] → (∀ a ∈ as, 0 < a.res ∧ 0 ≤ a.rc) → 0 < circuitR as
  | [], h, _ => (h rfl).elim
  | [a], _, h => by
    have := h a (by simp)
    simp only [circuitR]; linarith
  | a :: b :: as, _, h => by
    have h1 := circuitR_pos (b :: as) (by simp) (fun x hx => h x (List.mem_cons_of_mem _ hx))
    have h2 := h a (by simp)
    have h3 : 0 < 1 / (1 / a.res + 1 / circuitR (b :: as)) := by
      have := h2.1
      positivity
    simp only [circuitR]; linarith

/-! ## The theorems -/

/-- Every circuit has a distribution of any total current. -/
theorem circuit_exists : ∀ (as : List Arm) (I : ℚ), as ≠ [] → (∀ a ∈ as, 0 < a.res ∧ 0 ≤ a.rc) →
    ∃ js, Kirchhoff (circuitE as - circuitR as * I) as js ∧ js.sum = I
  | [], _, h, _ => (h rfl).elim
  | [a], I, _, _ => by
    refine ⟨[I], ⟨?_, trivial⟩, by simp⟩
    simp only [circuitE, circuitR, List.sum_nil]; ring
  | a :: b :: as, I, _, h => by
    have hp := circuitR_pos (b :: as) (by simp) (fun x hx => h x (List.mem_cons_of_mem _ hx))
    obtain ⟨ha, hc⟩ := h a (by simp)
    simp only [circuitE, circuitR]
    generalize hE : circuitE (b :: as) = E
    generalize hRr : circuitR (b :: as) = r at hp
    have hs : a.res + r ≠ 0 := by positivity
    obtain ⟨js, h1, h2⟩ := circuit_exists (b :: as) (I - (a.emf - E + r * I) / (a.res + r)) (by simp)
      (fun x hx => h x (List.mem_cons_of_mem _ hx))
    rw [hE, hRr] at h1
    refine ⟨(a.emf - E + r * I) / (a.res + r) :: js, ⟨?_, ?_⟩, by rw [List.sum_cons, h2]; ring⟩
    · rw [h2]
      have := ha.ne'; have := hp.ne'
      field_simp
      ring
    · rw [h2]
      convert h1 using 1
      have := ha.ne'; have := hp.ne'
      field_simp
      ring

/-- It is the only one. -/
theorem circuit_unique {as : List Arm} {v w : ℚ} {is js : List ℚ} (ha : ∀ a ∈ as, 0 < a.res ∧ 0 ≤ a.rc)
    (hne : as ≠ []) (h1 : Kirchhoff v as is) (h2 : Kirchhoff w as js) (hs : is.sum = js.sum) : is = js ∧ v = w := by
  have hR : ∃ R, 0 < R ∧ AtLeast R as := by
    clear h1 h2 hne
    induction as with
    | nil => exact ⟨1, one_pos, by intro a h; cases h⟩
    | cons a as ih =>
      obtain ⟨R, h0, h3⟩ := ih fun x hx => ha x (List.mem_cons_of_mem _ hx)
      obtain ⟨h4, h5⟩ := ha a List.mem_cons_self
      refine ⟨min R a.res, lt_min h0 h4, ?_⟩
      intro x hx
      rcases List.mem_cons.mp hx with rfl | hx
      · exact ⟨min_le_right _ _, h5⟩
      · exact ⟨(min_le_left _ _).trans (h3 x hx).1, (h3 x hx).2⟩
  obtain ⟨R, h0, h3⟩ := hR
  have hv := kirchhoff_volts v as is h1
  have hd := near_circuit (tol := 0) (c := v) h0 as is js h3 (kirchhoff_length _ _ _ h1) h2 hs (by
    refine le_of_eq (List.sum_eq_zero ?_)
    simp only [List.mem_map]
    rintro _ ⟨x, hx, rfl⟩
    rw [hv x hx, sub_self, abs_zero])
  have he : is = js := by
    rw [zero_div] at hd
    rw [← List.forall₂_eq_eq_eq]
    exact hd.imp fun a b hab => by
      have := abs_nonpos_iff.mp hab
      linarith
  refine ⟨he, ?_⟩
  subst he
  match as, is, h1, h2, hne with
  | a :: as, i :: is, h1, h2, _ =>
    have := h1.1
    have := h2.1
    linarith

/-! ## Helper lemmas: modules -/

section
variable {U : Type} [StorageUnit U]

theorem eqLoop_spread (tol : ℚ) (fuel : ℕ) (bs : List (ModuleP.Branch U))
    (h : (ModuleP.eqLoop tol fuel bs).1 = .ok true) :
    ModuleP.spread (ModuleP.vallLoop (ModuleP.kidsOf (ModuleP.eqLoop tol fuel bs).2)).1 < tol := by
  induction fuel generalizing bs with
  | zero => cases h
  | succ fuel ih =>
    unfold ModuleP.eqLoop at h ⊢
    dsimp only at h ⊢
    by_cases hs : ModuleP.spread (ModuleP.vallLoop (ModuleP.kidsOf bs)).1 < tol
    · rw [if_pos hs]; exact hs
    · rw [if_neg hs] at h ⊢
      generalize ModuleP.sweep _ bs _ = r at h ⊢
      obtain ⟨o | e | w, bs'⟩ := r
      · exact ih bs' h
      · cases h
      · cases h

theorem spread_single (x : ℚ) : ModuleP.spread [x] = 0 := by
  simp [ModuleP.spread, ModuleP.mean]

theorem redistribute_spread (m : ModuleP U) (h : m.redistribute.1 = .ok .Success) :
    ModuleP.spread (ModuleP.vallLoop m.redistribute.2.kids).1 < 1 / 10000000000 := by
  unfold ModuleP.redistribute at h ⊢
  by_cases h1 : m.kids.length ≤ 1
  · rw [if_pos h1]
    obtain ⟨T, kids⟩ := m
    match kids, h1 with
    | [], _ => norm_num [ModuleP.vallLoop, ModuleP.spread]
    | [k], _ =>
      simp only [ModuleP.vallLoop, List.map_cons, List.map_nil]
      rw [spread_single]; norm_num
  · rw [if_neg h1] at h ⊢
    by_cases h2 : NSUs_MAX < m.kids.length
    · rw [if_pos h2] at h; cases h
    · rw [if_neg h2] at h ⊢
      dsimp only at h ⊢
      have hs := eqLoop_spread (1/10000000000) 2500
        (m.kids.map fun k => ({ kid := k, ia := StorageUnit.I k.su } : ModuleP.Branch U))
      generalize ModuleP.eqLoop (1/10000000000) 2500
        (m.kids.map fun k => ({ kid := k, ia := StorageUnit.I k.su } : ModuleP.Branch U)) = r at h hs ⊢
      obtain ⟨c | e | w, bs⟩ := r
      · cases c
        · simp at h
        · exact hs rfl
      · cases h
      · cases h

theorem timeStep_spread (m : ModuleP U) (dt : ℚ) (n : ℕ) (h : (m.timeStep dt n).1 = .ok ()) :
    ModuleP.spread (ModuleP.vallLoop (m.timeStep dt n).2.kids).1 < 1 / 10000000000 := by
  unfold ModuleP.timeStep at h ⊢
  by_cases hdt : dt < 0
  · rw [if_pos hdt] at h; cases h
  · rw [if_neg hdt] at h ⊢
    generalize stepKids dt n m.kids = r at h ⊢
    obtain ⟨o | e | w, ks⟩ := r
    · dsimp only at h ⊢
      have hr := redistribute_spread ({ m with kids := ks } : ModuleP U)
      generalize ModuleP.redistribute ({ m with kids := ks } : ModuleP U) = r at h hr ⊢
      obtain ⟨st | e | w, m'⟩ := r
      · dsimp only at h ⊢
        by_cases hst : st ≠ .Success
        · rw [if_pos hst] at h
          generalize ModuleP.redistribute m' = r3 at h
          obtain ⟨o3, m''⟩ := r3
          cases o3 <;> cases h
        · rw [if_neg hst]
          exact hr (by rw [not_not.mp hst])
      · cases h
      · cases h
    · cases h
    · cases h

theorem vallLoop_arms {P : U → ℚ → ℚ → Prop} (hP : ∀ u e r, P u e r → StorageUnit.V u = e - r * StorageUnit.I u)
    {ks : List (Kid U)} {as : List Arm} (h : IsCircuit P ks as) :
    ModuleP.vallLoop ks = (armVolts as (ks.map fun k => StorageUnit.I k.su), (ks.map fun k => StorageUnit.I k.su).sum) := by
  induction h with
  | nil => rfl
  | @cons k a ks as hk _ ih =>
    simp only [ModuleP.vallLoop, ih, List.map_cons, List.sum_cons, armVolts]
    rw [hP _ _ _ hk.1, hk.2, add_comm]

theorem tsum_eq_sum {U : Type} (f : U → ℚ) (ks : List (Kid U)) : tsum f ks = (ks.map fun k => f k.su).sum := by
  simp [tsum]

/-- A module whose branch voltages agree follows its circuit. -/
theorem follows_of_spread {P : U → ℚ → ℚ → Prop} (hP : ∀ u e r, P u e r → StorageUnit.V u = e - r * StorageUnit.I u)
    {m : ModuleP U} {as : List Arm} {R tol : ℚ} (hR : 0 < R) (hane : as ≠ []) (hc : IsCircuit P m.kids as)
    (ha : AtLeast R as) (hs : ModuleP.spread (ModuleP.vallLoop m.kids).1 ≤ tol) :
    FollowsCircuit tol R (StorageUnit.V m) (m.kids.map fun k => StorageUnit.I k.su) as := by
  have hl := hc.length_eq
  have hpos : ∀ a ∈ as, 0 < a.res ∧ 0 ≤ a.rc := fun a h => ⟨hR.trans_le (ha a h).1, (ha a h).2⟩
  obtain ⟨js, hk, hsum⟩ := circuit_exists as (m.kids.map fun k => StorageUnit.I k.su).sum hane hpos
  have hdev : DevLe (tol / R) (m.kids.map fun k => StorageUnit.I k.su) js := by
    refine near_circuit (c := ModuleP.mean (ModuleP.vallLoop m.kids).1) hR as _ js ha (by simpa using hl) hk hsum.symm ?_
    have := vallLoop_arms hP hc
    rw [this] at hs ⊢
    exact hs
  refine ⟨js, ?_, hdev, ?_⟩
  · intro v js'
    constructor
    · rintro ⟨h1, h2⟩
      have := circuit_unique hpos hane h1 hk (h2.trans hsum.symm)
      exact ⟨this.2, this.1⟩
    · rintro ⟨rfl, rfl⟩
      exact ⟨hk, hsum⟩
  · have hI : m.I = (m.kids.map fun k => StorageUnit.I k.su).sum := tsum_eq_sum _ _
    show ∀ a ∈ as.head?, |m.V - _| ≤ _
    unfold ModuleP.V
    rw [hI]
    generalize (circuitE as - circuitR as * (m.kids.map fun k => StorageUnit.I k.su).sum) = v at hk ⊢
    generalize m.kids = ks at *
    match ks, as, js, hc, hk, hdev with
    | k :: ks, a :: as, j :: js, hc, hk, hdev =>
      intro b hb
      have hb : a = b := by simpa using hb
      subst hb
      obtain ⟨hka, -⟩ := List.forall₂_cons.mp hc
      have h1 := hk.1
      have h2 := (List.forall₂_cons.mp hdev).1
      have h3 := (hpos a List.mem_cons_self).1
      dsimp only
      rw [hP _ _ _ hka.1, hka.2, ← hsum, List.sum_cons]
      rw [show a.emf - a.res * StorageUnit.I k.su - (j + js.sum) * a.rc - v = -(a.res * (StorageUnit.I k.su - j)) by
        linarith, abs_neg, abs_mul, abs_of_pos h3]
      exact mul_le_mul_of_nonneg_left h2 h3.le
    | [], [], _, _, _, _ => exact (hane rfl).elim

end

theorem cellSource_V {n : ℕ} (c : ECM n) (e r : ℚ) (h : CellSource c e r) :
    StorageUnit.V c = e - r * StorageUnit.I c := by
  obtain ⟨o, ho, rfl, rfl⟩ := h
  show c.V = _ - _ * c.st.I
  unfold ECM.V
  rw [ho]
  ring

theorem stringSource_V {n : ℕ} (m : ModuleS (ECM n)) (e r : ℚ) (h : StringSource m e r) :
    StorageUnit.V m = e - r * StorageUnit.I m := by
  obtain ⟨as, hf, rfl, rfl⟩ := h
  show ModuleS.vLoop 0 m.kids = _
  generalize StorageUnit.I m = I at hf ⊢
  have : ∀ (ks : List (Kid (ECM n))) (as : List Arm) (acc : ℚ), List.Forall₂ (fun (k : Kid (ECM n)) a =>
      CellSource k.su a.emf a.res ∧ k.rc = a.rc ∧ k.su.st.I = I ∧ 0 < a.emf - a.res * k.su.st.I) ks as →
      ModuleS.vLoop acc ks = acc + ((as.map Arm.emf).sum - (as.map fun a => a.res + a.rc).sum * I) := by
    intro ks as acc h
    induction h generalizing acc with
    | nil => simp [ModuleS.vLoop]
    | @cons k a ks as hk _ ih =>
      obtain ⟨h1, h2, h3, h4⟩ := hk
      have hv := cellSource_V _ _ _ h1
      have hi : StorageUnit.I k.su = I := h3
      unfold ModuleS.vLoop
      rw [h3] at h4
      rw [hv, hi, if_neg (not_le.mpr h4), ih, h2]
      simp only [List.map_cons, List.sum_cons]
      ring
  rw [this _ _ 0 hf]
  ring

theorem circuitR_rtot {U : Type} [StorageUnit U] {P : U → ℚ → ℚ → Prop} (hP : ∀ u e r, P u e r → StorageUnit.Rtot u = r)
    {ks : List (Kid U)} {as : List Arm} (h : IsCircuit P ks as) (ha : ∀ a ∈ as, 0 < a.res ∧ 0 ≤ a.rc) :
    ModuleP.rtotLoop ks = circuitR as := by
  induction h with
  | nil => rfl
  | @cons k a ks as hk ht ih =>
    have ih := ih fun x hx => ha x (List.mem_cons_of_mem _ hx)
    match ks, as, ht, ih with
    | [], [], _, _ => simp only [ModuleP.rtotLoop, circuitR, hk.2, hP _ _ _ hk.1]
    | k' :: ks, b :: as, _, ih =>
      have h1 := (circuitR_pos (b :: as) (by simp) fun x hx => ha x (List.mem_cons_of_mem _ hx)).ne'
      have h2 := (ha a List.mem_cons_self).1.ne'
      simp only [ModuleP.rtotLoop, circuitR, hk.2, hP _ _ _ hk.1, ih]
      field_simp
      rw [add_comm a.res]

/-! ## C155 -/

/-- C155: after every successful simulation step, the currents in a parallel module of equivalent-circuit cells and its
terminal voltage are those of the electrical circuit, to within a tenth of a nanovolt. -/
theorem parallel_follows_circuit {n : ℕ} {m : ModuleP (ECM n)} {dt R : ℚ} {k : ℕ} {as : List Arm} (hR : 0 < R)
    (hne : as ≠ []) (h : (m.timeStep dt k).1 = .ok ()) (hc : IsCircuit CellSource (m.timeStep dt k).2.kids as)
    (ha : AtLeast R as) :
    FollowsCircuit (1 / 10000000000) R (StorageUnit.V (m.timeStep dt k).2)
      ((m.timeStep dt k).2.kids.map fun c => c.su.st.I) as := by
  exact follows_of_spread cellSource_V hR hne hc ha (timeStep_spread m dt k h).le

/-- C155 for strings in parallel. -/
theorem strings_follow_circuit {n : ℕ} {m : ModuleP (ModuleS (ECM n))} {dt R : ℚ} {k : ℕ} {as : List Arm} (hR : 0 < R)
    (hne : as ≠ []) (h : (m.timeStep dt k).1 = .ok ()) (hc : IsCircuit StringSource (m.timeStep dt k).2.kids as)
    (ha : AtLeast R as) :
    FollowsCircuit (1 / 10000000000) R (StorageUnit.V (m.timeStep dt k).2)
      ((m.timeStep dt k).2.kids.map fun c => StorageUnit.I c.su) as := by
  exact follows_of_spread stringSource_V hR hne hc ha (timeStep_spread m dt k h).le

/-- The resistance the module reports is the one of this circuit. -/
theorem parallel_reports_circuitR {n : ℕ} {m : ModuleP (ECM n)} {as : List Arm} (hc : IsCircuit CellSource m.kids as)
    (ha : ∀ a ∈ as, 0 < a.res ∧ 0 ≤ a.rc) : StorageUnit.Rtot m = circuitR as := by
  refine circuitR_rtot ?_ hc ha
  rintro u e r ⟨o, -, -, rfl⟩
  rfl

/-- Likewise for strings in parallel. -/
theorem strings_report_circuitR {n : ℕ} {m : ModuleP (ModuleS (ECM n))} {as : List Arm}
    (hc : IsCircuit StringSource m.kids as) (ha : ∀ a ∈ as, 0 < a.res ∧ 0 ≤ a.rc) : StorageUnit.Rtot m = circuitR as := by
  refine circuitR_rtot ?_ hc ha
  rintro u e r ⟨bs, hf, -, rfl⟩
  show ModuleS.Rtot u = _
  unfold ModuleS.Rtot
  generalize StorageUnit.I u = I at hf
  have key : ∀ (ks : List (Kid (ECM n))) (bs : List Arm) (acc : ℚ), List.Forall₂ (fun (k : Kid (ECM n)) a =>
      CellSource k.su a.emf a.res ∧ k.rc = a.rc ∧ k.su.st.I = I ∧ 0 < a.emf - a.res * k.su.st.I) ks bs →
      ks.foldl (fun r k => r + (StorageUnit.Rtot k.su + k.rc)) acc = acc + (bs.map fun a => a.res + a.rc).sum := by
    intro ks bs acc h
    induction h generalizing acc with
    | nil => simp
    | @cons k a ks as hk _ ih =>
      obtain ⟨⟨o, -, -, hr⟩, h2, -⟩ := hk
      have : StorageUnit.Rtot k.su = a.res := hr.symm
      simp only [List.foldl_cons, ih, List.map_cons, List.sum_cons, this, h2]
      ring
  rw [key _ _ 0 hf, zero_add]

/-! ### A concrete case

Two cells at different states of charge behind contact resistances of a milliohm: after 576 s the first carries 1 A, the
second 2 A. -/

/-- The two cells before the step. -/
def ladderModule : ModuleP (ECM 0) :=
  { T := 288, kids := [⟨1/1000, bucket (1/2 + 1/100) 1⟩, ⟨1/1000, bucket (1/2 + 4/2300 + 2/100) 2⟩] }

/-- Their circuit after the step. -/
def ladderArms : List Arm := [⟨2 + 23/20, 2/1000, 1/1000⟩, ⟨2 + 23/20 + 4/1000, 2/1000, 1/1000⟩]

theorem ladder_step : (ladderModule.timeStep 576 1).1 = .ok () ∧
    ((ladderModule.timeStep 576 1).2.kids.map fun c => c.su.st.I) = [1, 2] ∧
    ((ladderModule.timeStep 576 1).2.kids.map fun c => c.su.st.SOC) = [1/2, 1/2 + 4/2300] ∧
    StorageUnit.V (ladderModule.timeStep 576 1).2 = 3145/1000 := by
  decide +kernel

theorem isCircuit_of_map : ∀ (ks : List (Kid (ECM 0))) (as : List Arm),
    (ks.map fun k => (k.su.par.ocv k.su.st.SOC, k.su.par.Rdc, k.rc)) = (as.map fun a => (some a.emf, a.res, a.rc)) →
    IsCircuit CellSource ks as
  | [], [], _ => List.Forall₂.nil
  | [], _ :: _, h => by cases h
  | _ :: _, [], h => by cases h
  | k :: ks, a :: as, h => by
    simp only [List.map_cons, List.cons.injEq, Prod.mk.injEq] at h
    exact List.Forall₂.cons ⟨⟨a.emf, h.1.1, by simp, h.1.2.1.symm⟩, h.1.2.2⟩ (isCircuit_of_map ks as h.2)

theorem ladder_circuit : IsCircuit CellSource (ladderModule.timeStep 576 1).2.kids ladderArms ∧
    AtLeast (2/1000) ladderArms ∧ Kirchhoff (3145/1000) ladderArms [1, 2] ∧ ladderArms ≠ [] := by
  refine ⟨isCircuit_of_map _ _ (by decide +kernel), ?_, ?_, by simp [ladderArms]⟩
  · intro a ha
    simp only [ladderArms, List.mem_cons, List.not_mem_nil, or_false] at ha
    rcases ha with rfl | rfl <;> norm_num
  · norm_num [ladderArms, Kirchhoff]

example : ∃ (m : ModuleP (ECM 0)) (as : List Arm), (m.timeStep 576 1).1 = .ok () ∧
    IsCircuit CellSource (m.timeStep 576 1).2.kids as ∧ AtLeast (2/1000) as ∧ as ≠ [] ∧ Kirchhoff (3145/1000) as [1, 2] :=
  ⟨ladderModule, ladderArms, ladder_step.1, ladder_circuit.1, ladder_circuit.2.1, ladder_circuit.2.2.2, ladder_circuit.2.2.1⟩

/-- Two strings of two cells each. -/
def ladderString (soc i : ℚ) : ModuleS (ECM 0) := { T := 288, kids := [⟨0, bucket soc i⟩, ⟨1/1000, bucket soc i⟩] }

/-- The strings in parallel before the step. -/
def ladderStrings : ModuleP (ModuleS (ECM 0)) :=
  { T := 288, kids := [⟨1/1000, ladderString (1/2 + 1/100) 1⟩, ⟨1/1000, ladderString (1/2 + 7/4600 + 2/100) 2⟩] }

theorem stringSource_of_map (m : ModuleS (ECM 0)) (as : List Arm) (e r I : ℚ) (h : m.I = I ∧
    (m.kids.map fun k => (k.su.par.ocv k.su.st.SOC, k.su.par.Rdc, k.rc, k.su.st.I)) =
      (as.map fun a => (some a.emf, a.res, a.rc, I)) ∧
    (∀ a ∈ as, 0 < a.emf - a.res * I) ∧ e = (as.map Arm.emf).sum ∧ r = (as.map fun a => a.res + a.rc).sum) :
    StringSource m e r := by
  obtain ⟨hI, hm, hp, rfl, rfl⟩ := h
  refine ⟨as, ?_, rfl, rfl⟩
  have hI : StorageUnit.I m = I := hI
  rw [hI]
  generalize m.kids = ks at hm
  induction as generalizing ks with
  | nil =>
    rw [List.map_nil, List.map_eq_nil_iff] at hm
    subst hm
    exact List.Forall₂.nil
  | cons a as ih =>
    cases ks with
    | nil => cases hm
    | cons k ks =>
      simp only [List.map_cons, List.cons.injEq, Prod.mk.injEq] at hm
      obtain ⟨⟨h1, h2, h3, h4⟩, h5⟩ := hm
      refine List.Forall₂.cons ⟨⟨a.emf, h1, by simp, h2.symm⟩, h3, h4, ?_⟩
        (ih (fun x hx => hp x (List.mem_cons_of_mem _ hx)) ks h5)
      rw [h4]
      exact hp a List.mem_cons_self

/-- The circuit of the strings after the step. -/
def stringArms : List Arm := [⟨4 + 23/10, 5/1000, 1/1000⟩, ⟨4 + 23/10 + 7/1000, 5/1000, 1/1000⟩]

set_option synthInstance.maxSize 1000 in
theorem strings_kids : ∃ a b : ModuleS (ECM 0), (ladderStrings.timeStep 576 1).2.kids = [⟨1/1000, a⟩, ⟨1/1000, b⟩] ∧
    a.I = 1 ∧ b.I = 2 ∧
    (a.kids.map fun k => (k.su.par.ocv k.su.st.SOC, k.su.par.Rdc, k.rc, k.su.st.I)) =
      [(some (2 + 23/20), 2/1000, 0, 1), (some (2 + 23/20), 2/1000, 1/1000, 1)] ∧
    (b.kids.map fun k => (k.su.par.ocv k.su.st.SOC, k.su.par.Rdc, k.rc, k.su.st.I)) =
      [(some (2 + 23/20 + 7/2000), 2/1000, 0, 2), (some (2 + 23/20 + 7/2000), 2/1000, 1/1000, 2)] := by
  have hl : ((ladderStrings.timeStep 576 1).2.kids.map fun k => (k.rc, k.su.I,
      k.su.kids.map fun k => (k.su.par.ocv k.su.st.SOC, k.su.par.Rdc, k.rc, k.su.st.I))) =
      [(1/1000, 1, [(some (2 + 23/20), 2/1000, 0, 1), (some (2 + 23/20), 2/1000, 1/1000, 1)]),
       (1/1000, 2, [(some (2 + 23/20 + 7/2000), 2/1000, 0, 2), (some (2 + 23/20 + 7/2000), 2/1000, 1/1000, 2)])] := by
    decide +kernel
  generalize (ladderStrings.timeStep 576 1).2.kids = ks at hl ⊢
  match ks with
  | [] => cases hl
  | [_] => simp at hl
  | [a, b] =>
    simp only [List.map_cons, List.map_nil, List.cons.injEq, Prod.mk.injEq] at hl
    obtain ⟨⟨h1, h2, h3⟩, ⟨h4, h5, h6⟩, -⟩ := hl
    obtain ⟨ra, a⟩ := a
    obtain ⟨rb, b⟩ := b
    dsimp only at h1 h4
    subst h1 h4
    exact ⟨a, b, rfl, h2, h5, by simpa using h3, by simpa using h6⟩
  | _ :: _ :: _ :: _ => simp at hl

example : (ladderStrings.timeStep 576 1).1 = .ok () ∧ IsCircuit StringSource (ladderStrings.timeStep 576 1).2.kids stringArms ∧
    AtLeast (5/1000) stringArms ∧ stringArms ≠ [] ∧ Kirchhoff (6292/1000) stringArms [1, 2] := by
  refine ⟨by decide +kernel, ?_, ?_, by simp [stringArms], by norm_num [stringArms, Kirchhoff]⟩
  · obtain ⟨a, b, h, h1, h2, h3, h4⟩ := strings_kids
    rw [h]
    refine List.Forall₂.cons ⟨stringSource_of_map a [⟨2 + 23/20, 2/1000, 0⟩, ⟨2 + 23/20, 2/1000, 1/1000⟩] _ _ 1
      ⟨h1, h3, ?_, by norm_num, by norm_num⟩, rfl⟩ (List.Forall₂.cons ⟨stringSource_of_map b
      [⟨2 + 23/20 + 7/2000, 2/1000, 0⟩, ⟨2 + 23/20 + 7/2000, 2/1000, 1/1000⟩] _ _ 2
      ⟨h2, h4, ?_, by norm_num, by norm_num⟩, rfl⟩ List.Forall₂.nil)
    all_goals
      intro x hx
      simp only [List.mem_cons, List.not_mem_nil, or_false] at hx
      rcases hx with rfl | rfl <;> norm_num
  · intro a ha
    simp only [stringArms, List.mem_cons, List.not_mem_nil, or_false] at ha
    rcases ha with rfl | rfl <;> norm_num

end Slide

import Verif.Props.Parallel
import Verif.Props.Series
import Verif.Props.Frame
import Verif.Spec.PowerBalance

/-!
# C136: power at the terminals of a pack is the power of its cells minus the losses in the contacts
-/

namespace Slide
open StorageUnit Spec

variable {C : Type} [StorageUnit C] {n : ℕ}

/-! ## Helper lemmas -/

section ladder
variable {U : Type} [StorageUnit U]

theorem ladderLoss_cons (k : Kid U) (ks : List (Kid U)) :
    ladderLoss (k :: ks) = k.rc * (StorageUnit.I k.su + totalCurrent ks) ^ 2 + ladderLoss ks := by
  unfold ladderLoss
  rw [List.length_cons, Finset.sum_range_succ']
  have e : ∀ j, currentFrom (k :: ks) (j + 1) = currentFrom ks j := fun j => by simp [currentFrom]
  have e0 : currentFrom (k :: ks) 0 = StorageUnit.I k.su + totalCurrent ks := by simp [currentFrom, totalCurrent]
  simp only [List.map_cons, List.getElem?_cons_succ, List.getElem?_cons_zero, Option.getD_some, e, e0]
  ring

theorem ladderDrop_cons (k : Kid U) (ks : List (Kid U)) (i : ℕ) :
    ladderDrop (k :: ks) (i + 1) = k.rc * (StorageUnit.I k.su + totalCurrent ks) + ladderDrop ks i := by
  unfold ladderDrop
  rw [Finset.sum_range_succ']
  have e : ∀ j, currentFrom (k :: ks) (j + 1) = currentFrom ks j := fun j => by simp [currentFrom]
  have e0 : currentFrom (k :: ks) 0 = StorageUnit.I k.su + totalCurrent ks := by simp [currentFrom, totalCurrent]
  simp only [List.map_cons, List.getElem?_cons_succ, List.getElem?_cons_zero, Option.getD_some, e, e0]
  ring

theorem ladderDrop_zero (k : Kid U) (ks : List (Kid U)) :
    ladderDrop (k :: ks) 0 = k.rc * (StorageUnit.I k.su + totalCurrent ks) := by
  simp [ladderDrop, currentFrom, totalCurrent]

/-- Power of a ladder whose terminal voltages are within `ε` of `W`. -/
theorem ladder_power {ε : ℚ} : ∀ (ks : List (Kid U)) (W : ℚ),
    (∀ i k, ks[i]? = some k → |StorageUnit.V k.su - ladderDrop ks i - W| ≤ ε) →
    |W * totalCurrent ks - ((ks.map fun k => StorageUnit.V k.su * StorageUnit.I k.su).sum - ladderLoss ks)| ≤
      ε * (ks.map fun k => |StorageUnit.I k.su|).sum := by
  intro ks
  induction ks with
  | nil => intro W _; simp [totalCurrent, ladderLoss]
  | cons k ks ih =>
    intro W h
    have hh := h 0 k rfl
    rw [ladderDrop_zero] at hh
    have ht := ih (W + k.rc * (StorageUnit.I k.su + totalCurrent ks)) (fun i j hj => by
      have := h (i + 1) j (by simpa using hj)
      rw [ladderDrop_cons] at this
      have e : StorageUnit.V j.su - ladderDrop ks i - (W + k.rc * (StorageUnit.I k.su + totalCurrent ks)) =
        StorageUnit.V j.su - (k.rc * (StorageUnit.I k.su + totalCurrent ks) + ladderDrop ks i) - W := by ring
      rw [e]; exact this)
    have ec : totalCurrent (k :: ks) = StorageUnit.I k.su + totalCurrent ks := by simp [totalCurrent]
    rw [ladderLoss_cons, ec]
    simp only [List.map_cons, List.sum_cons]
    generalize totalCurrent ks = c at *
    generalize (ks.map fun k => StorageUnit.V k.su * StorageUnit.I k.su).sum = P at *
    generalize (ks.map fun k => |StorageUnit.I k.su|).sum = A at *
    generalize ladderLoss ks = L at *
    have e : W * (StorageUnit.I k.su + c) - (StorageUnit.V k.su * StorageUnit.I k.su + P -
        (k.rc * (StorageUnit.I k.su + c) ^ 2 + L)) =
        -((StorageUnit.V k.su - k.rc * (StorageUnit.I k.su + c) - W) * StorageUnit.I k.su) +
        ((W + k.rc * (StorageUnit.I k.su + c)) * c - (P - L)) := by ring
    rw [e]
    refine (abs_add_le _ _).trans ?_
    rw [abs_neg, abs_mul]
    have := mul_le_mul_of_nonneg_right hh (abs_nonneg (StorageUnit.I k.su))
    linarith

end ladder

/-- Sums over the children of a module. -/
theorem abs_sum_sub_le {α : Type} (l : List α) (f g e : α → ℚ) (h : ∀ x ∈ l, |f x - g x| ≤ e x) :
    |(l.map f).sum - (l.map g).sum| ≤ (l.map e).sum := by
  induction l with
  | nil => simp
  | cons a l ih =>
    simp only [List.map_cons, List.sum_cons]
    have h1 := h a (by simp)
    have h2 := ih fun x hx => h x (by simp [hx])
    have e : f a + (l.map f).sum - (g a + (l.map g).sum) = (f a - g a) + ((l.map f).sum - (l.map g).sum) := by ring
    rw [e]
    exact (abs_add_le _ _).trans (add_le_add h1 h2)

theorem cellPower_kids {d : ℕ} (ks : List (Kid (Tree C d))) :
    ((ks.flatMap fun k => cells d k.su).map fun c => StorageUnit.V c * StorageUnit.I c).sum =
      (ks.map fun k => cellPower d k.su).sum := by
  induction ks with
  | nil => rfl
  | cons k ks ih => simp only [List.flatMap_cons, List.map_append, List.sum_append, ih, List.map_cons, List.sum_cons]; rfl

theorem sum_sub_map {α : Type} (l : List α) (f g : α → ℚ) : (l.map fun x => f x - g x).sum = (l.map f).sum - (l.map g).sum := by
  induction l with
  | nil => simp
  | cons a l ih => simp only [List.map_cons, List.sum_cons, ih]; ring

theorem sum_add_map {α : Type} (l : List α) (f g : α → ℚ) : (l.map fun x => f x + g x).sum = (l.map f).sum + (l.map g).sum := by
  induction l with
  | nil => simp
  | cons a l ih => simp only [List.map_cons, List.sum_cons, ih]; ring

theorem sum_mul_map {α : Type} (l : List α) (f : α → ℚ) (c : ℚ) : (l.map fun x => f x * c).sum = (l.map f).sum * c := by
  induction l with
  | nil => simp
  | cons a l ih => simp only [List.map_cons, List.sum_cons, ih]; ring

/-! ## C136 -/

/-- **C136.**  Terminal voltage times terminal current of a pack is the sum over its cells of voltage times current, minus
the power lost in the contact resistances, up to the voltage difference between the branches of its parallel modules times
their currents. -/
theorem power_balance {ε : ℚ} : ∀ (d : ℕ) (t : Tree C d), InOperation ε d t →
    |StorageUnit.V t * StorageUnit.I t - (cellPower d t - contactLoss d t)| ≤ ε * branchCurrents d t := by
  intro d
  induction d with
  | zero =>
    intro t _
    show |StorageUnit.V (U := C) t * StorageUnit.I (U := C) t - ((StorageUnit.V (U := C) t * StorageUnit.I (U := C) t + 0) - 0)| ≤ ε * 0
    simp
  | succ d ih =>
    intro t h
    match t, h with
    | .cell c, _ =>
      show |StorageUnit.V c * StorageUnit.I c - ((StorageUnit.V c * StorageUnit.I c + 0) - 0)| ≤ ε * 0
      simp
    | .series m, h =>
      obtain ⟨h1, h2, h3⟩ := h
      have hI : SameCurrent m := by
        intro k hk
        unfold ModuleS.I
        rcases hm : m.kids with _ | ⟨a, l⟩
        · rw [hm] at hk; cases hk
        · exact h2 k hk a (by rw [hm]; simp)
      have hV := series_V_sum m h1
      have e3 : m.V * m.I = (m.kids.map fun k => StorageUnit.V k.su * StorageUnit.I k.su).sum -
          (m.kids.map fun k => k.rc * StorageUnit.I k.su ^ 2).sum := by
        rw [hV, sub_mul, ← sum_mul_map, ← sum_mul_map]
        congr 2
        · exact List.map_congr_left fun k hk => by rw [hI k hk]
        · exact List.map_congr_left fun k hk => by rw [hI k hk]; ring
      show |m.V * m.I - (((m.kids.flatMap fun k => cells d k.su).map fun c => StorageUnit.V c * StorageUnit.I c).sum -
        (m.kids.map fun k => k.rc * StorageUnit.I k.su ^ 2 + contactLoss d k.su).sum)| ≤
        ε * (m.kids.map fun k => branchCurrents d k.su).sum
      rw [e3, cellPower_kids, sum_add_map]
      have key := abs_sum_sub_le m.kids (fun k => StorageUnit.V k.su * StorageUnit.I k.su)
        (fun k => cellPower d k.su - contactLoss d k.su) (fun k => branchCurrents d k.su * ε)
        (fun k hk => by have := ih k.su (h3 k hk); rw [mul_comm ε] at this; exact this)
      rw [sum_sub_map, sum_mul_map] at key
      rw [mul_comm ε]
      refine le_trans (le_of_eq ?_) key
      congr 1; ring
    | .parallel m, h =>
      obtain ⟨h1, h2⟩ := h
      show |m.V * totalCurrent m.kids - (((m.kids.flatMap fun k => cells d k.su).map fun c => StorageUnit.V c * StorageUnit.I c).sum -
        (ladderLoss m.kids + (m.kids.map fun k => contactLoss d k.su).sum))| ≤
        ε * (m.kids.map fun k => |StorageUnit.I k.su| + branchCurrents d k.su).sum
      rw [cellPower_kids, sum_add_map]
      have hl := ladder_power (ε := ε) m.kids m.V (fun i k hk => by
        rcases hm : m.kids with _ | ⟨a, l⟩
        · rw [hm] at hk; simp at hk
        · have ha : m.kids[0]? = some a := by rw [hm]; rfl
          rw [parallel_V_terminal m a ha, ← hm]
          exact h1 i 0 k a hk ha)
      have key := abs_sum_sub_le m.kids (fun k => StorageUnit.V k.su * StorageUnit.I k.su)
        (fun k => cellPower d k.su - contactLoss d k.su) (fun k => branchCurrents d k.su * ε)
        (fun k hk => by have := ih k.su (h2 k hk); rw [mul_comm ε] at this; exact this)
      rw [sum_sub_map, sum_mul_map] at key
      rw [mul_add, mul_comm ε (List.sum (m.kids.map fun k => branchCurrents d k.su))]
      refine le_trans ?_ (add_le_add hl key)
      refine le_trans (le_of_eq ?_) (abs_add_le _ _)
      congr 1; ring

/-- **C136, exactly balanced packs.** -/
theorem power_balance_exact (d : ℕ) (t : Tree C d) (h : InOperation 0 d t) :
    StorageUnit.V t * StorageUnit.I t = cellPower d t - contactLoss d t := by
  have := power_balance d t h
  rw [zero_mul] at this
  exact sub_eq_zero.mp (abs_nonpos_iff.mp this)

/-- **C136, losses.**  The power lost in the contacts is not negative when no contact resistance is. -/
theorem contactLoss_nonneg : ∀ (d : ℕ) (t : Tree C d), ContactsNonneg d t → 0 ≤ contactLoss d t := by
  intro d
  induction d with
  | zero => intro t _; exact le_rfl
  | succ d ih =>
    intro t h
    match t, h with
    | .cell c, _ => exact le_rfl
    | .series m, h =>
      show 0 ≤ (m.kids.map fun k => k.rc * StorageUnit.I k.su ^ 2 + contactLoss d k.su).sum
      refine List.sum_nonneg fun x hx => ?_
      obtain ⟨k, hk, rfl⟩ := List.mem_map.mp hx
      exact add_nonneg (mul_nonneg (h k hk).1 (sq_nonneg _)) (ih k.su (h k hk).2)
    | .parallel m, h =>
      show 0 ≤ ladderLoss m.kids + (m.kids.map fun k => contactLoss d k.su).sum
      refine add_nonneg (Finset.sum_nonneg fun j _ => mul_nonneg ?_ (sq_nonneg _)) (List.sum_nonneg fun x hx => ?_)
      · rcases hj : m.kids[j]? with _ | k
        · simp [hj]
        · simp only [List.getElem?_map, hj, Option.map_some, Option.getD_some]
          exact (h k (List.mem_of_getElem? hj)).1
      · obtain ⟨k, hk, rfl⟩ := List.mem_map.mp hx
        exact ih k.su (h k hk).2

/-- **C136, energy.**  When a pack of equivalent-circuit cells is discharged for one time step that leaves the currents of
its cells as they were, the meters of its cells advance by the energy delivered at its terminals and the energy lost in its
contacts, up to the voltage difference between branches. -/
theorem energy_balance_pack {ε dt : ℚ} {d : ℕ} {t t' : Tree (ECM n) d} (hdt : 0 ≤ dt)
    (h : StorageUnit.timeStep t dt 1 = (.ok (), t')) (ho : InOperation ε d t')
    (hI : (cells d t').map (fun c => c.st.I) = (cells d t).map (fun c => c.st.I))
    (hdis : ∀ c ∈ cells d t', 0 ≤ c.V * c.st.I) :
    |metersWh d t' - metersWh d t - (StorageUnit.V t' * StorageUnit.I t' + contactLoss d t') * dt / 3600| ≤
      ε * branchCurrents d t' * dt / 3600 := by
  have hs := tree_timeStep_steps_cells d t dt 1 (by rw [h])
  rw [h] at hs
  have hf := cellWise_cells d hs
  have key : ∀ (l l' : List (ECM n)), List.Forall₂ (Stepped dt 1) l l' → l'.map (fun c => c.st.I) = l.map (fun c => c.st.I) →
      (∀ c ∈ l', 0 ≤ c.V * c.st.I) →
      (l'.map fun c => c.st.Wh).sum - (l.map fun c => c.st.Wh).sum =
        (l'.map fun c => StorageUnit.V c * StorageUnit.I c).sum * dt / 3600 := by
    intro l l' hl
    induction hl with
    | nil => intro _ _; simp
    | @cons a b l l' hab _ ih =>
      intro h1 h2
      simp only [List.map_cons, List.cons.injEq] at h1
      have h3 := ih h1.2 fun c hc => h2 c (by simp [hc])
      have h4 : b.st.Wh - a.st.Wh = b.V * b.st.I * dt / 3600 := by
        obtain ⟨i, hi⟩ := (onlyCurrent_iff _ _).mp hab
        have hstep : (StorageUnit.timeStep a dt 1).2 = a.step1 dt := by
          show (ECM.timeStep a dt 1).2 = _
          unfold ECM.timeStep
          rw [if_neg (not_lt.mpr hdt)]
          rfl
        rw [hstep] at hi
        have hIb : b.st.I = i := by rw [hi]; rfl
        have hb : b = a.step1 dt := by
          rw [hi, ← hIb, h1.1]; rfl
        have hV := h2 b (by simp)
        rw [h1.1] at hV ⊢
        have hw : (a.step1 dt).st.Wh = a.st.Wh + |a.st.I * (dt / 3600) * (a.step1 dt).V| := rfl
        rw [hb] at hV ⊢
        rw [hw]
        have e : a.st.I * (dt / 3600) * (a.step1 dt).V = (a.step1 dt).V * a.st.I * dt / 3600 := by ring
        rw [e, abs_of_nonneg (by positivity)]
        ring
      simp only [List.map_cons, List.sum_cons]
      have e : StorageUnit.V b * StorageUnit.I b = b.V * b.st.I := rfl
      rw [e]
      linarith
  have hk := key _ _ hf hI hdis
  have hp := power_balance d t' ho
  have e : metersWh d t' - metersWh d t - (StorageUnit.V t' * StorageUnit.I t' + contactLoss d t') * dt / 3600 =
      -((StorageUnit.V t' * StorageUnit.I t' - (cellPower d t' - contactLoss d t')) * (dt / 3600)) := by
    unfold metersWh
    rw [hk]
    show cellPower d t' * dt / 3600 - _ = _
    ring
  have hd3 : 0 ≤ dt / 3600 := by positivity
  rw [e, abs_neg, abs_mul, abs_of_nonneg hd3]
  have := mul_le_mul_of_nonneg_right hp hd3
  refine this.trans (le_of_eq ?_)
  ring

/-- A cell at 3.15 V and rest voltage, 1 mOhm, carrying `i`. -/
def balCell (i : ℚ) : ECM 0 :=
  ⟨⟨16, 1 / 1000, fun _ => 0, fun _ => 0, fun z => some (2 + 23 / 10 * z)⟩, ⟨293, 1 / 2, i, fun _ => 0, 0, 0, 0⟩⟩

/-- Two branches in parallel, the second behind a second contact resistance, in series with a cell: the branch currents
4 A and 2 A equalise the terminal voltages. -/
def balPack : Tree (ECM 0) 2 :=
  (.series ⟨293, [⟨1 / 2000, .cell (balCell 6)⟩,
    ⟨1 / 1000, .parallel ⟨293, [⟨1 / 500, balCell 4⟩, ⟨1 / 1000, balCell 2⟩]⟩⟩]⟩ : Node _ _)

/-- The hypothesis of `power_balance_exact` is met; the losses are not zero. -/
example : InOperation 0 2 balPack ∧ ContactsNonneg 2 balPack ∧ contactLoss 2 balPack = 13 / 100 ∧ cellPower 2 balPack = 6 * 315 / 50 - 56 / 1000 := by
  refine ⟨⟨by decide +kernel, by decide +kernel, ?_⟩, ?_, by decide +kernel, by decide +kernel⟩
  · refine List.forall_mem_cons.mpr ⟨trivial, List.forall_mem_cons.mpr ⟨⟨?_, fun _ _ => trivial⟩, fun _ h => nomatch h⟩⟩
    intro i j a b ha hb
    match i, j with
    | 0, 0 => simp only [List.getElem?_cons_zero, Option.some.injEq] at ha hb; subst ha hb; decide +kernel
    | 0, 1 => simp only [List.getElem?_cons_zero, List.getElem?_cons_succ, Option.some.injEq] at ha hb; subst ha hb; decide +kernel
    | 1, 0 => simp only [List.getElem?_cons_zero, List.getElem?_cons_succ, Option.some.injEq] at ha hb; subst ha hb; decide +kernel
    | 1, 1 => simp only [List.getElem?_cons_zero, List.getElem?_cons_succ, Option.some.injEq] at ha hb; subst ha hb; decide +kernel
    | i + 2, _ => simp at ha
    | _, j + 2 => simp at hb
  · refine List.forall_mem_cons.mpr ⟨⟨by decide +kernel, trivial⟩, List.forall_mem_cons.mpr ⟨⟨by decide +kernel, ?_⟩, fun _ h => nomatch h⟩⟩
    exact List.forall_mem_cons.mpr ⟨⟨by decide +kernel, trivial⟩, List.forall_mem_cons.mpr ⟨⟨by decide +kernel, trivial⟩, fun _ h => nomatch h⟩⟩

/-- A string of two cells. -/
def balString : Tree (ECM 0) 1 := (.series ⟨293, [⟨1 / 2000, balCell 6⟩, ⟨1 / 1000, balCell 6⟩]⟩ : Node _ _)

/-- The hypotheses of `energy_balance_pack` are met: 10 s of discharge. -/
example : (StorageUnit.timeStep balString 10 1).1 = .ok () ∧ InOperation 0 1 (StorageUnit.timeStep balString 10 1).2 ∧
    (cells 1 (StorageUnit.timeStep balString 10 1).2).map (fun c => c.st.I) = (cells 1 balString).map (fun c => c.st.I) ∧
    (∀ c ∈ cells 1 (StorageUnit.timeStep balString 10 1).2, 0 ≤ c.V * c.st.I) ∧
    metersWh 1 balString < metersWh 1 (StorageUnit.timeStep balString 10 1).2 := by
  exact ⟨by decide +kernel, ⟨by decide +kernel, by decide +kernel, fun _ _ => trivial⟩, by decide +kernel, by decide +kernel,
    by decide +kernel⟩

end Slide

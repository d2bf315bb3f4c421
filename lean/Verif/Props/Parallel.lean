import Verif.Lemmas.States
import Verif.Spec.Parallel
import Verif.Props.Series
import Verif.Props.Tree

/-!
Properties of the parallel module: C03, C04, C09, C10.
-/

namespace Slide
open StorageUnit Spec ModuleP

section
variable {U : Type} [StorageUnit U]

/-! ### C09 -/

theorem vallLoop_length (ks : List (Kid U)) : (vallLoop ks).1.length = ks.length := by
  induction ks with
  | nil => rfl
  | cons k ks ih => simp [vallLoop, ih]

theorem vallLoop_current (ks : List (Kid U)) : (vallLoop ks).2 = totalCurrent ks := by
  induction ks with
  | nil => rfl
  | cons k ks ih => simp only [vallLoop, ih]; simp [totalCurrent]; ring

theorem vallLoop_get (ks : List (Kid U)) (i : ℕ) (k : Kid U) (hk : ks[i]? = some k) :
    (vallLoop ks).1[i]? = some (StorageUnit.V k.su - ladderDrop ks i) := by
  induction ks generalizing i with
  | nil => simp at hk
  | cons k0 ks ih =>
    simp only [vallLoop, List.map_cons]
    have hcur : (vallLoop ks).2 + StorageUnit.I k0.su = currentFrom (k0 :: ks) 0 := by
      rw [vallLoop_current]; simp [totalCurrent, currentFrom]; ring
    rw [hcur]
    cases i with
    | zero =>
      have : k0 = k := by simpa using hk
      subst this
      simp [ladderDrop]; ring
    | succ i =>
      have hk' : ks[i]? = some k := by simpa using hk
      rw [List.getElem?_cons_succ, List.getElem?_map, ih i hk']
      simp only [Option.map_some, Option.some.injEq]
      unfold ladderDrop
      rw [Finset.sum_range_succ' _ (i+1)]
      simp only [List.map_cons, List.getElem?_cons_succ, List.getElem?_cons_zero, Option.getD_some]
      have : ∀ j, currentFrom (k0 :: ks) (j+1) = currentFrom ks j := fun j => by simp [currentFrom]
      simp only [this]
      ring

/-- C09: with a container that is large enough, `getVall` stores for every child its voltage minus the contact drops
of the ladder, leaves the other entries of the container alone and does not change its size. -/
theorem parallel_getVall (buf : List ℚ) (ks : List (Kid U)) (h : ks.length ≤ buf.length) :
    ∃ out, getVall buf ks = .ok out ∧ out.length = buf.length ∧
      (∀ i k, ks[i]? = some k → out[i]? = some (StorageUnit.V k.su - ladderDrop ks i)) ∧
      (∀ i, ks.length ≤ i → out[i]? = buf[i]?) := by
  unfold getVall
  by_cases h0 : ks = []
  · subst h0
    exact ⟨buf, by simp, rfl, by simp, by simp⟩
  · rw [if_neg h0, if_neg (by omega)]
    refine ⟨_, rfl, ?_, ?_, ?_⟩
    · simp [vallLoop_length]; omega
    · intro i k hk
      have hi : i < ks.length := by
        by_contra hc
        rw [List.getElem?_eq_none (by omega)] at hk; cases hk
      rw [List.getElem?_append_left (by rw [vallLoop_length]; exact hi)]
      exact vallLoop_get ks i k hk
    · intro i hi
      rw [List.getElem?_append_right (by rw [vallLoop_length]; exact hi), vallLoop_length, List.getElem?_drop]
      congr 1; omega

/-- C09: a container that is too small is rejected with 10, and never written out of bounds. -/
theorem parallel_getVall_small (buf : List ℚ) (ks : List (Kid U)) (h : buf.length < ks.length) :
    getVall buf ks = .throw 10 := by
  unfold getVall
  rw [if_neg (by rintro rfl; simp at h), if_pos h]

/-- C09: the module voltage is the terminal voltage of the first child. -/
theorem parallel_V_terminal (m : ModuleP U) (k : Kid U) (h : m.kids[0]? = some k) :
    m.V = StorageUnit.V k.su - ladderDrop m.kids 0 := by
  unfold ModuleP.V
  cases hm : m.kids with
  | nil => rw [hm] at h; simp at h
  | cons a l =>
    rw [hm] at h
    have : a = k := by simpa using h
    subst this
    simp [ladderDrop, ModuleP.I, tsum, currentFrom, hm]; ring

/-- A three-branch example meeting the hypothesis, with its ladder. -/
example : getVall [0, 0, 0, 7] [⟨1/10, bucket half 1⟩, ⟨1/5, bucket half 2⟩] =
    .ok [3148/1000 - 3/10, 3146/1000 - 2/5 - 3/10, 0, 7] := by
  have h1 : StorageUnit.V (bucket half 1) = 3148/1000 := by
    show (bucket half 1).V = _
    rw [bucket_V _ _ (by norm_num [half])]; norm_num [half]
  have h2 : StorageUnit.V (bucket half 2) = 3146/1000 := by
    show (bucket half 2).V = _
    rw [bucket_V _ _ (by norm_num [half])]; norm_num [half]
  have i1 : StorageUnit.I (bucket half 1) = 1 := rfl
  have i2 : StorageUnit.I (bucket half 2) = 2 := rfl
  simp [getVall, vallLoop, h1, h2, i1, i2]
  norm_num

/-! ### C10 -/

/-- C10: current and capacity are sums. -/
theorem parallel_sums (m : ModuleP U) : m.I = totalCurrent m.kids ∧
    m.Cap = (m.kids.map fun k => StorageUnit.Cap k.su).sum := ⟨rfl, rfl⟩

/-- C61: the capacity of a string is the capacity of its weakest child: no child has less, some child has exactly that;
an empty string has none. -/
theorem series_Cap_weakest (m : ModuleS U) :
    (∀ k ∈ m.kids, m.Cap ≤ StorageUnit.Cap k.su) ∧ (m.kids ≠ [] → ∃ k ∈ m.kids, m.Cap = StorageUnit.Cap k.su) ∧
    (m.kids = [] → m.Cap = 0) := by
  unfold ModuleS.Cap
  cases hl : m.kids with
  | nil => simp [tmin]
  | cons k0 l =>
    simp only [tmin]
    obtain ⟨a, b, c⟩ := foldl_min_spec (fun j : Kid U => StorageUnit.Cap j.su) l (StorageUnit.Cap k0.su)
    refine ⟨?_, ?_, fun h => by cases h⟩
    · intro k hk
      rcases List.mem_cons.mp hk with rfl | hk
      · exact a
      · exact b k hk
    · intro _
      rcases c with c | ⟨k, hk, c⟩
      · exact ⟨k0, List.mem_cons_self, c⟩
      · exact ⟨k, List.mem_cons_of_mem _ hk, c.symm⟩

/-- A string of a 16 Ah and a 5 Ah cell has 5 Ah. -/
example : (({ T := 288, kids := [⟨0, bucket half 0⟩, ⟨0, { bucket half 0 with par := { (bucket half 0).par with cap := 5 } }⟩] } :
    ModuleS (ECM 0))).Cap = 5 := by decide +kernel

/-- C61, meaning of the capacity: a string of full cells can be discharged by exactly its capacity.  After `k` steps of
`dt` seconds at current `i` no cell is below empty if and only if the charge drawn is at most the capacity. -/
theorem series_Cap_usable {n : ℕ} (m : ModuleS (ECM n)) (hne : m.kids ≠ []) (i dt : ℚ) (k : ℕ) (hdt : 0 ≤ dt)
    (hfull : ∀ j ∈ m.kids, j.su.st.SOC = 1 ∧ j.su.st.I = i ∧ 0 < j.su.par.cap) :
    (∀ j ∈ (m.timeStep dt k).2.kids, 0 ≤ j.su.st.SOC) ↔ i * (dt * k) / 3600 ≤ m.Cap := by
  have hk : (m.timeStep dt k).2.kids = m.kids.map fun j => { j with su := j.su.steps dt k } := by
    unfold ModuleS.timeStep
    rw [if_neg (not_lt.mpr hdt)]
    show (stepKids dt k m.kids).2 = _
    rw [stepKids_spec dt k hdt]
    apply List.map_congr_left
    intro j _
    have : StorageUnit.timeStep j.su dt k = (.ok (), j.su.steps dt k) := by
      show j.su.timeStep dt k = _
      unfold ECM.timeStep
      rw [if_neg (not_lt.mpr hdt)]
    rw [this]
  have soc : ∀ j ∈ m.kids, (0 ≤ (j.su.steps dt k).st.SOC ↔ i * (dt * k) / 3600 ≤ StorageUnit.Cap j.su) := by
    intro j hj
    obtain ⟨h1, h2, h3⟩ := hfull j hj
    rw [ECM.steps_SOC, h1, h2]
    have e : (k : ℚ) * (i * (dt / 3600) / j.su.par.cap) = (i * (dt * k) / 3600) / j.su.par.cap := by
      field_simp
    rw [e, sub_nonneg, div_le_one h3]
    exact Iff.rfl
  rw [hk]
  obtain ⟨c1, c2, _⟩ := series_Cap_weakest m
  constructor
  · intro h
    obtain ⟨j, hj, e⟩ := c2 hne
    rw [e, ← soc j hj]
    exact h _ (List.mem_map.mpr ⟨j, hj, rfl⟩)
  · intro h j' hj'
    obtain ⟨j, hj, rfl⟩ := List.mem_map.mp hj'
    exact (soc j hj).mpr (le_trans h (c1 j hj))

/-- One hour at 5 A empties the weakest cell of a string of full 16 Ah and 5 Ah cells, not more. -/
example : let weak : ECM 0 := { bucket 1 5 with par := { (bucket 1 5).par with cap := 5 } }
    let m : ModuleS (ECM 0) := { T := 288, kids := [⟨0, bucket 1 5⟩, ⟨0, weak⟩] }
    (m.timeStep 3600 1).2.kids.map (fun j => j.su.st.SOC) = [11/16, 0] := by decide +kernel

/-- C10: the voltage window of a non-empty parallel module is the intersection of the windows of its children,
both for the operating and for the safety limits. -/
theorem parallel_window (m : ModuleP U) (hne : m.kids ≠ []) (v : ℚ) :
    ((m.lim.Vmin ≤ v ∧ v ≤ m.lim.Vmax) ↔
      ∀ k ∈ m.kids, (StorageUnit.lim k.su).Vmin ≤ v ∧ v ≤ (StorageUnit.lim k.su).Vmax) ∧
    ((m.lim.VMIN ≤ v ∧ v ≤ m.lim.VMAX) ↔
      ∀ k ∈ m.kids, (StorageUnit.lim k.su).VMIN ≤ v ∧ v ≤ (StorageUnit.lim k.su).VMAX) := by
  obtain ⟨k0, l, hl⟩ := List.exists_cons_of_ne_nil hne
  have hmax : ∀ f : U → ℚ, tmax f m.kids ≤ v ↔ ∀ k ∈ m.kids, f k.su ≤ v := by
    intro f
    rw [hl]
    simp only [tmax]
    obtain ⟨a, b, c⟩ := foldl_max_spec (fun j : Kid U => f j.su) l (f k0.su)
    constructor
    · intro h k hk
      rcases List.mem_cons.mp hk with rfl | hk
      · exact le_trans a h
      · exact le_trans (b k hk) h
    · intro h
      rcases c with c | ⟨k, hk, c⟩
      · rw [c]; exact h k0 (by simp)
      · rw [← c]; exact h k (by simp [hk])
  have hmin : ∀ f : U → ℚ, v ≤ tmin f m.kids ↔ ∀ k ∈ m.kids, v ≤ f k.su := by
    intro f
    rw [hl]
    simp only [tmin]
    obtain ⟨a, b, c⟩ := foldl_min_spec (fun j : Kid U => f j.su) l (f k0.su)
    constructor
    · intro h k hk
      rcases List.mem_cons.mp hk with rfl | hk
      · exact le_trans h a
      · exact le_trans h (b k hk)
    · intro h
      rcases c with c | ⟨k, hk, c⟩
      · rw [c]; exact h k0 (by simp)
      · rw [← c]; exact h k (by simp [hk])
  constructor
  · have h1 := hmax fun u => (StorageUnit.lim u).Vmin
    have h2 := hmin fun u => (StorageUnit.lim u).Vmax
    unfold ModuleP.lim
    rw [h1, h2]
    exact ⟨fun h k hk => ⟨h.1 k hk, h.2 k hk⟩, fun h => ⟨fun k hk => (h k hk).1, fun k hk => (h k hk).2⟩⟩
  · have h1 := hmax fun u => (StorageUnit.lim u).VMIN
    have h2 := hmin fun u => (StorageUnit.lim u).VMAX
    unfold ModuleP.lim
    rw [h1, h2]
    exact ⟨fun h k hk => ⟨h.1 k hk, h.2 k hk⟩, fun h => ⟨fun k hk => (h k hk).1, fun k hk => (h k hk).2⟩⟩

theorem rtotLoop_pos (ks : List (Kid U)) (hne : ks ≠ []) (hR : ∀ k ∈ ks, 0 < StorageUnit.Rtot k.su)
    (hc : ∀ k ∈ ks, 0 ≤ k.rc) : 0 < rtotLoop ks := by
  induction ks with
  | nil => exact absurd rfl hne
  | cons k ks ih =>
    have h1 := hR k (by simp)
    have h2 := hc k (by simp)
    cases ks with
    | nil => simp only [rtotLoop]; linarith
    | cons k' ks =>
      have h3 := ih (by simp) (fun j hj => hR j (by simp [hj])) (fun j hj => hc j (by simp [hj]))
      simp only [rtotLoop]
      have : 0 < StorageUnit.Rtot k.su * rtotLoop (k' :: ks) / (StorageUnit.Rtot k.su + rtotLoop (k' :: ks)) := by
        positivity
      linarith

/-- C10: without contact resistances the conductance is the sum of the child conductances. -/
theorem parallel_Rtot_no_contact (m : ModuleP U) (hne : m.kids ≠ [])
    (hR : ∀ k ∈ m.kids, 0 < StorageUnit.Rtot k.su) (hc : ∀ k ∈ m.kids, k.rc = 0) :
    1 / m.Rtot = (m.kids.map fun k => 1 / StorageUnit.Rtot k.su).sum := by
  unfold ModuleP.Rtot
  generalize m.kids = ks at *
  induction ks with
  | nil => exact absurd rfl hne
  | cons k ks ih =>
    have h1 := hR k (by simp)
    cases ks with
    | nil => simp [rtotLoop, hc k (by simp)]
    | cons k' ks =>
      have h3 := ih (by simp) (fun j hj => hR j (by simp [hj])) (fun j hj => hc j (by simp [hj]))
      have hp := rtotLoop_pos (k' :: ks) (by simp) (fun j hj => hR j (by simp [hj]))
        (fun j hj => le_of_eq (hc j (by simp [hj])).symm)
      rw [List.map_cons, List.sum_cons, ← h3]
      simp only [rtotLoop, hc k (by simp), zero_add]
      field_simp
      ring

/-- C10: the open-circuit voltage of a parallel module is the mean of the children's, hence between any bounds that hold
for all of them; it is an error iff it is an error for some child. -/
theorem parallel_OCV_mean (m : ModuleP U) :
    (∀ o : Kid U → ℚ, m.kids ≠ [] → (∀ k ∈ m.kids, StorageUnit.OCV k.su = some (o k)) →
      m.OCV = some ((m.kids.map o).sum / m.kids.length)) ∧
    (m.OCV = none ↔ ∃ k ∈ m.kids, StorageUnit.OCV k.su = none) ∧
    (∀ a b o : ℚ, m.kids ≠ [] → (∀ k ∈ m.kids, ∃ x, StorageUnit.OCV k.su = some x ∧ a ≤ x ∧ x ≤ b) →
      m.OCV = some o → a ≤ o ∧ o ≤ b) ∧
    (m.kids = [] → m.OCV = some 0) := by
  have hs := series_OCV_sum ({ T := 0, kids := m.kids } : ModuleS U)
  have hmean : ∀ o : Kid U → ℚ, m.kids ≠ [] → (∀ k ∈ m.kids, StorageUnit.OCV k.su = some (o k)) →
      m.OCV = some ((m.kids.map o).sum / m.kids.length) := by
    intro o hne h
    have h1 : tsumOpt StorageUnit.OCV m.kids = some (m.kids.map o).sum := hs.1 o h
    rw [ModuleP.OCV, if_neg hne, h1]; rfl
  refine ⟨hmean, ?_, ?_, fun h => by rw [ModuleP.OCV, if_pos h]⟩
  · have h2 : tsumOpt StorageUnit.OCV m.kids = none ↔ ∃ k ∈ m.kids, StorageUnit.OCV k.su = none := hs.2
    rw [← h2, ModuleP.OCV]
    split_ifs with h
    · rw [h]; simp [tsumOpt]
    · simp
  · intro a b o hne h ho
    have hx : ∀ k ∈ m.kids, StorageUnit.OCV k.su = some ((StorageUnit.OCV k.su).getD 0) ∧
        a ≤ (StorageUnit.OCV k.su).getD 0 ∧ (StorageUnit.OCV k.su).getD 0 ≤ b := by
      intro k hk
      obtain ⟨x, hx, h1, h2⟩ := h k hk
      rw [hx]; exact ⟨rfl, h1, h2⟩
    have h1 := hmean (fun k => (StorageUnit.OCV k.su).getD 0) hne (fun k hk => (hx k hk).1)
    rw [ho, Option.some.injEq] at h1
    have hb : ∀ ks : List (Kid U), (∀ k ∈ ks, a ≤ (StorageUnit.OCV k.su).getD 0 ∧ (StorageUnit.OCV k.su).getD 0 ≤ b) →
        ks.length * a ≤ (ks.map fun k => (StorageUnit.OCV k.su).getD 0).sum ∧
        (ks.map fun k => (StorageUnit.OCV k.su).getD 0).sum ≤ ks.length * b := by
      intro ks
      induction ks with
      | nil => intro _; simp
      | cons k ks ih =>
        intro h
        have h1 := ih (fun j hj => h j (List.mem_cons_of_mem _ hj))
        have h2 := h k List.mem_cons_self
        simp only [List.map_cons, List.sum_cons, List.length_cons]
        push_cast
        constructor <;> linarith [h1.1, h1.2, h2.1, h2.2]
    have h3 := hb m.kids (fun k hk => (hx k hk).2)
    have hl : (0:ℚ) < m.kids.length := by exact_mod_cast List.length_pos_iff.2 hne
    rw [h1]
    exact ⟨by rw [le_div_iff₀ hl]; linarith [h3.1], by rw [div_le_iff₀ hl]; linarith [h3.2]⟩

/-- Two cells at different states of charge. -/
example : ∀ k ∈ ([⟨0, bucket half 0⟩, ⟨0, bucket 1 0⟩] : List (Kid (ECM 0))),
    ∃ x, StorageUnit.OCV k.su = some x ∧ 3 ≤ x ∧ x ≤ 5 := by
  intro k hk
  simp only [List.mem_cons, List.not_mem_nil, or_false] at hk
  rcases hk with rfl | rfl
  · exact ⟨63/20, by show ECM.defaultOCV half = _; rw [ECM.defaultOCV_eq]; norm_num [half], by norm_num⟩
  · exact ⟨43/10, by show ECM.defaultOCV 1 = _; rw [ECM.defaultOCV_eq]; norm_num, by norm_num⟩

/-- C10: what the total resistance means: if every branch is ohmic with a common OCV `o` and all terminal voltages are
equal, then the module voltage is `o` minus the total current times the total resistance. -/
theorem parallel_Rtot_meaning (ks : List (Kid U)) (hne : ks ≠ []) (o v : ℚ)
    (hR : ∀ k ∈ ks, 0 < StorageUnit.Rtot k.su) (hc : ∀ k ∈ ks, 0 ≤ k.rc)
    (ho : ∀ k ∈ ks, StorageUnit.V k.su = o - StorageUnit.I k.su * StorageUnit.Rtot k.su)
    (heq : ∀ i k, ks[i]? = some k → StorageUnit.V k.su - ladderDrop ks i = v) :
    v = o - totalCurrent ks * rtotLoop ks := by
  have heq' : ∀ w ∈ (vallLoop ks).1, w = v := by
    intro w hw
    obtain ⟨i, hi, rfl⟩ := List.mem_iff_getElem.mp hw
    have hi' : i < ks.length := by rwa [vallLoop_length] at hi
    have h := vallLoop_get ks i ks[i] (List.getElem?_eq_getElem hi')
    rw [List.getElem?_eq_getElem hi, Option.some.injEq] at h
    rw [h]
    exact heq i _ (List.getElem?_eq_getElem hi')
  clear heq
  induction ks generalizing v with
  | nil => exact absurd rfl hne
  | cons k ks ih =>
    have h1 := hR k (by simp)
    have hV := ho k (by simp)
    cases hks : ks with
    | nil =>
      subst hks
      have := heq' _ (by simp [vallLoop]; rfl)
      simp only [rtotLoop, totalCurrent, List.map_cons, List.map_nil, List.sum_cons, List.sum_nil, add_zero]
      rw [← this, hV]; ring
    | cons k' ks' =>
      rw [← hks]
      have hne' : ks ≠ [] := by rw [hks]; simp
      have hcur := vallLoop_current ks
      set ic := (vallLoop ks).2 + StorageUnit.I k.su with hic
      have e0 : StorageUnit.V k.su - ic * k.rc = v := heq' _ (by simp [vallLoop, ← hic])
      have e1 := ih hne' (v + ic * k.rc) (fun j hj => hR j (by simp [hj])) (fun j hj => hc j (by simp [hj]))
        (fun j hj => ho j (by simp [hj])) (by
          intro w hw
          have := heq' (w - ic * k.rc) (by
            simp only [vallLoop, ← hic, List.map_cons, List.mem_cons, List.mem_map]
            exact Or.inr ⟨w, hw, rfl⟩)
          linarith)
      have hp := rtotLoop_pos ks hne' (fun j hj => hR j (by simp [hj])) (fun j hj => hc j (by simp [hj]))
      have htot : totalCurrent (k :: ks) = StorageUnit.I k.su + totalCurrent ks := by simp [totalCurrent]
      have hrt : rtotLoop (k :: ks) = k.rc +
          (StorageUnit.Rtot k.su * rtotLoop ks) / (StorageUnit.Rtot k.su + rtotLoop ks) := by
        rw [hks]; rfl
      rw [htot, hrt]
      have hic' : ic = StorageUnit.I k.su + totalCurrent ks := by rw [hic, hcur]; ring
      rw [← hic']
      set A := StorageUnit.Rtot k.su
      set B := rtotLoop ks
      -- voltage behind the first resistor
      have f1 : StorageUnit.I k.su * A = o - (v + ic * k.rc) := by linarith
      have f2 : totalCurrent ks * B = o - (v + ic * k.rc) := by linarith
      have hAB : A + B ≠ 0 := by positivity
      have f3 : ic * (A * B / (A + B)) = o - (v + ic * k.rc) := by
        rw [hic', ← mul_div_assoc, div_eq_iff hAB, ← hic']
        have : (StorageUnit.I k.su + totalCurrent ks) * (A * B) =
            (StorageUnit.I k.su * A) * B + (totalCurrent ks * B) * A := by ring
        rw [hic', this, f1, f2, hic']; ring
      rw [mul_add, f3]; ring

/-- The hypotheses are met by two equal bucket cells. -/
example : ∀ k ∈ ([⟨0, bucket half 1⟩, ⟨0, bucket half 1⟩] : List (Kid (ECM 0))), 0 < StorageUnit.Rtot k.su := by
  intro k hk
  simp at hk
  subst hk
  show (0:ℚ) < 2/1000
  norm_num

/-! ### C03 -/

/-- Full statement of C03. -/
def ParallelSetCurrentAtomic (U : Type) [StorageUnit U] : Prop :=
  ∀ (m : ModuleP U) (Inew : ℚ) (b : Bool) (st : Status), m.kids.length ≤ 100 →
    (m.setCurrent Inew b).1 = .ok st → st.isBad = true →
    (m.setCurrent Inew b).2.kids.map (fun k => StorageUnit.I k.su) = m.kids.map (fun k => StorageUnit.I k.su)

theorem initLoop_spec [LawfulCurrent U] (dI : ℚ) (last : Status) (ks : List (Kid U)) (hl : last.isOK = true) :
    ∃ st e bs', initLoop dI last (ks.map fun k => ({ kid := k, ia := StorageUnit.I k.su } : Branch U)) =
        (.ok (st, e), bs') ∧ st.isOK = !e ∧
      ((e = false ∧ bs' = ks.map (fun k =>
          ({ kid := k.set (StorageUnit.I k.su + dI) true, ia := StorageUnit.I k.su + dI } : Branch U)) ∧
          (∀ k ∈ ks, ∃ s, (StorageUnit.setCurrent k.su (StorageUnit.I k.su + dI) true).1 = .ok s ∧ s.isOK = true)) ∨
       (e = true ∧ ∃ pre k post, ks = pre ++ k :: post ∧
          (StorageUnit.setCurrent k.su (StorageUnit.I k.su + dI) true).1 = .ok st ∧
          (∀ k ∈ pre, ∃ s, (StorageUnit.setCurrent k.su (StorageUnit.I k.su + dI) true).1 = .ok s ∧ s.isOK = true) ∧
          kidsOf bs' = pre.map (fun k => k.set (StorageUnit.I k.su + dI) true) ++ k :: post)) := by
  induction ks generalizing last with
  | nil => exact ⟨last, false, [], rfl, hl, Or.inl ⟨rfl, rfl, by simp⟩⟩
  | cons k ks ih =>
    obtain ⟨st, hst⟩ := LawfulCurrent.returns k.su (StorageUnit.I k.su + dI) true
    have hpair : StorageUnit.setCurrent k.su (StorageUnit.I k.su + dI) true =
        (.ok st, (StorageUnit.setCurrent k.su (StorageUnit.I k.su + dI) true).2) := by rw [← hst]
    cases hok : st.isOK
    · have hbad : st.isBad = true := by simp [Status.isBad, hok]
      have hrej := LawfulCurrent.rejects k.su _ true st hst hbad
      refine ⟨st, true, { kid := k, ia := StorageUnit.I k.su + dI } ::
          ks.map fun k => ({ kid := k, ia := StorageUnit.I k.su } : Branch U), ?_, by simp [hok],
        Or.inr ⟨rfl, [], k, ks, rfl, hst, by simp, ?_⟩⟩
      · simp only [List.map_cons]
        unfold initLoop
        dsimp only
        rw [hpair]
        simp [hok, hrej]
      · simp [kidsOf, Function.comp_def]
    · obtain ⟨st', e, bs', h1, h2, h3⟩ := ih st hok
      refine ⟨st', e, { kid := k.set (StorageUnit.I k.su + dI) true, ia := StorageUnit.I k.su + dI } :: bs', ?_, h2, ?_⟩
      · simp only [List.map_cons]
        unfold initLoop
        dsimp only
        rw [hpair]
        simp only [hok, Bool.not_true, Bool.false_eq_true, if_false]
        rw [h1]
        rfl
      · rcases h3 with ⟨h3, h4, h5⟩ | ⟨h3, pre, k', post, h4, h5, h6, h7⟩
        · left
          refine ⟨h3, by simp [h4], ?_⟩
          intro j hj
          rcases List.mem_cons.mp hj with rfl | hj
          · exact ⟨st, hst, hok⟩
          · exact h5 j hj
        · right
          refine ⟨h3, k :: pre, k', post, by simp [h4], h5, ?_, ?_⟩
          · intro j hj
            rcases List.mem_cons.mp hj with rfl | hj
            · exact ⟨st, hst, hok⟩
            · exact h6 j hj
          · show _ :: kidsOf bs' = _
            rw [h7]; rfl

theorem sweep_total [LawfulCurrent U] (v : ℚ) (bs : List (Branch U)) (vs : List ℚ) (h : bs.length ≤ vs.length) :
    (sweep v bs vs).1 = .ok () ∧ (sweep v bs vs).2.length = bs.length := by
  induction bs generalizing vs with
  | nil => cases vs <;> exact ⟨rfl, rfl⟩
  | cons b bs ih =>
    cases vs with
    | nil => simp at h
    | cons va vas =>
      obtain ⟨st, hst⟩ := LawfulCurrent.returns b.kid.su (b.ia - (v - va) * StorageUnit.Cap b.kid.su) true
      have hpair : StorageUnit.setCurrent b.kid.su (b.ia - (v - va) * StorageUnit.Cap b.kid.su) true =
          (.ok st, (StorageUnit.setCurrent b.kid.su (b.ia - (v - va) * StorageUnit.Cap b.kid.su) true).2) := by
        rw [← hst]
      have := ih vas (by simpa using h)
      unfold sweep
      dsimp only
      rw [hpair]
      simp [this.1, this.2]

theorem agree_of_deviations (vs : List ℚ) (m tol : ℚ) (h : (vs.map fun v => |m - v|).sum < tol) : Agree tol vs := by
  have hnn : ∀ l : List ℚ, 0 ≤ (l.map fun v => |m - v|).sum := fun l =>
    List.sum_nonneg (by simp only [List.mem_map]; rintro _ ⟨v, _, rfl⟩; exact abs_nonneg _)
  have one : ∀ (l : List ℚ) x, x ∈ l → |m - x| ≤ (l.map fun v => |m - v|).sum := by
    intro l x hx
    exact List.single_le_sum (by simp only [List.mem_map]; rintro _ ⟨v, _, rfl⟩; exact abs_nonneg _) _
      (List.mem_map_of_mem hx)
  have key : ∀ l : List ℚ, ∀ x ∈ l, ∀ y ∈ l, |x - y| ≤ (l.map fun v => |m - v|).sum := by
    intro l
    induction l with
    | nil => simp
    | cons a l ih =>
      have tri : ∀ x y : ℚ, |x - y| ≤ |m - x| + |m - y| := by
        intro x y
        have := abs_sub (m - y) (m - x)
        rw [show x - y = (m - y) - (m - x) by ring]
        linarith
      intro x hx y hy
      simp only [List.map_cons, List.sum_cons]
      have h0 := hnn l
      have h1 := abs_nonneg (m - a)
      rcases List.mem_cons.mp hx with rfl | hx' <;> rcases List.mem_cons.mp hy with rfl | hy'
      · simp only [sub_self, abs_zero]; linarith
      · have := one l y hy'
        have := tri x y
        linarith
      · have := one l x hx'
        have := tri x y
        linarith
      · have := ih x hx' y hy'
        linarith
  exact fun x hx y hy => lt_of_le_of_lt (key vs x hx y hy) h

theorem eqLoop_total [LawfulCurrent U] (tol : ℚ) (fuel : ℕ) (bs : List (Branch U)) :
    ∃ c, (eqLoop tol fuel bs).1 = .ok c ∧
      (c = true → Agree tol (vallLoop (kidsOf (eqLoop tol fuel bs).2)).1) := by
  induction fuel generalizing bs with
  | zero => exact ⟨false, rfl, by simp⟩
  | succ fuel ih =>
    unfold eqLoop
    dsimp only
    split_ifs with h
    · exact ⟨true, rfl, fun _ => agree_of_deviations _ _ _ h⟩
    · have hs := sweep_total (mean (vallLoop (kidsOf bs)).1) bs (vallLoop (kidsOf bs)).1
        (by rw [vallLoop_length]; simp [kidsOf])
      have hp : sweep (mean (vallLoop (kidsOf bs)).1) bs (vallLoop (kidsOf bs)).1 =
          (.ok (), (sweep (mean (vallLoop (kidsOf bs)).1) bs (vallLoop (kidsOf bs)).1).2) := by rw [← hs.1]
      rw [hp]
      exact ih _

/-- C03, what does hold, as an exact description for well-behaved children: the call always returns; if the status is bad,
it is the status of the first child `k` that rejected its share, `k` and all later children are exactly as before, and
the children before `k` keep their increased current. -/
theorem parallel_setCurrent_bad_partial [LawfulCurrent U] (m : ModuleP U) (Inew : ℚ) (b : Bool)
    (hlen : m.kids.length ≤ 100) :
    ∃ st, (m.setCurrent Inew b).1 = .ok st ∧
      (st.isBad = true →
        ∃ pre k post, m.kids = pre ++ k :: post ∧
          (StorageUnit.setCurrent k.su
            (StorageUnit.I k.su + (Inew - totalCurrent m.kids) / m.kids.length) true).1 = .ok st ∧
          (m.setCurrent Inew b).2.kids = pre.map (fun j => { j with su := (StorageUnit.setCurrent j.su
            (StorageUnit.I j.su + (Inew - totalCurrent m.kids) / m.kids.length) true).2 }) ++ k :: post) := by
  unfold ModuleP.setCurrent
  by_cases h0 : m.kids = []
  · rw [if_pos h0]
    exact ⟨.Success, rfl, fun h => absurd h (by decide)⟩
  · rw [if_neg h0, if_neg (by simp [NSUs_MAX]; omega)]
    dsimp only
    obtain ⟨st, e, bs', h1, h2, h3⟩ := initLoop_spec ((Inew - tsum StorageUnit.I m.kids) / m.kids.length)
      .Success m.kids (by decide)
    rw [h1]
    rcases h3 with ⟨h3, h4, h5⟩ | ⟨h3, pre, k, post, h4, h5, h6, h7⟩
    · subst h3
      dsimp only
      obtain ⟨c, hc, -⟩ := eqLoop_total (1/1000000000) 10550 bs'
      have hp : eqLoop (1/1000000000) 10550 bs' = (.ok c, (eqLoop (1/1000000000) 10550 bs').2) := by rw [← hc]
      rw [hp]
      refine ⟨_, rfl, ?_⟩
      intro hbad
      exfalso
      cases c
      · simp [Status.isBad, h2] at hbad
      · simp [Status.isBad, Status.isOK, Status.code, Status.Critical] at hbad
    · subst h3
      exact ⟨st, rfl, fun _ => ⟨pre, k, post, h4, h5, h7⟩⟩

/-- C03: in particular nothing changes if the first child is the one that rejects. -/
theorem parallel_setCurrent_first_rejects_partial [LawfulCurrent U] (m : ModuleP U) (Inew : ℚ) (b : Bool)
    (hlen : m.kids.length ≤ 100) (k : Kid U) (rest : List (Kid U)) (hk : m.kids = k :: rest) (s : Status)
    (hs : (StorageUnit.setCurrent k.su
      (StorageUnit.I k.su + (Inew - totalCurrent m.kids) / m.kids.length) true).1 = .ok s)
    (hb : s.isBad = true) : (m.setCurrent Inew b).2.kids = m.kids := by
  unfold ModuleP.setCurrent
  rw [if_neg (by rw [hk]; simp), if_neg (by simp [NSUs_MAX]; omega)]
  dsimp only
  obtain ⟨st, e, bs', h1, h2, h3⟩ := initLoop_spec ((Inew - tsum StorageUnit.I m.kids) / m.kids.length)
    .Success m.kids (by decide)
  have hno : ∀ s', (StorageUnit.setCurrent k.su
      (StorageUnit.I k.su + (Inew - tsum StorageUnit.I m.kids) / m.kids.length) true).1 = .ok s' → s'.isOK = true → False := by
    intro s' h h'
    have hs' : (StorageUnit.setCurrent k.su
      (StorageUnit.I k.su + (Inew - tsum StorageUnit.I m.kids) / m.kids.length) true).1 = .ok s := hs
    rw [h] at hs'
    cases hs'
    simp [Status.isBad, h'] at hb
  rw [h1]
  rcases h3 with ⟨h3, h4, h5⟩ | ⟨h3, pre, k', post, h4, h5, h6, h7⟩
  · exfalso
    obtain ⟨s', e1, e2⟩ := h5 k (by rw [hk]; simp)
    exact hno s' e1 e2
  · subst h3
    dsimp only
    cases pre with
    | nil => rw [h7]; simp [h4]
    | cons p ps =>
      exfalso
      have : p = k := by rw [hk] at h4; simp at h4; exact h4.1.symm
      subst this
      obtain ⟨s', e1, e2⟩ := h6 p (by simp)
      exact hno s' e1 e2

/-- C03/C52: more than 100 children overflow the local arrays. -/
theorem parallel_setCurrent_overflow (m : ModuleP U) (Inew : ℚ) (b : Bool) (h : 100 < m.kids.length) :
    (m.setCurrent Inew b).1 = .ub "Ia out of bounds" := by
  unfold ModuleP.setCurrent
  rw [if_neg (by intro h0; rw [h0] at h; simp at h), if_pos (by simpa [NSUs_MAX] using h)]

end

/-- Two cells in parallel, the second one empty. -/
def badParallel : ModuleP (ECM 0) := { T := 288, kids := [⟨0, bucket half 0⟩, ⟨0, bucket 0 0⟩] }

theorem bucket_accept1 : StorageUnit.setCurrent (bucket half 0) 1 true = (.ok .Success, bucket half 1) := by
  have hv : (bucket half 1).V = 3148/1000 := by
    rw [bucket_V half 1 (by norm_num [half])]; norm_num [half]
  have : (bucket half 0).withI 1 = bucket half 1 := rfl
  show (Outcome.ok ((bucket half 0).setCurrent 1 true).1, _) = _
  rw [ECM.setCurrent_eq, this]
  norm_num [ECM.checkCurrent, ECM.checkV, hv, checkVoltage, cellLimits, P_V_ABSTOL, Status.isBad,
    Status.isOK, Status.code, Status.Critical]

theorem bucket_reject1 : StorageUnit.setCurrent (bucket 0 0) 1 true = (.ok .VMIN_violation, bucket 0 0) := by
  have hv := bucket_V 0 1 (by norm_num)
  have : (bucket 0 0).withI 1 = bucket 0 1 := rfl
  have hI : (bucket 0 1).st.I = 1 := rfl
  have h2 : (bucket 0 0).setCurrent 1 true = (.VMIN_violation, bucket 0 0) := by
    rw [ECM.setCurrent_eq, this]
    norm_num [ECM.checkCurrent, ECM.checkV, hv, hI, checkVoltage, cellLimits, P_V_ABSTOL, Status.isBad,
      Status.isOK, Status.code, Status.Critical]
  show (Outcome.ok ((bucket 0 0).setCurrent 1 true).1, ((bucket 0 0).setCurrent 1 true).2) = _
  rw [h2]

/-- C03 is false of the code: `setCurrent(2)` on `badParallel` gives each cell 1 A; the empty cell rejects, the call returns the
violation – and the first cell keeps its 1 A. -/
theorem parallel_setCurrent_not_atomic : ¬ ParallelSetCurrentAtomic (ECM 0) := by
  intro h
  have i1 : StorageUnit.I (bucket half 0) = 0 := rfl
  have i2 : StorageUnit.I (bucket 0 0) = 0 := rfl
  have hr : badParallel.setCurrent 2 true = (.ok .VMIN_violation,
      { T := 288, kids := [⟨0, bucket half 1⟩, ⟨0, bucket 0 0⟩] }) := by
    unfold ModuleP.setCurrent
    rw [if_neg (by simp [badParallel]), if_neg (by simp [badParallel, NSUs_MAX])]
    have hd : (2 - tsum StorageUnit.I badParallel.kids) / (badParallel.kids.length : ℚ) = 1 := by
      simp [tsum, badParallel, i1, i2]
    dsimp only
    rw [hd]
    simp only [badParallel, List.map_cons, List.map_nil]
    unfold initLoop
    dsimp only
    rw [i1, zero_add, bucket_accept1]
    simp only [show Status.Success.isOK = true by decide, Bool.not_true, Bool.false_eq_true, if_false]
    unfold initLoop
    dsimp only
    rw [i2, zero_add, bucket_reject1]
    simp [show Status.VMIN_violation.isOK = false by decide, kidsOf]
  have := h badParallel 2 true .VMIN_violation (by simp [badParallel]) (by rw [hr]) (by decide)
  rw [hr] at this
  simp [badParallel] at this
  have h1 : (1 : ℚ) = 0 := this
  norm_num at h1

end Slide

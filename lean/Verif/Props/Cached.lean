import Verif.Model.Cached
import Verif.Props.ECM
import Verif.Tac

/-!
# C48 The cached module voltage

Full statement: `CacheFresh`.  It is false of the code in two ways: a child changed directly (`not_cacheFresh`) and an
exception during a time step (`cache_stale_after_exception`).
-/

namespace Slide
namespace CachedS
variable {U : Type} [StorageUnit U]

/-- Specification: the voltage of a string computed afresh from the children, without any cache: the sum of the child
voltages minus the drops over the contact resistances, 0 if some child has no valid voltage. -/
def freshV (m : ModuleS U) : ℚ :=
  if ∃ k ∈ m.kids, StorageUnit.V k.su ≤ 0 then 0
  else (m.kids.map fun k => StorageUnit.V k.su - k.rc * StorageUnit.I k.su).sum

/-- **C48, full statement**: after any history of operations on the module and on units inside it `V()` returns the value
computed from the present children. -/
def CacheFresh (U : Type) [StorageUnit U] : Prop :=
  ∀ (m : ModuleS U) (ops : List (Op U)), (((new m).run ops).V).1 = freshV ((new m).run ops).m

/-- An operation that goes through the module and, if it is a time step, is completed or refused at once. -/
def Proper (c : CachedS U) : Op U → Prop
  | .child _ _ => False
  | .timeStep dt n t => dt < 0 ∨ (c.timeStep dt n t).1 = .ok ()
  | _ => True

/-- Every operation of a history is proper in the state in which it is called. -/
def ProperRun : CachedS U → List (Op U) → Prop
  | _, [] => True
  | c, o :: os => Proper c o ∧ ProperRun (c.apply o) os

/-- The invariant: a valid cache holds the fresh value. -/
def Inv (c : CachedS U) : Prop := c.valid = true → c.vmod = freshV c.m

theorem vLoop_spec (ks : List (Kid U)) (acc : ℚ) :
    ((∃ k ∈ ks, StorageUnit.V k.su ≤ 0) → (vLoop acc ks).2 = false) ∧
    ((¬ ∃ k ∈ ks, StorageUnit.V k.su ≤ 0) → vLoop acc ks =
      (acc + (ks.map fun k => StorageUnit.V k.su - k.rc * StorageUnit.I k.su).sum, true)) := by
  induction ks generalizing acc with
  | nil => simp [vLoop]
  | cons k ks ih =>
    rw [vLoop]
    by_cases h : StorageUnit.V k.su ≤ 0
    · rw [if_pos h]
      exact ⟨fun _ => rfl, fun hn => absurd ⟨k, by simp, h⟩ hn⟩
    · rw [if_neg h]
      obtain ⟨h1, h2⟩ := ih (acc + (StorageUnit.V k.su - k.rc * StorageUnit.I k.su))
      constructor
      · rintro ⟨j, hj, hv⟩
        rcases List.mem_cons.1 hj with rfl | hj
        · exact absurd hv h
        · exact h1 ⟨j, hj, hv⟩
      · intro hn
        rw [h2 (fun ⟨j, hj, hv⟩ => hn ⟨j, List.mem_cons_of_mem _ hj, hv⟩)]
        simp [add_assoc]

/-- **C48**: with an invalid cache, or one that satisfies the invariant, `V()` returns the fresh value, does not change
the children and leaves a cache that is right. -/
theorem V_fresh (c : CachedS U) (h : Inv c) : c.V.1 = freshV c.m ∧ c.V.2.m = c.m ∧ Inv c.V.2 := by
  unfold V
  by_cases hv : c.valid = true
  · rw [if_pos hv]; exact ⟨h hv, rfl, h⟩
  · rw [if_neg hv]
    obtain ⟨h1, h2⟩ := vLoop_spec c.m.kids 0
    by_cases he : ∃ k ∈ c.m.kids, StorageUnit.V k.su ≤ 0
    · have h3 := h1 he
      cases hl : vLoop 0 c.m.kids with
      | mk v b =>
        rw [hl] at h3
        simp only at h3
        subst h3
        refine ⟨by simp [freshV, he], rfl, fun hx => absurd hx hv⟩
    · rw [h2 he]
      have hf : freshV c.m = 0 + (c.m.kids.map fun k => StorageUnit.V k.su - k.rc * StorageUnit.I k.su).sum := by
        rw [freshV, if_neg he, zero_add]
      exact ⟨hf.symm, rfl, fun _ => hf.symm⟩

/-- **C48**: every proper operation preserves the invariant. -/
theorem apply_inv (c : CachedS U) (o : Op U) (h : Inv c) (hp : Proper c o) : Inv (c.apply o) := by
  cases o with
  | V => exact (V_fresh c h).2.2
  | setCurrent i b => intro hv; simp [apply, setCurrent] at hv
  | setStates s b => intro hv; simp [apply, setStates] at hv
  | setRcontact rs =>
    simp only [apply, setRcontact]
    split_ifs with hl
    · exact h
    · intro hv; simp at hv
  | setSUs us => intro hv; simp [apply, setSUs] at hv
  | timeStep dt n t =>
    simp only [apply]
    by_cases hd : dt < 0
    · rw [timeStep, if_pos hd]; exact h
    · rcases hp with hp | hp
      · exact absurd hp hd
      · revert hp
        rw [timeStep, if_neg hd]
        rcases stepKids dt n c.m.kids with ⟨_ | _ | _, ks⟩
        · cases t with
          | none => intro _ hv; simp at hv
          | some e => intro hp; simp at hp
        · intro hp; simp at hp
        · intro hp; simp at hp
  | child f i => exact hp.elim

theorem run_inv (c : CachedS U) (ops : List (Op U)) (h : Inv c) (hp : ProperRun c ops) : Inv (c.run ops) := by
  induction ops generalizing c with
  | nil => exact h
  | cons o os ih => exact ih _ (apply_inv c o h hp.1) hp.2

/-- **C48 (part that holds)**: after any history of calls on the module itself, in which no time step was aborted half way
by an exception, `V()` is the voltage computed from the present children. -/
theorem cacheFresh_partial (m : ModuleS U) (ops : List (Op U)) (hp : ProperRun (new m) ops) :
    (((new m).run ops).V).1 = freshV ((new m).run ops).m :=
  (V_fresh _ (run_inv _ ops (fun hv => by simp [new] at hv) hp)).1

/-- The specification agrees with the cache-free model used everywhere else. -/
theorem freshV_eq (m : ModuleS U) : freshV m = m.V := by
  have key : ∀ (ks : List (Kid U)) (acc : ℚ), ModuleS.vLoop acc ks =
      if ∃ k ∈ ks, StorageUnit.V k.su ≤ 0 then 0
      else acc + (ks.map fun k => StorageUnit.V k.su - k.rc * StorageUnit.I k.su).sum := by
    intro ks
    induction ks with
    | nil => intro acc; simp [ModuleS.vLoop]
    | cons k ks ih =>
      intro acc
      rw [ModuleS.vLoop]
      by_cases h : StorageUnit.V k.su ≤ 0
      · rw [if_pos h, if_pos ⟨k, by simp, h⟩]
      · rw [if_neg h, ih]
        have : (∃ j ∈ k :: ks, StorageUnit.V j.su ≤ 0) ↔ ∃ j ∈ ks, StorageUnit.V j.su ≤ 0 := by
          simp [h]
        by_cases he : ∃ j ∈ ks, StorageUnit.V j.su ≤ 0
        · rw [if_pos he, if_pos (this.2 he)]
        · rw [if_neg he, if_neg (fun h' => he (this.1 h'))]; simp [add_assoc]
  rw [ModuleS.V, key, freshV, zero_add]

/-- C48: right after units have been put into a string its voltage is the sum of theirs, whatever has been read before;
contact resistances there were have gone with the old units. -/
theorem setSUs_voltage (c : CachedS U) (us : List U) (h : ∀ u ∈ us, 0 < StorageUnit.V u) :
    (c.setSUs us).V.1 = (us.map StorageUnit.V).sum := by
  rw [(V_fresh (c.setSUs us) (fun hv => by simp [setSUs] at hv)).1, freshV, if_neg]
  · show ((us.map fun u => ({ rc := 0, su := u } : Kid U)).map fun k => StorageUnit.V k.su - k.rc * StorageUnit.I k.su).sum = _
    rw [List.map_map]
    congr 1
    exact List.map_congr_left fun u _ => by show StorageUnit.V u - 0 * StorageUnit.I u = _; ring
  · rintro ⟨k, hk, hv⟩
    obtain ⟨u, hu, rfl⟩ := List.mem_map.1 (show k ∈ us.map fun u => ({ rc := 0, su := u } : Kid U) from hk)
    exact absurd hv (not_le.2 (h u hu))

/-- A string of two of the library's default cells. -/
def pair : ModuleS (ECM 1) := { T := 288, kids := [⟨1/1000, exampleCell⟩, ⟨0, exampleCell⟩] }

example : ∀ u ∈ [exampleCell, exampleCell], 0 < StorageUnit.V u := by decide +kernel

example : ProperRun (new pair) [.V, .setCurrent 5 true, .V, .timeStep 2 3 none, .timeStep (-1) 1 none, .V] := by
  refine ⟨trivial, trivial, trivial, Or.inr ?_, Or.inl (by norm_num), trivial, trivial⟩
  decide +kernel

/-- **C48 is false of the code**: reading the voltage, then changing the current of a cell through the module's own list
of children, and reading again returns the old voltage. -/
theorem not_cacheFresh : ¬ CacheFresh (ECM 1) := by
  intro h
  have := h pair [.V, .child (fun c => (c.setCurrent 5 false).2) 0]
  revert this
  decide +kernel

/-- C48: a time step backwards is refused with exception 10; nothing has happened then and the cache still counts. -/
theorem timeStep_backwards (c : CachedS U) (dt : ℚ) (n : ℕ) (therm : Option ℤ) (h : dt < 0) :
    c.timeStep dt n therm = (.throw 10, c) := by
  unfold timeStep
  rw [if_pos h]

/-- **C48 is false of the code also for calls on the module alone**: when a time step ends in an exception after the
cells have been stepped (here exception 14 of a top-level module without HVAC system), the cache survives although every
cell has changed, so `V()` returns the voltage from before the step. -/
theorem cache_stale_after_exception (m : ModuleS U) (dt : ℚ) (n : ℕ) (e : ℤ) (hdt : 0 ≤ dt)
    (hk : (stepKids dt n m.kids).1 = .ok ()) (hpos : ∀ k ∈ m.kids, 0 < StorageUnit.V k.su) :
    (((new m).run [.V]).timeStep dt n (some e)).1 = .throw e ∧
    (((new m).run [.V, .timeStep dt n (some e)]).V).1 = freshV m ∧
    ((new m).run [.V, .timeStep dt n (some e)]).m.kids = (stepKids dt n m.kids).2 := by
  have he : ¬ ∃ k ∈ m.kids, StorageUnit.V k.su ≤ 0 := fun ⟨k, hm, hv⟩ => absurd (hpos k hm) (not_lt.2 hv)
  have hf : freshV m = 0 + (m.kids.map fun k => StorageUnit.V k.su - k.rc * StorageUnit.I k.su).sum := by
    rw [freshV, if_neg he, zero_add]
  have h1 : (new m).run [.V] = { m := m, vmod := freshV m, valid := true } := by
    simp only [run, apply, V]
    rw [if_neg (by simp [new])]
    show (match vLoop 0 m.kids with | (v, true) => _ | (v, false) => _ : ℚ × CachedS U).2 = _
    rw [(vLoop_spec m.kids 0).2 he, hf]
    rfl
  have h2 : ((new m).run [.V]).timeStep dt n (some e) =
      (.throw e, { m := { m with kids := (stepKids dt n m.kids).2 }, vmod := freshV m, valid := true }) := by
    rw [h1, timeStep, if_neg (not_lt.2 hdt)]
    revert hk
    rcases hs : stepKids dt n m.kids with ⟨_ | _ | _, ks⟩
    · intro _; rfl
    · intro hk; simp at hk
    · intro hk; simp at hk
  refine ⟨by rw [h2], ?_, ?_⟩
  · show (CachedS.V (((new m).run [.V]).timeStep dt n (some e)).2).1 = _
    rw [h2, V, if_pos rfl]
  · show (((new m).run [.V]).timeStep dt n (some e)).2.m.kids = _
    rw [h2]

/-- The hypotheses are met by a string of two cells under load, and the stale value is wrong. -/
example : let m : ModuleS (ECM 1) := (pair.setCurrent 5 true).2
    (stepKids 10 1 m.kids).1 = .ok () ∧ (∀ k ∈ m.kids, 0 < StorageUnit.V k.su) ∧
      freshV m ≠ freshV { m with kids := (stepKids 10 1 m.kids).2 } := by
  refine ⟨by decide +kernel, by decide +kernel, ?_⟩
  rw [freshV_eq, freshV_eq]
  decide +kernel

/-- C48, C60: `setRcontact` gives every child its own contact resistance, the one at its place in the list, and touches nothing else; a list
of the wrong length is not taken. -/
theorem setRcontact_exact (c : CachedS U) (rs : List ℚ) :
    (rs.length = c.m.kids.length → (c.setRcontact rs).1 = .ok () ∧ (c.setRcontact rs).2.m.kids.map Kid.rc = rs ∧
      (c.setRcontact rs).2.m.kids.map Kid.su = c.m.kids.map Kid.su ∧ (c.setRcontact rs).2.m.T = c.m.T) ∧
    (rs.length ≠ c.m.kids.length → (∃ w, (c.setRcontact rs).1 = .ub w) ∧ (c.setRcontact rs).2 = c) := by
  have key : ∀ (ks : List (Kid U)) (rs : List ℚ), rs.length = ks.length → (zipRc ks rs).map Kid.rc = rs ∧ (zipRc ks rs).map Kid.su = ks.map Kid.su := by
    intro ks
    induction ks with
    | nil =>
      intro rs h
      have : rs = [] := List.length_eq_zero_iff.mp h
      subst this
      exact ⟨rfl, rfl⟩
    | cons k ks ih =>
      intro rs h
      cases rs with
      | nil => simp at h
      | cons r rs =>
        obtain ⟨a, b⟩ := ih rs (by simpa using h)
        simp only [zipRc, List.map_cons]
        exact ⟨by rw [a], by rw [b]⟩
  refine ⟨fun h => ?_, fun h => ?_⟩
  · unfold setRcontact
    rw [if_neg (not_not.mpr h)]
    obtain ⟨a, b⟩ := key c.m.kids rs h
    exact ⟨rfl, a, b, rfl⟩
  · unfold setRcontact
    rw [if_pos h]
    exact ⟨⟨_, rfl⟩, rfl⟩

/-- Both cases of `setRcontact_exact` occur: two resistances for a string of two cells, and three. -/
example : ([1, 2] : List ℚ).length = (new pair).m.kids.length ∧ ([1, 2, 3] : List ℚ).length ≠ (new pair).m.kids.length := by decide +kernel

end CachedS
end Slide

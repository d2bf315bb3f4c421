import Verif.Model.ContactHeat
import Verif.Props.ParallelEq
import Verif.Tac

/-!
# C45 Heat of the contact resistances

The specification is Joule's law: resistor `i` of a ladder carries the currents of all branches behind it, resistor `i`
of a string carries the current of the string.
-/

namespace Slide
variable {U : Type} [StorageUnit U]

/-- Joule heat of the resistors of a ladder: `R · (sum of the currents behind it)² · t`. -/
def Spec.jouleLadder (t : ℚ) : List (Kid U) → ℚ
  | [] => 0
  | k :: ks => k.rc * ((k :: ks).map fun j => StorageUnit.I j.su).sum ^ 2 * t + Spec.jouleLadder t ks

/-- Joule heat of the resistors of a string: every resistor carries the current of its own child. -/
def Spec.jouleString (t : ℚ) (ks : List (Kid U)) : ℚ := (ks.map fun k => k.rc * StorageUnit.I k.su ^ 2 * t).sum

/-- **C45, full statement** (parallel): the heat added by a time step is the Joule heat of the resistors. -/
def ContactHeatIsJoule (U : Type) [StorageUnit U] : Prop :=
  ∀ (m : ModuleP U) (q0 dt : ℚ) (n : ℕ), m.contactHeat false q0 dt n = q0 + Spec.jouleLadder (n * dt) m.kids

/-- **C45, series**: the heat added is the Joule heat, for every string whose children carry the same current. -/
theorem series_contact_heat (m : ModuleS U) (q0 dt : ℚ) (n : ℕ)
    (hI : ∀ k ∈ m.kids, StorageUnit.I k.su = m.I) :
    m.contactHeat false q0 dt n = q0 + Spec.jouleString (n * dt) m.kids ∧ m.contactHeat true q0 dt n = q0 := by
  refine ⟨?_, rfl⟩
  have key : ∀ (ks : List (Kid U)) (q : ℚ), (∀ k ∈ ks, StorageUnit.I k.su = m.I) →
      ks.foldl (fun q k => q + k.rc * m.I ^ 2 * n * dt) q = q + Spec.jouleString (n * dt) ks := by
    intro ks
    induction ks with
    | nil => intro q _; simp [Spec.jouleString]
    | cons k ks ih =>
      intro q h
      rw [List.foldl_cons, ih _ (fun j hj => h j (List.mem_cons_of_mem _ hj))]
      simp only [Spec.jouleString, List.map_cons, List.sum_cons, h k List.mem_cons_self]
      ring
  exact key m.kids q0 hI

/-- Two default cells with contact resistances, after an accepted current of 5 A. -/
example : ∀ k ∈ (ModuleS.setCurrent ({ T := 288, kids := [⟨1/1000, exampleCell⟩, ⟨1/500, exampleCell⟩] } :
    ModuleS (ECM 1)) 5 true).2.kids, StorageUnit.I k.su = 5 := by decide +kernel

theorem sum_nonpos' (l : List ℚ) (h : ∀ x ∈ l, x ≤ 0) : l.sum ≤ 0 := by
  induction l with
  | nil => simp
  | cons a l ih =>
    rw [List.sum_cons]
    linarith [h a List.mem_cons_self, ih fun x hx => h x (List.mem_cons_of_mem _ hx)]

/-- What the code computes for a ladder: the current attributed to a resistor is the sum of the currents of all
resistors up to it. -/
def codeLadder (t : ℚ) : ℚ → List (Kid U) → ℚ
  | _, [] => 0
  | acc, k :: ks =>
    let i := acc + ((k :: ks).map fun j => StorageUnit.I j.su).sum
    k.rc * i ^ 2 * t + codeLadder t i ks

theorem foldl_I (ks : List (Kid U)) (a : ℚ) :
    ks.foldl (fun s j => s + StorageUnit.I j.su) a = a + (ks.map fun j => StorageUnit.I j.su).sum := by
  induction ks generalizing a with
  | nil => simp
  | cons k ks ih => rw [List.foldl_cons, ih]; simp [add_assoc]

theorem contactLoop_eq (dt : ℚ) (n : ℕ) (ks : List (Kid U)) (q a : ℚ) :
    ModuleP.contactLoop dt n q a ks = q + codeLadder (n * dt) a ks := by
  induction ks generalizing q a with
  | nil => simp [ModuleP.contactLoop, codeLadder]
  | cons k ks ih =>
    simp only [ModuleP.contactLoop, codeLadder, foldl_I]
    rw [ih]; ring

/-- **C45, parallel (part that holds)**: with at most one contact resistance different from zero, the first, the heat
added is the Joule heat; a blocked thermal model adds nothing. -/
theorem parallel_contact_heat_partial (m : ModuleP U) (q0 dt : ℚ) (n : ℕ) (hr : ∀ k ∈ m.kids.tail, k.rc = 0) :
    m.contactHeat false q0 dt n = q0 + Spec.jouleLadder (n * dt) m.kids ∧ m.contactHeat true q0 dt n = q0 := by
  refine ⟨?_, rfl⟩
  have hz : ∀ (ks : List (Kid U)) (a t : ℚ), (∀ k ∈ ks, k.rc = 0) → codeLadder t a ks = 0 ∧ Spec.jouleLadder t ks = 0 := by
    intro ks
    induction ks with
    | nil => intro a t _; exact ⟨rfl, rfl⟩
    | cons k ks ih =>
      intro a t h
      have h0 := h k List.mem_cons_self
      have h1 := fun a => ih a t (fun j hj => h j (List.mem_cons_of_mem _ hj))
      constructor
      · rw [codeLadder, h0, (h1 _).1]; ring
      · rw [Spec.jouleLadder, h0, (h1 0).2]; ring
  show ModuleP.contactLoop dt n q0 0 m.kids = _
  rw [contactLoop_eq]
  cases hk : m.kids with
  | nil => rfl
  | cons k ks =>
    rw [hk] at hr
    simp only [codeLadder, Spec.jouleLadder]
    rw [(hz ks _ _ hr).1, (hz ks 0 _ hr).2, zero_add]

example : ∀ k ∈ ({ T := 288, kids := [⟨1/1000, exampleCell⟩, ⟨0, exampleCell⟩] } : ModuleP (ECM 1)).kids.tail, k.rc = 0 := by
  simp

/-- **C45, parallel**: when all branches carry current in the same direction the code never reports too little heat. -/
theorem parallel_contact_heat_overestimates (m : ModuleP U) (q0 dt : ℚ) (n : ℕ) (hdt : 0 ≤ dt)
    (hr : ∀ k ∈ m.kids, 0 ≤ k.rc)
    (hI : (∀ k ∈ m.kids, 0 ≤ StorageUnit.I k.su) ∨ (∀ k ∈ m.kids, StorageUnit.I k.su ≤ 0)) :
    q0 + Spec.jouleLadder (n * dt) m.kids ≤ m.contactHeat false q0 dt n := by
  have ht : 0 ≤ (n : ℚ) * dt := by positivity
  show _ ≤ ModuleP.contactLoop dt n q0 0 m.kids
  rw [contactLoop_eq]
  have pos : ∀ (ks : List (Kid U)) (a : ℚ), 0 ≤ a → (∀ k ∈ ks, 0 ≤ k.rc) → (∀ k ∈ ks, 0 ≤ StorageUnit.I k.su) →
      Spec.jouleLadder (n * dt) ks ≤ codeLadder (n * dt) a ks := by
    intro ks
    induction ks with
    | nil => intro a _ _ _; exact le_rfl
    | cons k ks ih =>
      intro a ha hr hI
      have hs : 0 ≤ ((k :: ks).map fun j => StorageUnit.I j.su).sum :=
        List.sum_nonneg (by simpa using hI)
      have h1 := ih (a + ((k :: ks).map fun j => StorageUnit.I j.su).sum) (by linarith)
        (fun j hj => hr j (List.mem_cons_of_mem _ hj)) (fun j hj => hI j (List.mem_cons_of_mem _ hj))
      have h2 : ((k :: ks).map fun j => StorageUnit.I j.su).sum ^ 2
          ≤ (a + ((k :: ks).map fun j => StorageUnit.I j.su).sum) ^ 2 := by
        apply pow_le_pow_left₀ hs; linarith
      have h3 := mul_le_mul_of_nonneg_right
        (mul_le_mul_of_nonneg_left h2 (hr k List.mem_cons_self)) ht
      simp only [Spec.jouleLadder, codeLadder]
      linarith
  have neg : ∀ (ks : List (Kid U)) (a : ℚ), a ≤ 0 → (∀ k ∈ ks, 0 ≤ k.rc) → (∀ k ∈ ks, StorageUnit.I k.su ≤ 0) →
      Spec.jouleLadder (n * dt) ks ≤ codeLadder (n * dt) a ks := by
    intro ks
    induction ks with
    | nil => intro a _ _ _; exact le_rfl
    | cons k ks ih =>
      intro a ha hr hI
      have hs : ((k :: ks).map fun j => StorageUnit.I j.su).sum ≤ 0 :=
        sum_nonpos' _ (by simpa using hI)
      have h1 := ih (a + ((k :: ks).map fun j => StorageUnit.I j.su).sum) (by linarith)
        (fun j hj => hr j (List.mem_cons_of_mem _ hj)) (fun j hj => hI j (List.mem_cons_of_mem _ hj))
      have h2 : ((k :: ks).map fun j => StorageUnit.I j.su).sum ^ 2
          ≤ (a + ((k :: ks).map fun j => StorageUnit.I j.su).sum) ^ 2 := by
        nlinarith
      have h3 := mul_le_mul_of_nonneg_right
        (mul_le_mul_of_nonneg_left h2 (hr k List.mem_cons_self)) ht
      simp only [Spec.jouleLadder, codeLadder]
      linarith
  rcases hI with hI | hI
  · linarith [pos m.kids 0 le_rfl hr hI]
  · linarith [neg m.kids 0 le_rfl hr hI]

/-- Two cells that each carry 1 A, with a contact resistance at the second one. -/
def ladder2 : ModuleP (ECM 1) :=
  { T := 288, kids := [⟨0, exampleCell.withI 1⟩, ⟨1, exampleCell.withI 1⟩] }

example : (∀ k ∈ ladder2.kids, 0 ≤ k.rc) ∧ (∀ k ∈ ladder2.kids, 0 ≤ StorageUnit.I k.su) := by decide +kernel

/-- **C45 is false of the code**: two cells carry 1 A each; the resistor of the second cell carries 1 A, but the heat
is computed for 3 A (nine times too large). -/
theorem contactHeat_wrong : ladder2.contactHeat false 0 1 1 = 9 ∧ Spec.jouleLadder 1 ladder2.kids = 1 := by
  decide +kernel

theorem not_contactHeatIsJoule : ¬ ContactHeatIsJoule (ECM 1) := by
  intro h
  have h1 := h ladder2 0 1 1
  rw [contactHeat_wrong.1] at h1
  norm_num [contactHeat_wrong.2] at h1

end Slide

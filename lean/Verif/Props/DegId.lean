import Verif.Model.DegId
import Verif.Props.Containers
import Verif.Tac

/-!
# C57 Degradation identifiers are unambiguous
-/

namespace Slide
namespace DegId

/-- Every stored model number is non-zero (what `add_model` guarantees, see `valid_of_addModels`). -/
def Valid (d : DegId) : Prop := 0 ∉ d.sei ∧ 0 ∉ d.cs ∧ 0 ∉ d.lam

theorem num_injective : Function.Injective num := by
  intro a b h
  have := congrArg (fun l => Nat.ofDigitChars 10 l 0) h
  simpa [num] using this

theorem not_mem_num {c : Char} (hc : c.isDigit = false) (n : ℕ) : c ∉ num n := by
  intro h
  rw [Nat.isDigit_of_mem_toDigits (by decide) (by decide) h] at hc
  cases hc

/-- Reading up to the first separator is unambiguous. -/
theorem split_unique (c : Char) (a a' b b' : List Char) (ha : c ∉ a) (ha' : c ∉ a')
    (h : a ++ c :: b = a' ++ c :: b') : a = a' ∧ b = b' := by
  induction a generalizing a' with
  | nil =>
    cases a' with
    | nil => simpa using h
    | cons x xs =>
      rw [List.nil_append, List.cons_append] at h
      obtain ⟨rfl, _⟩ := List.cons.inj h
      exact absurd List.mem_cons_self ha'
  | cons x xs ih =>
    cases a' with
    | nil =>
      rw [List.nil_append, List.cons_append] at h
      obtain ⟨rfl, _⟩ := List.cons.inj h
      exact absurd List.mem_cons_self ha
    | cons y ys =>
      rw [List.cons_append, List.cons_append] at h
      obtain ⟨rfl, h2⟩ := List.cons.inj h
      obtain ⟨rfl, rfl⟩ := ih ys (fun m => ha (List.mem_cons_of_mem _ m))
        (fun m => ha' (List.mem_cons_of_mem _ m)) h2
      exact ⟨rfl, rfl⟩

theorem dash_not_mem_num (n : ℕ) : '-' ∉ num n := not_mem_num (by decide) n
theorem bar_not_mem_num (n : ℕ) : '_' ∉ num n := not_mem_num (by decide) n

/-- A list of dashed numbers followed by dash-free text can be read back. -/
theorem dashed_unique (l l' : List ℕ) (p p' : List Char) (hp : '-' ∉ p) (hp' : '-' ∉ p')
    (h : (l.flatMap fun n => num n ++ ['-']) ++ p = (l'.flatMap fun n => num n ++ ['-']) ++ p') : l = l' ∧ p = p' := by
  induction l generalizing l' with
  | nil =>
    cases l' with
    | nil => exact ⟨rfl, by simpa using h⟩
    | cons n l' =>
      exfalso; apply hp
      simp only [List.flatMap_nil, List.nil_append] at h
      rw [h]; simp
  | cons n l ih =>
    cases l' with
    | nil =>
      exfalso; apply hp'
      simp only [List.flatMap_nil, List.nil_append] at h
      rw [← h]; simp
    | cons n' l' =>
      simp only [List.flatMap_cons, List.append_assoc, List.singleton_append] at h
      obtain ⟨h1, h2⟩ := split_unique '-' _ _ _ _ (dash_not_mem_num n) (dash_not_mem_num n') h
      obtain ⟨rfl, rfl⟩ := ih l' h2
      exact ⟨by rw [num_injective h1], rfl⟩

/-- The numbers printed for a list: `0` stands for the empty list. -/
def shown (l : List ℕ) : List ℕ := if l = [] then [0] else l

theorem ids_eq (l : List ℕ) : ids l = (shown l).flatMap fun n => num n ++ ['-'] := by
  unfold ids shown
  split
  · simp [num]
  · rfl

theorem shown_injective {l l' : List ℕ} (h0 : 0 ∉ l) (h0' : 0 ∉ l') (h : shown l = shown l') : l = l' := by
  unfold shown at h
  by_cases a : l = [] <;> by_cases b : l' = []
  · rw [a, b]
  · rw [if_pos a, if_neg b] at h; exact absurd (h ▸ List.mem_cons_self) h0'
  · rw [if_neg a, if_pos b] at h; exact absurd (h ▸ List.mem_cons_self) h0
  · rwa [if_neg a, if_neg b] at h

theorem bar_not_mem_ids (l : List ℕ) : '_' ∉ ids l := by
  rw [ids_eq]
  simp only [List.mem_flatMap, List.mem_append, List.mem_singleton, not_exists, not_and]
  intro n _ h
  rcases h with h | h
  · exact bar_not_mem_num n h
  · revert h; decide

theorem group_unique {l l' : List ℕ} {p p' : ℕ} (h0 : 0 ∉ l) (h0' : 0 ∉ l')
    (h : ids l ++ num p = ids l' ++ num p') : l = l' ∧ p = p' := by
  rw [ids_eq, ids_eq] at h
  obtain ⟨h1, h2⟩ := dashed_unique _ _ _ _ (dash_not_mem_num p) (dash_not_mem_num p') h
  exact ⟨shown_injective h0 h0' h1, num_injective h2⟩

/-- The third group as it is finally shown: the dash after the last number is kept only for the empty list. -/
def third (l : List ℕ) : List Char := if l = [] then ids l else (ids l).dropLast

theorem bar_not_mem_third (l : List ℕ) : '_' ∉ third l := by
  unfold third
  split
  · exact bar_not_mem_ids l
  · intro h; exact bar_not_mem_ids l (List.mem_of_mem_dropLast h)

theorem ids_ne_nil (l : List ℕ) : ids l ≠ [] := by
  rw [ids_eq]
  unfold shown
  split
  · simp
  · cases l with
    | nil => contradiction
    | cons a l => simp

theorem ids_getLast (l : List ℕ) : (ids l).getLast (ids_ne_nil l) = '-' := by
  have : ∀ l : List ℕ, l ≠ [] → ∃ q, (l.flatMap fun n => num n ++ ['-']) = q ++ ['-'] := by
    intro l hl
    induction l with
    | nil => contradiction
    | cons a l ih =>
      by_cases h : l = []
      · subst h; exact ⟨num a, by simp⟩
      · obtain ⟨q, hq⟩ := ih h
        exact ⟨num a ++ ['-'] ++ q, by rw [List.flatMap_cons, hq]; simp⟩
  obtain ⟨q, hq⟩ := this (shown l) (by unfold shown; split <;> simp_all)
  have e : ids l = q ++ ['-'] := by rw [ids_eq, hq]
  simp [e]

theorem third_unique {l l' : List ℕ} (h0 : 0 ∉ l) (h0' : 0 ∉ l') (h : third l = third l') : l = l' := by
  have key : ∀ l : List ℕ, l ≠ [] → ids l = third l ++ ['-'] := by
    intro l hl
    unfold third
    rw [if_neg hl]
    conv_lhs => rw [← List.dropLast_append_getLast (ids_ne_nil l), ids_getLast]
  have nodd : ∀ l : List ℕ, l ≠ [] → third l ≠ ['0', '-'] := by
    intro l hl h
    have e := key l hl
    rw [h, ids_eq] at e
    have e' : ((shown l).flatMap fun n => num n ++ ['-']) ++ [] = ([0] : List ℕ).flatMap (fun n => num n ++ ['-']) ++ ['-'] := by
      rw [e]; simp [num]
    -- the left text is a list of numbers, each followed by one dash
    cases hs : shown l with
    | nil => unfold shown at hs; split at hs <;> simp_all
    | cons a m =>
      rw [hs] at e'
      simp only [List.flatMap_cons, List.flatMap_nil, List.append_assoc, List.singleton_append, List.append_nil,
        List.nil_append] at e'
      obtain ⟨_, e2⟩ := split_unique '-' _ _ _ _ (dash_not_mem_num a) (dash_not_mem_num 0) e'
      cases m with
      | nil => simp at e2
      | cons b m =>
        simp only [List.flatMap_cons, List.append_assoc, List.singleton_append] at e2
        have hb : num b ≠ [] := Nat.toDigits_ne_nil
        cases hn : num b with
        | nil => exact hb hn
        | cons c cs =>
          rw [hn, List.cons_append] at e2
          obtain ⟨rfl, _⟩ := List.cons.inj e2
          exact dash_not_mem_num b (hn ▸ List.mem_cons_self)
  have t0 : third [] = ['0', '-'] := by simp [third, ids]
  by_cases a : l = [] <;> by_cases b : l' = []
  · rw [a, b]
  · rw [a, t0] at h; exact absurd h.symm (nodd l' b)
  · rw [b, t0] at h; exact absurd h (nodd l a)
  · have e : ids l ++ [] = ids l' ++ [] := by rw [key l a, key l' b, h]
    rw [ids_eq, ids_eq] at e
    exact shown_injective h0 h0' (dashed_unique _ _ _ _ (by simp) (by simp) e).1

theorem print_eq (d : DegId) :
    d.print = (ids d.sei ++ num d.porosity) ++ '_' :: ((ids d.cs ++ num d.diffusion) ++ '_' :: (third d.lam ++ '_' :: num d.pl)) := by
  unfold print third
  by_cases h : d.lam = []
  · simp only [if_pos h]; simp
  · simp only [if_neg h, List.dropLast_append_of_ne_nil (ids_ne_nil d.lam)]; simp

/-- **C57.** Different selections of degradation models never get the same identifier. -/
theorem print_injective (d e : DegId) (hd : Valid d) (he : Valid e) (h : d.print = e.print) : d = e := by
  rw [print_eq, print_eq] at h
  have nb : ∀ (l : List ℕ) (p : ℕ), '_' ∉ ids l ++ num p := by
    intro l p hm
    rcases List.mem_append.mp hm with hm | hm
    · exact bar_not_mem_ids l hm
    · exact bar_not_mem_num p hm
  obtain ⟨h1, h⟩ := split_unique '_' _ _ _ _ (nb _ _) (nb _ _) h
  obtain ⟨h2, h⟩ := split_unique '_' _ _ _ _ (nb _ _) (nb _ _) h
  obtain ⟨h3, h4⟩ := split_unique '_' _ _ _ _ (bar_not_mem_third _) (bar_not_mem_third _) h
  obtain ⟨a1, a2⟩ := group_unique hd.1 he.1 h1
  obtain ⟨b1, b2⟩ := group_unique hd.2.1 he.2.1 h2
  have c1 := third_unique hd.2.2 he.2.2 h3
  have c2 := num_injective h4
  cases d; cases e
  simp_all

/-- Selections made with `add_model` are valid, whatever numbers (including 0) are passed. -/
theorem valid_of_addModels (as : List ℕ) (v : SmallVector ℕ) (h : addModels (SmallVector.empty 10 0) as = .ok v) :
    0 ∉ v.elems := by
  by_cases hl : (as.filter (· ≠ 0)).length ≤ 10
  · obtain ⟨w, h1, h2⟩ := (addModels_partial as).1 hl
    rw [h1] at h
    cases h
    rw [h2]
    simp
  · rw [(addModels_partial as).2 (by omega)] at h
    cases h

/-- **C57, end to end.** Two selections filled by any calls of `add_model` have the same identifier only if the same
models were selected in the same order (requests for "model 0" select nothing). -/
theorem print_added (s c l s' c' l' : List ℕ) (p q r p' q' r' : ℕ) (vs vc vl vs' vc' vl' : SmallVector ℕ)
    (h1 : addModels (SmallVector.empty 10 0) s = .ok vs) (h2 : addModels (SmallVector.empty 10 0) c = .ok vc)
    (h3 : addModels (SmallVector.empty 10 0) l = .ok vl) (h1' : addModels (SmallVector.empty 10 0) s' = .ok vs')
    (h2' : addModels (SmallVector.empty 10 0) c' = .ok vc') (h3' : addModels (SmallVector.empty 10 0) l' = .ok vl')
    (h : print ⟨vs.elems, p, vc.elems, q, vl.elems, r⟩ = print ⟨vs'.elems, p', vc'.elems, q', vl'.elems, r'⟩) :
    s.filter (· ≠ 0) = s'.filter (· ≠ 0) ∧ c.filter (· ≠ 0) = c'.filter (· ≠ 0) ∧
    l.filter (· ≠ 0) = l'.filter (· ≠ 0) ∧ p = p' ∧ q = q' ∧ r = r' := by
  have el : ∀ (as : List ℕ) (v : SmallVector ℕ), addModels (SmallVector.empty 10 0) as = .ok v →
      v.elems = as.filter (· ≠ 0) := by
    intro as v h
    by_cases hl : (as.filter (· ≠ 0)).length ≤ 10
    · obtain ⟨w, h1, h2⟩ := (addModels_partial as).1 hl
      rw [h1] at h
      cases h
      exact h2
    · rw [(addModels_partial as).2 (by omega)] at h
      cases h
  have key := print_injective _ _ ⟨valid_of_addModels s vs h1, valid_of_addModels c vc h2, valid_of_addModels l vl h3⟩
    ⟨valid_of_addModels s' vs' h1', valid_of_addModels c' vc' h2', valid_of_addModels l' vl' h3'⟩ h
  rw [el s vs h1, el c vc h2, el l vl h3, el s' vs' h1', el c' vc' h2', el l' vl' h3'] at key
  injection key with k1 k2 k3 k4 k5 k6
  exact ⟨k1, k3, k5, k2, k4, k6⟩

/-- The identifier documented in the header: SEI model 2, LAM models 2 and 3, plating model 1. -/
example : Valid ⟨[2], 0, [], 0, [2, 3], 1⟩ ∧
    String.ofList (print ⟨[2], 0, [], 0, [2, 3], 1⟩) = "2-0_0-0_2-3_1" := by
  refine ⟨⟨by decide, by decide, by decide⟩, by decide⟩

/-- The hypothesis is needed: a stored model number 0 looks like an empty list. -/
theorem print_needs_valid : print ⟨[0], 0, [], 0, [1], 0⟩ = print ⟨[], 0, [], 0, [1], 0⟩ := by decide

end DegId
end Slide

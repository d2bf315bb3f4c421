import Verif.Spec.Structure
import Verif.Tac

namespace Slide
open Spec
namespace Obj
variable {α : Type}

/-- Induction over the tree of owned objects. -/
theorem ind {P : Obj α → Prop}
    (h : ∀ a k i p d (ks : List (Obj α)), (∀ t ∈ ks, P t) → P (mk a k i p d ks)) (t : Obj α) : P t := by
  refine Obj.rec (motive_1 := P) (motive_2 := fun ks => ∀ t ∈ ks, P t) ?_ ?_ ?_ t
  · intro a k i p d ks ih; exact h a k i p d ks ih
  · intro t ht; cases ht
  · intro t ts h1 h2 u hu
    rcases List.mem_cons.mp hu with rfl | hu
    · exact h1
    · exact h2 u hu

/-! ### positions -/

theorem at?_cons (t : Obj α) (i : ℕ) (p : List ℕ) : at? t (i :: p) = (t.kids[i]?).bind fun k => at? k p := by
  rw [at?]
  cases t.kids[i]? <;> rfl

theorem at?_append (t : Obj α) (p q : List ℕ) : at? t (p ++ q) = (at? t p).bind fun u => at? u q := by
  induction p generalizing t with
  | nil => rfl
  | cons i p ih =>
    rw [List.cons_append, at?_cons, at?_cons]
    cases t.kids[i]? with
    | none => rfl
    | some k => exact ih k

/-- The positions in the order of the traversal. -/
def orderFrom (order : Obj α → List (List ℕ)) : ℕ → List (Obj α) → List (List ℕ)
  | _, [] => []
  | n, t :: ts => (order t).map (n :: ·) ++ orderFrom order (n + 1) ts

mutual
def order : Obj α → List (List ℕ)
  | mk _ _ _ _ _ ks => [] :: orderAll 0 ks
termination_by structural t => t
def orderAll (n : ℕ) : List (Obj α) → List (List ℕ)
  | [] => []
  | t :: ts => (order t).map (n :: ·) ++ orderAll (n + 1) ts
termination_by structural ts => ts
end

theorem mem_orderAll (ts : List (Obj α)) (n : ℕ) (p : List ℕ) :
    p ∈ orderAll n ts ↔ ∃ j k q, ts[j]? = some k ∧ q ∈ order k ∧ p = (n + j) :: q := by
  induction ts generalizing n with
  | nil => simp [orderAll]
  | cons t ts ih =>
    rw [orderAll, List.mem_append, ih, List.mem_map]
    constructor
    · rintro (⟨q, hq, rfl⟩ | ⟨j, k, q, h1, h2, rfl⟩)
      · exact ⟨0, t, q, rfl, hq, rfl⟩
      · exact ⟨j + 1, k, q, h1, h2, by rw [Nat.add_assoc, Nat.add_comm 1]⟩
    · rintro ⟨j, k, q, h1, h2, rfl⟩
      cases j with
      | zero =>
        left
        simp only [List.getElem?_cons_zero, Option.some.injEq] at h1
        subst h1
        exact ⟨q, h2, rfl⟩
      | succ j =>
        right
        exact ⟨j, k, q, by simpa using h1, h2, by rw [Nat.add_assoc, Nat.add_comm 1]⟩

theorem mem_order (t : Obj α) : ∀ p, p ∈ order t ↔ (at? t p).isSome := by
  induction t using ind with
  | h a k i pa d ks ih =>
    intro p
    rw [order]
    cases p with
    | nil => simp [at?]
    | cons j p =>
      rw [List.mem_cons, mem_orderAll, at?_cons]
      constructor
      · rintro (h | ⟨j', u, q, h1, h2, h3⟩)
        · cases h
        · rw [Nat.zero_add] at h3
          obtain ⟨rfl, rfl⟩ := List.cons.inj h3
          show ((ks[j]?).bind _).isSome
          rw [h1]
          exact (ih u (List.mem_of_getElem? h1) p).mp h2
      · intro h
        right
        change ((ks[j]?).bind _).isSome at h
        cases hk : ks[j]? with
        | none => rw [hk] at h; cases h
        | some u =>
          rw [hk] at h
          exact ⟨j, u, p, hk, (ih u (List.mem_of_getElem? hk) p).mpr h, by rw [Nat.zero_add]⟩

theorem nodup_orderAll (ts : List (Obj α)) (h : ∀ t ∈ ts, (order t).Nodup) (n : ℕ) : (orderAll n ts).Nodup := by
  induction ts generalizing n with
  | nil => simp [orderAll]
  | cons t ts ih =>
    rw [orderAll]
    refine List.Nodup.append ((h t List.mem_cons_self).map (fun a b hab => (List.cons.inj hab).2))
      (ih (fun u hu => h u (List.mem_cons_of_mem _ hu)) (n + 1)) ?_
    intro p hp hq
    rw [List.mem_map] at hp
    obtain ⟨q, _, rfl⟩ := hp
    rw [mem_orderAll] at hq
    obtain ⟨j, k, q', _, _, h3⟩ := hq
    have := (List.cons.inj h3).1
    omega

theorem nodup_order (t : Obj α) : (order t).Nodup := by
  induction t using ind with
  | h a k i p d ks ih =>
    rw [order, List.nodup_cons]
    refine ⟨?_, nodup_orderAll ks ih 0⟩
    rw [mem_orderAll]
    rintro ⟨_, _, _, _, _, h⟩
    cases h

theorem pairwise_orderAll (ts : List (Obj α)) (h : ∀ t ∈ ts, (order t).Pairwise fun p q => ¬ q <+: p) (n : ℕ) :
    (orderAll n ts).Pairwise fun p q => ¬ q <+: p := by
  induction ts generalizing n with
  | nil => simp [orderAll]
  | cons t ts ih =>
    rw [orderAll, List.pairwise_append]
    refine ⟨?_, ih (fun u hu => h u (List.mem_cons_of_mem _ hu)) (n + 1), ?_⟩
    · rw [List.pairwise_map]
      refine (h t List.mem_cons_self).imp ?_
      intro p q hpq hc
      rw [List.cons_prefix_cons] at hc
      exact hpq hc.2
    · intro p hp q hq
      rw [List.mem_map] at hp
      obtain ⟨p', _, rfl⟩ := hp
      rw [mem_orderAll] at hq
      obtain ⟨j, k, q', _, _, rfl⟩ := hq
      rw [List.cons_prefix_cons]
      rintro ⟨h1, _⟩
      omega

theorem pairwise_order (t : Obj α) : (order t).Pairwise fun p q => ¬ q <+: p := by
  induction t using ind with
  | h a k i p d ks ih =>
    rw [order, List.pairwise_cons]
    refine ⟨?_, pairwise_orderAll ks ih 0⟩
    intro q hq hc
    rw [List.prefix_nil] at hc
    subst hc
    rw [mem_orderAll] at hq
    obtain ⟨_, _, _, _, _, h⟩ := hq
    cases h

/-- Apply `fn` to the object at a position. -/
def stepAt {σ : Type} (fn : σ → Obj α → σ) (t : Obj α) (s : σ) (p : List ℕ) : σ :=
  match at? t p with
  | some u => fn s u
  | none => s

theorem foldl_shift {σ : Type} (fn : σ → Obj α → σ) (t k : Obj α) (n : ℕ) (hk : t.kids[n]? = some k) (l : List (List ℕ))
    (s : σ) : (l.map (n :: ·)).foldl (stepAt fn t) s = l.foldl (stepAt fn k) s := by
  rw [List.foldl_map]
  congr 1
  funext s p
  unfold stepAt
  rw [at?_cons, hk]
  rfl

theorem visitAll_eq {σ : Type} (fn : σ → Obj α → σ) (t : Obj α) (ts : List (Obj α)) (n : ℕ)
    (ht : ∀ j, ts[j]? = t.kids[n + j]?)
    (h : ∀ u ∈ ts, ∀ s, u.visit fn s = (order u).foldl (stepAt fn u) s) (s : σ) :
    visitAll fn s ts = (orderAll n ts).foldl (stepAt fn t) s := by
  induction ts generalizing n s with
  | nil => simp [visitAll, orderAll]
  | cons u us ih =>
    rw [visitAll, orderAll, List.foldl_append, foldl_shift fn t u n (by rw [← Nat.add_zero n, ← ht 0]; rfl),
      ← h u List.mem_cons_self]
    apply ih
    · intro j
      rw [Nat.add_assoc, Nat.add_comm 1, ← ht (j + 1)]
      rfl
    · intro v hv
      exact h v (List.mem_cons_of_mem _ hv)

theorem visit_eq {σ : Type} (fn : σ → Obj α → σ) (t : Obj α) (hc : CellsAreLeaves t) (s : σ) :
    t.visit fn s = (order t).foldl (stepAt fn t) s := by
  induction t using ind generalizing s with
  | h a k i p d ks ih =>
    have hk : ∀ u ∈ ks, ∀ s, u.visit fn s = (order u).foldl (stepAt fn u) s := by
      intro u hu s
      apply ih u hu
      obtain ⟨j, hj⟩ := List.getElem?_of_mem hu
      intro q v hv
      apply hc (j :: q) v
      rw [at?_cons]
      show (ks[j]?).bind _ = _
      rw [hj]
      exact hv
    have hm : ∀ s, visitAll fn s ks = (orderAll 0 ks).foldl (stepAt fn (mk a k i p d ks)) s := by
      intro s
      apply visitAll_eq fn _ ks 0 _ hk
      intro j
      rw [Nat.zero_add]; rfl
    rw [order, List.foldl_cons]
    have h0 : stepAt fn (mk a k i p d ks) s [] = fn s (mk a k i p d ks) := rfl
    rw [h0]
    cases k with
    | cell =>
      have : ks = [] := hc [] (mk a .cell i p d ks) rfl rfl
      subst this
      simp [orderAll, visit]
    | module n => rw [visit]; exact hm _
    | battery x y => rw [visit]; exact hm _

/-! ### addresses of copies -/

theorem hasAddr_mk (a : ℕ) (k : Kind) (i : List Char) (p : Option ℕ) (d : α) (ks : List (Obj α)) (x : ℕ) :
    HasAddr (mk a k i p d ks) x ↔ x = a ∨ ∃ t ∈ ks, HasAddr t x := by
  constructor
  · rintro ⟨q, u, h1, rfl⟩
    cases q with
    | nil => cases h1; exact .inl rfl
    | cons j q =>
      rw [at?_cons] at h1
      change (ks[j]?).bind _ = _ at h1
      cases hj : ks[j]? with
      | none => rw [hj] at h1; cases h1
      | some t =>
        rw [hj] at h1
        exact .inr ⟨t, List.mem_of_getElem? hj, q, u, h1, rfl⟩
  · rintro (rfl | ⟨t, ht, q, u, h1, rfl⟩)
    · exact ⟨[], _, rfl, rfl⟩
    · obtain ⟨j, hj⟩ := List.getElem?_of_mem ht
      refine ⟨j :: q, u, ?_, rfl⟩
      rw [at?_cons]
      show (ks[j]?).bind _ = _
      rw [hj]; exact h1

theorem copyAll_addr (ts : List (Obj α))
    (h : ∀ t ∈ ts, ∀ n, n < (t.copy n).2 ∧ ∀ x, HasAddr (t.copy n).1 x → n ≤ x ∧ x < (t.copy n).2) (n : ℕ) :
    n ≤ (copyAll n ts).2 ∧ ∀ t ∈ (copyAll n ts).1, ∀ x, HasAddr t x → n ≤ x ∧ x < (copyAll n ts).2 := by
  induction ts generalizing n with
  | nil => simp [copyAll]
  | cons t ts ih =>
    rw [copyAll]
    dsimp only
    have h1 := h t List.mem_cons_self n
    have h2 := ih (fun u hu => h u (List.mem_cons_of_mem _ hu)) (t.copy n).2
    refine ⟨by omega, ?_⟩
    intro u hu x hx
    rcases List.mem_cons.mp hu with rfl | hu
    · have := h1.2 x hx; omega
    · have := h2.2 u hu x hx; omega

theorem copy_addr (t : Obj α) (n : ℕ) :
    n < (t.copy n).2 ∧ ∀ x, HasAddr (t.copy n).1 x → n ≤ x ∧ x < (t.copy n).2 := by
  induction t using ind generalizing n with
  | h a k i p d ks ih =>
    rw [copy]
    dsimp only
    have h := copyAll_addr ks (fun t ht n => ih t ht n) (n + 1)
    refine ⟨by omega, ?_⟩
    intro x hx
    rw [hasAddr_mk] at hx
    rcases hx with rfl | ⟨t, ht, hx⟩
    · omega
    · have := h.2 t ht x hx; omega

/-- Distinct addresses, level by level. -/
theorem distinct_mk (a : ℕ) (k : Kind) (i : List Char) (p : Option ℕ) (d : α) (ks : List (Obj α))
    (h1 : ∀ t ∈ ks, DistinctAddr t) (h2 : ∀ t ∈ ks, ¬ HasAddr t a)
    (h3 : ks.Pairwise fun t u => ∀ x, HasAddr t x → ¬ HasAddr u x) : DistinctAddr (mk a k i p d ks) := by
  have get : ∀ j q u, at? (mk a k i p d ks) (j :: q) = some u → ∃ t, ks[j]? = some t ∧ at? t q = some u := by
    intro j q u h
    rw [at?_cons] at h
    change (ks[j]?).bind _ = _ at h
    cases hj : ks[j]? with
    | none => rw [hj] at h; cases h
    | some t => rw [hj] at h; exact ⟨t, rfl, h⟩
  have sep : ∀ (j j' : ℕ) (t t' : Obj α), j < j' → ks[j]? = some t → ks[j']? = some t' → ∀ x, HasAddr t x → ¬ HasAddr t' x := by
    intro j j' t t' (hjj : j < j') hj hj'
    obtain ⟨l1, e1⟩ := List.getElem?_eq_some_iff.mp hj
    obtain ⟨l2, e2⟩ := List.getElem?_eq_some_iff.mp hj'
    have := (List.pairwise_iff_getElem.mp h3) j j' l1 l2 hjj
    rw [e1, e2] at this
    exact this
  intro q r u v hu hv e
  cases q with
  | nil =>
    cases r with
    | nil => rfl
    | cons j r =>
      obtain ⟨t, hj, ht⟩ := get j r v hv
      cases hu
      exact absurd ⟨r, v, ht, e.symm⟩ (h2 t (List.mem_of_getElem? hj))
  | cons j q =>
    obtain ⟨t, hj, ht⟩ := get j q u hu
    cases r with
    | nil =>
      cases hv
      exact absurd ⟨q, u, ht, e⟩ (h2 t (List.mem_of_getElem? hj))
    | cons j' r =>
      obtain ⟨t', hj', ht'⟩ := get j' r v hv
      rcases Nat.lt_trichotomy j j' with hl | hl | hl
      · exact absurd ⟨r, v, ht', e.symm⟩ (sep j j' t t' hl hj hj' _ ⟨q, u, ht, rfl⟩)
      · subst hl
        rw [hj] at hj'
        cases hj'
        rw [h1 t (List.mem_of_getElem? hj) q r u v ht ht' e]
      · exact absurd ⟨q, u, ht, e⟩ (sep j' j t' t hl hj' hj _ ⟨r, v, ht', rfl⟩)

theorem copyAll_distinct (ts : List (Obj α)) (h : ∀ t ∈ ts, ∀ n, DistinctAddr (t.copy n).1) (n : ℕ) :
    (∀ t ∈ (copyAll n ts).1, DistinctAddr t) ∧
    (copyAll n ts).1.Pairwise fun t u => ∀ x, HasAddr t x → ¬ HasAddr u x := by
  induction ts generalizing n with
  | nil => simp [copyAll]
  | cons t ts ih =>
    rw [copyAll]
    dsimp only
    have h2 := ih (fun u hu => h u (List.mem_cons_of_mem _ hu)) (t.copy n).2
    refine ⟨?_, ?_⟩
    · intro u hu
      rcases List.mem_cons.mp hu with rfl | hu
      · exact h t List.mem_cons_self n
      · exact h2.1 u hu
    · rw [List.pairwise_cons]
      refine ⟨?_, h2.2⟩
      intro u hu x hx hx'
      have a1 := (copy_addr t n).2 x hx
      have a2 := (copyAll_addr ts (fun t _ n => copy_addr t n) (t.copy n).2).2 u hu x hx'
      omega

theorem copy_distinct (t : Obj α) (n : ℕ) : DistinctAddr (t.copy n).1 := by
  induction t using ind generalizing n with
  | h a k i p d ks ih =>
    rw [copy]
    dsimp only
    have h := copyAll_distinct ks (fun t ht n => ih t ht n) (n + 1)
    refine distinct_mk _ _ _ _ _ _ h.1 ?_ h.2
    intro t ht hx
    have := (copyAll_addr ks (fun t _ n => copy_addr t n) (n + 1)).2 t ht n hx
    omega

theorem copyAll_get (ts : List (Obj α)) (n j : ℕ) :
    (ts[j]? = none → (copyAll n ts).1[j]? = none) ∧
    ∀ t, ts[j]? = some t → ∃ m, n ≤ m ∧ (copyAll n ts).1[j]? = some (t.copy m).1 := by
  induction ts generalizing n j with
  | nil => simp [copyAll]
  | cons t ts ih =>
    rw [copyAll]
    dsimp only
    cases j with
    | zero =>
      simp only [List.getElem?_cons_zero]
      refine ⟨fun h => (by cases h), ?_⟩
      intro u hu; cases hu
      exact ⟨n, le_rfl, rfl⟩
    | succ j =>
      simp only [List.getElem?_cons_succ]
      refine ⟨(ih (t.copy n).2 j).1, ?_⟩
      intro u hu
      obtain ⟨m, h1, h2⟩ := (ih (t.copy n).2 j).2 u hu
      exact ⟨m, by have := (copy_addr t n).1; omega, h2⟩

theorem length_copyAll (ts : List (Obj α)) (n : ℕ) : (copyAll n ts).1.length = ts.length := by
  induction ts generalizing n with
  | nil => rfl
  | cons t ts ih => rw [copyAll]; simp [ih]

/-- Positions of the copy hold copies. -/
theorem copy_at (t : Obj α) (n : ℕ) (p : List ℕ) :
    (at? t p = none → at? (t.copy n).1 p = none) ∧
    ∀ u, at? t p = some u → ∃ m, n ≤ m ∧ at? (t.copy n).1 p = some (u.copy m).1 := by
  induction p generalizing t n with
  | nil =>
    refine ⟨fun h => (by cases h), ?_⟩
    intro u hu; cases hu
    exact ⟨n, le_rfl, rfl⟩
  | cons j p ih =>
    obtain ⟨a, k, i, pa, d, ks⟩ := t
    rw [at?_cons, at?_cons, copy]
    show ((ks[j]?).bind _ = none → ((copyAll (n + 1) ks).1[j]?).bind _ = none) ∧
      ∀ u, (ks[j]?).bind _ = some u → ∃ m, n ≤ m ∧ ((copyAll (n + 1) ks).1[j]?).bind _ = _
    have hg := copyAll_get ks (n + 1) j
    cases hj : ks[j]? with
    | none =>
      rw [hg.1 hj]
      exact ⟨fun _ => rfl, fun u hu => by cases hu⟩
    | some t =>
      obtain ⟨m, h1, h2⟩ := hg.2 t hj
      rw [h2]
      refine ⟨(ih t m).1, ?_⟩
      intro u hu
      obtain ⟨m', h3, h4⟩ := (ih t m).2 u hu
      exact ⟨m', by omega, h4⟩

/-! ### pokes -/

theorem pokeAll_absent (a : ℕ) (f : Obj α → Obj α) (ts : List (Obj α)) (h : ∀ t ∈ ts, poke a f t = t) :
    pokeAll a f ts = ts := by
  induction ts with
  | nil => rfl
  | cons t ts ih =>
    rw [pokeAll, h t List.mem_cons_self, ih (fun u hu => h u (List.mem_cons_of_mem _ hu))]

theorem poke_absent (a : ℕ) (f : Obj α → Obj α) (t : Obj α) (h : ¬ HasAddr t a) : poke a f t = t := by
  induction t using ind with
  | h b k i p d ks ih =>
    rw [hasAddr_mk] at h
    push Not at h
    rw [poke, pokeAll_absent a f ks (fun t ht => ih t ht (h.2 t ht))]
    exact if_neg (fun e => h.1 e.symm)

/-! ### find -/

theorem findAll_none (a : ℕ) (ts : List (Obj α)) (h : ∀ t ∈ ts, find a t = none) : findAll a ts = none := by
  induction ts with
  | nil => rfl
  | cons t ts ih =>
    rw [findAll, h t List.mem_cons_self, ih (fun u hu => h u (List.mem_cons_of_mem _ hu))]
    rfl

theorem find_none (a : ℕ) (t : Obj α) (h : ¬ HasAddr t a) : find a t = none := by
  induction t using ind with
  | h b k i p d ks ih =>
    rw [hasAddr_mk] at h
    push Not at h
    rw [find, if_neg (fun e => h.1 e.symm)]
    exact findAll_none a ks (fun t ht => ih t ht (h.2 t ht))

theorem findAll_some (a : ℕ) (ts : List (Obj α)) (u : Obj α) (h : findAll a ts = some u) : ∃ t ∈ ts, find a t = some u := by
  induction ts with
  | nil => cases h
  | cons t ts ih =>
    rw [findAll] at h
    cases ht : find a t with
    | some v =>
      rw [ht] at h
      exact ⟨t, List.mem_cons_self, by rw [ht]; exact h⟩
    | none =>
      rw [ht] at h
      obtain ⟨w, hw, e⟩ := ih h
      exact ⟨w, List.mem_cons_of_mem _ hw, e⟩

theorem find_some (a : ℕ) (t u : Obj α) (h : find a t = some u) : u.addr = a ∧ ∃ p, at? t p = some u := by
  induction t using ind with
  | h b k i p d ks ih =>
    rw [find] at h
    by_cases hb : b = a
    · rw [if_pos hb] at h
      cases h
      exact ⟨hb, [], rfl⟩
    · rw [if_neg hb] at h
      obtain ⟨t, ht, e⟩ := findAll_some a ks u h
      obtain ⟨h1, q, h2⟩ := ih t ht e
      obtain ⟨j, hj⟩ := List.getElem?_of_mem ht
      refine ⟨h1, j :: q, ?_⟩
      rw [at?_cons]
      show (ks[j]?).bind _ = _
      rw [hj]; exact h2

theorem findAll_isSome (a : ℕ) (ts : List (Obj α)) (h : ∃ t ∈ ts, (find a t).isSome) : (findAll a ts).isSome := by
  induction ts with
  | nil => obtain ⟨t, ht, _⟩ := h; cases ht
  | cons t ts ih =>
    rw [findAll, Option.isSome_or]
    obtain ⟨u, hu, hs⟩ := h
    rcases List.mem_cons.mp hu with rfl | hu
    · simp [hs]
    · simp [ih ⟨u, hu, hs⟩]

theorem find_isSome (a : ℕ) (t : Obj α) (h : HasAddr t a) : (find a t).isSome := by
  induction t using ind with
  | h b k i p d ks ih =>
    rw [find]
    by_cases hb : b = a
    · rw [if_pos hb]; rfl
    · rw [if_neg hb]
      rw [hasAddr_mk] at h
      rcases h with e | ⟨t, ht, hx⟩
      · exact absurd e.symm hb
      · exact findAll_isSome a ks ⟨t, ht, ih t ht hx⟩

theorem find_at (t u : Obj α) (p : List ℕ) (hd : DistinctAddr t) (h : at? t p = some u) : find u.addr t = some u := by
  have h1 := find_isSome u.addr t ⟨p, u, h, rfl⟩
  cases hf : find u.addr t with
  | none => rw [hf] at h1; cases h1
  | some v =>
    obtain ⟨e, q, hq⟩ := find_some _ _ _ hf
    have := hd q p v u hq h e
    subst this
    rw [h] at hq
    cases hq
    rfl

end Obj
end Slide

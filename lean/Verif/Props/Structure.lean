import Verif.Lemmas.Structure

/-!
# C28 copies; C46 traversal and number of cells; C50 full identifiers; C60 connecting units
-/

namespace Slide
open Spec Obj
variable {α : Type}

/-! ## C46 -/

/-- **C46, traversal.** There is a list of all positions of the tree, each exactly once and each before the positions
below it, such that `visit_SUs` calls the function on exactly the units at these positions, in this order. -/
theorem visit_enumerates (t : Obj α) (hc : CellsAreLeaves t) :
    ∃ l, Enumerates t l ∧ ∀ (σ : Type) (fn : σ → Obj α → σ) (s : σ),
      t.visit fn s = l.foldl (fun s p => match at? t p with | some u => fn s u | none => s) s :=
  ⟨order t, ⟨nodup_order t, mem_order t, pairwise_order t⟩, fun _ fn s => visit_eq fn t hc s⟩

/-- Units that are put together bottom-up: children are completed before they are connected. -/
inductive BottomUp : Obj α → Prop where
  | cell (a i p d) : BottomUp (mk a .cell i p d [])
  | connect (m : Obj α) (c : List (Obj α)) (print : Bool) (m' : Obj α) : (∀ t ∈ c, BottomUp t) →
      m.setSUs c print = (.ok (), m') → BottomUp m'

theorem visitAll_count (ts : List (Obj α)) (s : ℕ)
    (h : ∀ t ∈ ts, ∀ s, t.visit (fun n o => if o.kind = .cell then n + 1 else n) s = s + cellsReached t) :
    visitAll (fun n o => if o.kind = .cell then n + 1 else n) s ts = s + (ts.map cellsReached).sum := by
  induction ts generalizing s with
  | nil => simp [visitAll]
  | cons t ts ih =>
    rw [visitAll, h t List.mem_cons_self, ih _ (fun u hu => h u (List.mem_cons_of_mem _ hu)), List.map_cons,
      List.sum_cons, Nat.add_assoc]

theorem visit_count (t : Obj α) (s : ℕ) :
    t.visit (fun n o => if o.kind = .cell then n + 1 else n) s = s + cellsReached t := by
  induction t using ind generalizing s with
  | h a k i p d ks ih =>
    unfold cellsReached
    cases k with
    | cell => rw [visit, visit]; simp [Obj.kind]
    | module n =>
      rw [visit, visit, visitAll_count ks _ ih, visitAll_count ks _ ih]
      simp [Obj.kind]
    | battery x y =>
      rw [visit, visit, visitAll_count ks _ ih, visitAll_count ks _ ih]
      simp [Obj.kind]

theorem cellsReached_module (a : ℕ) (n : Option ℕ) (i : List Char) (p : Option ℕ) (d : α) (ks : List (Obj α)) :
    cellsReached (mk a (.module n) i p d ks) = (ks.map cellsReached).sum := by
  show visit _ 0 _ = _
  rw [visit, visitAll_count ks _ (fun t _ s => visit_count t s)]
  simp [Obj.kind]

theorem cellsReached_setParent (p : Option ℕ) (t : Obj α) : cellsReached (t.setParent p) = cellsReached t := by
  obtain ⟨a, k, i, pa, d, ks⟩ := t
  cases k <;> (show visit _ 0 (mk a _ i p d ks) = visit _ 0 (mk a _ i pa d ks); rw [visit, visit]; rfl)

theorem sumNcells_eq (c : List (Obj α)) (h : ∀ t ∈ c, t.getNcells = .ok (cellsReached t)) :
    sumNcells c = .ok ((c.map cellsReached).sum) := by
  induction c with
  | nil => rfl
  | cons t ts ih =>
    rw [sumNcells, h t List.mem_cons_self, ih (fun u hu => h u (List.mem_cons_of_mem _ hu))]
    rfl

/-- **C46, number of cells.** For modules put together bottom-up `getNcells` is the number of cells reached by
`visit_SUs`. -/
theorem ncells_bottomUp_partial (t : Obj α) (h : BottomUp t) : t.getNcells = .ok (cellsReached t) := by
  induction h with
  | cell a i p d => rw [getNcells]; rfl
  | connect m c print m' _ hm ih =>
    unfold setSUs at hm
    split at hm
    · split at hm <;> cases hm
    · rw [sumNcells_eq c ih] at hm
      cases hm
      rw [getNcells, cellsReached_module, List.map_map]
      congr 2
      apply List.map_congr_left
      intro t _
      exact (cellsReached_setParent _ t).symm

/-- A battery reports the number of cells of all copies of its module. -/
theorem ncells_battery (t : Obj α) (h : BottomUp t) (b b' : Obj α) (ns np : ℕ) (hk : b.kind = .battery ns np)
    (hb : b.setModule t = (.ok (), b')) : b'.getNcells = .ok (cellsReached t * ns * np) := by
  unfold setModule at hb
  split at hb
  · cases hb
  · split at hb
    · cases hb
    · cases hb
      have e : (t.setParent (some b.addr)).getNcells = t.getNcells := by
        obtain ⟨a, k, i, pa, d, ks⟩ := t
        show getNcells (mk a k i (some b.addr) d ks) = getNcells (mk a k i pa d ks)
        cases k with
        | cell => rw [getNcells, getNcells]
        | module n => cases n <;> rw [getNcells, getNcells]
        | battery x y => rw [getNcells, getNcells]
      rw [hk, getNcells, firstNcells, e, ncells_bottomUp_partial t h]

/-- A battery takes one module, once, and only one that belongs to nobody yet; everything else is refused with 10 and changes
nothing. The module accepted belongs to the battery afterwards. -/
theorem battery_takes_one (b t : Obj α) :
    (t.parent = none ∧ b.kids = [] → ∃ b', b.setModule t = (.ok (), b') ∧ b'.addr = b.addr ∧ b'.kind = b.kind ∧ b'.id = b.id ∧
      b'.parent = b.parent ∧ ∃ t', b'.kids = [t'] ∧ t'.parent = some b'.addr ∧ t'.addr = t.addr ∧ t'.kids = t.kids ∧
        ∀ s : Obj α, b'.setModule s = (.throw 10, b') ∧ b.setModule t' = (.throw 10, b)) ∧
    (¬ (t.parent = none ∧ b.kids = []) → b.setModule t = (.throw 10, b)) := by
  constructor
  · rintro ⟨h1, h2⟩
    refine ⟨mk b.addr b.kind b.id b.parent b.data [t.setParent (some b.addr)], ?_, rfl, rfl, rfl, rfl,
      t.setParent (some b.addr), rfl, ?_, ?_, ?_, fun s => ⟨?_, ?_⟩⟩
    · unfold setModule
      rw [if_neg (by simp [h1]), if_neg (by simp [h2])]
    · cases t; rfl
    · cases t; rfl
    · cases t; rfl
    · unfold setModule
      by_cases h : s.parent = none
      · rw [if_neg (by simp [h]), if_pos (by show [t.setParent (some b.addr)] ≠ []; simp)]
      · rw [if_pos h]
    · unfold setModule
      rw [if_pos (by cases t; show some b.addr ≠ none; simp)]
  · intro h
    unfold setModule
    by_cases h1 : t.parent = none
    · rw [if_neg (by simp [h1]), if_pos fun h2 => h ⟨h1, h2⟩]
    · rw [if_pos h1]

/-- Any way of putting units together with `setSUs`: also on modules that are already inside another one. -/
inductive Assembled : Obj α → Prop where
  | cell (a i p d) : Assembled (mk a .cell i p d [])
  | newModule (a i p d) : Assembled (mk a (.module none) i p d [])
  | connect (m : Obj α) (c : List (Obj α)) (print : Bool) (m' : Obj α) : Assembled m → (∀ t ∈ c, Assembled t) →
      m.setSUs c print = (.ok (), m') → Assembled m'
  | inside (m : Obj α) (c : List (Obj α)) (print : Bool) (a : ℕ) : Assembled m → (∀ t ∈ c, Assembled t) →
      Assembled (m.poke a fun k => (k.setSUs c print).2)

/-- Full statement of the second part of C46. -/
def CountUpToDate (α : Type) : Prop :=
  ∀ (t : Obj α) (n : ℕ), Assembled t → t.kind = .module (some n) → n = cellsReached t

/-- False of the code: a module that gets its cells after it was connected to another module is not counted there. -/
theorem not_countUpToDate : ¬ CountUpToDate Unit := by
  intro H
  let inner : Obj Unit := mk 1 (.module none) ['i'] none () []
  let inner' : Obj Unit := mk 1 (.module (some 0)) ['i'] none () []
  let outer : Obj Unit := mk 0 (.module none) ['o'] none () []
  let outer' : Obj Unit := mk 0 (.module (some 0)) ['o'] none () [mk 1 (.module (some 0)) ['i'] (some 0) () []]
  let c : Obj Unit := mk 2 .cell ['c'] none () []
  have h1 : Assembled inner' := Assembled.connect inner [] true inner' (Assembled.newModule _ _ _ _) (by simp) rfl
  have h2 : Assembled outer' := Assembled.connect outer [inner'] true outer' (Assembled.newModule _ _ _ _)
    (by intro t ht; rw [List.mem_singleton] at ht; subst ht; exact h1) rfl
  have h3 := Assembled.inside outer' [c] true 1 h2
    (by intro t ht; rw [List.mem_singleton] at ht; subst ht; exact Assembled.cell _ _ _ _)
  exact absurd (H _ 0 h3 rfl) (by decide)

/-- Before the first `setSUs` the number of cells of a module is an uninitialised variable. -/
theorem ncells_new_module_ub (a : ℕ) (i : List Char) (p : Option ℕ) (d : α) :
    (mk a (.module none) i p d []).getNcells = .ub "Ncells is not initialised" := by rw [getNcells]

/-- Two cells in one module, next to a third in another: 3 cells. -/
example : ∃ t : Obj Unit, BottomUp t ∧ cellsReached t = 3 ∧ CellsAreLeaves t := by
  let c (a : ℕ) : Obj Unit := mk a .cell ['c'] none () []
  let m (a : ℕ) (l : List (Obj Unit)) : Obj Unit := ((mk a (.module none) ['m'] none () []).setSUs l true).2
  have hc : ∀ a, BottomUp (c a) := fun a => .cell _ _ _ _
  have h1 : BottomUp (m 1 [c 2, c 3]) := .connect (mk 1 (.module none) ['m'] none () []) [c 2, c 3] true _
    (by intro t ht; simp only [List.mem_cons, List.not_mem_nil, or_false] at ht; rcases ht with rfl | rfl <;> exact hc _) rfl
  have h2 : BottomUp (m 4 [c 5]) := .connect (mk 4 (.module none) ['m'] none () []) [c 5] true _
    (by intro t ht; simp only [List.mem_cons, List.not_mem_nil, or_false] at ht; rcases ht with rfl; exact hc _) rfl
  have h3 : BottomUp (m 0 [m 1 [c 2, c 3], m 4 [c 5]]) :=
    .connect (mk 0 (.module none) ['m'] none () []) [m 1 [c 2, c 3], m 4 [c 5]] true _
      (by intro t ht; simp only [List.mem_cons, List.not_mem_nil, or_false] at ht
          rcases ht with rfl | rfl
          · exact h1
          · exact h2) rfl
  refine ⟨_, h3, by decide, ?_⟩
  -- no cell has children: induction over the tree would do; here by evaluating the positions
  intro p u hu hk
  have hm : p ∈ order (m 0 [m 1 [c 2, c 3], m 4 [c 5]]) := by rw [mem_order, hu]; rfl
  have ho : order (m 0 [m 1 [c 2, c 3], m 4 [c 5]]) = [[], [0], [0, 0], [0, 1], [1], [1, 0]] := by decide
  rw [ho] at hm
  simp only [List.mem_cons, List.not_mem_nil, or_false] at hm
  rcases hm with rfl | rfl | rfl | rfl | rfl | rfl <;> (cases hu; first | rfl | cases hk)

/-! ## C28 -/

/-- **C28, same content.** A copy has the same structure, kinds, names and data at every position. -/
theorem copy_same (t : Obj α) (n : ℕ) : SameUpToAddr t (t.copy n).1 := by
  intro p
  have h := copy_at t n p
  cases hp : at? t p with
  | none => rw [h.1 hp]
  | some u =>
    obtain ⟨m, _, e⟩ := h.2 u hp
    rw [e]
    obtain ⟨a, k, i, pa, d, ks⟩ := u
    rw [copy]
    simp [Obj.kind, Obj.id, Obj.parent, Obj.data, Obj.kids, length_copyAll]

/-- **C28, new objects.** All objects of a copy are new and different from each other. -/
theorem copy_fresh (t : Obj α) (n : ℕ) :
    DistinctAddr (t.copy n).1 ∧ ∀ x, HasAddr (t.copy n).1 x → n ≤ x := by
  exact ⟨copy_distinct t n, fun x hx => ((copy_addr t n).2 x hx).1⟩

/-- **C28, independence.** Any sequence of changes to objects of the copy leaves the original as it is, and vice versa
(`n` is an address beyond all objects of the original). -/
theorem copy_independent (t : Obj α) (n : ℕ) (hn : ∀ x, HasAddr t x → x < n)
    (changes : List (ℕ × (Obj α → Obj α))) :
    ((∀ c ∈ changes, HasAddr (t.copy n).1 c.1) → changes.foldl (fun u c => u.poke c.1 c.2) t = t) ∧
    ((∀ c ∈ changes, HasAddr t c.1) → changes.foldl (fun u c => u.poke c.1 c.2) (t.copy n).1 = (t.copy n).1) := by
  constructor
  · intro h
    induction changes with
    | nil => rfl
    | cons c cs ih =>
      rw [List.foldl_cons, poke_absent]
      · exact ih (fun d hd => h d (List.mem_cons_of_mem _ hd))
      · intro hx
        have h1 := hn _ hx
        have h2 := (copy_fresh t n).2 _ (h c List.mem_cons_self)
        omega
  · intro h
    induction changes with
    | nil => rfl
    | cons c cs ih =>
      rw [List.foldl_cons, poke_absent]
      · exact ih (fun d hd => h d (List.mem_cons_of_mem _ hd))
      · intro hx
        have h1 := hn _ (h c List.mem_cons_self)
        have h2 := (copy_fresh t n).2 _ hx
        omega

/-- Full statement of the last part of C28: units inside a copy have their parent inside the copy. -/
def CopySelfConsistent (α : Type) : Prop :=
  ∀ (t : Obj α) (n : ℕ), (∀ x, HasAddr t x → x < n) → DistinctAddr t → Linked t → Linked (t.copy n).1

/-- **C28 (parents).** Every unit inside a copy of a properly linked tree has as parent the owner in the *original*. -/
theorem copy_parent_partial (t : Obj α) (n : ℕ) (hl : Linked t) (p : List ℕ) (i : ℕ) (u k k' : Obj α)
    (hu : at? t p = some u) (hk : at? t (p ++ [i]) = some k) (hk' : at? (t.copy n).1 (p ++ [i]) = some k') :
    k'.parent = some u.addr := by
  have h := copy_same t n (p ++ [i])
  rw [hk, hk'] at h
  simp only [Option.map_some, Option.some.injEq, Prod.mk.injEq] at h
  rw [← h.2.2.1]
  refine hl p u i k hu ?_
  rw [at?_append, hu] at hk
  exact hk

/-- So no unit inside any copy has its parent inside the copy … -/
theorem copy_never_linked (t : Obj α) (n : ℕ) (hn : ∀ x, HasAddr t x → x < n) (hl : Linked t) (hne : t.kids ≠ []) :
    ¬ Linked (t.copy n).1 := by
  intro h
  obtain ⟨a, k, i, pa, d, ks⟩ := t
  cases ks with
  | nil => exact hne rfl
  | cons x xs =>
    have h1 := hl [] _ 0 x rfl rfl
    obtain ⟨m, _, hm⟩ := (copy_at (mk a k i pa d (x :: xs)) n [0]).2 x rfl
    have h2 := h [] _ 0 _ rfl hm
    have h3 : ((x.copy m).1).parent = x.parent := by
      obtain ⟨a', k', i', pa', d', ks'⟩ := x
      rw [copy]; rfl
    rw [h3, h1] at h2
    have h4 := hn a ⟨[], _, rfl, rfl⟩
    have h5 := (copy_fresh (mk a k i pa d (x :: xs)) n).2 (((mk a k i pa d (x :: xs)).copy n).1.addr) ⟨[], _, rfl, rfl⟩
    rw [← Option.some.inj h2] at h5
    have h6 : (mk a k i pa d (x :: xs)).addr = a := rfl
    omega

/-- … and once the original is gone, asking a unit of the copy for its full ID follows a dangling pointer. -/
theorem copy_fullID_dangling (t : Obj α) (n : ℕ) (hn : ∀ x, HasAddr t x → x < n) (hl : Linked t) (p : List ℕ) (i : ℕ)
    (k : Obj α) (fuel : ℕ) (hk : at? (t.copy n).1 (p ++ [i]) = some k) :
    fullID (t.copy n).1 (fuel + 1) k = .ub "dangling parent pointer" := by
  have hc := copy_at t n (p ++ [i])
  cases ho : at? t (p ++ [i]) with
  | none => rw [hc.1 ho] at hk; cases hk
  | some k0 =>
    cases hu : at? t p with
    | none => rw [at?_append, hu] at ho; cases ho
    | some u =>
      have hp := copy_parent_partial t n hl p i u k0 k hu ho hk
      unfold fullID
      rw [hp]
      dsimp only
      rw [find_none]
      intro hx
      have h1 := hn u.addr ⟨p, u, hu, rfl⟩
      have h2 := (copy_fresh t n).2 _ hx
      omega

theorem not_copySelfConsistent : ¬ CopySelfConsistent Unit := by
  intro H
  let t : Obj Unit := mk 0 (.module (some 1)) ['m'] none () [mk 1 .cell ['c'] (some 0) () []]
  have pos : ∀ p u, at? t p = some u → p = [] ∨ p = [0] := by
    intro p u hu
    have hm : p ∈ order t := by rw [mem_order, hu]; rfl
    have ho : order t = [[], [0]] := by decide
    rw [ho] at hm
    simpa using hm
  have hn : ∀ x, HasAddr t x → x < 2 := by
    rintro x ⟨p, u, hu, rfl⟩
    rcases pos p u hu with rfl | rfl <;> (cases hu; decide)
  have hd : DistinctAddr t := by
    intro p q u v hu hv e
    rcases pos p u hu with rfl | rfl <;> rcases pos q v hv with rfl | rfl <;>
      (cases hu; cases hv; first | rfl | (revert e; decide))
  have hl : Linked t := by
    intro p u i k hu hk
    have hpi : at? t (p ++ [i]) = some k := by rw [at?_append, hu]; exact hk
    rcases pos _ k hpi with h | h
    · simp at h
    · have : p = [] := by
        cases p with
        | nil => rfl
        | cons a p => simp at h
      subst this
      simp only [List.nil_append, List.cons.injEq, and_true] at h
      subst h
      cases hu
      cases hk
      rfl
  exact copy_never_linked t 2 hn hl (by simp [t, Obj.kids]) (H t 2 hn hd hl)

/-! ## C50 -/

/-- The names from the root to a position, joined by underscores. -/
def pathName (t : Obj α) : List ℕ → List Char
  | [] => t.id
  | i :: p => t.id ++ '_' :: (match t.kids[i]? with | some k => pathName k p | none => [])

theorem pathName_snoc (t u k : Obj α) (p : List ℕ) (i : ℕ) (hu : at? t p = some u) (hk : u.kids[i]? = some k) :
    pathName t (p ++ [i]) = pathName t p ++ '_' :: k.id := by
  induction p generalizing t with
  | nil =>
    cases hu
    simp [pathName, hk]
  | cons j p ih =>
    rw [at?_cons] at hu
    cases hj : t.kids[j]? with
    | none => rw [hj] at hu; cases hu
    | some x =>
      rw [hj] at hu
      rw [List.cons_append, pathName, pathName, hj]
      simp only
      rw [ih x hu]
      simp

/-- In a properly linked tree without parent above it, the full ID is the path of names. -/
theorem fullID_path (t : Obj α) (hd : DistinctAddr t) (hl : Linked t) (hr : t.parent = none) (p : List ℕ) (u : Obj α)
    (hu : at? t p = some u) (fuel : ℕ) (hf : p.length < fuel) : fullID t fuel u = .ok (pathName t p) := by
  induction p using List.reverseRecOn generalizing u fuel with
  | nil =>
    cases fuel with
    | zero => cases hf
    | succ fuel =>
      cases hu
      unfold fullID
      rw [hr]
      rfl
  | append_singleton p i ih =>
    cases fuel with
    | zero => cases hf
    | succ fuel =>
      rw [at?_append] at hu
      cases hq : at? t p with
      | none => rw [hq] at hu; cases hu
      | some q =>
        rw [hq] at hu
        have hki : q.kids[i]? = some u := by
          change at? q [i] = some u at hu
          rw [at?_cons] at hu
          cases hx : q.kids[i]? with
          | none => rw [hx] at hu; cases hu
          | some x => rw [hx] at hu; cases hu; rfl
        have hpar := hl p q i u hq hu
        unfold fullID
        rw [hpar]
        dsimp only
        rw [find_at t q p hd hq]
        dsimp only
        rw [ih q hq fuel (by simp at hf; omega), pathName_snoc t q u p i hq hki]

theorem names_unique (t : Obj α) (hg : GoodNames t) (p q : List ℕ) (u v : Obj α) (hu : at? t p = some u)
    (hv : at? t q = some v) (h : pathName t p = pathName t q) : p = q := by
  induction p generalizing t q with
  | nil =>
    cases q with
    | nil => rfl
    | cons j q =>
      exfalso
      rw [pathName, pathName] at h
      have h1 := congrArg List.length h
      simp at h1
  | cons i p ih =>
    cases q with
    | nil =>
      exfalso
      rw [pathName, pathName] at h
      have h1 := congrArg List.length h
      simp at h1
    | cons j q =>
      rw [at?_cons] at hu hv
      cases hi : t.kids[i]? with
      | none => rw [hi] at hu; cases hu
      | some x =>
        cases hj : t.kids[j]? with
        | none => rw [hj] at hv; cases hv
        | some y =>
          rw [hi] at hu
          rw [hj] at hv
          rw [pathName, pathName, hi, hj] at h
          simp only [List.append_cancel_left_eq, List.cons.injEq, true_and] at h
          have gx : GoodNames x := fun r w hw => hg (i :: r) w (by rw [at?_cons, hi]; exact hw)
          have gy : GoodNames y := fun r w hw => hg (j :: r) w (by rw [at?_cons, hj]; exact hw)
          -- the first names agree
          have hid : x.id = y.id := by
            have key : ∀ (z : Obj α) (r : List ℕ), ∃ rest, pathName z r = z.id ++ rest ∧
                (rest = [] ∨ ∃ rest', rest = '_' :: rest') := by
              intro z r
              cases r with
              | nil => exact ⟨[], by simp [pathName], .inl rfl⟩
              | cons a r => exact ⟨_, by rw [pathName], .inr ⟨_, rfl⟩⟩
            obtain ⟨r1, e1, c1⟩ := key x p
            obtain ⟨r2, e2, c2⟩ := key y q
            rw [e1, e2] at h
            have n1 := (gx [] x rfl).1
            have n2 := (gy [] y rfl).1
            have main : ∀ (a b r s : List Char), '_' ∉ a → '_' ∉ b → (r = [] ∨ ∃ r', r = '_' :: r') →
                (s = [] ∨ ∃ s', s = '_' :: s') → a ++ r = b ++ s → a = b := by
              intro a
              induction a with
              | nil =>
                intro b r s _ hb hr hs e
                cases b with
                | nil => rfl
                | cons c b =>
                  exfalso
                  rcases hr with rfl | ⟨r', rfl⟩
                  · simp at e
                  · simp only [List.nil_append, List.cons_append, List.cons.injEq] at e
                    exact hb (e.1 ▸ List.mem_cons_self)
              | cons c a iha =>
                intro b r s ha hb hr hs e
                cases b with
                | nil =>
                  exfalso
                  rcases hs with rfl | ⟨s', rfl⟩
                  · simp at e
                  · simp only [List.nil_append, List.cons_append, List.cons.injEq] at e
                    exact ha (e.1 ▸ List.mem_cons_self)
                | cons c' b =>
                  simp only [List.cons_append, List.cons.injEq] at e
                  obtain ⟨rfl, e⟩ := e
                  rw [iha b r s (fun m => ha (List.mem_cons_of_mem _ m)) (fun m => hb (List.mem_cons_of_mem _ m)) hr hs e]
            exact main _ _ _ _ n1 n2 c1 c2 h
          -- so the children are the same
          have hij : i = j := by
            have nd := (hg [] t rfl).2
            obtain ⟨l1, e1⟩ := List.getElem?_eq_some_iff.mp hi
            obtain ⟨l2, e2⟩ := List.getElem?_eq_some_iff.mp hj
            refine (List.Nodup.getElem_inj_iff nd (hi := by simpa using l1) (hj := by simpa using l2)).mp ?_
            simp only [List.getElem_map]
            rw [e1, e2, hid]
          subst hij
          rw [hi] at hj
          cases hj
          rw [ih x gx q hu hv h]

/-- **C50.** In a properly linked tree in which siblings have different names without separator, units at different
positions have different full IDs. -/
theorem fullID_unique (t : Obj α) (hd : DistinctAddr t) (hl : Linked t) (hr : t.parent = none) (hg : GoodNames t)
    (p q : List ℕ) (u v : Obj α) (hu : at? t p = some u) (hv : at? t q = some v) (fuel : ℕ) (hp : p.length < fuel)
    (hq : q.length < fuel) : fullID t fuel u = fullID t fuel v → p = q := by
  intro h
  rw [fullID_path t hd hl hr p u hu fuel hp, fullID_path t hd hl hr q v hv fuel hq] at h
  exact names_unique t hg p q u v hu hv (Outcome.ok.inj h)

/-- The hypothesis on separators is needed: cell `b` in module `a` and cell `a_b`'s sibling clash. -/
theorem fullID_separator_clash :
    let t : Obj Unit := mk 0 (.module (some 2)) ['r'] none ()
      [mk 1 (.module (some 1)) ['a'] (some 0) () [mk 2 .cell ['b'] (some 1) () []],
       mk 3 .cell ['a', '_', 'b'] (some 0) () []]
    ∃ u v, at? t [0, 0] = some u ∧ at? t [1] = some v ∧ fullID t 5 u = fullID t 5 v := by
  exact ⟨_, _, rfl, rfl, by decide⟩

/-- A module `m` with cells `a` and `b` meets the hypotheses; the full ID of the second cell is `m_b`. -/
example : let t : Obj Unit :=
        mk 0 (.module (some 2)) ['m'] none () [mk 1 .cell ['a'] (some 0) () [], mk 2 .cell ['b'] (some 0) () []]
    DistinctAddr t ∧ Linked t ∧ GoodNames t ∧ ∃ v, at? t [1] = some v ∧ fullID t 2 v = .ok ['m', '_', 'b'] := by
  intro t
  have pos : ∀ p u, at? t p = some u → p = [] ∨ p = [0] ∨ p = [1] := by
    intro p u hu
    have hm : p ∈ order t := by rw [mem_order, hu]; rfl
    have ho : order t = [[], [0], [1]] := by decide
    rw [ho] at hm
    simpa using hm
  refine ⟨?_, ?_, ?_, ?_⟩
  · intro p q u v hu hv e
    rcases pos p u hu with rfl | rfl | rfl <;> rcases pos q v hv with rfl | rfl | rfl <;>
      (cases hu; cases hv; first | rfl | (revert e; decide))
  · intro p u i k hu hk
    have hpi : at? t (p ++ [i]) = some k := by rw [at?_append, hu]; exact hk
    have hp0 : p = [] := by
      rcases pos _ k hpi with h | h | h
      · simp at h
      · cases p with
        | nil => rfl
        | cons a p => simp at h
      · cases p with
        | nil => rfl
        | cons a p => simp at h
    subst hp0
    rcases pos _ k hpi with h | h | h
    · simp at h
    · simp only [List.nil_append, List.cons.injEq, and_true] at h
      subst h; cases hu; cases hk; rfl
    · simp only [List.nil_append, List.cons.injEq, and_true] at h
      subst h; cases hu; cases hk; rfl
  · intro p u hu
    rcases pos p u hu with rfl | rfl | rfl <;> (cases hu; decide)
  · exact ⟨_, rfl, by decide⟩

/-! ## C60 Connecting units -/

/-- **C60, accepted.** Units without parent (or with this module as parent) are connected: they become exactly the
children of the module, in order and otherwise unchanged, with the module as parent. -/
theorem setSUs_connects (m : Obj α) (c : List (Obj α)) (print : Bool) (m' : Obj α)
    (h : m.setSUs c print = (.ok (), m')) :
    m'.kids = c.map (setParent (some m.addr)) ∧ m'.addr = m.addr ∧ m'.id = m.id ∧ m'.parent = m.parent ∧
    m'.data = m.data ∧ (∀ t ∈ m'.kids, t.parent = some m'.addr) ∧
    ∀ t ∈ c, t.parent = none ∨ t.parent = some m.addr := by
  unfold setSUs at h
  split at h
  · split at h <;> cases h
  · rename_i hc
    split at h
    · cases h
      refine ⟨rfl, rfl, rfl, rfl, rfl, ?_, ?_⟩
      · intro t ht
        change t ∈ c.map _ at ht
        rw [List.mem_map] at ht
        obtain ⟨⟨a, k, i, p, d, ks⟩, _, rfl⟩ := ht
        rfl
      · intro t ht
        simp only [List.any_eq_true, not_exists, not_and, Bool.and_eq_true, decide_eq_true_eq] at hc
        have := hc t ht
        by_cases h1 : t.parent = none
        · exact .inl h1
        · right
          by_contra h2
          exact this h1 h2
    · cases h
    · cases h

/-- Full statement: units that belong to another module are refused with exception 10. -/
def SetSUsRefuses (α : Type) : Prop :=
  ∀ (m : Obj α) (c : List (Obj α)) (print : Bool) (t : Obj α), t ∈ c → t.parent ≠ none → t.parent ≠ some m.addr →
    m.setSUs c print = (.throw 10, m)

/-- False of the code for every top-level module: making the error message dereferences the module's own (null)
parent. -/
theorem setSUs_null_dereference (m : Obj α) (hm : m.parent = none) (c : List (Obj α)) (t : Obj α) (ht : t ∈ c)
    (h1 : t.parent ≠ none) (h2 : t.parent ≠ some m.addr) :
    m.setSUs c true = (.ub "null pointer dereference", m) := by
  unfold setSUs
  rw [if_pos, if_pos ⟨rfl, hm⟩]
  rw [List.any_eq_true]
  exact ⟨t, ht, by simp [h1, h2]⟩

theorem not_setSUsRefuses : ¬ SetSUsRefuses Unit := by
  intro H
  let m : Obj Unit := mk 0 (.module none) ['m'] none () []
  let t : Obj Unit := mk 1 .cell ['c'] (some 7) () []
  have h := H m [t] true t List.mem_cons_self (by simp [t, Obj.parent]) (by simp [t, m, Obj.parent, Obj.addr])
  rw [setSUs_null_dereference m rfl [t] t List.mem_cons_self (by simp [t, Obj.parent])
    (by simp [t, m, Obj.parent, Obj.addr])] at h
  cases h

/-- **C60 (part that holds).** The exception is thrown, and nothing changed, when the module has a parent itself or
printing is off. -/
theorem setSUs_refuses_partial (m : Obj α) (c : List (Obj α)) (print : Bool) (t : Obj α) (ht : t ∈ c)
    (h1 : t.parent ≠ none) (h2 : t.parent ≠ some m.addr) (h : print = false ∨ m.parent ≠ none) :
    m.setSUs c print = (.throw 10, m) := by
  unfold setSUs
  rw [if_pos, if_neg]
  · rintro ⟨rfl, e⟩
    rcases h with h | h
    · cases h
    · exact h e
  · rw [List.any_eq_true]
    exact ⟨t, ht, by simp [h1, h2]⟩

/-- Whatever the outcome, an unsuccessful call changes nothing in the module. -/
theorem setSUs_failed_unchanged (m : Obj α) (c : List (Obj α)) (print : Bool) (h : (m.setSUs c print).1 ≠ .ok ()) :
    (m.setSUs c print).2 = m := by
  unfold setSUs at h ⊢
  split
  · split <;> rfl
  · rename_i hc
    rw [if_neg hc] at h
    split
    · rename_i n hn
      rw [hn] at h
      exact absurd rfl h
    · rfl
    · rfl

end Slide

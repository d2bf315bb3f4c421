import Verif.Spec.StateStorage
import Mathlib.Tactic.Linarith

/-!
# C163 and C164: saved numbers come back, views show what they cover
-/

namespace Slide
open Spec

/-! ## Helper lemmas -/

namespace StateStorage

theorem contents_length (mem : Memory) (n : ℕ) : ∀ b, (contents mem b n).length = n := by
  induction n with
  | zero => intro b; rfl
  | succ n ih => intro b; rw [contents, List.length_cons, ih]

/-- Copying numbers that were read from a span of another memory. -/
theorem copyN_contents (old : Memory) (n : ℕ) : ∀ (b : ℕ) (mem : Memory) (rest : List ℚ),
    copyN mem b n (contents old b n ++ rest) = .ok fun a => if b ≤ a ∧ a < b + n then old a else mem a := by
  induction n with
  | zero =>
    intro b mem rest
    rw [copyN]
    congr 1
    funext a
    rw [if_neg (by omega)]
  | succ n ih =>
    intro b mem rest
    rw [contents, List.cons_append, copyN, ih]
    congr 1
    funext a
    by_cases h1 : b + 1 ≤ a ∧ a < b + 1 + n
    · rw [if_pos h1, if_pos (by omega)]
    · rw [if_neg h1]
      by_cases h2 : a = b
      · subst h2
        rw [if_pos (by omega), Function.update_self]
      · rw [Function.update_of_ne h2, if_neg (by omega)]

theorem restoreLoop_append (n b : ℕ) (vals : List ℚ) (spans : List (ℕ × ℕ)) : ∀ (pre states : List ℚ) (mem : Memory),
    states.length = (spans.map Prod.snd).sum →
    restoreLoop (pre ++ states ++ vals) pre.length (spans ++ [(b, n)]) mem =
      match restoreLoop (pre ++ states) pre.length spans mem with
      | .ok m => copyN m b n vals
      | .throw c => .throw c
      | .ub w => .ub w := by
  induction spans with
  | nil =>
    intro pre states mem h
    simp only [List.map_nil, List.sum_nil, List.length_eq_zero_iff] at h
    subst h
    rw [List.nil_append, List.append_nil, restoreLoop, restoreLoop, List.drop_left]
    dsimp only
    cases copyN mem b n vals <;> simp [restoreLoop]
  | cons s spans ih =>
    intro pre states mem h
    obtain ⟨b1, n1⟩ := s
    rw [List.map_cons, List.sum_cons] at h
    dsimp only at h
    obtain ⟨x, y, hx, rfl⟩ : ∃ x y, x.length = n1 ∧ states = x ++ y :=
      ⟨states.take n1, states.drop n1, by rw [List.length_take]; omega, (List.take_append_drop n1 states).symm⟩
    have hy : y.length = (spans.map Prod.snd).sum := by rw [List.length_append] at h; omega
    rw [List.cons_append, restoreLoop, restoreLoop]
    have cp : ∀ (l z : List ℚ) (k b : ℕ) (m : Memory), l.length = k → copyN m b k (l ++ z) = copyN m b k l := by
      intro l
      induction l with
      | nil => intro z k b m e; simp only [List.length_nil] at e; subst e; simp [copyN]
      | cons a l ihl =>
        intro z k b m e
        subst e
        rw [List.length_cons, List.cons_append, copyN, copyN]
        exact ihl z _ _ _ rfl
    have e1 : (pre ++ (x ++ y) ++ vals).drop pre.length = x ++ (y ++ vals) := by
      rw [List.append_assoc, List.drop_left, List.append_assoc]
    have e2 : (pre ++ (x ++ y)).drop pre.length = x ++ y := List.drop_left
    rw [e1, e2, cp x _ n1 b1 mem hx, cp x _ n1 b1 mem hx]
    cases copyN mem b1 n1 x with
    | throw c => rfl
    | ub w => rfl
    | ok m =>
      dsimp only
      have := ih (pre ++ x) y m hy
      rw [List.length_append, hx, List.append_assoc pre x y] at this
      exact this

/-- The storage holds what the snapshot says was saved. -/
def Holds (s : StateStorage) (saved : ℕ → Option ℚ) : Prop :=
  s.states.length = (s.spans.map Prod.snd).sum ∧ ∀ mem, s.restore mem = .ok fun a => (saved a).getD (mem a)

theorem holds_add {s : StateStorage} {saved : ℕ → Option ℚ} (h : s.Holds saved) (mem : Memory) (b n : ℕ) :
    (s.add mem b n).Holds fun a => if b ≤ a ∧ a < b + n then some (mem a) else saved a := by
  refine ⟨?_, fun m => ?_⟩
  · simp only [add, List.length_append, contents_length, List.map_append, List.sum_append, List.map_cons, List.map_nil,
      List.sum_cons, List.sum_nil, h.1, Nat.add_zero]
  · have e := restoreLoop_append n b (contents mem b n) s.spans [] s.states m h.1
    rw [List.nil_append] at e
    have h2 := h.2 m
    unfold restore at h2 ⊢
    change restoreLoop s.states ([] : List ℚ).length s.spans m = _ at h2
    rw [h2] at e
    dsimp only at e
    have c := copyN_contents mem n b (fun a => (saved a).getD (m a)) []
    rw [List.append_nil] at c
    rw [c] at e
    refine Eq.trans e ?_
    congr 1
    funext a
    dsimp only
    by_cases ha : b ≤ a ∧ a < b + n
    · rw [if_pos ha, if_pos ha]; rfl
    · rw [if_neg ha, if_neg ha]

end StateStorage

/-! ## C163 -/

/-- **C163**: whatever is saved, written, forgotten and restored, in any order and with any overlaps: the memory is what the
abstract storage says – a saved number comes back, nothing else is touched – and nothing is undefined. -/
theorem storage_restores (ops : List StoreOp) (mem : Memory) :
    ∃ s, storeRun ({}, mem) ops = .ok (s, (ops.foldl Snapshot.step { mem := mem }).mem) := by
  have key : ∀ (ops : List StoreOp) (s : StateStorage) (a : Snapshot), s.Holds a.saved →
      ∃ s', storeRun (s, a.mem) ops = .ok (s', (ops.foldl Snapshot.step a).mem) := by
    intro ops
    induction ops with
    | nil => intro s a _; exact ⟨s, rfl⟩
    | cons o ops ih =>
      intro s a h
      rw [storeRun, List.foldl_cons]
      cases o with
      | save b n => exact ih (s.add a.mem b n) (a.step (.save b n)) (StateStorage.holds_add h a.mem b n)
      | write x v =>
        have e : Function.update a.mem x v = (a.step (.write x v)).mem := by
          funext y
          by_cases hy : y = x
          · subst hy; simp [Snapshot.step]
          · simp [Snapshot.step, hy]
        rw [storeStep]
        dsimp only
        rw [e]
        exact ih s (a.step (.write x v)) h
      | forget => exact ih s.clear (a.step .forget) ⟨rfl, fun m => rfl⟩
      | restore =>
        rw [storeStep, h.2 a.mem]
        exact ih s (a.step .restore) h
  exact key ops {} { mem := mem } ⟨rfl, fun m => rfl⟩

/-- Two overlapping spans, changed and restored: addresses 1, 2 and 3 get back 10, 99 and 30 – address 2 was saved again after
it had been changed. -/
example : ∃ s m, storeRun ({}, fun a => 10 * a)
    [.save 1 2, .write 2 99, .save 2 2, .write 1 5, .write 2 6, .write 3 7, .write 4 8, .restore] = .ok (s, m) ∧
    m 1 = 10 ∧ m 2 = 99 ∧ m 3 = 30 ∧ m 4 = 8 := by
  obtain ⟨s, h⟩ := storage_restores [.save 1 2, .write 2 99, .save 2 2, .write 1 5, .write 2 6, .write 3 7, .write 4 8, .restore]
    (fun a => 10 * a)
  exact ⟨s, _, h, by simp [Snapshot.step], by simp [Snapshot.step], by simp [Snapshot.step]; norm_num, by simp [Snapshot.step]⟩

/-! ## C164 -/

variable {α : Type}

theorem ArrayVec.pushAll_spec (grow : ℕ → ℕ) (ls : List (List α)) : ∀ v : ArrayVec α,
    (v.data.length + ls.flatten.length ≤ v.cap → (∀ s ∈ v.spans, s.gen = v.gen ∧ s.off + s.len ≤ v.data.length) →
      ∃ v', pushAll grow v ls = .ok v' ∧ v'.spans.map v'.look = v.spans.map v.look ++ ls.map .ok ∧
        v'.data = v.data ++ ls.flatten) ∧
    (v.cap < v.data.length + ls.flatten.length → v.data.length ≤ v.cap → ¬ (pushAll grow v ls).Defined) := by
  induction ls with
  | nil =>
    intro v
    refine ⟨fun _ _ => ⟨v, rfl, by simp, by simp⟩, fun h1 h2 => ?_⟩
    simp at h1
    omega
  | cons l ls ih =>
    intro v
    rw [pushAll, pushBack, append, List.flatten_cons, List.length_append]
    by_cases hc : v.data.length + l.length ≤ v.cap
    · rw [if_pos hc]
      dsimp only
      rw [if_pos rfl]
      dsimp only
      obtain ⟨i1, i2⟩ := ih { v with data := v.data ++ l, spans := v.spans ++ [⟨v.gen, v.data.length, l.length⟩] }
      simp only [List.length_append] at i1 i2
      refine ⟨fun h hs => ?_, fun h _ => i2 (by omega) hc⟩
      obtain ⟨v', e1, e2, e3⟩ := i1 (by omega) (by
        intro s h
        rcases List.mem_append.mp h with h | h
        · exact ⟨(hs s h).1, by have := (hs s h).2; omega⟩
        · simp only [List.mem_singleton] at h
          subst h
          exact ⟨rfl, le_refl _⟩)
      refine ⟨v', e1, ?_, by rw [e3, List.append_assoc]⟩
      rw [e2, List.map_append, List.map_cons, List.map_nil, List.map_cons, List.append_assoc, List.singleton_append]
      congr 1
      · refine List.map_congr_left fun s h => ?_
        obtain ⟨h1, h2⟩ := hs s h
        unfold look
        dsimp only
        rw [if_pos h1, if_pos h1, List.drop_append_of_le_length (by omega), List.take_append_of_le_length (by
          rw [List.length_drop]; omega)]
      · congr 1
        unfold look
        dsimp only
        rw [if_pos rfl, List.drop_left, List.take_length]
    · rw [if_neg hc]
      dsimp only
      rw [if_neg (by omega)]
      exact ⟨fun h _ => by omega, fun _ _ h => h⟩

/-- **C164, the part that holds**, spans: if the buffer was given enough room beforehand, each span shows exactly what was
appended; otherwise the calls are undefined, so room beforehand is necessary. -/
theorem views_show_partial (grow : ℕ → ℕ) (cap : ℕ) (ls : List (List α)) :
    (ls.flatten.length ≤ cap → ∃ v, ArrayVec.pushAll grow (ArrayVec.reserve {} cap) ls = .ok v ∧
      v.spans.map v.look = ls.map .ok ∧ v.data = ls.flatten) ∧
    (cap < ls.flatten.length → ¬ (ArrayVec.pushAll grow (ArrayVec.reserve {} cap) ls).Defined) := by
  have hc : (ArrayVec.reserve ({} : ArrayVec α) cap).cap = cap ∧ (ArrayVec.reserve ({} : ArrayVec α) cap).data = [] ∧
      (ArrayVec.reserve ({} : ArrayVec α) cap).spans = [] := by
    unfold ArrayVec.reserve
    split_ifs with h
    · exact ⟨(Nat.le_zero.mp h).symm, rfl, rfl⟩
    · exact ⟨rfl, rfl, rfl⟩
  obtain ⟨h1, h2⟩ := ArrayVec.pushAll_spec grow ls (ArrayVec.reserve ({} : ArrayVec α) cap)
  rw [hc.1, hc.2.1, List.length_nil, Nat.zero_add] at h1 h2
  rw [hc.2.2] at h1
  refine ⟨fun h => ?_, fun h => h2 h (Nat.zero_le _)⟩
  obtain ⟨v, e1, e2, e3⟩ := h1 h (by simp)
  exact ⟨v, e1, by simpa using e2, by simpa using e3⟩

/-- **C164, the part that holds**, intervals: an interval with explicit bounds visits exactly these elements; one over a whole
container misses the last element; a pointer interval over a container with elements visits them all. -/
theorem intervals_partial (data : List α) :
    (∀ i j : ℕ, i ≤ j → j ≤ data.length →
      ∃ l, IndexInterval.visit data { beg := i, en := j } = .ok l ∧ l.length = j - i ∧ ∀ k, k < j - i → l[k]? = data[i + k]?) ∧
    (data ≠ [] → (IndexInterval.over data).visit data = .ok data.dropLast) ∧
    (data ≠ [] → ptrVisit data = .ok data ∧ ptrSize data = .ok data.length) := by
  refine ⟨fun i j hij hj => ?_, fun hd => ?_, fun hd => ?_⟩
  · unfold IndexInterval.visit
    dsimp only
    rw [if_pos ⟨by omega, by omega, by omega⟩]
    refine ⟨_, rfl, ?_, fun k hk => ?_⟩
    · rw [List.length_take, List.length_drop]
      have : ((j : ℤ) - i).toNat = j - i := by omega
      rw [this, Int.toNat_natCast]
      omega
    · have : ((j : ℤ) - i).toNat = j - i := by omega
      rw [this, Int.toNat_natCast, List.getElem?_take_of_lt hk, List.getElem?_drop]
  · have hl := List.length_pos_iff.mpr hd
    unfold IndexInterval.visit IndexInterval.over
    dsimp only
    rw [if_pos ⟨by omega, by omega, by omega⟩, List.dropLast_eq_take]
    have : ((data.length : ℤ) - 1 - 0).toNat = data.length - 1 := by omega
    rw [this]
    rfl
  · have hl := List.length_pos_iff.mpr hd
    unfold ptrVisit ptrSize
    rw [if_neg hd, if_neg hd, Nat.sub_add_cancel hl, List.take_length]
    exact ⟨rfl, rfl⟩

/-- **C164 is false of the code**: the first element appended to a new `ArrayVec` moves its buffer. -/
theorem not_viewsShow : ¬ ViewsShow ℚ := by
  intro h
  obtain ⟨v, h, -⟩ := h.1 (fun c => 2 * c) 0 [[1]]
  have := (views_show_partial (α := ℚ) (fun c => 2 * c) 0 [[1]]).2 (by simp)
  rw [h] at this
  exact this trivial

/-- Each of the other two parts of C164 fails as well: a loop over an interval misses the last element, and an empty container
has no pointer interval. -/
theorem intervals_wrong : (IndexInterval.over [(1 : ℚ), 2]).visit [(1 : ℚ), 2] = .ok [1] ∧
    ¬ ((IndexInterval.over ([] : List ℚ)).visit ([] : List ℚ)).Defined ∧ ¬ (ptrVisit ([] : List ℚ)).Defined := by
  refine ⟨by decide +kernel, ?_, ?_⟩
  · simp [IndexInterval.visit, IndexInterval.over, Outcome.Defined]
  · simp [ptrVisit, Outcome.Defined]

/-- A case that meets the hypotheses of `views_show_partial`: three spans in a buffer of four. -/
example : ∃ v, ArrayVec.pushAll (fun c => 2 * c) (ArrayVec.reserve {} 4) [[1, 2], [], [(3 : ℚ), 4]] = .ok v ∧
    v.spans.map v.look = [.ok [1, 2], .ok [], .ok [3, 4]] := by
  obtain ⟨v, h, e, -⟩ := (views_show_partial (fun c => 2 * c) 4 [[1, 2], [], [(3 : ℚ), 4]]).1 (by simp)
  exact ⟨v, h, e⟩

end Slide

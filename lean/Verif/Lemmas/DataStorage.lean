import Verif.Spec.DataStorage
import Verif.Tac

/-! Helper lemmas for `Verif.Props.DataStorage`. -/

namespace Slide

open Spec

theorem numbers_append_states (f g : List Tok) (b : Bool) :
    numbers b (f ++ .states :: g) = numbers b f ++ numbers true g := by
  induction f generalizing b with
  | nil => cases b <;> rfl
  | cons t f ih =>
    cases t <;> cases b <;> simp [numbers, ih]

theorem numbers_header (st : List ℚ) (g : List Tok) :
    numbers true (st.flatMap (fun x => [Tok.num (fmt6 x), Tok.comma]) ++ .nl :: g)
      = numbers false g := by
  induction st with
  | nil => rfl
  | cons x st ih => simpa [numbers] using ih

theorem numbers_writeLoop (N i : ℕ) (data : List ℚ) :
    numbers false (writeLoop N i data) = data.map fmt6 := by
  induction data generalizing i with
  | nil => rfl
  | cons x xs ih =>
    rw [writeLoop]
    by_cases h : i % N = 0
    · rw [if_pos h]
      by_cases h0 : i ≠ 0
      · rw [if_pos h0]; simp [numbers, ih]
      · rw [if_neg h0]; simp [numbers, ih]
    · rw [if_neg h]; simp [numbers, ih]

theorem numbers_flush (f : List Tok) (st data : List ℚ) :
    numbers false (f ++ (writeVarAndStates st ++ writeLoop 7 0 data))
      = numbers false f ++ data.map fmt6 := by
  have h : f ++ (writeVarAndStates st ++ writeLoop 7 0 data)
      = f ++ .states :: (.comma :: (st.flatMap (fun x => [Tok.num (fmt6 x), Tok.comma])
          ++ .nl :: (.nl :: .nl :: writeLoop 7 0 data))) := by
    simp [writeVarAndStates]
  rw [h, numbers_append_states, numbers, numbers_header, numbers, numbers, numbers_writeLoop]

theorem fileName_inj {p a b : String}
    (h : p ++ "_" ++ a ++ "_cellData.csv" = p ++ "_" ++ b ++ "_cellData.csv") : a = b := by
  have := congrArg String.toList h
  simp only [String.toList_append, List.append_assoc] at this
  have h1 := List.append_cancel_left this
  have h2 := List.append_cancel_left h1
  exact String.toList_inj.mp (List.append_cancel_right h2)

/-- What a file and a cell's memory hold together. -/
def heldBy (pre : String) (fs : Files) (c : RecCell) : List ℚ :=
  numbers false (fs (pre ++ "_" ++ c.name ++ "_cellData.csv")) ++ c.data.map fmt6

theorem known_eq (r : Recorder) (k : ℕ) (c : RecCell) (h : r.cells[k]? = some c) :
    known r k = heldBy r.id r.files c := by
  simp [known, h, heldBy, fileOf]

theorem cellWrite_name {pre o st fs c} : (cellWrite pre o st fs c).2.2.name = c.name := by
  unfold cellWrite; dsimp only; split <;> rfl

theorem cellWrite_other {pre o st fs c} {n : String} (h : n ≠ c.name) :
    (cellWrite pre o st fs c).2.1 (pre ++ "_" ++ n ++ "_cellData.csv")
      = fs (pre ++ "_" ++ n ++ "_cellData.csv") := by
  unfold cellWrite; dsimp only
  split
  · simp only [Files.append]
    rw [if_neg (fun e => h (fileName_inj e))]
  · rfl

theorem cellWrite_held {pre o st fs c} :
    heldBy pre (cellWrite pre o st fs c).2.1 (cellWrite pre o st fs c).2.2 = heldBy pre fs c := by
  unfold cellWrite; dsimp only
  split
  · simp only [heldBy, Files.append, writeVec, if_true, List.map_nil, List.append_nil]
    rw [numbers_flush]
  · rfl

theorem cellWrite_len {pre o st fs c} :
    (cellWrite pre o st fs c).2.2.data.length ≤ c.data.length := by
  unfold cellWrite; dsimp only
  split
  · simp [writeVec]
  · exact le_refl _

theorem cellWrite_ok {pre o st fs c} (h : (cellWrite pre o st fs c).1 = .ok ()) :
    (cellWrite pre o st fs c).2.2.data = [] := by
  unfold cellWrite at *; dsimp only at *
  split
  · rfl
  · rename_i hh; rw [if_neg hh] at h; cases h

theorem writeCells_spec (pre : String) (o : String → Bool) :
    ∀ (vs : List CellView) (fs : Files) (cs : List RecCell),
      (cs.map RecCell.name).Nodup →
      ((writeCells pre o vs fs cs).2.2.map RecCell.name = cs.map RecCell.name)
      ∧ (∀ n : String, n ∉ cs.map RecCell.name →
          (writeCells pre o vs fs cs).2.1 (pre ++ "_" ++ n ++ "_cellData.csv")
            = fs (pre ++ "_" ++ n ++ "_cellData.csv"))
      ∧ (∀ (k : ℕ) (c c' : RecCell), cs[k]? = some c →
          (writeCells pre o vs fs cs).2.2[k]? = some c' →
          heldBy pre (writeCells pre o vs fs cs).2.1 c' = heldBy pre fs c
            ∧ c'.data.length ≤ c.data.length)
      ∧ ((writeCells pre o vs fs cs).1 = .ok () → vs.length = cs.length →
          ∀ c' ∈ (writeCells pre o vs fs cs).2.2, c'.data = [])
  | [], fs, cs, _ => by
      rw [writeCells.eq_2 _ _ _ _ _ (by simp)]
      refine ⟨rfl, fun _ _ => rfl, fun k c c' h h' => ?_, fun _ hl c' hc' => ?_⟩
      · rw [h] at h'; cases h'; exact ⟨rfl, le_refl _⟩
      · have hnil : cs = [] := List.eq_nil_of_length_eq_zero (by simpa using hl.symm)
        rw [hnil] at hc'
        cases hc'
  | v :: vs, fs, [], _ => by
      rw [writeCells.eq_2 _ _ _ _ _ (by simp)]
      exact ⟨rfl, fun _ _ => rfl, fun k c c' h _ => by simp at h, fun _ _ c' hc' => by cases hc'⟩
  | v :: vs, fs, c :: cs, hnd => by
      simp only [List.map_cons, List.nodup_cons] at hnd
      obtain ⟨hc, hcs⟩ := hnd
      rw [writeCells]
      have hname := @cellWrite_name pre o v.st fs c
      have hoth := @cellWrite_other pre o v.st fs c
      have hheld := @cellWrite_held pre o v.st fs c
      have hlen := @cellWrite_len pre o v.st fs c
      have hok := @cellWrite_ok pre o v.st fs c
      rcases hw : cellWrite pre o v.st fs c with ⟨oc, fs', c'⟩
      rw [hw] at hname hoth hheld hlen hok
      dsimp only at hname hoth hheld hlen hok
      have hne : ∀ (k : ℕ) (d : RecCell), cs[k]? = some d → d.name ≠ c.name := by
        intro k d hd he
        exact hc (he ▸ List.mem_map_of_mem (List.mem_of_getElem? hd))
      rcases oc with ⟨⟨⟩⟩ | e | w
      · dsimp only
        obtain ⟨ih1, ih2, ih3, ih4⟩ := writeCells_spec pre o vs fs' cs hcs
        rcases hr : writeCells pre o vs fs' cs with ⟨o2, fs'', cs'⟩
        rw [hr] at ih1 ih2 ih3 ih4
        dsimp only at ih1 ih2 ih3 ih4 ⊢
        refine ⟨by simp [ih1, hname], fun n hn => ?_, fun k d d' hd hd' => ?_, ?_⟩
        · simp only [List.map_cons, List.mem_cons, not_or] at hn
          rw [ih2 n hn.2]; exact hoth hn.1
        · cases k with
          | zero =>
            simp only [List.getElem?_cons_zero, Option.some.injEq] at hd hd'
            subst hd; subst hd'
            refine ⟨?_, hlen⟩
            rw [← hheld]
            simp only [heldBy]
            rw [hname, ih2 _ hc]
          | succ k =>
            simp only [List.getElem?_cons_succ] at hd hd'
            have h3 := ih3 k d d' hd hd'
            refine ⟨h3.1.trans ?_, h3.2⟩
            simp only [heldBy]
            rw [hoth (hne k d hd)]
        · intro h1 h2 x hx
          rcases List.mem_cons.mp hx with rfl | hx
          · exact hok rfl
          · exact ih4 h1 (by simpa using h2) x hx
      all_goals
        dsimp only
        refine ⟨by simp [hname], fun n hn => ?_, fun k d d' hd hd' => ?_, fun h => by cases h⟩
        · simp only [List.map_cons, List.mem_cons, not_or] at hn
          exact hoth hn.1
        · cases k with
          | zero =>
            simp only [List.getElem?_cons_zero, Option.some.injEq] at hd hd'
            subst hd; subst hd'
            exact ⟨hheld, hlen⟩
          | succ k =>
            simp only [List.getElem?_cons_succ] at hd hd'
            rw [hd] at hd'; cases hd'
            refine ⟨?_, le_refl _⟩
            simp only [heldBy]
            rw [hoth (hne k d hd)]

theorem storeCells_spec : ∀ (vs : List CellView) (cs : List RecCell), vs.length = cs.length →
    ((storeCells vs cs).map RecCell.name = cs.map RecCell.name)
    ∧ ∀ (k : ℕ) (v : CellView) (c c' : RecCell), vs[k]? = some v → cs[k]? = some c →
        (storeCells vs cs)[k]? = some c' → c'.name = c.name ∧ c'.data = c.data ++ columns v
  | [], [], _ => ⟨rfl, fun _ _ _ _ h _ _ => by simp at h⟩
  | v :: vs, c :: cs, h => by
      obtain ⟨h1, h2⟩ := storeCells_spec vs cs (by simpa using h)
      refine ⟨by simp [storeCells, h1], fun k w d d' hw hd hd' => ?_⟩
      rw [storeCells] at hd'
      cases k with
      | zero =>
        simp only [List.getElem?_cons_zero, Option.some.injEq] at hw hd hd'
        subst hw; subst hd; subst hd'
        exact ⟨rfl, by simp [storePoint, columns]⟩
      | succ k =>
        simp only [List.getElem?_cons_succ] at hw hd hd'
        exact h2 k w d d' hw hd hd'

theorem writeData_spec (r : Recorder) (o : String → Bool) (vs : List CellView) (hd : r.Distinct)
    (hl : vs.length = r.cells.length) :
    (r.writeData o vs).2.cells.map RecCell.name = r.cells.map RecCell.name
    ∧ (r.writeData o vs).2.id = r.id
    ∧ (∀ (k : ℕ) (c : RecCell), r.cells[k]? = some c → ∃ c', (r.writeData o vs).2.cells[k]? = some c' ∧
        heldBy r.id (r.writeData o vs).2.files c' = heldBy r.id r.files c
        ∧ c'.data.length ≤ c.data.length)
    ∧ ((r.writeData o vs).1 = .ok () → (r.writeData o vs).2.index = 0 ∧
        ∀ c' ∈ (r.writeData o vs).2.cells, c'.data = [])
    ∧ ((r.writeData o vs).1 ≠ .ok () → (r.writeData o vs).2.index = r.index) := by
  unfold Recorder.writeData
  obtain ⟨h1, _, h3, h4⟩ := writeCells_spec r.id o vs r.files r.cells hd
  rcases hw : writeCells r.id o vs r.files r.cells with ⟨oc, fs, cs⟩
  rw [hw] at h1 h3 h4
  dsimp only at h1 h3 h4
  have h5 : ∀ (k : ℕ) (c : RecCell), r.cells[k]? = some c → ∃ c', cs[k]? = some c' := by
    intro k c hk
    have : k < cs.length := by
      rw [← List.length_map (f := RecCell.name), h1, List.length_map]
      exact (List.getElem?_eq_some_iff.mp hk).1
    exact ⟨cs[k], List.getElem?_eq_getElem this⟩
  have h6 : ∀ (k : ℕ) (c : RecCell), r.cells[k]? = some c → ∃ c', cs[k]? = some c' ∧
      heldBy r.id fs c' = heldBy r.id r.files c ∧ c'.data.length ≤ c.data.length := by
    intro k c hk
    obtain ⟨c', hc'⟩ := h5 k c hk
    exact ⟨c', hc', h3 k c c' hk hc'⟩
  rcases oc with ⟨⟨⟩⟩ | e | w
  · exact ⟨h1, rfl, h6, fun _ => ⟨rfl, h4 rfl hl⟩, fun h => absurd rfl h⟩
  · exact ⟨h1, rfl, h6, fun h => by (dsimp only at h; cases h), fun _ => rfl⟩
  · exact ⟨h1, rfl, h6, fun h => by (dsimp only at h; cases h), fun _ => rfl⟩

/-- One data point pushed to every cell. -/
def Recorder.push (r : Recorder) (vs : List CellView) : Recorder :=
  { r with cells := storeCells vs r.cells, index := r.index + 1 }

theorem push_spec (r : Recorder) (vs : List CellView) (hl : vs.length = r.cells.length) :
    (r.push vs).cells.map RecCell.name = r.cells.map RecCell.name
    ∧ (r.push vs).id = r.id ∧ (r.push vs).index = r.index + 1
    ∧ ∀ (k : ℕ) (c : RecCell) (v : CellView), r.cells[k]? = some c → vs[k]? = some v → ∃ c', (r.push vs).cells[k]? = some c' ∧
        heldBy r.id (r.push vs).files c' = heldBy r.id r.files c ++ (columns v).map fmt6
        ∧ c'.data.length = c.data.length + 7 := by
  obtain ⟨h1, h2⟩ := storeCells_spec vs r.cells hl
  refine ⟨h1, rfl, rfl, fun k c v hc hv => ?_⟩
  have : k < (storeCells vs r.cells).length := by
    rw [← List.length_map (f := RecCell.name), h1, List.length_map]
    exact (List.getElem?_eq_some_iff.mp hc).1
  have hk := List.getElem?_eq_getElem this
  obtain ⟨hn, hdat⟩ := h2 k v c _ hv hc hk
  refine ⟨_, hk, ?_, by rw [hdat]; simp [columns]⟩
  simp [heldBy, hn, hdat, Recorder.push]

theorem storeData_eq (r : Recorder) (n : ℕ) (o : String → Bool) (vs : List CellView) :
    r.storeData n o vs
      = if n ≤ r.index then
          (match r.writeData o vs with
            | (.ok (), r') => (.ok (), r'.push vs)
            | (oc, r') => (oc, r'))
        else (.ok (), r.push vs) := rfl

/-! ### The rows of the exported file -/

theorem splitAt'_append {α : Type} [DecidableEq α] (s : α) (a b : List α) :
    splitAt' s (a ++ s :: b) = splitAt' s a ++ splitAt' s b := by
  induction a with
  | nil => simp [splitAt']
  | cons x a ih =>
    by_cases h : x = s
    · simp [splitAt', h, ih]
    · simp only [List.cons_append, splitAt', if_neg h, ih]
      cases hs : splitAt' s a with
      | nil => cases a with
        | nil => simp [splitAt'] at hs
        | cons y a =>
          by_cases hy : y = s
          · simp [splitAt', hy] at hs
          · simp only [splitAt', if_neg hy] at hs
            split at hs <;> simp at hs
      | cons l ls => simp

theorem splitAt'_none {α : Type} [DecidableEq α] (s : α) (a : List α) (h : s ∉ a) :
    splitAt' s a = [a] := by
  induction a with
  | nil => rfl
  | cons x a ih =>
    simp only [List.mem_cons, not_or] at h
    rw [splitAt', if_neg (Ne.symm h.1), ih h.2]

/-- One row as it should be. -/
def rowOf (a b c d e f g : ℚ) : List Tok :=
  [.num (fmt6 a), .comma, .num (fmt6 b), .comma, .num (fmt6 c), .comma, .num (fmt6 d), .comma,
    .num (fmt6 e), .comma, .num (fmt6 f), .comma, .num (fmt6 g)]

theorem rowOf_dataRow (a b c d e f g : ℚ) : DataRow (rowOf a b c d e f g) := by
  have : fields (rowOf a b c d e f g) = [[.num (fmt6 a)], [.num (fmt6 b)], [.num (fmt6 c)],
      [.num (fmt6 d)], [.num (fmt6 e)], [.num (fmt6 f)], [.num (fmt6 g)]] := by
    simp [fields, rowOf, splitAt']
  refine ⟨by rw [this]; rfl, fun l hl => ?_⟩
  rw [this] at hl
  simp only [List.mem_cons, List.not_mem_nil, or_false] at hl
  rcases hl with h | h | h | h | h | h | h <;> exact ⟨_, h⟩

theorem writeLoop_seven (m : ℕ) (a b c d e f g : ℚ) (rest : List ℚ) :
    writeLoop 7 (7 * m) (a :: b :: c :: d :: e :: f :: g :: rest)
      = (if m ≠ 0 then [Tok.nl] else []) ++ rowOf a b c d e f g
        ++ writeLoop 7 (7 * (m + 1)) rest := by
  have h0 : 7 * m % 7 = 0 := by omega
  have h1 : (7 * m + 1) % 7 ≠ 0 := by omega
  have h2 : (7 * m + 1 + 1) % 7 ≠ 0 := by omega
  have h3 : (7 * m + 1 + 1 + 1) % 7 ≠ 0 := by omega
  have h4 : (7 * m + 1 + 1 + 1 + 1) % 7 ≠ 0 := by omega
  have h5 : (7 * m + 1 + 1 + 1 + 1 + 1) % 7 ≠ 0 := by omega
  have h6 : (7 * m + 1 + 1 + 1 + 1 + 1 + 1) % 7 ≠ 0 := by omega
  have h7 : 7 * m + 1 + 1 + 1 + 1 + 1 + 1 + 1 = 7 * (m + 1) := by omega
  simp only [writeLoop, if_pos h0, if_neg h1, if_neg h2, if_neg h3, if_neg h4, if_neg h5,
    if_neg h6, h7, rowOf]
  by_cases hm : m = 0
  · simp [hm]
  · simp [hm]

theorem lines_later (x : List Tok) (hx : Tok.nl ∉ x) :
    ∀ (k m : ℕ) (data : List ℚ), m ≠ 0 → data.length = 7 * k →
      ∃ rows, lines (x ++ writeLoop 7 (7 * m) data) = x :: rows ∧ ∀ l ∈ rows, DataRow l := by
  intro k
  induction k generalizing x with
  | zero =>
    intro m data _ hd
    have : data = [] := List.eq_nil_of_length_eq_zero (by omega)
    subst this
    exact ⟨[], by simp [writeLoop, lines, splitAt'_none _ _ hx], fun l hl => by cases hl⟩
  | succ k ih =>
    intro m data hm hd
    match data, hd with
    | a :: b :: c :: d :: e :: f :: g :: rest, hd =>
      have hrest : rest.length = 7 * k := by simp only [List.length_cons] at hd; omega
      obtain ⟨rows, hr, hrows⟩ := ih (rowOf a b c d e f g) (by simp [rowOf]) (m + 1) rest
        (by omega) hrest
      refine ⟨rowOf a b c d e f g :: rows, ?_, ?_⟩
      · rw [writeLoop_seven, if_pos hm]
        simp only [List.cons_append, List.nil_append]
        rw [lines, splitAt'_append, splitAt'_none _ _ hx]
        rw [lines] at hr
        rw [hr]; rfl
      · intro l hl
        rcases List.mem_cons.mp hl with rfl | hl
        · exact rowOf_dataRow ..
        · exact hrows l hl
    | [], hd => simp at hd
    | [_], hd => simp at hd; omega
    | [_, _], hd => simp at hd; omega
    | [_, _, _], hd => simp at hd; omega
    | [_, _, _, _], hd => simp at hd; omega
    | [_, _, _, _, _], hd => simp at hd; omega
    | [_, _, _, _, _, _], hd => simp at hd; omega

theorem lines_data (k : ℕ) (data : List ℚ) (hd : data.length = 7 * k) :
    ∀ l ∈ lines (writeLoop 7 0 data), l = [] ∨ DataRow l := by
  match k, data, hd with
  | 0, data, hd =>
    have : data = [] := List.eq_nil_of_length_eq_zero (by omega)
    subst this
    intro l hl
    simp [writeLoop, lines, splitAt'] at hl
    exact Or.inl hl
  | k + 1, a :: b :: c :: d :: e :: f :: g :: rest, hd =>
    have hrest : rest.length = 7 * k := by simp only [List.length_cons] at hd; omega
    have h0 : writeLoop 7 0 (a :: b :: c :: d :: e :: f :: g :: rest)
        = rowOf a b c d e f g ++ writeLoop 7 (7 * 1) rest := by
      have := writeLoop_seven 0 a b c d e f g rest
      simpa using this
    obtain ⟨rows, hr, hrows⟩ := lines_later (rowOf a b c d e f g) (by simp [rowOf]) k 1 rest
      (by omega) hrest
    intro l hl
    rw [h0, hr] at hl
    rcases List.mem_cons.mp hl with rfl | hl
    · exact Or.inr (rowOf_dataRow ..)
    · exact Or.inr (hrows l hl)
  | k + 1, [], hd => simp at hd
  | k + 1, [_], hd => simp at hd; omega
  | k + 1, [_, _], hd => simp at hd; omega
  | k + 1, [_, _, _], hd => simp at hd; omega
  | k + 1, [_, _, _, _], hd => simp at hd; omega
  | k + 1, [_, _, _, _, _], hd => simp at hd; omega
  | k + 1, [_, _, _, _, _, _], hd => simp at hd; omega

/-- One export into a file that is empty or ends with a line end keeps the documented layout. -/
theorem flush_documented (f : List Tok) (st data : List ℚ) (k : ℕ) (hd : data.length = 7 * k)
    (hf : f = [] ∨ ∃ g, f = g ++ [Tok.nl]) (hdoc : Documented f) :
    Documented (f ++ (writeVarAndStates st ++ writeLoop 7 0 data)) := by
  have hflush : ∀ l ∈ lines (writeVarAndStates st ++ writeLoop 7 0 data),
      l = [] ∨ l.head? = some Tok.states ∨ DataRow l := by
    have he : writeVarAndStates st ++ writeLoop 7 0 data
        = ([Tok.states, Tok.comma] ++ st.flatMap (fun x => [Tok.num (fmt6 x), Tok.comma]))
          ++ Tok.nl :: ([] ++ Tok.nl :: ([] ++ Tok.nl :: writeLoop 7 0 data)) := by
      simp [writeVarAndStates]
    have hh : Tok.nl ∉ [Tok.states, Tok.comma]
        ++ st.flatMap (fun x => [Tok.num (fmt6 x), Tok.comma]) := by
      simp
    intro l hl
    rw [he, lines, splitAt'_append, splitAt'_append, splitAt'_append, splitAt'_none _ _ hh,
      splitAt'_none _ [] (by simp)] at hl
    simp only [List.cons_append, List.nil_append, List.mem_cons] at hl
    rcases hl with rfl | rfl | rfl | hl
    · right; left; rfl
    · left; rfl
    · left; rfl
    · rcases lines_data k data hd l hl with h | h
      · exact Or.inl h
      · exact Or.inr (Or.inr h)
  rcases hf with rfl | ⟨g, rfl⟩
  · exact hflush
  · intro l hl
    have : g ++ [Tok.nl] ++ (writeVarAndStates st ++ writeLoop 7 0 data)
        = g ++ Tok.nl :: (writeVarAndStates st ++ writeLoop 7 0 data) := by simp
    rw [this, lines, splitAt'_append] at hl
    rcases List.mem_append.mp hl with hl | hl
    · refine hdoc l ?_
      rw [lines, splitAt'_append]
      exact List.mem_append_left _ hl
    · exact hflush l hl

/-- What one `writeData` does to a cell's file: nothing, or one export of the cell's data. -/
theorem writeCells_file (pre : String) (o : String → Bool) :
    ∀ (vs : List CellView) (fs : Files) (cs : List RecCell),
      (cs.map RecCell.name).Nodup → ∀ c ∈ cs,
      (writeCells pre o vs fs cs).2.1 (pre ++ "_" ++ c.name ++ "_cellData.csv")
          = fs (pre ++ "_" ++ c.name ++ "_cellData.csv")
      ∨ ∃ st, (writeCells pre o vs fs cs).2.1 (pre ++ "_" ++ c.name ++ "_cellData.csv")
          = fs (pre ++ "_" ++ c.name ++ "_cellData.csv")
            ++ (writeVarAndStates st ++ writeLoop 7 0 c.data)
  | [], fs, cs, _ => by
      rw [writeCells.eq_2 _ _ _ _ _ (by simp)]
      exact fun c _ => Or.inl rfl
  | v :: vs, fs, [], _ => by
      intro c hc; cases hc
  | v :: vs, fs, c :: cs, hnd => by
      simp only [List.map_cons, List.nodup_cons] at hnd
      obtain ⟨hc, hcs⟩ := hnd
      rw [writeCells]
      have hoth := @cellWrite_other pre o v.st fs c
      have hself : (cellWrite pre o v.st fs c).2.1 (pre ++ "_" ++ c.name ++ "_cellData.csv")
            = fs (pre ++ "_" ++ c.name ++ "_cellData.csv")
          ∨ ∃ st, (cellWrite pre o v.st fs c).2.1 (pre ++ "_" ++ c.name ++ "_cellData.csv")
            = fs (pre ++ "_" ++ c.name ++ "_cellData.csv")
              ++ (writeVarAndStates st ++ writeLoop 7 0 c.data) := by
        unfold cellWrite; dsimp only
        split
        · right; exact ⟨v.st, by simp [Files.append, writeVec]⟩
        · left; rfl
      rcases hw : cellWrite pre o v.st fs c with ⟨oc, fs', c'⟩
      rw [hw] at hoth hself
      dsimp only at hoth hself
      have hne : ∀ d ∈ cs, d.name ≠ c.name := by
        intro d hd he
        exact hc (he ▸ List.mem_map_of_mem hd)
      rcases oc with ⟨⟨⟩⟩ | e | w
      · dsimp only
        obtain ⟨-, ih2, -, -⟩ := writeCells_spec pre o vs fs' cs hcs
        have ih := writeCells_file pre o vs fs' cs hcs
        rcases hr : writeCells pre o vs fs' cs with ⟨o2, fs'', cs'⟩
        rw [hr] at ih2 ih
        dsimp only at ih2 ih ⊢
        intro d hd
        rcases List.mem_cons.mp hd with rfl | hd
        · rw [ih2 _ hc]; exact hself
        · rw [← hoth (hne d hd)]; exact ih d hd
      all_goals
        dsimp only
        intro d hd
        rcases List.mem_cons.mp hd with rfl | hd
        · exact hself
        · exact Or.inl (hoth (hne d hd))

end Slide

import Verif.Lemmas.DataStorage

/-!
Recorded data (C29): nothing recorded is lost or duplicated, memory is bounded, the rows of the
exported file.
-/

namespace Slide

open Spec

/-- One call: cell `k` knows what it knew, followed by what the call recorded. -/
theorem step_known (n : ℕ) (r : Recorder) (op : RecOp) (hd : r.Distinct)
    (hop : Complete r.cells.length op) (k : ℕ) (hk : k < r.cells.length) :
    known (r.step n op).2 k = known r k ++ (recordedBy n k r op).map fmt6
    ∧ (r.step n op).2.cells.map RecCell.name = r.cells.map RecCell.name := by
  have hc := List.getElem?_eq_getElem hk
  cases op with
  | write o vs =>
    obtain ⟨h1, h2, h3, -, -⟩ := writeData_spec r o vs hd hop
    obtain ⟨c', hc', hh, -⟩ := h3 k _ hc
    refine ⟨?_, h1⟩
    show known (r.writeData o vs).2 k = known r k ++ List.map fmt6 []
    rw [List.map_nil, List.append_nil, known_eq _ _ _ hc', known_eq _ _ _ hc, h2, hh]
  | store o vs =>
    have hop' : vs.length = r.cells.length := hop
    have hv : vs[k]? = some (vs[k]'(by omega)) := List.getElem?_eq_getElem _
    show known (r.storeData n o vs).2 k = known r k ++ (recordedBy n k r (.store o vs)).map fmt6
      ∧ (r.storeData n o vs).2.cells.map RecCell.name = _
    by_cases hn : n ≤ r.index
    · obtain ⟨h1, h2, h3, -, -⟩ := writeData_spec r o vs hd hop'
      obtain ⟨c', hc', hh, -⟩ := h3 k _ hc
      have hlen : (r.writeData o vs).2.cells.length = r.cells.length := by
        rw [← List.length_map (f := RecCell.name), h1, List.length_map]
      rcases hw : r.writeData o vs with ⟨oc, r'⟩
      rw [hw] at h1 h2 hc' hh hlen
      dsimp only at h1 h2 hc' hh hlen
      rcases oc with ⟨⟨⟩⟩ | e | w
      · have hs : r.storeData n o vs = (.ok (), r'.push vs) := by
          rw [storeData_eq, if_pos hn, hw]
        obtain ⟨p1, p2, -, p4⟩ := push_spec r' vs (by rw [hlen]; exact hop')
        obtain ⟨c'', hc'', hh', -⟩ := p4 k _ _ hc' hv
        refine ⟨?_, by rw [hs]; exact p1.trans h1⟩
        have hrec : recordedBy n k r (.store o vs) = columns (vs[k]'(by omega)) := by
          simp only [recordedBy]; rw [hs, hv]
        rw [hs, hrec, known_eq _ _ _ hc'', known_eq _ _ _ hc, p2, hh', h2, hh]
      all_goals
        have hs : r.storeData n o vs = r.writeData o vs := by
          rw [storeData_eq, if_pos hn, hw]
        refine ⟨?_, by rw [hs, hw]; exact h1⟩
        have hrec : recordedBy n k r (.store o vs) = [] := by
          simp only [recordedBy]; rw [hs, hw]
        rw [hs, hw, hrec, List.map_nil, List.append_nil, known_eq _ _ _ hc', known_eq _ _ _ hc, h2, hh]
    · have hs : r.storeData n o vs = (.ok (), r.push vs) := by rw [storeData_eq, if_neg hn]
      obtain ⟨p1, p2, -, p4⟩ := push_spec r vs hop'
      obtain ⟨c'', hc'', hh', -⟩ := p4 k _ _ hc hv
      refine ⟨?_, by rw [hs]; exact p1⟩
      have hrec : recordedBy n k r (.store o vs) = columns (vs[k]'(by omega)) := by
        simp only [recordedBy]; rw [hs, hv]
      rw [hs, hrec, known_eq _ _ _ hc'', known_eq _ _ _ hc, p2, hh']

/-- **C29.** For every sequence of `storeData`/`writeData` calls — whichever files cannot be opened
along the way — the numbers in a cell's file followed by those in its memory are the ones known
before followed by those of every `storeData` that returned, in order, none lost and none
duplicated.  (Cells with the same file name are excluded; numbers are compared at the precision the
file keeps.) -/
theorem records_kept (n : ℕ) (r : Recorder) (ops : List RecOp) (hd : r.Distinct)
    (hops : ∀ op ∈ ops, Complete r.cells.length op) (k : ℕ) (hk : k < r.cells.length) :
    known (r.run n ops) k = known r k ++ (recorded n k r ops).map fmt6 := by
  induction ops generalizing r with
  | nil => simp [Recorder.run, recorded]
  | cons op ops ih =>
    obtain ⟨h1, h2⟩ := step_known n r op hd (hops op (by simp)) k hk
    have hlen : (r.step n op).2.cells.length = r.cells.length := by
      rw [← List.length_map (f := RecCell.name), h2, List.length_map]
    rw [Recorder.run, recorded, ih (r.step n op).2 (by unfold Recorder.Distinct; rw [h2]; exact hd)
      (fun o ho => by rw [hlen]; exact hops o (by simp [ho])) (by rw [hlen]; exact hk), h1]
    simp

/-- **C29.** A `writeData` that returns leaves nothing in memory: all that is known of a cell is in
its file. -/
theorem write_exports_all (r : Recorder) (o : String → Bool) (vs : List CellView) (hd : r.Distinct)
    (hl : vs.length = r.cells.length) (hok : (r.writeData o vs).1 = .ok ()) :
    ∀ k c, (r.writeData o vs).2.cells[k]? = some c → c.data = []
      ∧ numbers false (fileOf (r.writeData o vs).2 c) = known r k := by
  intro k c hc
  obtain ⟨h1, h2, h3, h4, -⟩ := writeData_spec r o vs hd hl
  have he := (h4 hok).2 c (List.mem_of_getElem? hc)
  refine ⟨he, ?_⟩
  have hk : k < r.cells.length := by
    have := (List.getElem?_eq_some_iff.mp hc).1
    rwa [← List.length_map (f := RecCell.name), h1, List.length_map] at this
  have hck := List.getElem?_eq_getElem hk
  obtain ⟨c', hc', hh, -⟩ := h3 k _ hck
  rw [hc] at hc'; cases hc'
  rw [known_eq _ _ _ hck, ← hh]
  simp [heldBy, he, fileOf, h2]

/-- What bounds the memory: the counter never exceeds the threshold and no cell holds more points
than the counter says. -/
def MemInv (n : ℕ) (r : Recorder) : Prop :=
  r.index ≤ n ∧ ∀ c ∈ r.cells, c.data.length ≤ 7 * r.index

theorem step_memInv (n : ℕ) (hn : 1 ≤ n) (r : Recorder) (op : RecOp) (hd : r.Distinct)
    (hop : Complete r.cells.length op) (h : MemInv n r) : MemInv n (r.step n op).2 := by
  obtain ⟨hi, hm⟩ := h
  have wr : ∀ (o : String → Bool) (vs : List CellView), vs.length = r.cells.length →
      MemInv n (r.writeData o vs).2 := by
    intro o vs hl
    obtain ⟨h1, -, h3, h4, h5⟩ := writeData_spec r o vs hd hl
    by_cases hok : (r.writeData o vs).1 = .ok ()
    · obtain ⟨h0, he⟩ := h4 hok
      exact ⟨by rw [h0]; omega, fun c hc => by rw [he c hc]; simp⟩
    · have h0 := h5 hok
      refine ⟨by rw [h0]; exact hi, fun c hc => ?_⟩
      obtain ⟨k, hk⟩ := List.getElem?_of_mem hc
      have hkl : k < r.cells.length := by
        have := (List.getElem?_eq_some_iff.mp hk).1
        rwa [← List.length_map (f := RecCell.name), h1, List.length_map] at this
      have hck := List.getElem?_eq_getElem hkl
      obtain ⟨c', hc', -, hlen⟩ := h3 k _ hck
      rw [hk] at hc'; cases hc'
      rw [h0]
      exact hlen.trans (hm _ (List.getElem_mem hkl))
  have pu : ∀ (r' : Recorder) (vs : List CellView), vs.length = r'.cells.length →
      MemInv n r' → r'.index < n → MemInv n (r'.push vs) := by
    intro r' vs hl hinv hlt
    obtain ⟨p1, -, p3, p4⟩ := push_spec r' vs hl
    refine ⟨by rw [p3]; omega, fun c hc => ?_⟩
    obtain ⟨k, hk⟩ := List.getElem?_of_mem hc
    have hkl : k < r'.cells.length := by
      have := (List.getElem?_eq_some_iff.mp hk).1
      rwa [← List.length_map (f := RecCell.name), p1, List.length_map] at this
    have hck := List.getElem?_eq_getElem hkl
    have hv : vs[k]? = some (vs[k]'(by omega)) := List.getElem?_eq_getElem _
    obtain ⟨c', hc', -, hlen⟩ := p4 k _ _ hck hv
    rw [hk] at hc'; cases hc'
    have := hinv.2 _ (List.getElem_mem hkl)
    rw [hlen, p3]; omega
  cases op with
  | write o vs => exact wr o vs hop
  | store o vs =>
    have hop' : vs.length = r.cells.length := hop
    show MemInv n (r.storeData n o vs).2
    rw [storeData_eq]
    by_cases hn' : n ≤ r.index
    · rw [if_pos hn']
      have hw := wr o vs hop'
      obtain ⟨h1, -, -, h4, -⟩ := writeData_spec r o vs hd hop'
      have hlen : (r.writeData o vs).2.cells.length = r.cells.length := by
        rw [← List.length_map (f := RecCell.name), h1, List.length_map]
      rcases hwd : r.writeData o vs with ⟨oc, r'⟩
      rw [hwd] at hw h4 hlen
      rcases oc with ⟨⟨⟩⟩ | e | w
      · exact pu r' vs (by rw [hlen]; exact hop') hw (by rw [(h4 rfl).1]; omega)
      · exact hw
      · exact hw
    · rw [if_neg hn']
      exact pu r vs hop' ⟨hi, hm⟩ (by omega)

/-- **C29.** Starting from cells with no data in memory, after any sequence of calls no cell holds
more than `CELL_NDATA_MAX` data points (of seven numbers) in memory, even if files cannot be
opened. -/
theorem memory_bounded (r : Recorder) (ops : List RecOp) (hd : r.Distinct) (h0 : r.index = 0)
    (he : ∀ c ∈ r.cells, c.data = []) (hops : ∀ op ∈ ops, Complete r.cells.length op) :
    ∀ c ∈ (r.run cellNDataMax ops).cells, c.data.length ≤ 7 * cellNDataMax := by
  have key : ∀ (ops : List RecOp) (r : Recorder), r.Distinct →
      (∀ op ∈ ops, Complete r.cells.length op) → MemInv cellNDataMax r →
      MemInv cellNDataMax (r.run cellNDataMax ops) := by
    intro ops
    induction ops with
    | nil => intro r _ _ h; exact h
    | cons op ops ih =>
      intro r hd hops h
      have hop := hops op (by simp)
      have h2 : (r.step cellNDataMax op).2.cells.map RecCell.name = r.cells.map RecCell.name := by
        by_cases hz : 0 < r.cells.length
        · exact (step_known cellNDataMax r op hd hop 0 hz).2
        · have hnil : r.cells = [] := List.eq_nil_of_length_eq_zero (by omega)
          cases op with
          | write o vs => exact (writeData_spec r o vs hd hop).1
          | store o vs =>
            have hop' : vs.length = r.cells.length := hop
            show (r.storeData cellNDataMax o vs).2.cells.map _ = _
            rw [storeData_eq]
            by_cases hn' : cellNDataMax ≤ r.index
            · rw [if_pos hn']
              have h1 := (writeData_spec r o vs hd hop').1
              have hlen : (r.writeData o vs).2.cells.length = r.cells.length := by
                rw [← List.length_map (f := RecCell.name), h1, List.length_map]
              rcases hwd : r.writeData o vs with ⟨oc, r'⟩
              rw [hwd] at h1 hlen
              rcases oc with ⟨⟨⟩⟩ | e | w
              · exact (push_spec r' vs (by rw [hlen]; exact hop')).1.trans h1
              · exact h1
              · exact h1
            · rw [if_neg hn']; exact (push_spec r vs hop').1
      have hlen : (r.step cellNDataMax op).2.cells.length = r.cells.length := by
        rw [← List.length_map (f := RecCell.name), h2, List.length_map]
      rw [Recorder.run]
      exact ih _ (by unfold Recorder.Distinct; rw [h2]; exact hd)
        (fun o ho => by rw [hlen]; exact hops o (by simp [ho]))
        (step_memInv _ (by decide) r op hd hop h)
  have hinv := key ops r hd hops ⟨by rw [h0]; exact Nat.zero_le _, fun c hc => by
    rw [he c hc]; simp⟩
  intro c hc
  exact (hinv.2 c hc).trans (Nat.mul_le_mul_left 7 hinv.1)

/-! ### The rows of the exported file -/

/-- Storing data points below the threshold touches no file. -/
theorem stores_only (o : String → Bool) (vss : List (List CellView)) (n : ℕ) :
    ∀ r : Recorder, r.index + vss.length ≤ n → (∀ vs ∈ vss, vs.length = r.cells.length) →
      (r.run n (vss.map (RecOp.store o))).files = r.files
      ∧ (r.run n (vss.map (RecOp.store o))).id = r.id
      ∧ (r.run n (vss.map (RecOp.store o))).cells.map RecCell.name = r.cells.map RecCell.name
      ∧ ((∀ c ∈ r.cells, ∃ k, c.data.length = 7 * k) →
          ∀ c ∈ (r.run n (vss.map (RecOp.store o))).cells, ∃ k, c.data.length = 7 * k) := by
  induction vss with
  | nil => intro r _ _; exact ⟨rfl, rfl, rfl, fun h => h⟩
  | cons vs vss ih =>
    intro r hn hl
    have hlen := hl vs (by simp)
    obtain ⟨p1, p2, p3, p4⟩ := push_spec r vs hlen
    have hpl : (r.push vs).cells.length = r.cells.length := by
      rw [← List.length_map (f := RecCell.name), p1, List.length_map]
    simp only [List.length_cons] at hn
    have hs : (r.step n (.store o vs)).2 = r.push vs := by
      show (r.storeData n o vs).2 = _
      rw [storeData_eq, if_neg (by omega)]
    obtain ⟨h1, h2, h3, h4⟩ := ih (r.push vs) (by rw [p3]; omega)
      (fun w hw => by rw [hpl]; exact hl w (by simp [hw]))
    rw [List.map_cons, Recorder.run, hs]
    refine ⟨h1, h2.trans p2, h3.trans p1, fun h => h4 fun c hc => ?_⟩
    obtain ⟨k, hk⟩ := List.getElem?_of_mem hc
    have hkl : k < r.cells.length := by
      have := (List.getElem?_eq_some_iff.mp hk).1
      omega
    have hck := List.getElem?_eq_getElem hkl
    have hv : vs[k]? = some (vs[k]'(by omega)) := List.getElem?_eq_getElem _
    obtain ⟨c', hc', -, hlen'⟩ := p4 k _ _ hck hv
    rw [hk] at hc'; cases hc'
    obtain ⟨m, hm⟩ := h _ (List.getElem_mem hkl)
    exact ⟨m + 1, by omega⟩

/-- **C29, rows (partial).** The first export of up to `CELL_NDATA_MAX` data points per cell has
the documented layout: after the `States:` line and blank lines, each line has exactly seven
columns with one number each.  Missing: any later export into the same file
(`not_rowsAlwaysDocumented`). -/
theorem first_export_documented_partial (r : Recorder) (o : String → Bool)
    (vss : List (List CellView)) (vs : List CellView) (hd : r.Distinct) (h0 : r.index = 0)
    (he : ∀ c ∈ r.cells, c.data = []) (hnew : ∀ c ∈ r.cells, fileOf r c = [])
    (hmax : vss.length ≤ cellNDataMax) (hl : ∀ ws ∈ vss, ws.length = r.cells.length)
    (r' : Recorder) (hr' : r' = r.run cellNDataMax (vss.map (RecOp.store o))) :
    ∀ c ∈ r'.cells, Documented (fileOf (r'.writeData o vs).2 c) := by
  obtain ⟨h1, h2, h3, h4⟩ := stores_only o vss cellNDataMax r (by rw [h0]; omega) hl
  rw [← hr'] at h1 h2 h3 h4
  have hseven := h4 fun c hc => ⟨0, by rw [he c hc]; rfl⟩
  intro c hc
  have hempty : fileOf r' c = [] := by
    have : c.name ∈ r.cells.map RecCell.name := by
      rw [← h3]; exact List.mem_map_of_mem hc
    obtain ⟨d, hd', hname⟩ := List.mem_map.mp this
    have := hnew d hd'
    simp only [fileOf] at this ⊢
    rw [h1, h2, ← hname]; exact this
  obtain ⟨k, hk⟩ := hseven c hc
  have hdist : (r'.cells.map RecCell.name).Nodup := by rw [h3]; exact hd
  have hfile := writeCells_file r'.id o vs r'.files r'.cells hdist c hc
  have hw : fileOf (r'.writeData o vs).2 c
      = (writeCells r'.id o vs r'.files r'.cells).2.1 (r'.id ++ "_" ++ c.name ++ "_cellData.csv") := by
    unfold Recorder.writeData fileOf
    rcases writeCells r'.id o vs r'.files r'.cells with ⟨oc, fs, cs⟩
    rcases oc with ⟨⟨⟩⟩ | e | w <;> rfl
  have hnil : Documented [] := by
    intro l hl
    simp [lines, splitAt'] at hl
    exact Or.inl hl
  have hempty' : r'.files (r'.id ++ "_" ++ c.name ++ "_cellData.csv") = [] := hempty
  rw [hw]
  rcases hfile with h | ⟨st, h⟩
  · rw [h, hempty']; exact hnil
  · rw [h, hempty']
    exact flush_documented [] st c.data k hk (Or.inl rfl) hnil

/-- The full claim about rows. -/
def RowsAlwaysDocumented : Prop :=
  ∀ (r : Recorder) (ops : List RecOp), r.Distinct → r.index = 0 → (∀ c ∈ r.cells, c.data = []) →
    (∀ c ∈ r.cells, fileOf r c = []) → (∀ op ∈ ops, Complete r.cells.length op) →
    ∀ c ∈ (r.run cellNDataMax ops).cells, Documented (fileOf (r.run cellNDataMax ops) c)

/-- A recorder for one cell, nothing recorded yet. -/
def freshRecorder : Recorder := ⟨"test", 0, [⟨"cell", []⟩], fun _ => []⟩

/-- A cell at rest at 3.6 V after `t` seconds. -/
def viewAt (t : ℚ) : CellView := ⟨0, 18 / 5, 1 / 2, 298, t, 0, 0, [0, 1 / 2]⟩

/-- Stored, exported, stored, exported. -/
def twoExports : List RecOp :=
  [.store (fun _ => true) [viewAt 0], .write (fun _ => true) [viewAt 0],
    .store (fun _ => true) [viewAt 1], .write (fun _ => true) [viewAt 1]]

/-- The line on which the second export starts: the last data point of the first export, followed
without a separator by `States:` and the states. -/
def joinedLine : List Tok :=
  rowOf 0 (18 / 5) (1 / 2) 298 0 0 0 ++ [.states, .comma, .num (fmt6 0), .comma,
    .num (fmt6 (1 / 2)), .comma]

/-- **C29, rows (false of the code).** The exporter writes a line end only *between* rows, so the
second export into a file continues the last row of the first one. -/
theorem not_rowsAlwaysDocumented : ¬ RowsAlwaysDocumented := by
  intro h
  have hc := h freshRecorder twoExports (by decide) rfl (by decide) (by
      intro c _; rfl)
    (by
      intro op hop
      simp only [twoExports, List.mem_cons, List.not_mem_nil, or_false] at hop
      rcases hop with rfl | rfl | rfl | rfl <;> rfl)
    ⟨"cell", []⟩ (by decide +kernel) joinedLine (by decide +kernel)
  rcases hc with hc | hc | hc
  · exact absurd hc (by decide +kernel)
  · exact absurd hc (by decide +kernel)
  · exact absurd hc.1 (by decide +kernel)

/-! ### The precision of the exported numbers -/

/-- The full claim about exported values. -/
def ExportedValuesExact : Prop :=
  ∀ (r : Recorder) (ops : List RecOp), r.Distinct → r.index = 0 → (∀ c ∈ r.cells, c.data = []) →
    (∀ c ∈ r.cells, fileOf r c = []) → (∀ op ∈ ops, Complete r.cells.length op) →
    ∀ k c, (r.run cellNDataMax ops).cells[k]? = some c →
      numbers false (fileOf (r.run cellNDataMax ops) c) ++ c.data
        = recorded cellNDataMax k r ops

/-- **C29, values (false of the code).** Numbers are exported with six significant digits: after
about eleven days (10⁶ s) successive seconds can no longer be told apart in the file. -/
theorem not_exportedValuesExact : ¬ ExportedValuesExact := by
  intro h
  have hc := h freshRecorder
    [.store (fun _ => true) [viewAt 1000001], .write (fun _ => true) [viewAt 1000001]]
    (by decide) rfl (by decide) (by intro c _; rfl)
    (by
      intro op hop
      simp only [List.mem_cons, List.not_mem_nil, or_false] at hop
      rcases hop with rfl | rfl <;> rfl)
    0 ⟨"cell", []⟩ (by decide +kernel)
  exact absurd hc (by decide +kernel)

theorem roundEven_close (x : ℚ) : |(roundEven x : ℚ) - x| ≤ 1 / 2 := by
  have h1 := Int.floor_le x
  have h2 := Int.lt_floor_add_one x
  unfold roundEven
  dsimp only
  rw [abs_le]
  split_ifs <;> push_cast <;> constructor <;> linarith

/-- **C29, values (partial).** What is exported differs from what was recorded by at most half a
unit of the sixth significant digit: a relative error of at most 1/200000. -/
theorem exported_value_close_partial (x : ℚ) : |fmt6 x - x| ≤ |x| / 200000 := by
  unfold fmt6
  by_cases hx : x = 0
  · simp [hx]
  · rw [if_neg hx]
    dsimp only
    set e : ℤ := Int.log 10 |x| - 5 with he
    have hpos : (0 : ℚ) < 10 ^ e := zpow_pos (by norm_num) e
    have hlog : (10 : ℚ) ^ Int.log 10 |x| ≤ |x| := by
      have := Int.zpow_log_le_self (b := 10) (r := |x|) (by norm_num) (abs_pos.mpr hx)
      simpa using this
    have h10 : (10 : ℚ) ^ e * 100000 = 10 ^ Int.log 10 |x| := by
      have : Int.log 10 |x| = e + 5 := by omega
      rw [this, zpow_add₀ (by norm_num)]
      norm_num
    have hround := roundEven_close (x / 10 ^ e)
    have hfac : (roundEven (x / 10 ^ e) : ℚ) * 10 ^ e - x
        = ((roundEven (x / 10 ^ e) : ℚ) - x / 10 ^ e) * 10 ^ e := by
      field_simp
    rw [hfac, abs_mul, abs_of_pos hpos]
    nlinarith

/-- The hypotheses are met, and the claim is not about nothing: two data points, of which one is
in the file and one in memory. -/
example : known (freshRecorder.run cellNDataMax (twoExports.take 3)) 0
      = [0, 18 / 5, 1 / 2, 298, 0, 0, 0, 0, 18 / 5, 1 / 2, 298, 1, 0, 0]
    ∧ ((freshRecorder.run cellNDataMax (twoExports.take 3)).cells.map (·.data.length)) = [7] := by
  constructor <;> decide +kernel

example : freshRecorder.Distinct ∧ freshRecorder.index = 0
    ∧ (∀ c ∈ freshRecorder.cells, fileOf freshRecorder c = [])
    ∧ (∀ op ∈ twoExports, Complete freshRecorder.cells.length op) := by
  refine ⟨by decide, rfl, fun _ _ => rfl, fun op hop => ?_⟩
  simp only [twoExports, List.mem_cons, List.not_mem_nil, or_false] at hop
  rcases hop with rfl | rfl | rfl | rfl <;> rfl

/-- A store that has to export first and cannot open the file throws 11 and records nothing; what
was recorded stays in memory. -/
example :
    ((freshRecorder.run 1 [.store (fun _ => true) [viewAt 0]]).storeData 1 (fun _ => false)
      [viewAt 1]).1 = .throw 11
    ∧ ((freshRecorder.run 1 [.store (fun _ => true) [viewAt 0]]).storeData 1 (fun _ => false)
      [viewAt 1]).2.cells.map (·.data) = [[0, 18 / 5, 1 / 2, 298, 0, 0, 0]] := by
  constructor <;> decide +kernel

end Slide

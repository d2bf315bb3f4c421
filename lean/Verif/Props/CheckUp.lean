import Verif.Spec.CheckUp
import Verif.Props.CapacityTest
import Verif.Props.Structure

/-!
Documents written by check-ups (C86, C87).
-/

namespace Slide
open Spec StorageUnit

section
variable {C : Type} [CheckCell C]

theorem checkRows_ok (fuel start : ℕ) (Ah : ℚ) (nrCycle : ℤ) :
    ∀ (l : List (List Char × C)) (out : List (List Field)), checkRows fuel start Ah nrCycle l = (.ok (), out) →
      ∃ rows : List (List Field), out = rows.flatMap (fun r => [r, []]) ∧
        List.Forall₂ (fun x r => ∃ q c' a t, Cyc.testCapacity fuel { su := x.2 } 0 0 = (.ok q, c', a, t)
          ∧ r = documented Ah nrCycle x q ++ ((CheckCell.view c'.su).drop start).map .num) l rows
  | [], out, h => by
    rw [checkRows] at h
    cases h
    exact ⟨[], rfl, .nil⟩
  | (id, c) :: rest, out, h => by
    rw [checkRows] at h
    dsimp only at h
    rcases ht : Cyc.testCapacity fuel { su := c } 0 0 with ⟨o, c', a, t⟩
    rw [ht] at h
    rcases o with q | e | w
    · dsimp only at h
      rcases hr : checkRows fuel start Ah nrCycle rest with ⟨o2, rows2⟩
      rw [hr] at h
      dsimp only at h
      obtain ⟨h1, h2⟩ := Prod.mk.inj h
      subst h1 h2
      obtain ⟨rows, e1, e2⟩ := checkRows_ok fuel start Ah nrCycle rest rows2 hr
      refine ⟨_ :: rows, ?_, .cons ⟨q, c', a, t, ht, rfl⟩ e2⟩
      rw [e1]
      rfl
    · cases h
    · cases h

variable {U : Type} [StorageUnit U] [HasCells U C]

/-- **C86 (partial).** After a check-up the file has, below what it had before, a heading and one row for every cell, in
order, with the identification and variations of the cell, the throughput and the cycle number the check-up was told, the
throughput of the cell, and the capacity which a capacity test of a copy of the cell gives.  The unit itself has only been
charged at C/25 towards three quarters of its voltage range.  Missing: the states shown are those after the capacity test
(`not_showsState`), how many are shown depends on the first cell, and most values are not under their names
(`not_columnsNamed`). -/
theorem checkUp_rows_partial (fuel : ℕ) (u u' : U) (Ah : ℚ) (nrCycle : ℤ) (file file' : List (List Field))
    (h : checkUp C fuel u Ah nrCycle file = (.ok (), u', file')) :
    (∃ st c th, Cyc.CC fuel { su := u, diagnostic := true } (-(Cap u) / 25)
      ((lim u).Vmin + 3/4 * ((lim u).Vmax - (lim u).Vmin)) TIME_INF 2 0 Thr.zero = (.ok st, c, th) ∧ c.su = u') ∧
    ∃ x xs rows, (HasCells.cells u' : List (List Char × C)) = x :: xs ∧
      file' = file ++ checkHeading :: rows.flatMap (fun r => [r, []]) ∧
      List.Forall₂ (fun y r => ∃ q c' a t, Cyc.testCapacity fuel { su := y.2 } 0 0 = (.ok q, c', a, t)
        ∧ r = documented Ah nrCycle y q ++ ((CheckCell.view c'.su).drop (if CheckCell.isSPM x.2 then 10 else 0)).map .num)
        (x :: xs) rows := by
  unfold checkUp at h
  rcases hp : checkUpPrep fuel u with ⟨o, u1⟩
  rw [hp] at h
  rcases o with ⟨⟩ | e | w
  · dsimp only at h
    rcases hc : (HasCells.cells u1 : List (List Char × C)) with _ | ⟨⟨id, c⟩, rest⟩
    · rw [hc] at h; cases h
    · rw [hc] at h
      dsimp only at h
      rcases hr : checkRows fuel (if CheckCell.isSPM c then 2 * nch else 0) Ah nrCycle ((id, c) :: rest) with ⟨o, rows⟩
      rw [hr] at h
      dsimp only at h
      obtain ⟨h1, h2⟩ := Prod.mk.inj h
      obtain ⟨h2, h3⟩ := Prod.mk.inj h2
      subst h1 h2 h3
      constructor
      · unfold checkUpPrep at hp
        rw [show 3/4 * (lim u).Vmax + 1/4 * (lim u).Vmin = (lim u).Vmin + 3/4 * ((lim u).Vmax - (lim u).Vmin) by ring] at hp
        rcases hq : Cyc.CC fuel { su := u, diagnostic := true } (-(Cap u) / 25)
          ((lim u).Vmin + 3/4 * ((lim u).Vmax - (lim u).Vmin)) TIME_INF 2 0 Thr.zero with ⟨o, c1, th⟩
        rw [hq] at hp
        rcases o with st | e | w
        · exact ⟨st, c1, th, rfl, (Prod.mk.inj hp).2⟩
        · cases hp
        · cases hp
      · obtain ⟨rows', e1, e2⟩ := checkRows_ok fuel _ Ah nrCycle _ _ hr
        refine ⟨(id, c), rest, rows', hc, by rw [e1], ?_⟩
        have : (2 * nch : ℕ) = 10 := rfl
        rw [this] at e2
        exact e2
  · cases h
  · cases h

/-- A unit without cells cannot be checked: the behaviour is undefined. -/
theorem checkUp_empty (fuel : ℕ) (u u1 : U) (Ah : ℚ) (nrCycle : ℤ) (file : List (List Field))
    (hp : checkUpPrep fuel u = (.ok (), u1)) (h : (HasCells.cells u1 : List (List Char × C)) = []) :
    ∃ w, checkUp C fuel u Ah nrCycle file = (.ub w, u1, file) := by
  unfold checkUp
  rw [hp]
  dsimp only
  rw [h]
  exact ⟨_, rfl⟩

/-- Earlier contents of the file are never lost, however the check-up ends. -/
theorem checkUp_appends (fuel : ℕ) (u : U) (Ah : ℚ) (nrCycle : ℤ) (file : List (List Field)) :
    file <+: (checkUp C fuel u Ah nrCycle file).2.2 := by
  unfold checkUp
  rcases checkUpPrep fuel u with ⟨o, u1⟩
  rcases o with ⟨⟩ | e | w
  · dsimp only
    rcases (HasCells.cells u1 : List (List Char × C)) with _ | ⟨⟨id, c⟩, rest⟩
    · exact List.prefix_refl _
    · exact List.prefix_append _ _
  · exact List.prefix_refl _
  · exact List.prefix_refl _

end

/-- The part of the full claim about states: a row shows the states of its cell at the time of the check-up. -/
def ShowsState : Prop :=
  ∀ (fuel : ℕ) (u u' : ECM 0) (Ah : ℚ) (nrCycle : ℤ) (file' : List (List Field)),
    checkUp (ECM 0) fuel u Ah nrCycle [] = (.ok (), u', file') →
      ∃ r, file' = [checkHeading, r, []] ∧ r.drop 11 = ownStates u'

/-- The part of the full claim about names: values stand below their names. -/
def ColumnsNamed : Prop :=
  ∀ (fuel : ℕ) (u u' : ECM 0) (Ah : ℚ) (nrCycle : ℤ) (file' : List (List Field)),
    checkUp (ECM 0) fuel u Ah nrCycle [] = (.ok (), u', file') →
      ∃ h r q c' a t, file' = [h, r, []] ∧ Cyc.testCapacity fuel { su := u' } 0 0 = (.ok q, c', a, t)
        ∧ under "Ah" h r = some (.num Ah) ∧ under "Capacity [Ah]" h r = some (.num q)

/-- The document of the steep cell (one volt per second at C/25): it is charged for two seconds first, then a copy of it
is charged for none and discharged for three seconds. -/
theorem steep_doc : (checkUp (ECM 0) 10 steepCell 7 3 []).1 = .ok () ∧
    (checkUp (ECM 0) 10 steepCell 7 3 []).2.1.st.SOC = 1/2 + 2/90000 ∧
    (checkUp (ECM 0) 10 steepCell 7 3 []).2.2 =
      [checkHeading,
        [.str ['E', 'C', 'M'], .num 0, .num 0, .num 0, .num 0, .num 7, .num 3, .num 2, .num (2/90000), .num (11/90000),
          .num (3/90000), .num 293, .num (1/2 - 1/90000), .num (1/25), .num 5, .num (5/90000), .num (43/180000)], []] := by
  refine ⟨?_, ?_, ?_⟩ <;> decide +kernel

/-- **C86 (false of the code).** The states of charge in the document of the steep cell is that after the discharge of the
capacity test. -/
theorem not_showsState : ¬ ShowsState := by
  intro h
  obtain ⟨h1, h2, h3⟩ := steep_doc
  obtain ⟨r, e1, e2⟩ := h 10 steepCell _ 7 3 _ (Prod.ext h1 rfl)
  have e3 := h3.symm.trans e1
  have e4 : r[12]? = some (.num (1/2 - 1/90000)) := by
    rw [← (List.cons.inj (List.cons.inj e3).2).1]
    rfl
  have e5 : (r.drop 11)[1]? = some (.num (1/2 - 1/90000)) := by
    rw [List.getElem?_drop]
    exact e4
  rw [e2] at e5
  have e6 : (ownStates (checkUp (ECM 0) 10 steepCell 7 3 []).2.1)[1]? = some (.num (1/2 + 2/90000)) := by
    decide +kernel
  rw [e6] at e5
  revert e5
  decide +kernel

/-- **C86 (false of the code).** For the steep cell, the number under `Capacity [Ah]` is 11/90000 – its energy throughput
in Wh; the measured capacity is 3/90000. -/
theorem not_columnsNamed : ¬ ColumnsNamed := by
  intro h
  obtain ⟨h1, -, h3⟩ := steep_doc
  obtain ⟨hd, r, q, c', a, t, e1, e2, -, e4⟩ := h 10 steepCell _ 7 3 _ (Prod.ext h1 rfl)
  have e3 := h3.symm.trans e1
  have e5 := (List.cons.inj e3).1
  have e6 := (List.cons.inj (List.cons.inj e3).2).1
  subst e5 e6
  have q1 : (Cyc.testCapacity 10 { su := (checkUp (ECM 0) 10 steepCell 7 3 []).2.1 } 0 0).1 = .ok (3/90000) := by
    decide +kernel
  rw [e2] at q1
  have q2 := Outcome.ok.inj q1
  subst q2
  revert e4
  decide +kernel

/-! ### Modules -/

section
variable {α : Type} (cool : α → Option CoolTotals) (mem : Obj α) (fuel : ℕ)

theorem modRow_fold_stop (d : ModDoc) (l : List (Obj α)) (h : d.out ≠ .ok ()) :
    l.foldl (modRow cool mem fuel) d = d := by
  induction l with
  | nil => rfl
  | cons o l ih =>
    have e : modRow cool mem fuel d o = d := by
      unfold modRow
      split
      · rfl
      · split
        · rename_i heq; exact absurd heq h
        · rfl
    rw [List.foldl_cons, e, ih]

theorem modRow_ok (d : ModDoc) (hd : d.out = .ok ()) (o : Obj α) (ho : o.kind ≠ .cell) :
    ((modRow cool mem fuel d o).out = .ok () ∧ ∃ r, modRowOf cool mem fuel o r
      ∧ (modRow cool mem fuel d o).rows = d.rows ++ [r])
    ∨ ((modRow cool mem fuel d o).out ≠ .ok () ∧ ¬ ∃ r, modRowOf cool mem fuel o r) := by
  unfold modRow modRowOf
  rw [if_neg ho, hd]
  dsimp only
  rcases h1 : Obj.fullID mem fuel o with id | e | w
  · dsimp only
    rcases h2 : o.getNcells with n | e | w
    · dsimp only
      rcases h3 : cool o.data with _ | t
      · exact .inr ⟨by simp, by simp⟩
      · exact .inl ⟨rfl, _, ⟨id, n, t, rfl, rfl, rfl, rfl⟩, rfl⟩
    · exact .inr ⟨by simp, by simp⟩
    · exact .inr ⟨by simp, by simp⟩
  · exact .inr ⟨by simp, by simp⟩
  · exact .inr ⟨by simp, by simp⟩

theorem modRow_fold (l : List (Obj α)) : ∀ (d : ModDoc), d.out = .ok () →
    ((l.foldl (modRow cool mem fuel) d).out = .ok () ↔ ∀ o ∈ l, o.kind ≠ .cell → ∃ r, modRowOf cool mem fuel o r) ∧
    ((l.foldl (modRow cool mem fuel) d).out = .ok () →
      ∃ rows, (l.foldl (modRow cool mem fuel) d).rows = d.rows ++ rows
        ∧ List.Forall₂ (modRowOf cool mem fuel) (l.filter fun o => decide (o.kind ≠ .cell)) rows) := by
  induction l with
  | nil =>
    intro d hd
    exact ⟨⟨(fun _ o ho => by cases ho), fun _ => hd⟩, fun _ => ⟨[], by simp, .nil⟩⟩
  | cons o l ih =>
    intro d hd
    rw [List.foldl_cons]
    by_cases ho : o.kind = .cell
    · have e : modRow cool mem fuel d o = d := by unfold modRow; rw [if_pos ho]
      rw [e, List.filter_cons_of_neg (by simp [ho])]
      obtain ⟨i1, i2⟩ := ih d hd
      refine ⟨i1.trans ⟨fun h x hx hk => ?_, fun h x hx hk => h x (by simp [hx]) hk⟩, i2⟩
      rcases List.mem_cons.mp hx with rfl | hx
      · exact absurd ho hk
      · exact h x hx hk
    · rcases modRow_ok cool mem fuel d hd o ho with ⟨h1, r, h2, h3⟩ | ⟨h1, h2⟩
      · obtain ⟨i1, i2⟩ := ih _ h1
        refine ⟨i1.trans ⟨fun h x hx hk => ?_, fun h x hx hk => h x (by simp [hx]) hk⟩, fun h => ?_⟩
        · rcases List.mem_cons.mp hx with rfl | hx
          · exact ⟨r, h2⟩
          · exact h x hx hk
        · obtain ⟨rows, e1, e2⟩ := i2 h
          refine ⟨r :: rows, by rw [e1, h3]; simp, ?_⟩
          rw [List.filter_cons_of_pos (by simp [ho])]
          exact .cons h2 e2
      · rw [modRow_fold_stop cool mem fuel _ _ h1]
        exact ⟨⟨fun h => absurd h h1, fun h => absurd (h o (by simp) ho) h2⟩, fun h => absurd h h1⟩

end

section
variable {α : Type}

/-- The units at a list of positions. -/
def unitsAt (t : Obj α) (l : List (List ℕ)) : List (Obj α) := l.filterMap (at? t)

theorem foldl_at {σ : Type} (t : Obj α) (fn : σ → Obj α → σ) (l : List (List ℕ)) (s : σ) :
    l.foldl (fun s p => match at? t p with | some u => fn s u | none => s) s = (unitsAt t l).foldl fn s := by
  unfold unitsAt
  induction l generalizing s with
  | nil => rfl
  | cons p l ih =>
    rw [List.foldl_cons, ih]
    cases h : at? t p with
    | none => rw [List.filterMap_cons_none h]
    | some u => rw [List.filterMap_cons_some h, List.foldl_cons]

/-- **C87.** A check-up of the modules of a properly connected system is completed exactly if every module and battery has
a cooling system and a number of cells, and then the document consists of the heading and one row for every module and
battery, in an order in which units come before the units inside of them: its full identification (the names from the top
to the unit), its number of cells, and the totals of its cooling system. -/
theorem checkMod_rows (cool : α → Option CoolTotals) (t : Obj α) (fuel : ℕ) (hc : CellsAreLeaves t) (hd : DistinctAddr t)
    (hl : Linked t) (hr : t.parent = none) (hf : ∀ p, (at? t p).isSome → p.length < fuel) :
    ((checkMod cool t fuel t).out = .ok () ↔
      ∀ p u, at? t p = some u → u.kind ≠ .cell → (cool u.data).isSome ∧ ∃ n, u.getNcells = .ok n) ∧
    ∃ l, Enumerates t l ∧ ((checkMod cool t fuel t).out = .ok () →
      ∃ rows, (checkMod cool t fuel t).rows = modHeading :: rows ∧
        List.Forall₂ (fun p r => ∃ u n c, at? t p = some u ∧ u.getNcells = .ok n ∧ cool u.data = some c
            ∧ r = [.str (pathName t p), .num n, .num c.time, .num c.evac, .num c.absorbed])
          (l.filter fun p => decide ((at? t p).map Obj.kind ≠ some .cell)) rows) := by
  obtain ⟨l, hl1, hl2⟩ := visit_enumerates t hc
  have e : checkMod cool t fuel t = (unitsAt t l).foldl (modRow cool t fuel) ⟨.ok (), [modHeading]⟩ := by
    unfold checkMod
    rw [hl2]
    exact foldl_at t _ l _
  obtain ⟨f1, f2⟩ := modRow_fold cool t fuel (unitsAt t l) ⟨.ok (), [modHeading]⟩ rfl
  have key : ∀ p u, at? t p = some u → ∀ r, modRowOf cool t fuel u r ↔ ∃ n c, u.getNcells = .ok n ∧ cool u.data = some c
      ∧ r = [.str (pathName t p), .num n, .num c.time, .num c.evac, .num c.absorbed] := by
    intro p u hu r
    have hid := fullID_path t hd hl hr p u hu fuel (hf p (by rw [hu]; rfl))
    unfold modRowOf
    rw [hid]
    constructor
    · rintro ⟨id, n, c, h1, h2, h3, h4⟩
      cases h1
      exact ⟨n, c, h2, h3, h4⟩
    · rintro ⟨n, c, h2, h3, h4⟩
      exact ⟨_, n, c, rfl, h2, h3, h4⟩
  rw [e]
  constructor
  · rw [f1]
    constructor
    · intro h p u hu hk
      have hm : u ∈ unitsAt t l := List.mem_filterMap.mpr ⟨p, (hl1.2.1 p).mpr (by rw [hu]; rfl), hu⟩
      obtain ⟨r, hr⟩ := h u hm hk
      obtain ⟨n, c, h2, h3, -⟩ := (key p u hu r).mp hr
      exact ⟨by rw [h3]; rfl, n, h2⟩
    · intro h u hm hk
      obtain ⟨p, -, hu⟩ := List.mem_filterMap.mp hm
      obtain ⟨h1, n, h2⟩ := h p u hu hk
      obtain ⟨c, hcc⟩ := Option.isSome_iff_exists.mp h1
      exact ⟨_, (key p u hu _).mpr ⟨n, c, h2, hcc, rfl⟩⟩
  · refine ⟨l, hl1, fun h => ?_⟩
    obtain ⟨rows, r1, r2⟩ := f2 h
    refine ⟨rows, r1, ?_⟩
    have hall : ∀ p ∈ l, (at? t p).isSome := fun p hp => (hl1.2.1 p).mp hp
    clear h e f1 f2 r1 hl1 hl2
    revert rows
    induction l with
    | nil => intro rows r2; cases r2; exact .nil
    | cons p l ih =>
      intro rows r2
      obtain ⟨u, hu⟩ := Option.isSome_iff_exists.mp (hall p (by simp))
      unfold unitsAt at r2
      rw [List.filterMap_cons_some hu] at r2
      by_cases hk : u.kind = .cell
      · rw [List.filter_cons_of_neg (by simp [hk])] at r2
        rw [List.filter_cons_of_neg (by simp [hu, hk])]
        exact ih (fun q hq => hall q (by simp [hq])) rows r2
      · rw [List.filter_cons_of_pos (by simp [hk])] at r2
        rw [List.filter_cons_of_pos (by simp [hu, hk])]
        cases r2 with
        | cons g1 g2 =>
          obtain ⟨n, c, h2, h3, h4⟩ := (key p u hu _).mp g1
          exact .cons ⟨u, n, c, hu, h2, h3, h4⟩ (ih (fun q hq => hall q (by simp [hq])) _ g2)

end

/-- **C87**: the rows of `checkMod_rows` stand under the right names. -/
theorem checkMod_labelled (id : List Char) (n : ℚ) (c : CoolTotals) :
    let r : List Field := [.str id, .num n, .num c.time, .num c.evac, .num c.absorbed]
    under "Full ID" modHeading r = some (.str id) ∧ under "Number of cells" modHeading r = some (.num n) ∧
    under "Total time" modHeading r = some (.num c.time) ∧
    under "Total evacuated heat" modHeading r = some (.num c.evac) ∧
    under "Total absorbed heat" modHeading r = some (.num c.absorbed) ∧ modHeading.length = r.length := by
  refine ⟨?_, ?_, ?_, ?_, ?_, rfl⟩ <;> simp [under, modHeading]

/-- A module without a cooling system ends the check-up of the modules in undefined behaviour. -/
example : (checkMod (fun d : Bool => if d then some ⟨3, 4, 5⟩ else none)
      (.mk 0 (.module (some 1)) ['m'] none false [.mk 1 .cell ['c'] (some 0) false []]) 5
      (.mk 0 (.module (some 1)) ['m'] none false [.mk 1 .cell ['c'] (some 0) false []])).out
    = .ub "null pointer dereference" := by decide +kernel

/-- A module in a module, with a cell: the hypotheses are met, and there are two rows. -/
example :
    let t : Obj Bool := .mk 0 (.module (some 1)) ['m'] none true
      [.mk 1 (.module (some 1)) ['s'] (some 0) true [.mk 2 .cell ['c'] (some 1) false []]]
    CellsAreLeaves t ∧ DistinctAddr t ∧ Linked t ∧ (∀ p, (at? t p).isSome → p.length < 5) ∧
    (checkMod (fun d : Bool => if d then some ⟨3, 4, 5⟩ else none) t 5 t).out = .ok () ∧
    (checkMod (fun d : Bool => if d then some ⟨3, 4, 5⟩ else none) t 5 t).rows =
      [modHeading, [.str ['m'], .num 1, .num 3, .num 4, .num 5], [.str ['m', '_', 's'], .num 1, .num 3, .num 4, .num 5]] := by
  intro t
  have pos : ∀ p u, at? t p = some u → p = [] ∨ p = [0] ∨ p = [0, 0] := by
    intro p u hu
    have hm : p ∈ Obj.order t := by rw [Obj.mem_order, hu]; rfl
    have ho : Obj.order t = [[], [0], [0, 0]] := by decide
    rw [ho] at hm
    simpa using hm
  refine ⟨?_, ?_, ?_, ?_, by decide +kernel, by decide +kernel⟩
  · intro p u hu
    rcases pos p u hu with rfl | rfl | rfl <;> (cases hu; decide)
  · intro p q u v hu hv e
    rcases pos p u hu with rfl | rfl | rfl <;> rcases pos q v hv with rfl | rfl | rfl <;>
      (cases hu; cases hv; first | rfl | (revert e; decide))
  · intro p u i k hu hk
    rcases pos p u hu with rfl | rfl | rfl
    · cases hu
      cases i with
      | zero => cases hk; rfl
      | succ i => cases hk
    · cases hu
      cases i with
      | zero => cases hk; rfl
      | succ i => cases hk
    · cases hu
      cases hk
  · intro p hp
    obtain ⟨u, hu⟩ := Option.isSome_iff_exists.mp hp
    rcases pos p u hu with rfl | rfl | rfl <;> decide

end Slide

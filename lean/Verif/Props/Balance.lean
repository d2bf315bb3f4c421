import Verif.Spec.Balance
import Verif.Props.CyclerLimits
import Verif.Props.Procedure

/-!
Balancing (C84) and blocking of degradation (C85).
-/

namespace Slide
open Spec Cyc

namespace Pack
variable {C : Type}

theorem success_only {st : Status} (h : st.isSuccessful = true) : st = .Success := by
  revert h; cases st <;> decide

theorem cellBalanced_refl [StorageUnit C] [VoltageUnit C] {fuel : ℕ} {Vbal : ℚ} {x : Leaf C}
    (h : ¬ (x.spm = true ∧ x.inBattery = false)) : CellBalanced fuel Vbal x x :=
  ⟨rfl, rfl, rfl, by rw [if_neg h]⟩

mutual
theorem leaves_inBattery : ∀ (p : Pack C), ∀ x ∈ leaves true p, x.inBattery = true
  | .cell s b c => by intro x hx; simp only [leaves, List.mem_singleton] at hx; rw [hx]
  | .module b l => by intro x hx; rw [leaves] at hx; exact leavesAll_inBattery l x hx
  | .battery b p => by intro x hx; rw [leaves] at hx; exact leaves_inBattery p x hx
theorem leavesAll_inBattery : ∀ (l : List (Pack C)), ∀ x ∈ leavesAll true l, x.inBattery = true
  | [] => by intro x hx; cases hx
  | p :: l => by
    intro x hx
    rw [leavesAll, List.mem_append] at hx
    exact hx.elim (leaves_inBattery p x) (leavesAll_inBattery l x)
end

variable [StorageUnit C] [VoltageUnit C]

theorem forall2_same {fuel : ℕ} {Vbal : ℚ} (l : List (Leaf C)) (h : ∀ x ∈ l, ¬ (x.spm = true ∧ x.inBattery = false)) :
    List.Forall₂ (CellBalanced fuel Vbal) l l := by
  induction l with
  | nil => exact .nil
  | cons x l ih => exact .cons (cellBalanced_refl (h x (by simp))) (ih fun y hy => h y (by simp [hy]))

mutual
theorem rebalance_leaves (fuel : ℕ) (Vbal : ℚ) : ∀ (p p' : Pack C), rebalance fuel Vbal p = (.ok .Success, p') →
    List.Forall₂ (CellBalanced fuel Vbal) (leaves false p) (leaves false p')
  | .cell true b c, p', h => by
    rw [rebalance] at h
    rcases hc : CCCV fuel ({ su := c } : Cyc C) (StorageUnit.Cap c * (1/2)) Vbal (StorageUnit.Cap c * (1/1000)) 1 0
      Thr.zero with ⟨o, c1, th⟩
    rw [hc] at h
    rcases o with st | e | w
    · dsimp only at h
      rcases hs : StorageUnit.setCurrent c1.su 0 true with ⟨o2, u⟩
      rw [hs] at h
      rcases o2 with st' | e | w
      · dsimp only at h
        obtain ⟨h1, h2⟩ := Prod.mk.inj h
        subst h2
        have hb : st'.isBad = false := by
          by_contra hb
          have hb' : st'.isBad = true := by simpa using hb
          rw [if_pos hb'] at h1
          rw [Outcome.ok.inj h1] at hb'
          exact absurd hb' (by decide)
        refine .cons ⟨rfl, rfl, rfl, ?_⟩ .nil
        rw [if_pos ⟨rfl, rfl⟩]
        refine ⟨st, st', c1, th, ?_, hs, hb⟩
        rw [show StorageUnit.Cap c / 2 = StorageUnit.Cap c * (1/2) by ring,
          show StorageUnit.Cap c / 1000 = StorageUnit.Cap c * (1/1000) by ring]
        exact hc
      · cases h
      · cases h
    · cases h
    · cases h
  | .cell false b c, p', h => by
    rw [rebalance] at h
    cases h
    exact .cons (cellBalanced_refl (by simp)) .nil
  | .battery b p, p', h => by
    rw [rebalance] at h
    cases h
    rw [leaves]
    exact forall2_same _ fun x hx hh => by rw [leaves_inBattery p x hx] at hh; cases hh.2
  | .module b l, p', h => by
    rw [rebalance] at h
    obtain ⟨h1, h2⟩ := Prod.mk.inj h
    subst h2
    rw [leaves, leaves]
    exact rebalanceAll_leaves fuel Vbal true l _ (Prod.ext h1 rfl)
theorem rebalanceAll_leaves (fuel : ℕ) (Vbal : ℚ) (first : Bool) : ∀ (l l' : List (Pack C)),
    rebalanceAll fuel Vbal first l = (.ok .Success, l') →
    List.Forall₂ (CellBalanced fuel Vbal) (leavesAll false l) (leavesAll false l')
  | [], l', h => by rw [rebalanceAll] at h; cases h; exact .nil
  | p :: l, l', h => by
    rw [rebalanceAll] at h
    rcases hp : rebalance fuel Vbal p with ⟨o, p'⟩
    rw [hp] at h
    rcases o with st | e | w
    · dsimp only at h
      by_cases hs : st.isSuccessful = true
      · rw [if_pos hs] at h
        obtain ⟨h1, h2⟩ := Prod.mk.inj h
        subst h2
        rw [leavesAll, leavesAll]
        rw [success_only hs] at hp
        exact List.rel_append (rebalance_leaves fuel Vbal p p' hp)
          (rebalanceAll_leaves fuel Vbal false l _ (Prod.ext h1 rfl))
      · rw [if_neg hs] at h
        split at h
        · obtain ⟨h1, -⟩ := Prod.mk.inj h
          rw [Outcome.ok.inj h1] at hs
          exact absurd rfl hs
        · cases h
    · cases h
    · cases h
end

mutual
theorem rebalance_flags (fuel : ℕ) (Vbal : ℚ) (i : Bool) : ∀ (p : Pack C),
    (leaves i (rebalance fuel Vbal p).2).map Leaf.block = (leaves i p).map Leaf.block
  | .cell true b c => by
    rw [rebalance]
    split
    · split <;> rfl
    · rfl
    · rfl
  | .cell false b c => by rw [rebalance]
  | .battery b p => by rw [rebalance]
  | .module b l => by
    rw [rebalance, leaves, leaves]
    exact rebalanceAll_flags fuel Vbal i true l
theorem rebalanceAll_flags (fuel : ℕ) (Vbal : ℚ) (i first : Bool) : ∀ (l : List (Pack C)),
    (leavesAll i (rebalanceAll fuel Vbal first l).2).map Leaf.block = (leavesAll i l).map Leaf.block
  | [] => by rw [rebalanceAll]
  | p :: l => by
    have h1 := rebalance_flags fuel Vbal i p
    have h2 := rebalanceAll_flags fuel Vbal i false l
    rw [rebalanceAll]
    rcases hp : rebalance fuel Vbal p with ⟨o, p'⟩
    rw [hp] at h1
    dsimp only at h1
    have h3 : (leavesAll i (p' :: l)).map Leaf.block = (leavesAll i (p :: l)).map Leaf.block := by
      rw [leavesAll, leavesAll, List.map_append, List.map_append, h1]
    rcases o with st | e | w
    · dsimp only
      split
      · rw [leavesAll, leavesAll, List.map_append, List.map_append, h1, h2]
      · split
        · exact h3
        · exact h3
    · exact h3
    · exact h3
end

end Pack

section
variable {C : Type} [StorageUnit C] [VoltageUnit C]

/-- The full claim about balancing, for units made of cells that are no `Cell_SPM` (as `Cell_ECM` and `Cell_Bucket`): all
cells end up at the balance voltage, to within 10 mV, and without current. -/
def Balances : Prop :=
  ∀ (fuel : ℕ) (Vbal : ℚ) (p p' : Pack (ECM 0)), (∀ x ∈ cellsOf p, x.spm = false) →
    p.rebalance fuel Vbal = (.ok .Success, p') →
      ∀ x ∈ cellsOf p', StorageUnit.I x.c = 0 ∧ |StorageUnit.V x.c - Vbal| < 1/100

/-- **C84 (partial).** A successful balancing puts every cell that is exactly a `Cell_SPM` and not inside a battery, in
order, through a C/2, C/1000 CCCV phase to the balance voltage and then sets its current to zero with an acceptable
voltage, and changes nothing else.  Missing: cells of other classes and all cells of a battery are not balanced
(`not_balances`), and how the CCCV phase ends is not looked at (`rebalance_invalid_voltage`). -/
theorem rebalance_cells_partial (fuel : ℕ) (Vbal : ℚ) (p p' : Pack C) (h : p.rebalance fuel Vbal = (.ok .Success, p')) :
    List.Forall₂ (CellBalanced fuel Vbal) (cellsOf p) (cellsOf p') :=
  Pack.rebalance_leaves fuel Vbal p p' h

/-- Consequence: with cells whose accepted currents are set, all `Cell_SPM`s outside of batteries carry no current after a
successful balancing. -/
theorem rebalance_zero_current (fuel : ℕ) (Vbal : ℚ) (p p' : Pack C)
    (hset : ∀ (c c' : C) (st : Status), StorageUnit.setCurrent c 0 true = (.ok st, c') → st.isBad = false →
      StorageUnit.I c' = 0)
    (h : p.rebalance fuel Vbal = (.ok .Success, p')) (x : Leaf C) (hx : x ∈ cellsOf p') (hs : x.spm = true)
    (hb : x.inBattery = false) : StorageUnit.I x.c = 0 := by
  have key : ∀ (l l' : List (Leaf C)), List.Forall₂ (CellBalanced fuel Vbal) l l' → ∀ y ∈ l', y.spm = true →
      y.inBattery = false → StorageUnit.I y.c = 0 := by
    intro l l' h
    induction h with
    | nil => intro y hy; cases hy
    | cons h1 _ ih =>
      intro y hy hs hb
      rcases List.mem_cons.mp hy with rfl | hy
      · obtain ⟨e1, e2, -, e4⟩ := h1
        rw [if_pos ⟨by rw [← e2, hs], by rw [← e1, hb]⟩] at e4
        obtain ⟨st, st', c1, th, -, h2, h3⟩ := e4
        exact hset _ _ _ h2 h3
      · exact ih y hy hs hb
  exact key _ _ (rebalance_cells_partial fuel Vbal p p' h) x hx hs hb

/-- A balance voltage outside of the limits of a cell goes unnoticed: the cell only has its current set to zero. -/
theorem rebalance_invalid_voltage (fuel : ℕ) (Vbal : ℚ) (b : Bool) (c : C)
    (h : Vbal < (StorageUnit.lim c).Vmin ∨ (StorageUnit.lim c).Vmax < Vbal) (st : Status) (c' : C)
    (hs : StorageUnit.setCurrent c 0 true = (.ok st, c')) (hb : st.isBad = false) :
    (Pack.cell true b c).rebalance fuel Vbal = (.ok .Success, .cell true b c') := by
  rw [Pack.rebalance]
  have hc : CCCV fuel ({ su := c } : Cyc C) (StorageUnit.Cap c * (1/2)) Vbal (StorageUnit.Cap c * (1/1000)) 1 0
      Thr.zero = (.ok .Invalid_Vset, { su := c }, Thr.zero) := by
    unfold Cyc.CCCV Cyc.CCCVt
    rw [if_pos h]
  rw [hc]
  dsimp only
  rw [hs]
  dsimp only
  rw [hb]
  rfl

/-- If a child other than the first fails, the behaviour is undefined. -/
theorem rebalance_failing_child (fuel : ℕ) (Vbal : ℚ) (b : Bool) (p q : Pack C) (l r : List (Pack C)) (st : Status)
    (hl : ∀ x ∈ p :: l, (x.rebalance fuel Vbal).1 = .ok .Success) (hq : (q.rebalance fuel Vbal).1 = .ok st)
    (hst : st ≠ .Success) :
    ∃ w, ((Pack.module b (p :: l ++ q :: r)).rebalance fuel Vbal).1 = .ub w := by
  rw [Pack.rebalance]
  have key : ∀ l : List (Pack C), (∀ x ∈ l, (x.rebalance fuel Vbal).1 = .ok .Success) →
      ∃ w, (Pack.rebalanceAll fuel Vbal false (l ++ q :: r)).1 = .ub w := by
    intro l
    induction l with
    | nil =>
      intro _
      rw [List.nil_append, Pack.rebalanceAll]
      rcases hr : q.rebalance fuel Vbal with ⟨o, q'⟩
      rw [hr] at hq
      dsimp only at hq
      subst hq
      dsimp only
      rw [if_neg (fun hh => hst (Pack.success_only hh)), if_neg (by decide)]
      exact ⟨_, rfl⟩
    | cons x l ih =>
      intro h
      have hx := h x (by simp)
      rw [List.cons_append, Pack.rebalanceAll]
      rcases hr : x.rebalance fuel Vbal with ⟨o, x'⟩
      rw [hr] at hx
      dsimp only at hx
      subst hx
      dsimp only
      rw [if_pos (by decide)]
      exact ih fun y hy => h y (by simp [hy])
  have hp := hl p (by simp)
  rw [List.cons_append, Pack.rebalanceAll]
  rcases hr : p.rebalance fuel Vbal with ⟨o, p'⟩
  rw [hr] at hp
  dsimp only at hp
  subst hp
  dsimp only
  rw [if_pos (by decide)]
  exact key l fun y hy => hl y (by simp [hy])

end

/-- A cell that is being discharged at 1 A. -/
def loaded : ECM 0 := { smallCell with st := { smallCell.st with I := 1 } }

/-- **C84 (false of the code).** Balancing a module of one `Cell_ECM` reports success and leaves the cell with its
current; the same holds for a battery. -/
theorem not_balances : ¬ Balances := by
  intro h
  have h1 := (h 10 (365/100) (.module false [.cell false false loaded]) (.module false [.cell false false loaded])
    (by intro x hx; simp only [cellsOf, leaves, leavesAll, List.append_nil, List.mem_singleton] at hx; rw [hx])
    (by simp [Pack.rebalance, Pack.rebalanceAll, Status.isSuccessful]) ⟨false, false, false, loaded⟩
    (by simp [cellsOf, leaves, leavesAll])).1
  revert h1
  decide +kernel

/-- A module of two cells, the second within a battery, and a balance voltage of 5 V: a success, after which the first cell
has no current and the other one still has. -/
example : ((Pack.module false [.cell true false loaded, .battery false (.module false [.cell true false loaded])]).rebalance
      20 5).1 = .ok .Success
    ∧ (cellsOf ((Pack.module false [.cell true false loaded, .battery false (.module false [.cell true false loaded])]).rebalance
      20 5).2).map (fun x => x.c.st.I) = [0, 1] := by
  decide +kernel

/-! ### Blocking -/

/-- The full claim about blocking: it reaches every cell of the unit. -/
def BlocksCells : Prop := ∀ (p : Pack (ECM 0)) (b : Bool), ∀ x ∈ cellsOf (p.setBlock b), x.block = b

/-- The full claim about balancing: every cell is blocked afterwards exactly if it was before. -/
def KeepsBlocking : Prop := ∀ (fuel : ℕ) (Vbal : ℚ) (p p' : Pack (ECM 0)), p.balancing fuel Vbal = (.ok (), p') →
  (cellsOf p').map Leaf.block = (cellsOf p).map Leaf.block

section
variable {C : Type}

/-- **C85 (partial).** Blocking a single cell blocks it.  Missing: blocking a module or battery through the common
interface reaches none of its cells, so that they age while they are balanced. -/
theorem setBlock_partial (b : Bool) (p : Pack C) :
    cellsOf (p.setBlock b) = match p with
      | .cell s _ c => [⟨false, s, b, c⟩]
      | _ => cellsOf p := by
  cases p <;> rfl

/-- **C85 (partial).** Blocking through the interface of modules reaches the cells directly in the module and no others. -/
theorem setBlockM_partial (b f : Bool) (l : List (Pack C)) :
    cellsOf ((Pack.module f l).setBlockM b)
      = l.flatMap fun p => match p with
          | .cell s _ c => [⟨false, s, b, c⟩]
          | p => cellsOf p := by
  show leavesAll false (l.map (Pack.setBlock b)) = _
  induction l with
  | nil => rfl
  | cons p l ih =>
    rw [List.map_cons, leavesAll, ih, List.flatMap_cons]
    cases p <;> rfl

/-- …and through the interface of batteries the cells directly in its module. -/
theorem setBlockB_partial (b f : Bool) (p : Pack C) (hp : ∃ g l, p = .module g l) :
    (cellsOf ((Pack.battery f p).setBlockB b)).map (fun x => (x.block, x.c))
      = (cellsOf (p.setBlockM b)).map (fun x => (x.block, x.c)) := by
  obtain ⟨g, l, rfl⟩ := hp
  show (leavesAll true (l.map (Pack.setBlock b))).map _ = (leavesAll false (l.map (Pack.setBlock b))).map _
  generalize l.map (Pack.setBlock b) = l
  have key : ∀ n : ℕ, (∀ p : Pack C, sizeOf p < n → (leaves true p).map (fun x => (x.block, x.c))
        = (leaves false p).map (fun x => (x.block, x.c)))
      ∧ (∀ l : List (Pack C), sizeOf l < n → (leavesAll true l).map (fun x => (x.block, x.c))
        = (leavesAll false l).map (fun x => (x.block, x.c))) := by
    intro n
    induction n with
    | zero => exact ⟨fun p h => by omega, fun l h => by omega⟩
    | succ n ih =>
      constructor
      · intro p h
        cases p with
        | cell s b c => rfl
        | module b l => rw [leaves, leaves]; exact ih.2 l (by simp at h; omega)
        | battery b p => rw [leaves, leaves]
      · intro l h
        cases l with
        | nil => rfl
        | cons p l =>
          rw [leavesAll, leavesAll, List.map_append, List.map_append, ih.1 p (by simp at h; omega),
            ih.2 l (by simp at h; omega)]
  exact (key (sizeOf l + 1)).2 l (by omega)

variable [StorageUnit C] [VoltageUnit C]

/-- **C85 (partial).** Balancing a module or a battery leaves the flags of all cells as they were, whatever the result.
Missing: balancing a single cell unblocks it. -/
theorem balancing_flags_partial (fuel : ℕ) (Vbal : ℚ) (p : Pack C) (hp : ∀ s b c, p ≠ .cell s b c) :
    (cellsOf (p.balancing fuel Vbal).2).map Leaf.block = (cellsOf p).map Leaf.block := by
  have h1 : cellsOf (p.setBlock true) = cellsOf p := by
    rw [setBlock_partial]
    cases p with
    | cell s b c => exact absurd rfl (hp s b c)
    | module b l => rfl
    | battery b p => rfl
  have h2 : (cellsOf ((p.setBlock true).rebalance fuel Vbal).2).map Leaf.block = (cellsOf p).map Leaf.block := by
    unfold cellsOf at h1 ⊢
    rw [Pack.rebalance_flags, h1]
  unfold Pack.balancing
  have h3 : ∀ s b c, ((p.setBlock true).rebalance fuel Vbal).2 ≠ .cell s b c := by
    intro s b c
    cases p with
    | cell s b c => exact absurd rfl (hp s b c)
    | module b l => rw [Pack.setBlock, Pack.rebalance]; exact fun h => by cases h
    | battery b p => rw [Pack.setBlock, Pack.rebalance]; exact fun h => by cases h
  rcases hr : (p.setBlock true).rebalance fuel Vbal with ⟨o, p'⟩
  rw [hr] at h2 h3
  dsimp only at h2 h3
  rcases o with st | e | w
  · dsimp only
    rw [setBlock_partial]
    cases p' with
    | cell s b c => exact absurd rfl (h3 s b c)
    | module b l => exact h2
    | battery b p => exact h2
  · exact h2
  · exact h2

end

/-- **C85 (false of the code).** Blocking a module does not block its cell. -/
theorem not_blocksCells : ¬ BlocksCells := by
  intro h
  have := h (.module false [.cell false false smallCell]) true ⟨false, false, false, smallCell⟩
    (by simp [cellsOf, leaves, leavesAll, Pack.setBlock])
  cases this

/-- **C85 (false of the code).** A blocked cell is not blocked any more after balancing. -/
theorem not_keepsBlocking : ¬ KeepsBlocking := by
  intro h
  have := h 10 (365/100) (.cell false true smallCell) (.cell false false smallCell)
    (by simp [Pack.balancing, Pack.setBlock, Pack.rebalance])
  simp [cellsOf, leaves] at this

end Slide

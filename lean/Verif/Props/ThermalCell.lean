import Verif.Spec.ThermalCell
import Verif.Tac
import Mathlib.Tactic.FieldSimp
import Mathlib.Tactic.LinearCombination

/-!
# C111: the thermal model of each cell on its own
-/

namespace Slide
open Spec

theorem EnvCell.thermal_ok {e e1 : EnvCell} {t : ℚ} (h : e.thermal = (.ok t, e1)) : OwnUpdate e (e1.setT t) := by
  unfold EnvCell.thermal at h
  by_cases hC : e.c.C = 0
  · rw [if_pos hC] at h; cases h
  rw [if_neg hC] at h
  dsimp only at h
  split_ifs at h with hr
  · cases h
  simp only [Prod.mk.injEq, Outcome.ok.injEq] at h
  obtain ⟨rfl, rfl⟩ := h
  push Not at hr
  exact { balance := ⟨hC, by simp only [EnvCell.setT, ThermCell.setT]; field_simp; ring⟩
          allowed := ⟨hr.2, hr.1⟩
          total := by simp [EnvCell.setT, ThermCell.setT, ThermCell.done]
          noHeat := rfl, noTime := rfl, rest := ⟨rfl, rfl, rfl, rfl, rfl, rfl⟩ }

/-- The solution of the balance is unique. -/
theorem ownBalance_unique {e : EnvCell} {s t : ℚ} (h : OwnBalance e s) (k : OwnBalance e t) : s = t := by
  have := mul_left_cancel₀ h.1 (h.2.trans k.2.symm)
  linarith

theorem EnvCell.thermal_of {e : EnvCell} {t : ℚ} (h : OwnBalance e t) (k : Allowed e t) :
    ∃ e1, e.thermal = (.ok t, e1) := by
  have ht : t = e.c.T + (e.c.Qgen + e.Qch * e.c.A * (e.Tenv - e.c.T) * e.c.time) / e.c.C :=
    ownBalance_unique h ⟨h.1, by have := h.1; field_simp; ring⟩
  unfold EnvCell.thermal
  rw [if_neg h.1]
  dsimp only
  rw [← ht, if_neg (by push Not; exact ⟨k.2, k.1⟩)]
  exact ⟨_, rfl⟩

theorem EnvCell.thermal_bad {e : EnvCell} (h : ¬ ∃ t, OwnBalance e t ∧ Allowed e t) : ∃ e1, e.thermal = (.throw 9, e1) := by
  unfold EnvCell.thermal
  by_cases hC : e.c.C = 0
  · rw [if_pos hC]; exact ⟨_, rfl⟩
  rw [if_neg hC]
  dsimp only
  split_ifs with hr
  · exact ⟨_, rfl⟩
  · exfalso
    push Not at hr
    exact h ⟨_, ⟨hC, by field_simp; ring⟩, hr.2, hr.1⟩

mutual
theorem tree_ok : ∀ (u : ITree) (t : ℚ) (u1 u2 : ITree), u.thermal = (.ok t, u1) → u1.setT t = (.ok (), u2) →
    List.Forall₂ OwnUpdate (heatCells u) (heatCells u2) ∧ otherParts u2 = otherParts u
  | .cell e, t, u1, u2, h, k => by
    rw [ITree.thermal] at h
    rcases he : e.thermal with ⟨o, e1⟩
    rw [he] at h
    simp only [Prod.mk.injEq] at h
    obtain ⟨rfl, rfl⟩ := h
    simp only [ITree.setT, Prod.mk.injEq, true_and] at k
    subst k
    exact ⟨.cons (EnvCell.thermal_ok he) .nil, rfl⟩
  | .plain s, t, u1, u2, h, k => by
    rw [ITree.thermal] at h
    simp only [Prod.mk.injEq, Outcome.ok.injEq] at h
    obtain ⟨rfl, rfl⟩ := h
    simp only [ITree.setT, Prod.mk.injEq, true_and] at k
    subst k
    exact ⟨.nil, rfl⟩
  | .module th cool ks, t, u1, u2, h, k => by
    rw [ITree.thermal] at h
    split_ifs at h with hl
    · cases h
    have ih := trees_ok ks
    rcases hk : ITree.thermalKids ks with ⟨o, ks1⟩
    rw [hk] at h
    cases o with
    | throw e => cases h
    | ub w => cases h
    | ok ts =>
      dsimp only at h
      rcases hs : ITree.setKids ks1 ts with ⟨o, ks2⟩
      rw [hs] at h
      cases o with
      | throw e => cases h
      | ub w => cases h
      | ok x =>
        simp only [Prod.mk.injEq, Outcome.ok.injEq] at h
        obtain ⟨rfl, rfl⟩ := h
        have := ih ts ks1 ks2 hk hs
        simp only [ITree.setT, CoolSystem.setT, Prod.mk.injEq] at k
        split_ifs at k with hr
        · simp at k
        · obtain ⟨-, rfl⟩ := k
          rw [heatCells, heatCells, otherParts, otherParts, this.2]
          exact ⟨this.1, rfl⟩
termination_by structural u => u
theorem trees_ok : ∀ (us : List ITree) (ts : List ℚ) (us1 us2 : List ITree), ITree.thermalKids us = (.ok ts, us1) →
    ITree.setKids us1 ts = (.ok (), us2) →
    List.Forall₂ OwnUpdate (heatCellss us) (heatCellss us2) ∧ otherPartss us2 = otherPartss us
  | [], ts, us1, us2, h, k => by
    rw [ITree.thermalKids] at h
    simp only [Prod.mk.injEq, Outcome.ok.injEq] at h
    obtain ⟨rfl, rfl⟩ := h
    simp only [ITree.setKids, Prod.mk.injEq, true_and] at k
    subst k
    exact ⟨.nil, rfl⟩
  | u :: us, ts, us1, us2, h, k => by
    rw [ITree.thermalKids] at h
    have ihu := tree_ok u
    have ih := trees_ok us
    rcases hu : u.thermal with ⟨o, u1⟩
    rw [hu] at h
    cases o with
    | throw e => cases h
    | ub w => cases h
    | ok t =>
      dsimp only at h
      rcases hk : ITree.thermalKids us with ⟨o, ks1⟩
      rw [hk] at h
      cases o with
      | throw e => cases h
      | ub w => cases h
      | ok ts' =>
        simp only [Prod.mk.injEq, Outcome.ok.injEq] at h
        obtain ⟨rfl, rfl⟩ := h
        rw [ITree.setKids] at k
        rcases hs : u1.setT t with ⟨o, u2⟩
        rw [hs] at k
        cases o with
        | throw e => cases k
        | ub w => cases k
        | ok x =>
          dsimp only at k
          rcases hs2 : ITree.setKids ks1 ts' with ⟨o, ks2⟩
          rw [hs2] at k
          simp only [Prod.mk.injEq] at k
          obtain ⟨rfl, rfl⟩ := k
          have a := ihu t u1 u2 hu hs
          have b := ih ts' ks1 ks2 hk hs2
          rw [heatCellss, heatCellss, otherPartss, otherPartss, a.2, b.2]
          exact ⟨List.rel_append a.1 b.1, rfl⟩
termination_by structural us => us
end

mutual
theorem tree_total : ∀ u : ITree, Supported u → (∀ e ∈ heatCells u, ∃ t, OwnBalance e t ∧ Allowed e t) →
    ∃ t u1, u.thermal = (.ok t, u1) ∧ ∃ u2, u1.setT t = (.ok (), u2)
  | .cell e, _, h => by
    rw [heatCells] at h
    obtain ⟨t, ht, ha⟩ := h e (by simp)
    obtain ⟨e1, he⟩ := EnvCell.thermal_of ht ha
    refine ⟨t, .cell e1, ?_, _, rfl⟩
    rw [ITree.thermal, he]
  | .plain s, _, _ => ⟨s, .plain s, by rw [ITree.thermal], _, rfl⟩
  | .module th cool ks, w, h => by
    rw [Supported] at w
    rw [heatCells] at h
    obtain ⟨ts, ks1, hk, ks2, hs⟩ := trees_total ks w.2.2 h
    refine ⟨cool.T, .module (HTree.reset th) cool ks2, ?_, ?_⟩
    · rw [ITree.thermal, if_neg (by have := w.1; unfold HTree.maxKids; omega), hk]
      dsimp only
      rw [hs]
    · simp only [ITree.setT, CoolSystem.setT]
      rw [if_neg (by have := w.2.1; unfold CoolantOK at this; push Not; exact ⟨this.1, this.2⟩)]
      exact ⟨_, rfl⟩
termination_by structural u => u
theorem trees_total : ∀ us : List ITree, Supporteds us → (∀ e ∈ heatCellss us, ∃ t, OwnBalance e t ∧ Allowed e t) →
    ∃ ts us1, ITree.thermalKids us = (.ok ts, us1) ∧ ∃ us2, ITree.setKids us1 ts = (.ok (), us2)
  | [], _, _ => ⟨[], [], by rw [ITree.thermalKids], [], rfl⟩
  | u :: us, w, h => by
    rw [Supporteds] at w
    rw [heatCellss] at h
    obtain ⟨t, u1, hu, u2, hs⟩ := tree_total u w.1 fun e he => h e (List.mem_append_left _ he)
    obtain ⟨ts, us1, hk, us2, hs2⟩ := trees_total us w.2 fun e he => h e (List.mem_append_right _ he)
    refine ⟨t :: ts, u1 :: us1, ?_, u2 :: us2, ?_⟩
    · rw [ITree.thermalKids, hu]
      dsimp only
      rw [hk]
    · rw [ITree.setKids, hs]
      dsimp only
      rw [hs2]
termination_by structural us => us
end

mutual
theorem tree_throws : ∀ u : ITree, Supported u → (∃ e ∈ heatCells u, ¬ ∃ t, OwnBalance e t ∧ Allowed e t) →
    ∃ u1, u.thermal = (.throw 9, u1)
  | .cell e, _, h => by
    rw [heatCells] at h
    obtain ⟨e', he', hb⟩ := h
    rw [List.mem_singleton] at he'
    subst he'
    obtain ⟨e1, he⟩ := EnvCell.thermal_bad hb
    exact ⟨.cell e1, by rw [ITree.thermal, he]⟩
  | .plain s, _, h => by
    rw [heatCells] at h
    simp at h
  | .module th cool ks, w, h => by
    rw [Supported] at w
    rw [heatCells] at h
    obtain ⟨ks1, hk⟩ := trees_throw ks w.2.2 h
    refine ⟨.module (HTree.reset th) cool ks1, ?_⟩
    rw [ITree.thermal, if_neg (by have := w.1; unfold HTree.maxKids; omega), hk]
termination_by structural u => u
theorem trees_throw : ∀ us : List ITree, Supporteds us → (∃ e ∈ heatCellss us, ¬ ∃ t, OwnBalance e t ∧ Allowed e t) →
    ∃ us1, ITree.thermalKids us = (.throw 9, us1)
  | [], _, h => by
    rw [heatCellss] at h
    simp at h
  | u :: us, w, h => by
    rw [Supporteds] at w
    have ihu := tree_throws u w.1
    have ih := trees_throw us w.2
    by_cases hb : ∃ e ∈ heatCells u, ¬ ∃ t, OwnBalance e t ∧ Allowed e t
    · obtain ⟨u1, hu⟩ := ihu hb
      exact ⟨u1 :: us, by rw [ITree.thermalKids, hu]⟩
    · have hg : ∀ e ∈ heatCells u, ∃ t, OwnBalance e t ∧ Allowed e t := by
        intro e he
        by_contra hc
        exact hb ⟨e, he, hc⟩
      obtain ⟨t, u1, hu, -⟩ := tree_total u w.1 hg
      have : ∃ e ∈ heatCellss us, ¬ ∃ t, OwnBalance e t ∧ Allowed e t := by
        obtain ⟨e, he, hc⟩ := h
        rw [heatCellss, List.mem_append] at he
        rcases he with he | he
        · exact absurd (hg e he) hc
        · exact ⟨e, he, hc⟩
      obtain ⟨us1, hk⟩ := ih this
      refine ⟨u1 :: us1, ?_⟩
      rw [ITree.thermalKids, hu]
      dsimp only
      rw [hk]
termination_by structural us => us
end

/-! ### The property -/

/-- **C111.** After a successful update of a module every single-particle cell in it, at whatever depth, has exactly the
temperature that solves its own heat balance, and this temperature is allowed; its heat has moved to its total.  Cells
without thermal model and all cooling systems are as before, and the module's temperature is returned. -/
theorem each_on_its_own (th : ModTherm) (cool : CoolSystem) (ks : List ITree) (t : ℚ) (u' : ITree)
    (h : (ITree.module th cool ks).thermal = (.ok t, u')) :
    t = cool.T ∧ List.Forall₂ OwnUpdate (heatCells (.module th cool ks)) (heatCells u') ∧
      otherParts u' = otherParts (.module th cool ks) := by
  rw [ITree.thermal] at h
  split_ifs at h with hl
  · cases h
  rcases hk : ITree.thermalKids ks with ⟨o, ks1⟩
  rw [hk] at h
  cases o with
  | throw e => cases h
  | ub w => cases h
  | ok ts =>
    dsimp only at h
    rcases hs : ITree.setKids ks1 ts with ⟨o, ks2⟩
    rw [hs] at h
    cases o with
    | throw e => cases h
    | ub w => cases h
    | ok x =>
      simp only [Prod.mk.injEq, Outcome.ok.injEq] at h
      obtain ⟨rfl, rfl⟩ := h
      have := trees_ok ks ts ks1 ks2 hk hs
      rw [heatCells, heatCells, otherParts, otherParts, this.2]
      exact ⟨rfl, this.1, rfl⟩

/-- The update of a supported unit succeeds if every cell has an allowed temperature of its own; otherwise it throws 9. -/
theorem each_on_its_own_or_9 (u : ITree) (w : Supported u) :
    ((∀ e ∈ heatCells u, ∃ t, OwnBalance e t ∧ Allowed e t) ∧ ∃ t u', u.thermal = (.ok t, u')) ∨
      ((∃ e ∈ heatCells u, ¬ ∃ t, OwnBalance e t ∧ Allowed e t) ∧ ∃ u', u.thermal = (.throw 9, u')) := by
  by_cases h : ∀ e ∈ heatCells u, ∃ t, OwnBalance e t ∧ Allowed e t
  · obtain ⟨t, u1, hu, -⟩ := tree_total u w h
    exact .inl ⟨h, t, u1, hu⟩
  · push Not at h
    obtain ⟨e, he, hn⟩ := h
    have hb : ∃ e ∈ heatCells u, ¬ ∃ t, OwnBalance e t ∧ Allowed e t :=
      ⟨e, he, fun ⟨t, ht, ha⟩ => hn t ht ha⟩
    exact .inr ⟨hb, tree_throws u w hb⟩

/-- Without generated heat, and if the exchange is not too strong for the step, the new temperature lies between the old one
and that of the environment. -/
theorem own_between {e e' : EnvCell} (h : OwnUpdate e e') (hq : e.c.Qgen = 0)
    (h0 : 0 ≤ e.Qch * e.c.A * e.c.time) (h1 : e.Qch * e.c.A * e.c.time ≤ e.c.C) :
    min e.c.T e.Tenv ≤ e'.c.T ∧ e'.c.T ≤ max e.c.T e.Tenv := by
  obtain ⟨hC, hb⟩ := h.balance
  have hC' : 0 < e.c.C := lt_of_le_of_ne (h0.trans h1) (Ne.symm hC)
  rw [hq, zero_add] at hb
  set k := e.Qch * e.c.A * e.c.time with hk
  have hb' : e.c.C * (e'.c.T - e.c.T) = k * (e.Tenv - e.c.T) := by rw [hb, hk]; ring
  rcases le_total e.c.T e.Tenv with hle | hle
  · rw [min_eq_left hle, max_eq_right hle]
    constructor <;> nlinarith
  · rw [min_eq_right hle, max_eq_left hle]
    constructor <;> nlinarith

/-- A cell of 2 J/K at 290 K with 10 J of heat, 1 s after the last update, in an environment of 280 K. -/
def warm111 : EnvCell := { c := { T := 290, A := 1, C := 2, Qgen := 10, time := 1 }, Tenv := 280, Qch := 1/2 }

/-- The same cell with so much heat that it would leave its range. -/
def hot111 : EnvCell := { warm111 with c := { warm111.c with Qgen := 1000 } }

example : Supported (.module ⟨1, 1, 0, 0⟩ (CoolSystem.make 2 1)
      [.cell warm111, .module ⟨1, 1, 0, 0⟩ (CoolSystem.make 1 1) [.plain 300, .cell warm111]]) ∧
    ((ITree.module ⟨1, 1, 0, 0⟩ (CoolSystem.make 2 1)
      [.cell warm111, .module ⟨1, 1, 0, 0⟩ (CoolSystem.make 1 1) [.plain 300, .cell warm111]]).thermal.1 = .ok 288) ∧
    (heatCells (ITree.module ⟨1, 1, 0, 0⟩ (CoolSystem.make 2 1)
      [.cell warm111, .module ⟨1, 1, 0, 0⟩ (CoolSystem.make 1 1) [.plain 300, .cell warm111]]).thermal.2).map
        (fun e => e.c.T) = [292 + 1/2, 292 + 1/2] := by
  refine ⟨?_, by decide +kernel, by decide +kernel⟩
  simp [Supported, Supporteds, CoolantOK, CoolSystem.make, CoolSystem.T_ENV]
  norm_num

example : min warm111.c.T warm111.Tenv = 280 ∧ 0 ≤ warm111.Qch * warm111.c.A * warm111.c.time ∧
    warm111.Qch * warm111.c.A * warm111.c.time ≤ warm111.c.C := by decide +kernel

/-- What the program guarantees of `EachOnItsOwn`: it holds as long as all cells have an allowed temperature. -/
theorem eachOnItsOwn_partial (th : ModTherm) (cool : CoolSystem) (ks : List ITree) (w : Supported (.module th cool ks))
    (h : ∀ e ∈ heatCellss ks, ∃ t, OwnBalance e t ∧ Allowed e t) :
    List.Forall₂ OwnUpdate (heatCellss ks) (heatCells (ITree.module th cool ks).thermal.2) := by
  obtain ⟨t, u1, hu, -⟩ := tree_total (.module th cool ks) w (by rw [heatCells]; exact h)
  have := (each_on_its_own th cool ks t u1 hu).2.1
  rw [hu]
  rwa [heatCells] at this

/-- `EachOnItsOwn` is false: next to a cell that gets too hot a cell loses its heat without getting warmer. -/
theorem not_eachOnItsOwn : ¬ EachOnItsOwn := by
  intro h
  have := h ⟨1, 1, 0, 0⟩ (CoolSystem.make 2 1) [.cell warm111, .cell hot111] (by
    simp [Supported, Supporteds, CoolantOK, CoolSystem.make, CoolSystem.T_ENV]
    norm_num)
  have e : heatCells (ITree.module ⟨1, 1, 0, 0⟩ (CoolSystem.make 2 1) [.cell warm111, .cell hot111]).thermal.2 =
      [{ warm111 with c := warm111.c.done.done }, { hot111 with c := hot111.c.done }] := by decide +kernel
  rw [e] at this
  simp only [heatCellss, heatCells, List.append_nil, List.cons_append, List.nil_append] at this
  cases this with
  | cons hw _ =>
    have hb := (hw ⟨292 + 1/2, ⟨by decide +kernel, by decide +kernel⟩, by
      refine ⟨?_, ?_⟩ <;> decide +kernel⟩).balance.2
    revert hb
    decide +kernel

end Slide

import Verif.Props.Guarded
import Verif.Props.CyclerCV
import Verif.Lemmas.PackCycle

/-!
C145: individual checks and constant-voltage phases.
-/

namespace Slide
open StorageUnit Spec Cyc CellLaws

/-- C145, full statement: whenever a constant-voltage phase of a cycler with individual checks, at a voltage within the
operating window of the unit, reports that it reached its current limit, no cell is driven beyond its operating window. -/
def CVGuards (C : Type) [StorageUnit C] [VoltageUnit C] : Prop :=
  ∀ (d : ℕ) (c c' : Cyc (Tree C d)) (Vset Ilim tlim dt : ℚ) (ndt : ℤ) (th th' : Thr),
    c.diagnostic = true → 0 < dt → 0 < tlim → (lim c.su).Vmin ≤ Vset → Vset ≤ (lim c.su).Vmax →
    c.CV Vset Ilim tlim dt ndt th = (.ok .ReachedCurrentLimit, c', th') → AllGuarded d c'.su

/-- C145 is false of the code: a string of two cells at 4.208 V and 3.84 V is charged at 8.1 V (the string may have 8.4 V).  When
the phase reports its current limit the fuller cell is at 4.236 V and being charged with 6.7 A. -/
theorem not_cvGuards : ¬ CVGuards (ECM 0) := by
  intro hall
  have h1 : ((weakCycler true (96/100) (8/10)).CV (81/10) 8 100 10 0 Thr.zero).1 = .ok .ReachedCurrentLimit := by
    decide +kernel
  have h2 : (cells 1 ((weakCycler true (96/100) (8/10)).CV (81/10) 8 100 10 0 Thr.zero).2.1.su).map
      (fun c => (V c, StorageUnit.I c)) = [(233175908521187 / 55037657088000, -1273638353 / 191102976),
        (212922050712803 / 55037657088000, -1273638353 / 191102976)] := by decide +kernel
  rcases hr : (weakCycler true (96/100) (8/10)).CV (81/10) 8 100 10 0 Thr.zero with ⟨o, c', th'⟩
  rw [hr] at h1 h2
  have h3 := hall 1 (weakCycler true (96/100) (8/10)) c' (81/10) 8 100 10 0 Thr.zero th' rfl (by norm_num) (by norm_num) (by decide +kernel) (by decide +kernel)
    (by rw [hr]; exact congrArg (·, c', th') h1)
  dsimp only at h2
  have h4 : ((233175908521187 / 55037657088000 : ℚ), (-1273638353 / 191102976 : ℚ)) ∈
      (cells 1 c'.su).map (fun c => (V c, StorageUnit.I c)) := by
    rw [h2]; simp
  obtain ⟨c, hc, he⟩ := List.mem_map.mp h4
  have h5 := (h3 c hc).high
  have e1 : V c = 233175908521187 / 55037657088000 := congrArg Prod.fst he
  have e2 : StorageUnit.I c = -1273638353 / 191102976 := congrArg Prod.snd he
  rw [e1, e2] at h5
  have := h5 (by norm_num)
  norm_num at this

variable {C : Type} [StorageUnit C] [VoltageUnit C]

omit [StorageUnit C] [VoltageUnit C] in
/-- All cells of a pack of copies are copies. -/
theorem uniform_cells {c : C} {d s p : ℕ} {t : Tree C d} (h : UniformPack c d s p t) : ∀ x ∈ cells d t, x = c := by
  induction d generalizing s p with
  | zero =>
    obtain ⟨rfl, -, -⟩ := h
    intro x hx
    exact List.mem_singleton.mp hx
  | succ d ih =>
    cases t with
    | cell y =>
      obtain ⟨rfl, -, -⟩ := h
      intro x hx
      exact List.mem_singleton.mp hx
    | series m =>
      obtain ⟨N, s', t, h1, h2, rfl, h4, h5⟩ := h
      intro x hx
      obtain ⟨k, hk, hx⟩ := List.mem_flatMap.mp (show x ∈ m.kids.flatMap (fun k => cells d k.su) from hx)
      rw [h4] at hk
      rw [List.eq_of_mem_replicate hk] at hx
      exact ih h5 x hx
    | parallel m =>
      obtain ⟨N, s', t, h1, h2, rfl, h4, h5⟩ := h
      intro x hx
      obtain ⟨k, hk, hx⟩ := List.mem_flatMap.mp (show x ∈ m.kids.flatMap (fun k => cells d k.su) from hx)
      rw [h4] at hk
      rw [List.eq_of_mem_replicate hk] at hx
      exact ih h5 x hx

/-- The part that holds: if the cells are equal at the end – a single cell, or a balanced pack – none is driven beyond its
operating window. -/
theorem cvGuards_partial (d s p : ℕ) (u : C) (hlim : (lim u).Vmin = 27/10 ∧ (lim u).Vmax = 42/10) (c c' : Cyc (Tree C d))
    (Vset Ilim tlim dt : ℚ) (ndt : ℤ) (th th' : Thr) (hu : UniformPack u d s p c'.su) (h1 : (lim c'.su).Vmin ≤ Vset)
    (h2 : Vset ≤ (lim c'.su).Vmax) (h : c.CV Vset Ilim tlim dt ndt th = (.ok .ReachedCurrentLimit, c', th')) :
    AllGuarded d c'.su := by
  have hr := uniform_readings u d s p c'.su hu
  rw [hr.Vmin, hlim.1] at h1
  rw [hr.Vmax, hlim.2] at h2
  have hs : (1 : ℚ) ≤ s := by exact_mod_cast (uniform_pos _ _ _ _ _ hu).1
  have htol := ((cv_status_meaning c c' Vset Ilim tlim dt ndt th th' _ h).1 rfl).2
  have hset : 0 < Vset := by linarith
  have hV : |V c'.su - Vset| < 1/100 * s := by
    rcases htol with g | g
    · linarith
    · rw [div_lt_iff₀ hset] at g
      linarith
  rw [abs_lt] at hV
  have hpos : 0 < V u := by
    by_contra hn
    have := uniform_V_nonpos hu (not_lt.mp hn)
    linarith
  rw [hr.voltage hpos] at hV
  have hg : NotOverdriven u := by
    refine ⟨hpos, fun _ => ?_, fun _ => ?_⟩
    · by_contra hn
      have : (s : ℚ) * V u < s * (27/10 - 1/100) := mul_lt_mul_of_pos_left (not_le.mp hn) (by linarith)
      linarith [hV.1]
    · by_contra hn
      have : (s : ℚ) * (42/10 + 1/100) < s * V u := mul_lt_mul_of_pos_left (not_le.mp hn) (by linarith)
      linarith [hV.2]
  intro x hx
  rw [uniform_cells hu x hx]
  exact hg

/-- A single cell (with the limits of the library). -/
theorem cv_guards_cell (c c' : Cyc C) (hlim : ∀ u : C, (lim u).Vmin = 27/10 ∧ (lim u).Vmax = 42/10) (Vset Ilim tlim dt : ℚ) (ndt : ℤ)
    (th th' : Thr) (h1 : 27/10 ≤ Vset) (h2 : Vset ≤ 42/10)
    (h : c.CV Vset Ilim tlim dt ndt th = (.ok .ReachedCurrentLimit, c', th')) : NotOverdriven c'.su :=
  cvGuards_partial 0 1 1 c'.su (hlim _) c c' Vset Ilim tlim dt ndt th th' ⟨rfl, rfl, rfl⟩ (by rw [← (hlim c'.su).1] at h1; exact h1)
    (by rw [← (hlim c'.su).2] at h2; exact h2) h c'.su (List.mem_singleton.mpr rfl)

/-- The limits of the cells of the library are those. -/
example {n : ℕ} : ∀ u : ECM n, (lim u).Vmin = 27/10 ∧ (lim u).Vmax = 42/10 := fun _ =>
  show cellLimits.Vmin = 27/10 ∧ cellLimits.Vmax = 42/10 by decide +kernel

/-- A phase that meets the hypotheses: a cell at 3.84 V is charged at 3.9 V until less than 8 A flow. -/
example :
    let r := CV ({ su := bucket (8/10) 0, diagnostic := true } : Cyc (ECM 0)) (39/10) 8 100 10 0 Thr.zero
    r.1 = .ok .ReachedCurrentLimit ∧ r.2.1.su.st.I < 0 ∧ V r.2.1.su < 42/10 ∧ 0 < r.2.2.Ah := by
  decide +kernel

end Slide

import Verif.Spec.Procedure
import Verif.Tac

/-! Helper lemmas for `Verif.Props.Procedure`: the cycler only adds to the meter it is given. -/

namespace Slide
open Spec

theorem Thr.add_assoc' (a b c : Thr) : (a.add b).add c = a.add (b.add c) := by
  simp only [Thr.add]; ext <;> ring

theorem Thr.add_zero' (a : Thr) : a.add Thr.zero = a := by
  simp only [Thr.add, Thr.zero]; ext <;> ring

variable {U : Type} [StorageUnit U]

theorem ccBody_meter (I vlim tlim : ℚ) (ndt : ℤ) (nMax : ℕ) (v : Cyc.CCVars) (c : Cyc U) (th : Thr) :
    Cyc.ccBody I vlim tlim ndt nMax v c th
      = ((Cyc.ccBody I vlim tlim ndt nMax v c Thr.zero).1, (Cyc.ccBody I vlim tlim ndt nMax v c Thr.zero).2.1,
          th.add (Cyc.ccBody I vlim tlim ndt nMax v c Thr.zero).2.2) := by
  unfold Cyc.ccBody
  rcases c.setCurrent I vlim with ⟨o, c1⟩
  rcases o with st | e | w
  · dsimp only
    generalize (if (v.nOnce : ℚ) * v.dti > tlim - v.ttot then 1 else v.nOnce) = nOnce
    generalize (if v.dti > tlim - v.ttot then tlim - v.ttot else v.dti) = dti
    rcases StorageUnit.timeStep c1.su dti nOnce with ⟨o2, u2⟩
    rcases o2 with _ | e | w
    · dsimp only
      rcases Cyc.ccVoltage (c1.withSU u2) with st | vi
      · simp [Thr.add_zero']
      · dsimp only
        split
        · simp [Thr.add, Thr.zero]
        · simp [Thr.add, Thr.zero]
    · simp [Thr.add_zero']
    · simp [Thr.add_zero']
  · simp [Thr.add_zero']
  · simp [Thr.add_zero']

theorem ccLoop_meter (I vlim tlim : ℚ) (ndt : ℤ) (nMax : ℕ) (fuel : ℕ) : ∀ (v : Cyc.CCVars) (c : Cyc U) (th : Thr),
    Cyc.ccLoop I vlim tlim ndt nMax fuel v c th
      = ((Cyc.ccLoop I vlim tlim ndt nMax fuel v c Thr.zero).1,
          (Cyc.ccLoop I vlim tlim ndt nMax fuel v c Thr.zero).2.1,
          th.add (Cyc.ccLoop I vlim tlim ndt nMax fuel v c Thr.zero).2.2) := by
  induction fuel with
  | zero =>
    intro v c th
    simp only [Cyc.ccLoop]
    split <;> simp [Thr.add_zero']
  | succ fuel ih =>
    intro v c th
    rw [Cyc.ccLoop, Cyc.ccLoop]
    by_cases h : v.ttot < tlim
    · rw [if_pos h, if_pos h, ccBody_meter]
      rcases Cyc.ccBody I vlim tlim ndt nMax v c Thr.zero with ⟨o, c1, d⟩
      rcases o with x | e | w
      · rcases x with st | v' | v'
        · rfl
        · rfl
        · dsimp only
          rw [ih v' c1 (th.add d), ih v' c1 d]
          simp [Thr.add_assoc']
      · rfl
      · rfl
    · rw [if_neg h, if_neg h]; simp [Thr.add_zero']

theorem CC_meter (fuel : ℕ) (c : Cyc U) (I vlim tlim dt : ℚ) (ndt : ℤ) (th : Thr) :
    c.CC fuel I vlim tlim dt ndt th
      = ((c.CC fuel I vlim tlim dt ndt Thr.zero).1, (c.CC fuel I vlim tlim dt ndt Thr.zero).2.1,
          th.add (c.CC fuel I vlim tlim dt ndt Thr.zero).2.2) := by
  unfold Cyc.CC
  dsimp only
  generalize Cyc.storeIf (decide (0 < ndt)) c = c0
  rcases c0.setCurrent I vlim with ⟨o, c1⟩
  rcases o with st | e | w
  · dsimp only
    split
    · simp [Thr.add_zero']
    · split
      · simp [Thr.add_zero']
      · rw [ccLoop_meter]
        generalize Cyc.ccLoop I vlim tlim ndt _ fuel _ c1 Thr.zero = r
        rcases r with ⟨o, c2, d⟩
        rcases o with x | e | w
        · rcases x with st | ⟨v, b⟩
          · rfl
          · dsimp only
            split
            · rfl
            · split <;> rfl
        · rfl
        · rfl
  · simp [Thr.add_zero']
  · simp [Thr.add_zero']

variable [VoltageUnit U]

theorem cvBody_meter (Vset Ilim tlim dt : ℚ) (nt : ℕ) (ndt : ℤ) (i : ℕ) (c : Cyc U) (ttot : ℚ) (th : Thr) :
    Cyc.cvBody Vset Ilim tlim dt nt ndt i c ttot th
      = ((Cyc.cvBody Vset Ilim tlim dt nt ndt i c ttot Thr.zero).1,
          (Cyc.cvBody Vset Ilim tlim dt nt ndt i c ttot Thr.zero).2.1,
          (Cyc.cvBody Vset Ilim tlim dt nt ndt i c ttot Thr.zero).2.2.1,
          th.add (Cyc.cvBody Vset Ilim tlim dt nt ndt i c ttot Thr.zero).2.2.2) := by
  unfold Cyc.cvBody
  rcases VoltageUnit.setVoltage c.su Vset with ⟨o, u1⟩
  rcases o with st | e | w
  · dsimp only
    generalize (if i + 1 = nt then tlim - dt * ((nt : ℚ) - 1) else dt) = dti
    rcases StorageUnit.timeStep u1 dti 1 with ⟨o2, u2⟩
    rcases o2 with _ | e | w
    · dsimp only
      split
      · simp [Thr.add, Thr.zero]
      · split
        · simp [Thr.add, Thr.zero]
        · split <;> simp [Thr.add, Thr.zero]
    · simp [Thr.add_zero']
    · simp [Thr.add_zero']
  · simp [Thr.add_zero']
  · simp [Thr.add_zero']

theorem cvLoop_meter (Vset Ilim tlim dt : ℚ) (nt : ℕ) (ndt : ℤ) (left : ℕ) :
    ∀ (i : ℕ) (c : Cyc U) (ttot : ℚ) (th : Thr),
    Cyc.cvLoop Vset Ilim tlim dt nt ndt left i c ttot th
      = ((Cyc.cvLoop Vset Ilim tlim dt nt ndt left i c ttot Thr.zero).1,
          (Cyc.cvLoop Vset Ilim tlim dt nt ndt left i c ttot Thr.zero).2.1,
          (Cyc.cvLoop Vset Ilim tlim dt nt ndt left i c ttot Thr.zero).2.2.1,
          th.add (Cyc.cvLoop Vset Ilim tlim dt nt ndt left i c ttot Thr.zero).2.2.2) := by
  induction left with
  | zero => intro i c ttot th; simp [Cyc.cvLoop, Thr.add_zero']
  | succ left ih =>
    intro i c ttot th
    rw [Cyc.cvLoop, Cyc.cvLoop, cvBody_meter]
    rcases Cyc.cvBody Vset Ilim tlim dt nt ndt i c ttot Thr.zero with ⟨o, c1, t1, d⟩
    rcases o with x | e | w
    · rcases x with st | b
      · rfl
      · rcases b with _ | b
        · dsimp only
          rw [ih (i + 1) c1 t1 (th.add d), ih (i + 1) c1 t1 d]
          simp [Thr.add_assoc']
        · rfl
    · rfl
    · rfl

theorem CV_meter (c : Cyc U) (Vset Ilim tlim dt : ℚ) (ndt : ℤ) (th : Thr) :
    c.CV Vset Ilim tlim dt ndt th
      = ((c.CV Vset Ilim tlim dt ndt Thr.zero).1, (c.CV Vset Ilim tlim dt ndt Thr.zero).2.1,
          th.add (c.CV Vset Ilim tlim dt ndt Thr.zero).2.2) := by
  unfold Cyc.CV
  dsimp only
  generalize Cyc.storeIf (decide (0 < ndt)) c = c0
  split
  · simp [Thr.add_zero']
  · split
    · simp [Thr.add_zero']
    · rw [cvLoop_meter]
      generalize Cyc.cvLoop Vset Ilim tlim dt _ ndt _ 0 c0 0 Thr.zero = r
      rcases r with ⟨o, c2, t, d⟩
      rcases o with x | e | w
      · rcases x with st | b
        · rfl
        · dsimp only
          split
          · rfl
          · rcases b with _ | _ | _ <;> rfl
      · rfl
      · rfl

/-! ### Throughput never decreases -/

omit [VoltageUnit U] in
theorem ccBody_mono (I vlim tlim : ℚ) (ndt : ℤ) (nMax : ℕ) (v : Cyc.CCVars) (c : Cyc U) (th : Thr)
    (hd : 0 ≤ v.dti) (ht : v.ttot < tlim) :
    th.Ah ≤ (Cyc.ccBody I vlim tlim ndt nMax v c th).2.2.Ah
    ∧ ∀ v', (Cyc.ccBody I vlim tlim ndt nMax v c th).1 = .ok (.cont v') → 0 ≤ v'.dti := by
  unfold Cyc.ccBody
  rcases c.setCurrent I vlim with ⟨o, c1⟩
  rcases o with st | e | w
  · dsimp only
    generalize (if (v.nOnce : ℚ) * v.dti > tlim - v.ttot then 1 else v.nOnce) = nOnce
    have hdti : 0 ≤ (if v.dti > tlim - v.ttot then tlim - v.ttot else v.dti) := by
      split <;> linarith
    generalize (if v.dti > tlim - v.ttot then tlim - v.ttot else v.dti) = dti at hdti
    rcases StorageUnit.timeStep c1.su dti nOnce with ⟨o2, u2⟩
    have hinc : 0 ≤ |I| * (dti * nOnce) / 3600 := by positivity
    rcases o2 with _ | e | w
    · dsimp only
      rcases Cyc.ccVoltage (c1.withSU u2) with st | vi
      · exact ⟨le_refl _, fun v' h => by cases h⟩
      · dsimp only
        split
        · exact ⟨by dsimp only; linarith, fun v' h => by cases h⟩
        · refine ⟨by dsimp only; linarith, fun v' h => ?_⟩
          cases h; exact hdti
    · exact ⟨le_refl _, fun v' h => by cases h⟩
    · exact ⟨le_refl _, fun v' h => by cases h⟩
  · exact ⟨le_refl _, fun v' h => by cases h⟩
  · exact ⟨le_refl _, fun v' h => by cases h⟩

omit [VoltageUnit U] in
theorem ccLoop_mono (I vlim tlim : ℚ) (ndt : ℤ) (nMax : ℕ) (fuel : ℕ) : ∀ (v : Cyc.CCVars) (c : Cyc U) (th : Thr),
    0 ≤ v.dti → th.Ah ≤ (Cyc.ccLoop I vlim tlim ndt nMax fuel v c th).2.2.Ah := by
  induction fuel with
  | zero => intro v c th _; rw [Cyc.ccLoop]; split <;> exact le_refl _
  | succ fuel ih =>
    intro v c th hd
    rw [Cyc.ccLoop]
    by_cases h : v.ttot < tlim
    · rw [if_pos h]
      have hb := ccBody_mono I vlim tlim ndt nMax v c th hd h
      rcases hw : Cyc.ccBody I vlim tlim ndt nMax v c th with ⟨o, c1, d⟩
      rw [hw] at hb
      rcases o with x | e | w
      · rcases x with st | v' | v'
        · exact hb.1
        · exact hb.1
        · exact hb.1.trans (ih v' c1 d (hb.2 v' rfl))
      · exact hb.1
      · exact hb.1
    · rw [if_neg h]

omit [VoltageUnit U] in
theorem CC_mono (fuel : ℕ) (c : Cyc U) (I vlim tlim dt : ℚ) (ndt : ℤ) (th : Thr) (hdt : 0 ≤ dt) :
    th.Ah ≤ (c.CC fuel I vlim tlim dt ndt th).2.2.Ah := by
  unfold Cyc.CC
  dsimp only
  generalize Cyc.storeIf (decide (0 < ndt)) c = c0
  rcases c0.setCurrent I vlim with ⟨o, c1⟩
  rcases o with st | e | w
  · dsimp only
    split
    · exact le_refl _
    · split
      · exact le_refl _
      · have hl := ccLoop_mono I vlim tlim ndt (if decide (0 < ndt) = true then min 2 ndt.toNat else 2) fuel
          { dti := dt, ttot := 0, idat := 0, nOnce := 1, vo := StorageUnit.V c1.su, vi := StorageUnit.V c1.su,
            allowUp := true } c1 th hdt
        revert hl
        generalize Cyc.ccLoop I vlim tlim ndt _ fuel _ c1 th = r
        rcases r with ⟨o, c2, d⟩
        intro hl
        rcases o with x | e | w
        · rcases x with st | ⟨v, b⟩
          · exact hl
          · dsimp only
            split
            · exact hl
            · split <;> exact hl
        · exact hl
        · exact hl
  · exact le_refl _
  · exact le_refl _

theorem cvBody_mono (Vset Ilim tlim dt : ℚ) (nt : ℕ) (ndt : ℤ) (i : ℕ) (c : Cyc U) (ttot : ℚ) (th : Thr) :
    th.Ah ≤ (Cyc.cvBody Vset Ilim tlim dt nt ndt i c ttot th).2.2.2.Ah := by
  unfold Cyc.cvBody
  rcases VoltageUnit.setVoltage c.su Vset with ⟨o, u1⟩
  rcases o with st | e | w
  · dsimp only
    generalize (if i + 1 = nt then tlim - dt * ((nt : ℚ) - 1) else dt) = dti
    rcases StorageUnit.timeStep u1 dti 1 with ⟨o2, u2⟩
    rcases o2 with _ | e | w
    · dsimp only
      have := abs_nonneg (StorageUnit.I u2 * dti / 3600)
      split
      · dsimp only; linarith
      · split
        · dsimp only; linarith
        · split <;> (dsimp only; linarith)
    · exact le_refl _
    · exact le_refl _
  · exact le_refl _
  · exact le_refl _

theorem cvLoop_mono (Vset Ilim tlim dt : ℚ) (nt : ℕ) (ndt : ℤ) (left : ℕ) :
    ∀ (i : ℕ) (c : Cyc U) (ttot : ℚ) (th : Thr),
    th.Ah ≤ (Cyc.cvLoop Vset Ilim tlim dt nt ndt left i c ttot th).2.2.2.Ah := by
  induction left with
  | zero => intro i c ttot th; exact le_refl _
  | succ left ih =>
    intro i c ttot th
    rw [Cyc.cvLoop]
    have hb := cvBody_mono Vset Ilim tlim dt nt ndt i c ttot th
    rcases hw : Cyc.cvBody Vset Ilim tlim dt nt ndt i c ttot th with ⟨o, c1, t1, d⟩
    rw [hw] at hb
    rcases o with x | e | w
    · rcases x with st | b
      · exact hb
      · rcases b with _ | b
        · exact hb.trans (ih (i + 1) c1 t1 d)
        · exact hb
    · exact hb
    · exact hb

theorem CV_mono (c : Cyc U) (Vset Ilim tlim dt : ℚ) (ndt : ℤ) (th : Thr) :
    th.Ah ≤ (c.CV Vset Ilim tlim dt ndt th).2.2.Ah := by
  unfold Cyc.CV
  dsimp only
  generalize Cyc.storeIf (decide (0 < ndt)) c = c0
  split
  · exact le_refl _
  · split
    · exact le_refl _
    · have hl := cvLoop_mono Vset Ilim tlim dt ⌈tlim / dt⌉.toNat ndt ⌈tlim / dt⌉.toNat 0 c0 0 th
      revert hl
      generalize Cyc.cvLoop Vset Ilim tlim dt _ ndt _ 0 c0 0 th = r
      rcases r with ⟨o, c2, t, d⟩
      intro hl
      rcases o with x | e | w
      · rcases x with st | b
        · exact hl
        · dsimp only
          split
          · exact hl
          · rcases b with _ | _ | _ <;> exact hl
      · exact hl
      · exact hl

/-! ### Running totals -/

theorem totals_append (t : Thr) (a b : List Thr) :
    totals t (a ++ b) = totals t a ++ totals (a.foldl Thr.add t) b := by
  induction a generalizing t with
  | nil => rfl
  | cons m a ih =>
    simp only [List.cons_append, totals, List.foldl_cons]
    rw [ih]; rfl

theorem foldl_Ah (ms : List Thr) (t : Thr) (h : ∀ m ∈ ms, 0 ≤ m.Ah) : t.Ah ≤ (ms.foldl Thr.add t).Ah := by
  induction ms generalizing t with
  | nil => exact le_refl _
  | cons m ms ih =>
    have h0 := h m (by simp)
    have := ih (t.add m) (fun x hx => h x (by simp [hx]))
    simp only [List.foldl_cons]
    refine le_trans ?_ this
    simp only [Thr.add]; linarith

/-! ### Phases -/

namespace Age

set_option linter.unusedSectionVars false

theorem cc_eq (fuel : ℕ) (p : AgeParams) (I vlim : ℚ) (a : Age U) :
    a.cc fuel p I vlim = ((ccPhase fuel p I vlim a.cyc).1,
      { a with cyc := (ccPhase fuel p I vlim a.cyc).2.1, th := a.th.add (ccPhase fuel p I vlim a.cyc).2.2 }) := by
  unfold Age.cc
  rw [CC_meter]
  rfl

theorem ccPhase_nonneg (fuel : ℕ) (p : AgeParams) (I vlim : ℚ) (c : Cyc U) :
    0 ≤ (ccPhase fuel p I vlim c).2.2.Ah :=
  CC_mono fuel c I vlim TIME_INF 2 p.ndata ⟨0, 0, 0⟩ (by norm_num)

theorem cvPhase_nonneg (p : AgeParams) (V : ℚ) (c : Cyc U) : 0 ≤ (cvPhase p V c).2.2.Ah :=
  CV_mono c V (1/10) TIME_INF 2 p.ndata ⟨0, 0, 0⟩

/-- What is known after phases with the given meter readings. -/
structure Moved (a a' : Age U) (ms : List Thr) : Prop where
  th : a'.th = ms.foldl Thr.add a.th
  mem : a'.mem = a.mem ++ totals a.th ms
  file : a'.file = a.file
  pos : ∀ m ∈ ms, 0 ≤ m.Ah

theorem Moved.trans {a b c : Age U} {ms ns : List Thr} (h : Moved a b ms) (h' : Moved b c ns) :
    Moved a c (ms ++ ns) where
  th := by rw [h'.th, h.th, List.foldl_append]
  mem := by rw [h'.mem, h.mem, totals_append, h.th, List.append_assoc]
  file := h'.file.trans h.file
  pos := fun m hm => (List.mem_append.mp hm).elim (h.pos m) (h'.pos m)

theorem Moved.refl (a : Age U) : Moved a a [] := ⟨rfl, by simp [totals], rfl, fun m hm => by cases hm⟩

theorem cv_cases (p : AgeParams) (Vset : ℚ) (a a' : Age U) (b : Bool) (h : a.cv p Vset = (.ok b, a')) :
    (b = true ∧ ∃ ms, CvDone p Vset a.cyc a'.cyc ms ∧ Moved a a' ms)
    ∨ (b = false ∧ CvFails p Vset a.cyc ∧ a'.mem = a.mem ∧ a'.file = a.file ∧ a.th.Ah ≤ a'.th.Ah) := by
  unfold Age.cv at h
  by_cases hp : p.testCV = true
  · rw [if_pos hp] at h
    have hn := cvPhase_nonneg p Vset a.cyc
    have hm := CV_meter a.cyc Vset (1/10) TIME_INF 2 p.ndata a.th
    have hz : a.cyc.CV Vset (1/10) TIME_INF 2 p.ndata Thr.zero = cvPhase p Vset a.cyc := rfl
    rw [hz] at hm
    rw [hm] at h
    rcases hcv : cvPhase p Vset a.cyc with ⟨o, c1, m⟩
    rw [hcv] at h hn
    rcases o with st | e | w
    · dsimp only at h
      by_cases hst : st.isCurrentLimitReached = true
      · rw [if_pos hst] at h
        have hst' : st = .ReachedCurrentLimit := by cases st <;> first | rfl | (exact absurd hst (by decide))
        cases h
        left
        refine ⟨rfl, [m], ?_, ?_⟩
        · unfold CvDone; rw [if_pos hp]
          exact ⟨m, by rw [hcv, hst']; rfl, rfl⟩
        · exact ⟨rfl, rfl, rfl, fun x hx => by
            rw [List.mem_singleton] at hx; subst hx; exact hn⟩
      · rw [if_neg hst] at h
        cases h
        right
        refine ⟨rfl, ⟨hp, st, by rw [hcv], ?_⟩, rfl, rfl, ?_⟩
        · rintro rfl; exact hst rfl
        · have hn' : 0 ≤ m.Ah := hn
          simp only [Thr.add]; linarith
    · cases h
    · cases h
  · rw [if_neg hp] at h
    cases h
    left
    refine ⟨rfl, [], ?_, Moved.refl a⟩
    unfold CvDone; rw [if_neg hp]; exact ⟨rfl, rfl⟩

theorem cc_store (fuel : ℕ) (p : AgeParams) (I vlim : ℚ) (a : Age U) (o : Outcome Status) (c1 : Cyc U) (m : Thr)
    (hcc : ccPhase fuel p I vlim a.cyc = (o, c1, m)) :
    a.cc fuel p I vlim = (o, { a with cyc := c1, th := a.th.add m })
    ∧ Moved a ({ a with cyc := c1, th := a.th.add m } : Age U).storeThroughput [m] := by
  refine ⟨by rw [cc_eq, hcc], rfl, rfl, rfl, fun x hx => ?_⟩
  rw [List.mem_singleton] at hx; subst hx
  have := ccPhase_nonneg fuel p I vlim a.cyc
  rw [hcc] at this
  exact this

theorem isVoltageLimitReached_iff (st : Status) : st.isVoltageLimitReached = true ↔ st = .ReachedVoltageLimit := by
  cases st <;> decide

theorem cycle_cases (fuel : ℕ) (p : AgeParams) (Icha Idis : ℚ) (a a' : Age U) (b : Bool)
    (h : a.cycle fuel p Icha Idis = (.ok b, a')) :
    (b = true ∧ ∃ ms, FullCycle fuel p Icha Idis a.cyc a'.cyc ms ∧ Moved a a' ms)
    ∨ (b = false ∧ ∃ ms, MayStop fuel p Icha Idis a.cyc ms ∧ a'.mem = a.mem ++ totals a.th ms ∧ a'.file = a.file
        ∧ a.th.Ah ≤ a'.th.Ah) := by
  unfold Age.cycle at h
  rcases hcc : ccPhase fuel p Icha p.Vmax a.cyc with ⟨o, c1, m1⟩
  obtain ⟨e1, mv1⟩ := cc_store fuel p Icha p.Vmax a o c1 m1 hcc
  have hm1 : 0 ≤ m1.Ah := mv1.pos m1 (by simp)
  rw [e1] at h
  rcases o with st | e | w
  · dsimp only at h
    by_cases hst : st.isVoltageLimitReached = true
    · have hst' := (isVoltageLimitReached_iff st).mp hst
      subst hst'
      rw [if_neg (by simp [hst])] at h
      set a2 := ({ a with cyc := c1, th := a.th.add m1 } : Age U).storeThroughput with ha2
      have hd : a2.th.Ah - a.th.Ah = m1.Ah := by
        show a.th.Ah + m1.Ah - a.th.Ah = m1.Ah
        ring
      rw [hd] at h
      by_cases hlt : m1.Ah < 1/100000
      · rw [if_pos hlt] at h
        obtain ⟨hb, ha'⟩ := Prod.mk.inj h
        cases hb
        subst ha'
        right
        refine ⟨rfl, [m1], .noCharge c1 m1 hcc hlt, mv1.mem, mv1.file, ?_⟩
        linarith
      · rw [if_neg hlt] at h
        rcases hcv : a2.cv p p.Vmax with ⟨o2, a3⟩
        rw [hcv] at h
        rcases o2 with b2 | e | w
        · rcases cv_cases p p.Vmax a2 a3 b2 hcv with ⟨rfl, ms2, hdone, mv2⟩ | ⟨rfl, hfail, hmem, hfile, hle⟩
          · dsimp only at h
            unfold Age.discharge at h
            rcases hcc3 : ccPhase fuel p Idis p.Vmin a3.cyc with ⟨o3, c3, m3⟩
            obtain ⟨e3, mv3⟩ := cc_store fuel p Idis p.Vmin a3 o3 c3 m3 hcc3
            rw [e3] at h
            have mv123 := (mv1.trans mv2).trans mv3
            rcases o3 with st3 | e | w
            · dsimp only at h
              by_cases hst3 : st3.isVoltageLimitReached = true
              · rw [if_pos hst3] at h
                have hst3' := (isVoltageLimitReached_iff st3).mp hst3
                subst hst3'
                rcases cv_cases p p.Vmin _ a' b h with ⟨rfl, ms4, hdone4, mv4⟩ | ⟨rfl, hfail, hmem, hfile, hle⟩
                · left
                  exact ⟨rfl, [m1] ++ ms2 ++ [m3] ++ ms4,
                    ⟨c1, a3.cyc, c3, m1, ms2, m3, ms4, hcc, by linarith, hdone, hcc3, hdone4, rfl⟩,
                    mv123.trans mv4⟩
                · right
                  refine ⟨rfl, [m1] ++ ms2 ++ [m3],
                    .dischargeCV c1 a3.cyc c3 m1 m3 ms2 hcc hdone hcc3 hfail, ?_, ?_, ?_⟩
                  · rw [hmem, mv123.mem]
                  · rw [hfile, mv123.file]
                  · have h1 := foldl_Ah _ a.th mv123.pos
                    rw [← mv123.th] at h1
                    exact h1.trans hle
              · rw [if_neg hst3] at h
                cases h
                right
                refine ⟨rfl, [m1] ++ ms2 ++ [m3], .dischargeLimit c1 a3.cyc c3 m1 m3 ms2 st3 hcc hdone hcc3
                  (fun he => hst3 ((isVoltageLimitReached_iff st3).mpr he)), mv123.mem, mv123.file, ?_⟩
                rw [mv123.th]
                exact foldl_Ah _ a.th mv123.pos
            · cases h
            · cases h
          · dsimp only at h
            cases h
            right
            refine ⟨rfl, [m1], .chargeCV c1 m1 hcc hfail, ?_, ?_, ?_⟩
            · rw [hmem, mv1.mem]
            · rw [hfile, mv1.file]
            · linarith
        · cases h
        · cases h
    · rw [if_pos (by simp [hst])] at h
      cases h
      right
      refine ⟨rfl, [], .chargeLimit st (by rw [hcc])
        (fun he => hst ((isVoltageLimitReached_iff st).mpr he)), by simp [totals], rfl, ?_⟩
      simp only [Thr.add]; linarith
  · cases h
  · cases h

end Age

end Slide

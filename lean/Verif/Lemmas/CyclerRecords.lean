import Verif.Spec.CyclerRecords
import Verif.Lemmas.CyclerLoops

/-!
# Lemmas on the log of a cycler (C124, C125)
-/

namespace Slide
open StorageUnit Spec Cyc

variable {U : Type}

/-! ### The log -/

theorem stored_append (a b : List (Ev U)) : stored (a ++ b) = stored a ++ stored b := by
  induction a with
  | nil => rfl
  | cons e a ih =>
    cases e with
    | store u => exact congrArg (u :: ·) ih
    | write => exact ih

theorem held_append (n : ℕ) (a b : List (Ev U)) : held n (a ++ b) = held (held n a) b := by
  induction a generalizing n with
  | nil => rfl
  | cons e a ih =>
    cases e with
    | store u => exact ih (n + 1)
    | write => exact ih 0

theorem writtenWhenFull_append {n : ℕ} {a b : List (Ev U)} (ha : WrittenWhenFull n a) (hb : WrittenWhenFull (held n a) b) :
    WrittenWhenFull n (a ++ b) := by
  induction a generalizing n with
  | nil => exact hb
  | cons e a ih =>
    cases e with
    | store u => exact ⟨ha.1, ih ha.2 hb⟩
    | write => exact ⟨ha.1, ih ha.2 hb⟩

theorem Spec.LogsWell.refl (c : Cyc U) : LogsWell c c := ⟨[], by simp, rfl, fun h => ⟨trivial, h⟩⟩

theorem Spec.LogsWell.of_eq {c c' : Cyc U} (h1 : c'.log = c.log) (h2 : c'.index = c.index) : LogsWell c c' :=
  ⟨[], by simp [h1], h2, fun h => ⟨trivial, h2 ▸ h⟩⟩

theorem Spec.LogsWell.trans {a b c : Cyc U} (h : LogsWell a b) (k : LogsWell b c) : LogsWell a c := by
  obtain ⟨e, h1, h2, h3⟩ := h
  obtain ⟨f, k1, k2, k3⟩ := k
  refine ⟨e ++ f, by rw [k1, h1, List.append_assoc], by rw [k2, h2, held_append], fun h => ?_⟩
  have h4 := h3 h
  have k4 := k3 h4.2
  exact ⟨writtenWhenFull_append h4.1 (h2 ▸ k4.1), k4.2⟩

theorem logsWell_withSU (c : Cyc U) (u : U) : LogsWell c (c.withSU u) := .of_eq rfl rfl

theorem logsWell_storeData (c : Cyc U) : LogsWell c c.storeData := by
  unfold storeData
  dsimp only
  by_cases h : CELL_NDATA_MAX ≤ c.index
  · rw [if_pos h]
    refine ⟨[.write, .store c.su], ?_, rfl, fun hc => ⟨⟨le_antisymm hc h, by norm_num, trivial⟩, ?_⟩⟩
    · show c.log ++ [Ev.write] ++ [Ev.store c.su] = _
      rw [List.append_assoc]; rfl
    · show (0 : ℕ) + 1 ≤ 100000
      norm_num
  · rw [if_neg h]
    have h' : c.index < 100000 := not_le.mp h
    exact ⟨[.store c.su], rfl, rfl, fun _ => ⟨⟨h', trivial⟩, h'⟩⟩

theorem logsWell_storeIf (b : Bool) (c : Cyc U) : LogsWell c (storeIf b c) := by
  unfold storeIf
  cases b with
  | true => exact logsWell_storeData c
  | false => exact .refl c

/-- Whatever else happens to the log, storing adds the unit to the data points. -/
theorem storeData_records (c : Cyc U) : RecordsBetween c c.storeData [c.su] := by
  unfold storeData
  dsimp only
  by_cases h : CELL_NDATA_MAX ≤ c.index
  · rw [if_pos h]
    refine ⟨[.write, .store c.su], ?_, rfl⟩
    show c.log ++ [Ev.write] ++ [Ev.store c.su] = _
    rw [List.append_assoc]; rfl
  · rw [if_neg h]
    exact ⟨[.store c.su], rfl, rfl⟩

theorem storeIf_records (c : Cyc U) : RecordsBetween c (storeIf true c) [(storeIf true c).su] := by
  have h : (storeIf true c).su = c.su := by
    show c.storeData.su = c.su
    unfold storeData writeData; split_ifs <;> rfl
  rw [h]; exact storeData_records c

theorem records_trans {a b c : Cyc U} {l m : List U} (h : RecordsBetween a b l) (k : RecordsBetween b c m) :
    RecordsBetween a c (l ++ m) := by
  obtain ⟨e, h1, h2⟩ := h
  obtain ⟨f, k1, k2⟩ := k
  exact ⟨e ++ f, by rw [k1, h1, List.append_assoc], by rw [stored_append, h2, k2]⟩

theorem records_of_eq {c c' : Cyc U} (h : c'.log = c.log) : RecordsBetween c c' [] := ⟨[], by simp [h], rfl⟩

variable [StorageUnit U]

theorem cycSet_log (c : Cyc U) (I vlim : ℚ) :
    (c.setCurrent I vlim).2.log = c.log ∧ (c.setCurrent I vlim).2.index = c.index := by
  unfold Cyc.setCurrent
  dsimp only
  rcases StorageUnit.setCurrent c.su I c.diagnostic with ⟨st | e | w, u1⟩
  · dsimp only
    by_cases hv : st.isVoltageLimitsViolated = true
    · rw [if_pos hv]
      rcases StorageUnit.setCurrent u1 (StorageUnit.I c.su) false with ⟨st2 | e | w, u2⟩ <;> exact ⟨rfl, rfl⟩
    · rw [if_neg hv]
      split_ifs <;> exact ⟨rfl, rfl⟩
  · exact ⟨rfl, rfl⟩
  · exact ⟨rfl, rfl⟩

theorem of_decide_and {p : Prop} [Decidable p] {b : Bool} (h : (decide p && b) = true) : p := by
  rw [Bool.and_eq_true] at h; exact of_decide_eq_true h.1

/-- Relations between a cycler before and after which only concern its log: kept by everything but storing, which needs
`p`. -/
structure LogRel (R : Cyc U → Cyc U → Prop) (p : Prop) : Prop where
  refl : ∀ c, R c c
  trans : ∀ {a b c}, R a b → R b c → R a c
  same : ∀ c c' : Cyc U, c'.log = c.log → c'.index = c.index → R c c'
  store : p → ∀ c, R c c.storeData

omit [StorageUnit U] in
theorem LogRel.su {R : Cyc U → Cyc U → Prop} {p : Prop} (hR : LogRel R p) (c : Cyc U) (u : U) : R c (c.withSU u) :=
  hR.same _ _ rfl rfl

omit [StorageUnit U] in
theorem LogRel.storeIf {R : Cyc U → Cyc U → Prop} {p : Prop} (hR : LogRel R p) (b : Bool) (c : Cyc U) (hb : b = true → p) :
    R c (Cyc.storeIf b c) := by
  unfold Cyc.storeIf
  cases b with
  | true => exact hR.store (hb rfl) c
  | false => exact hR.refl c

omit [StorageUnit U] in
theorem logsWell_rel (p : Prop) : LogRel (U := U) LogsWell p :=
  ⟨.refl, .trans, fun _ _ => .of_eq, fun _ => logsWell_storeData⟩

omit [StorageUnit U] in
/-- Without recording the log stays as it is. -/
theorem silent_rel {p : Prop} (hp : ¬ p) : LogRel (U := U) (fun c c' => c'.log = c.log ∧ c'.index = c.index) p :=
  ⟨fun _ => ⟨rfl, rfl⟩, fun h k => ⟨k.1.trans h.1, k.2.trans h.2⟩, fun _ _ h k => ⟨h, k⟩, fun h => absurd h hp⟩

theorem restBody_rel {R : Cyc U → Cyc U → Prop} {ndt : ℤ} (hR : LogRel R (0 < ndt)) (tlim : ℚ) (nMax : ℕ) (v : RestVars) (c : Cyc U) :
    R c (restBody tlim ndt nMax v c).2 := by
  unfold restBody
  rcases StorageUnit.setCurrent c.su 0 false with ⟨st | e | w, u1⟩
  · dsimp only
    by_cases hb : st.isBad = true
    · rw [if_pos hb]; exact hR.su c u1
    · rw [if_neg hb]
      generalize (if v.nOnce * v.dti > tlim - v.ttot then 1 else v.nOnce) = k0
      generalize (if v.dti > tlim - v.ttot then tlim - v.ttot else v.dti) = dt0
      rcases timeStep u1 dt0 k0 with ⟨st | e | w, u2⟩
      · exact hR.trans (hR.su c u2) (hR.storeIf _ _ of_decide_and)
      · exact hR.su c u2
      · exact hR.su c u2
  · exact hR.su c u1
  · exact hR.su c u1

theorem restLoop_rel {R : Cyc U → Cyc U → Prop} {ndt : ℤ} (hR : LogRel R (0 < ndt)) (tlim : ℚ) (nMax fuel : ℕ) (v : RestVars) (c : Cyc U) :
    R c (restLoop tlim ndt nMax fuel v c).2 := by
  induction fuel generalizing v c with
  | zero => unfold restLoop; split_ifs <;> exact hR.refl c
  | succ fuel ih =>
    unfold restLoop
    split_ifs
    · have hb := restBody_rel hR tlim nMax v c
      generalize restBody tlim ndt nMax v c = r at *
      obtain ⟨o, c'⟩ := r
      match o with
      | .throw e => exact hb
      | .ub e => exact hb
      | .ok (.inl st) => exact hb
      | .ok (.inr v') => exact hR.trans hb (ih v' c')
    · exact hR.refl c

theorem rest_rel {R : Cyc U → Cyc U → Prop} {ndt : ℤ} (hR : LogRel R (0 < ndt)) (fuel : ℕ) (c : Cyc U) (tlim dt : ℚ) (th : Thr) :
    R c (rest fuel c tlim dt ndt th).2.1 := by
  unfold rest
  dsimp only
  have hl := hR.trans (hR.storeIf (decide (0 < ndt)) c (by simp))
    (restLoop_rel hR tlim (if decide (0 < ndt) = true then min 10 ndt.toNat else 10) fuel
    { dti := dt, ttot := 0, idat := 0, nOnce := 1, ninc := true } (storeIf (decide (0 < ndt)) c))
  generalize restLoop tlim ndt (if decide (0 < ndt) = true then min 10 ndt.toNat else 10) fuel
    { dti := dt, ttot := 0, idat := 0, nOnce := 1, ninc := true } (storeIf (decide (0 < ndt)) c) = r at *
  obtain ⟨o, c1⟩ := r
  match o with
  | .throw e => exact hl
  | .ub e => exact hl
  | .ok (.inl st) => exact hl
  | .ok (.inr v) =>
    dsimp only
    split_ifs
    · rcases StorageUnit.setCurrent c1.su 0 false with ⟨st | e | w, u1⟩
      · exact hR.trans hl (hR.trans (hR.su c1 u1) (hR.storeIf _ _ of_decide_eq_true))
      · exact hR.trans hl (hR.su c1 u1)
      · exact hR.trans hl (hR.su c1 u1)
    · exact hl

theorem ccBody_rel {R : Cyc U → Cyc U → Prop} {ndt : ℤ} (hR : LogRel R (0 < ndt)) (I vlim tlim : ℚ) (nMax : ℕ) (v : CCVars) (c : Cyc U) (th : Thr) :
    R c (ccBody I vlim tlim ndt nMax v c th).2.1 := by
  unfold ccBody
  have h1 : R c (c.setCurrent I vlim).2 := hR.same _ _ (cycSet_log c I vlim).1 (cycSet_log c I vlim).2
  rcases hk : c.setCurrent I vlim with ⟨st | e | w, c1⟩ <;> rw [hk] at h1
  · dsimp only
    generalize (if v.nOnce * v.dti > tlim - v.ttot then 1 else v.nOnce) = k0
    generalize (if v.dti > tlim - v.ttot then tlim - v.ttot else v.dti) = dt0
    rcases timeStep c1.su dt0 k0 with ⟨st | e | w, u2⟩
    · dsimp only
      rcases ccVoltage (c1.withSU u2) with s | vi
      · exact hR.trans h1 (hR.su c1 u2)
      · dsimp only
        split_ifs <;> exact hR.trans h1 (hR.trans (hR.su c1 u2) (hR.storeIf _ _ of_decide_and))
    · exact hR.trans h1 (hR.su c1 u2)
    · exact hR.trans h1 (hR.su c1 u2)
  · exact h1
  · exact h1

theorem ccLoop_rel {R : Cyc U → Cyc U → Prop} {ndt : ℤ} (hR : LogRel R (0 < ndt)) (I vlim tlim : ℚ) (nMax fuel : ℕ) (v : CCVars) (c : Cyc U) (th : Thr) :
    R c (ccLoop I vlim tlim ndt nMax fuel v c th).2.1 := by
  induction fuel generalizing v c th with
  | zero => unfold ccLoop; split_ifs <;> exact hR.refl c
  | succ fuel ih =>
    unfold ccLoop
    split_ifs
    · have hb := ccBody_rel hR I vlim tlim nMax v c th
      generalize ccBody I vlim tlim ndt nMax v c th = r at *
      obtain ⟨o, c1, th1⟩ := r
      match o with
      | .throw e => exact hb
      | .ub e => exact hb
      | .ok (.ret st) => exact hb
      | .ok (.brk v1) => exact hb
      | .ok (.cont v1) => exact hR.trans hb (ih v1 c1 th1)
    · exact hR.refl c

theorem CC_rel {R : Cyc U → Cyc U → Prop} {ndt : ℤ} (hR : LogRel R (0 < ndt)) (fuel : ℕ) (c : Cyc U) (I vlim tlim dt : ℚ) (th : Thr) :
    R c (CC fuel c I vlim tlim dt ndt th).2.1 := by
  unfold CC
  dsimp only
  have h0 := hR.storeIf (decide (0 < ndt)) c (by simp)
  generalize storeIf (decide (0 < ndt)) c = c0 at *
  have h1 : R c (c0.setCurrent I vlim).2 := hR.trans h0 (hR.same _ _ (cycSet_log c0 I vlim).1 (cycSet_log c0 I vlim).2)
  rcases hk : c0.setCurrent I vlim with ⟨st | e | w, c1⟩ <;> rw [hk] at h1
  · dsimp only
    generalize (if decide (0 < ndt) = true then min 2 ndt.toNat else 2) = nm
    by_cases hs : (!st.isSuccessful) = true
    · rw [if_pos hs]; exact h1
    rw [if_neg hs]
    by_cases hv : (I < 0 ∧ V c1.su > vlim) ∨ (I > 0 ∧ V c1.su < vlim)
    · rw [if_pos hv]; exact h1
    rw [if_neg hv]
    have hl := hR.trans h1 (ccLoop_rel hR I vlim tlim nm fuel
      { dti := dt, ttot := 0, idat := 0, nOnce := 1, vo := V c1.su, vi := V c1.su, allowUp := true } c1 th)
    generalize ccLoop I vlim tlim ndt nm fuel
      { dti := dt, ttot := 0, idat := 0, nOnce := 1, vo := V c1.su, vi := V c1.su, allowUp := true } c1 th = r2 at *
    obtain ⟨o2, c2, th2⟩ := r2
    match o2 with
    | .throw e => exact hl
    | .ub e => exact hl
    | .ok (.inl s) => exact hl
    | .ok (.inr (v, b)) =>
      dsimp only
      split_ifs
      · exact hR.trans hl (hR.storeIf _ _ of_decide_eq_true)
      · exact hR.trans hl (hR.storeIf _ _ of_decide_eq_true)
      · exact hl
  · exact h1
  · exact h1

section
variable [VoltageUnit U]

theorem cvBody_rel {R : Cyc U → Cyc U → Prop} {ndt : ℤ} (hR : LogRel R (0 < ndt)) (Vset Ilim tlim dt : ℚ) (nt : ℕ) (i : ℕ) (c : Cyc U) (ttot : ℚ) (th : Thr) :
    R c (cvBody Vset Ilim tlim dt nt ndt i c ttot th).2.1 := by
  unfold cvBody
  rcases VoltageUnit.setVoltage c.su Vset with ⟨st | e | w, u1⟩
  · dsimp only
    generalize (if i + 1 = nt then tlim - dt * ((nt : ℚ) - 1) else dt) = dti
    rcases timeStep u1 dti 1 with ⟨st | e | w, u2⟩
    · dsimp only
      split_ifs <;> exact hR.trans (hR.su c u2) (hR.storeIf _ _ of_decide_and)
    · exact hR.su c u2
    · exact hR.su c u2
  · exact hR.su c u1
  · exact hR.su c u1

theorem cvLoop_rel {R : Cyc U → Cyc U → Prop} {ndt : ℤ} (hR : LogRel R (0 < ndt)) (Vset Ilim tlim dt : ℚ) (nt : ℕ) (left i : ℕ) (c : Cyc U) (ttot : ℚ) (th : Thr) :
    R c (cvLoop Vset Ilim tlim dt nt ndt left i c ttot th).2.1 := by
  induction left generalizing i c ttot th with
  | zero => exact hR.refl c
  | succ left ih =>
    unfold cvLoop
    have hb := cvBody_rel hR Vset Ilim tlim dt nt i c ttot th
    generalize cvBody Vset Ilim tlim dt nt ndt i c ttot th = r at *
    obtain ⟨o, c', ttot', th'⟩ := r
    match o with
    | .throw e => exact hb
    | .ub e => exact hb
    | .ok (.inl st) => exact hb
    | .ok (.inr (some b)) => exact hb
    | .ok (.inr none) => exact hR.trans hb (ih _ _ _ _)

theorem CV_rel {R : Cyc U → Cyc U → Prop} {ndt : ℤ} (hR : LogRel R (0 < ndt)) (c : Cyc U) (Vset Ilim tlim dt : ℚ) (th : Thr) :
    R c (CV c Vset Ilim tlim dt ndt th).2.1 := by
  unfold CV
  dsimp only
  have h0 := hR.storeIf (decide (0 < ndt)) c (by simp)
  generalize storeIf (decide (0 < ndt)) c = c0 at *
  split_ifs
  · exact h0
  · exact h0
  · have hl := hR.trans h0 (cvLoop_rel hR Vset Ilim tlim dt ⌈tlim / dt⌉.toNat ⌈tlim / dt⌉.toNat 0 c0 0 th)
    generalize cvLoop Vset Ilim tlim dt ⌈tlim / dt⌉.toNat ndt ⌈tlim / dt⌉.toNat 0 c0 0 th = r at *
    obtain ⟨o, c1, tt, th1⟩ := r
    match o with
    | .throw e => exact hl
    | .ub e => exact hl
    | .ok (.inl st) => exact hl
    | .ok (.inr x) =>
      dsimp only
      split_ifs
      · exact hR.trans hl (hR.storeIf _ _ of_decide_eq_true)
      · match x with
        | some true => exact hR.trans hl (hR.storeIf _ _ of_decide_eq_true)
        | some false => exact hR.trans hl (hR.storeIf _ _ of_decide_eq_true)
        | none => exact hl

theorem CCCVt_rel {R : Cyc U → Cyc U → Prop} {ndt : ℤ} (hR : LogRel R (0 < ndt)) (fuel : ℕ) (c : Cyc U) (I Vset Ilim tlim dt : ℚ) (th : Thr) :
    R c (CCCVt fuel c I Vset Ilim tlim dt ndt th).2.1 := by
  unfold CCCVt
  split_ifs
  · exact hR.refl c
  · rcases StorageUnit.setCurrent c.su 0 false with ⟨st | e | w, u⟩
    · dsimp only
      by_cases hf : st.isFailed = true
      · rw [if_pos hf]; exact hR.su c u
      · rw [if_neg hf]
        generalize (if V u > Vset then |I| else -|I|) = i0
        have h2 := hR.trans (hR.su c u) (CC_rel hR fuel (c.withSU u) i0 Vset tlim dt Thr.zero)
        generalize CC fuel (c.withSU u) i0 Vset tlim dt ndt Thr.zero = r at *
        obtain ⟨o, c1, th1⟩ := r
        match o with
        | .throw e => exact h2
        | .ub e => exact h2
        | .ok s =>
          dsimp only at *
          have h3 := hR.trans h2 (CV_rel hR c1 Vset |Ilim| (tlim - th1.time) dt Thr.zero)
          rcases hk2 : CV c1 Vset |Ilim| (tlim - th1.time) dt ndt Thr.zero with ⟨st2 | e | w, c2, th2⟩ <;> rw [hk2] at h3 <;>
            exact h3
    · exact hR.su c u
    · exact hR.su c u

end

/-! ### Moments of recording -/

section
variable [Clocked U]

omit [StorageUnit U] [Clocked U] in
theorem after_zero [StorageUnit U] [Clocked U] (u : U) : After u 0 u := by unfold After; simp

theorem Spec.After.trans {a b c : U} {s t : ℚ} (h : After a s b) (k : After b t c) : After a (s + t) c := by
  unfold After at *
  rw [k, h, List.map_map]
  apply List.map_congr_left
  intro x _
  simp only [Function.comp_apply]
  ring

/-- Steps of a phase with base step `dt` and end `tlim`, at most `nMax` base steps at once, recording after `ndt` base steps;
time and number of steps since the last record before and after. -/
inductive Ticks (dt tlim : ℚ) (ndt : ℤ) (nMax : ℕ) : ℚ → ℕ → Cyc U → ℚ → ℕ → Cyc U → Prop
  | stop (t : ℚ) (i : ℕ) (c : Cyc U) : Ticks dt tlim ndt nMax t i c t i c
  | tick (dti : ℚ) (n : ℕ) {t t' : ℚ} {i i1 i' : ℕ} {c c1 c' : Cyc U} (h1 : 0 < dti) (h2 : dti ≤ dt) (h3 : 1 ≤ n)
      (h4 : n ≤ nMax) (h5 : t + dti * n ≤ tlim) (h6 : t + dti * n < tlim → dti = dt) (h7 : After c.su (dti * n) c1.su)
      (h8 : ndt ≤ (i + n : ℕ) → RecordsBetween c c1 [c1.su] ∧ i1 = 0)
      (h9 : ¬ ndt ≤ (i + n : ℕ) → RecordsBetween c c1 [] ∧ i1 = i + n)
      (h : Ticks dt tlim ndt nMax (t + dti * n) i1 c1 t' i' c') : Ticks dt tlim ndt nMax t i c t' i' c'

theorem Ticks.spaced {dt tlim : ℚ} {ndt : ℤ} {nMax : ℕ} {t t' : ℚ} {i i' : ℕ} {c c' : Cyc U} (hdt : 0 < dt) (hndt : 0 < ndt)
    (u0 : U) (h : Ticks dt tlim ndt nMax t i c t' i' c') (p : ℚ) (hp : p ≤ t) (hi : t ≤ p + i * dt)
    (he : t < tlim → t = p + i * dt) (hl : (i : ℤ) < ndt) (ha : After u0 t c.su) :
    t ≤ t' ∧ (t ≤ tlim → t' ≤ tlim) ∧ After u0 t' c'.su ∧
    ∃ mid ts, RecordsBetween c c' mid ∧ List.Forall₂ (After u0) ts mid ∧
      Spaced (ndt * dt) ((ndt + nMax - 1) * dt) t' p ts := by
  induction h generalizing p with
  | stop t i c =>
    refine ⟨le_refl _, fun h => h, ha, [], [], records_of_eq rfl, .nil, hp, ?_⟩
    have : (i : ℚ) < ndt := by exact_mod_cast hl
    nlinarith
  | @tick dti n t t' i i1 i' c c1 c' h1 h2 h3 h4 h5 h6 h7 h8 h9 h ih =>
    have ha' : After u0 (t + dti * n) c1.su := ha.trans h7
    have hn : (1 : ℚ) ≤ n := by exact_mod_cast h3
    have hm : (n : ℚ) ≤ nMax := by exact_mod_cast h4
    have hpos : 0 < dti * n := by positivity
    have hle : dti * n ≤ n * dt := by nlinarith
    have he' : t + dti * n < tlim → t + dti * n = p + (i + n : ℕ) * dt := by
      intro hlt
      rw [h6 hlt, he (by linarith)]; push_cast; ring
    have hi' : t + dti * n ≤ p + (i + n : ℕ) * dt := by push_cast; linarith
    by_cases hs : ndt ≤ (i + n : ℕ)
    · obtain ⟨hr, rfl⟩ := h8 hs
      obtain ⟨k1, k2, k3, mid, ts, k4, k5, k6⟩ := ih (t + dti * n) (le_refl _) (by simp) (by simp) (by exact_mod_cast hndt) ha'
      refine ⟨by linarith, fun _ => k2 h5, k3, c1.su :: mid, (t + dti * n) :: ts, records_trans hr k4, .cons ha' k5,
        by linarith, ?_, ?_, k6⟩
      · have hl' : (i : ℚ) ≤ ndt - 1 := by exact_mod_cast Int.le_sub_one_of_lt hl
        push_cast at hi'
        nlinarith
      · by_cases hlt : t + dti * n < tlim
        · left
          rw [he' hlt]
          have : (ndt : ℚ) ≤ (i + n : ℕ) := by exact_mod_cast hs
          nlinarith
        · right
          exact le_antisymm k1 (le_trans (k2 h5) (not_lt.mp hlt))
    · obtain ⟨hr, rfl⟩ := h9 hs
      obtain ⟨k1, k2, k3, mid, ts, k4, k5, k6⟩ := ih p (by linarith) hi' he' (by omega) ha'
      exact ⟨by linarith, fun _ => k2 h5, k3, mid, ts, by simpa using records_trans hr k4, k5, k6⟩

/-- Storing the last record after a sequence of ticks makes a recorded phase. -/
theorem Ticks.phase {dt tlim : ℚ} {ndt : ℤ} {nMax : ℕ} {t' : ℚ} {i' : ℕ} {c b c1 c' : Cyc U} (hdt : 0 < dt) (hndt : 0 < ndt)
    (hb : RecordsBetween c b [c.su]) (hu : After c.su 0 b.su) (h : Ticks dt tlim ndt nMax 0 0 b t' i' c1)
    (he : RecordsBetween c1 c' [c'.su]) (hu' : After c1.su 0 c'.su) :
    0 ≤ t' ∧ (0 ≤ tlim → t' ≤ tlim) ∧ PhaseRecorded (ndt * dt) ((ndt + nMax - 1) * dt) t' c c' := by
  obtain ⟨k1, k2, k3, mid, ts, k4, k5, k6⟩ := h.spaced hdt hndt c.su 0 (le_refl _) (by simp) (by simp) (by exact_mod_cast hndt)
    hu
  refine ⟨k1, k2, mid, ts, ?_, k5, k6, by simpa using k3.trans hu'⟩
  exact records_trans hb (records_trans k4 he)

theorem clamp1_max (n : ℤ) (m : ℕ) (hm : 1 ≤ m) : clamp1 n m ≤ m := clamp1_le n m hm

theorem restBody_tick {dt tlim : ℚ} {ndt : ℤ} {nMax : ℕ} {v v' : RestVars} {c c' : Cyc U} (hndt : 0 < ndt)
    (h : restBody tlim ndt nMax v c = (.ok (.inr v'), c')) (ht : v.ttot < tlim) (hdt : 0 < dt) (hd : v.dti = dt)
    (hn : 1 ≤ v.nOnce) (hx : v.nOnce ≤ nMax) (hm : 1 ≤ nMax) :
    1 ≤ v'.nOnce ∧ v'.nOnce ≤ nMax ∧ (v'.ttot < tlim → v'.dti = dt) ∧ ∃ (dti : ℚ) (n : ℕ), v'.ttot = v.ttot + dti * n ∧
      0 < dti ∧ dti ≤ dt ∧ 1 ≤ n ∧ n ≤ nMax ∧ v.ttot + dti * n ≤ tlim ∧ (v.ttot + dti * n < tlim → dti = dt) ∧
      After c.su (dti * n) c'.su ∧ (ndt ≤ (v.idat + n : ℕ) → RecordsBetween c c' [c'.su] ∧ v'.idat = 0) ∧
      (¬ ndt ≤ (v.idat + n : ℕ) → RecordsBetween c c' [] ∧ v'.idat = v.idat + n) := by
  unfold restBody at h
  have hc := choose_step (tlim - v.ttot) v.dti v.nOnce (by linarith) (hd ▸ hdt) hn
  dsimp only at hc
  generalize hn1 : (if (v.nOnce : ℚ) * v.dti > tlim - v.ttot then 1 else v.nOnce) = n1 at *
  generalize hd1 : (if v.dti > tlim - v.ttot then tlim - v.ttot else v.dti) = d1 at *
  have hset := Clocked.set_clocks c.su 0 false
  rcases hs : setCurrent c.su 0 false with ⟨st | e | w, u1⟩ <;> rw [hs] at h hset
  · dsimp only at h
    by_cases hb : st.isBad = true
    · rw [if_pos hb] at h; cases h
    rw [if_neg hb] at h
    have hstep := Clocked.step_clocks u1 d1 n1
    rcases hk : timeStep u1 d1 n1 with ⟨o | e | w, u2⟩ <;> rw [hk] at h hstep
    · dsimp only at h hstep
      have hv := Sum.inr.inj (Outcome.ok.inj (congrArg Prod.fst h))
      have hc' : _ = c' := congrArg Prod.snd h
      obtain ⟨c1, c2, c3, c4, c5, c6, c7⟩ := hc
      have e1 : v'.ttot = v.ttot + d1 * n1 := by rw [← hv]
      refine ⟨by rw [← hv]; exact clamp1_pos _ _ hm, by rw [← hv]; exact clamp1_max _ _ hm, ?_, d1, n1, e1, c1, hd ▸ c4, c2,
        c3.trans hx, by linarith, fun q => (c6 (by linarith)).trans hd, ?_, ?_, ?_⟩
      · intro q
        rw [← hv]; exact (c6 (by rw [e1] at q; linarith)).trans hd
      · unfold After
        rw [← hc', storeIf_su, withSU_su, hstep rfl, hset]
        simp only [mul_comm]
      · intro q
        have eb : (decide (0 < ndt) && decide (ndt ≤ ((v.idat + n1 : ℕ) : ℤ))) = true := by
          rw [decide_eq_true hndt, decide_eq_true q]; rfl
        rw [← hv, ← hc', eb]
        exact ⟨records_trans (a := c) (b := c.withSU u2) (records_of_eq rfl) (storeIf_records _), rfl⟩
      · intro q
        have eb : (decide (0 < ndt) && decide (ndt ≤ ((v.idat + n1 : ℕ) : ℤ))) = false := by
          rw [decide_eq_false q, Bool.and_false]
        rw [← hv, ← hc', eb]
        exact ⟨records_of_eq rfl, rfl⟩
    · cases h
    · cases h
  · cases h
  · cases h

theorem restLoop_ticks {dt tlim : ℚ} {ndt : ℤ} {nMax : ℕ} (hndt : 0 < ndt) (hdt : 0 < dt) (hm : 1 ≤ nMax) (fuel : ℕ)
    {v v' : RestVars} {c c' : Cyc U} (h : restLoop tlim ndt nMax fuel v c = (.ok (.inr v'), c'))
    (hd : v.ttot < tlim → v.dti = dt) (hn : 1 ≤ v.nOnce) (hx : v.nOnce ≤ nMax) :
    Ticks dt tlim ndt nMax v.ttot v.idat c v'.ttot v'.idat c' := by
  have stop : ∀ {v : RestVars} {c : Cyc U},
      ((.ok (.inr v), c) : Outcome (Status ⊕ RestVars) × Cyc U) = (.ok (.inr v'), c') →
      Ticks dt tlim ndt nMax v.ttot v.idat c v'.ttot v'.idat c' := by
    intro v c h
    have h1 := Sum.inr.inj (Outcome.ok.inj (congrArg Prod.fst h))
    have h2 : c = c' := congrArg Prod.snd h
    rw [h1, h2]; exact .stop _ _ _
  induction fuel generalizing v c with
  | zero =>
    unfold restLoop at h
    by_cases hlt : v.ttot < tlim
    · rw [if_pos hlt] at h; cases h
    · rw [if_neg hlt] at h; exact stop h
  | succ fuel ih =>
    unfold restLoop at h
    by_cases hlt : v.ttot < tlim
    · rw [if_pos hlt] at h
      rcases hb : restBody tlim ndt nMax v c with ⟨o, c1⟩
      rw [hb] at h
      match o, hb, h with
      | .throw e, _, h => cases h
      | .ub e, _, h => cases h
      | .ok (.inl st), _, h => cases h
      | .ok (.inr v1), hb, h =>
        obtain ⟨q1, q2, q3, dti, n, e, r1, r2, r3, r4, r5, r6, r7, r8, r9⟩ :=
          restBody_tick hndt hb hlt hdt (hd hlt) hn hx hm
        have := ih h q3 q1 q2
        rw [e] at this
        exact .tick dti n r1 r2 r3 r4 r5 r6 r7 r8 r9 this
    · rw [if_neg hlt] at h; exact stop h

theorem ccAdapt_le (I vlim vo vi vlow : ℚ) (nMax nOnce : ℕ) (up : Bool) (hm : 1 ≤ nMax) :
    (ccAdapt I vlim vo vi vlow nMax nOnce up).1 ≤ nMax := by
  unfold ccAdapt
  by_cases h : I < 0
  · rw [if_pos h]; exact clamp1_max _ _ hm
  · rw [if_neg h]; exact clamp1_max _ _ hm

theorem ccBody_tick {I vlim dt tlim : ℚ} {ndt : ℤ} {nMax : ℕ} {v v' : CCVars} {c c' : Cyc U} {th th' : Thr} {x : CCNext}
    (hndt : 0 < ndt) (h : ccBody I vlim tlim ndt nMax v c th = (.ok x, c', th')) (hv : x = .brk v' ∨ x = .cont v')
    (ht : v.ttot < tlim) (hdt : 0 < dt) (hd : v.dti = dt) (hn : 1 ≤ v.nOnce) (hx : v.nOnce ≤ nMax) (hm : 1 ≤ nMax) :
    1 ≤ v'.nOnce ∧ v'.nOnce ≤ nMax ∧ (v'.ttot < tlim → v'.dti = dt) ∧ ∃ (dti : ℚ) (n : ℕ), v'.ttot = v.ttot + dti * n ∧
      0 < dti ∧ dti ≤ dt ∧ 1 ≤ n ∧ n ≤ nMax ∧ v.ttot + dti * n ≤ tlim ∧ (v.ttot + dti * n < tlim → dti = dt) ∧
      After c.su (dti * n) c'.su ∧ (ndt ≤ (v.idat + n : ℕ) → RecordsBetween c c' [c'.su] ∧ v'.idat = 0) ∧
      (¬ ndt ≤ (v.idat + n : ℕ) → RecordsBetween c c' [] ∧ v'.idat = v.idat + n) := by
  unfold ccBody at h
  have hc := choose_step (tlim - v.ttot) v.dti v.nOnce (by linarith) (hd ▸ hdt) hn
  dsimp only at hc
  generalize hn1 : (if (v.nOnce : ℚ) * v.dti > tlim - v.ttot then 1 else v.nOnce) = n1 at *
  generalize hd1 : (if v.dti > tlim - v.ttot then tlim - v.ttot else v.dti) = d1 at *
  have hset : Clocked.clocks (c.setCurrent I vlim).2.su = Clocked.clocks c.su :=
    cycSet_su (P := fun u => Clocked.clocks u = Clocked.clocks c.su) (fun u i b hu => by rw [Clocked.set_clocks, hu]) c I vlim rfl
  have hlog := (cycSet_log c I vlim).1
  rcases hs : c.setCurrent I vlim with ⟨st | e | w, c1⟩ <;> rw [hs] at h hset hlog
  · dsimp only at h hset hlog
    have hstep := Clocked.step_clocks c1.su d1 n1
    rcases hk : timeStep c1.su d1 n1 with ⟨o | e | w, u2⟩ <;> rw [hk] at h hstep
    · dsimp only at h hstep
      rcases hvo : ccVoltage (c1.withSU u2) with s | vi <;> rw [hvo] at h
      · have : CCNext.ret s = x := Outcome.ok.inj (congrArg Prod.fst h)
        rw [← this] at hv
        rcases hv with hv | hv <;> cases hv
      dsimp only at h
      obtain ⟨w, hw⟩ : ∃ w : Cyc U, w = storeIf (decide (0 < ndt) && decide (ndt ≤ ((v.idat + n1 : ℕ) : ℤ))) (c1.withSU u2) :=
        ⟨_, rfl⟩
      rw [← hw] at h
      have hlog' : RecordsBetween c (c1.withSU u2) [] := records_of_eq hlog
      have key : c' = w ∧ v'.dti = d1 ∧ v'.ttot = v.ttot + d1 * n1 ∧
          v'.idat = (if (decide (0 < ndt) && decide (ndt ≤ ((v.idat + n1 : ℕ) : ℤ))) = true then 0 else v.idat + n1) ∧
          1 ≤ v'.nOnce ∧ v'.nOnce ≤ nMax := by
        by_cases hb : (I < 0 ∧ vi > vlim) ∨ (I > 0 ∧ vi < vlim)
        · rw [if_pos hb] at h
          have e1 := Outcome.ok.inj (congrArg Prod.fst h)
          have e2 : w = c' := congrArg (fun q => q.2.1) h
          rw [← e1] at hv
          rcases hv with hv | hv
          · have hv := CCNext.brk.inj hv
            rw [← hv]
            exact ⟨e2.symm, rfl, rfl, rfl, hc.2.1, hc.2.2.1.trans hx⟩
          · cases hv
        · rw [if_neg hb] at h
          have e1 := Outcome.ok.inj (congrArg Prod.fst h)
          have e2 : w = c' := congrArg (fun q => q.2.1) h
          rw [← e1] at hv
          rcases hv with hv | hv
          · cases hv
          · have hv := CCNext.cont.inj hv
            rw [← hv]
            exact ⟨e2.symm, rfl, rfl, rfl, ccAdapt_pos _ _ _ _ _ _ _ _ hm, ccAdapt_le _ _ _ _ _ _ _ _ hm⟩
      obtain ⟨k1, k2, k3, k4, k5, k6⟩ := key
      obtain ⟨c1', c2, c3, c4, c5, c6, c7⟩ := hc
      refine ⟨k5, k6, ?_, d1, n1, k3, c1', hd ▸ c4, c2, c3.trans hx, by linarith, fun q => (c6 (by linarith)).trans hd, ?_, ?_,
        ?_⟩
      · intro q
        rw [k2]; exact (c6 (by rw [k3] at q; linarith)).trans hd
      · unfold After
        rw [k1, hw, storeIf_su, withSU_su, hstep rfl, hset]
        simp only [mul_comm]
      · intro q
        have eb : (decide (0 < ndt) && decide (ndt ≤ ((v.idat + n1 : ℕ) : ℤ))) = true := by
          rw [decide_eq_true hndt, decide_eq_true q]; rfl
        rw [k4, k1, hw, eb]
        exact ⟨records_trans hlog' (storeIf_records (c1.withSU u2)), rfl⟩
      · intro q
        have eb : (decide (0 < ndt) && decide (ndt ≤ ((v.idat + n1 : ℕ) : ℤ))) = false := by
          rw [decide_eq_false q, Bool.and_false]
        rw [k4, k1, hw, eb]
        exact ⟨hlog', rfl⟩
    · have : CCNext.ret .timeStep_CC_failed = x := Outcome.ok.inj (congrArg Prod.fst h)
      rw [← this] at hv
      rcases hv with hv | hv <;> cases hv
    · cases h
  · cases h
  · cases h

theorem ccLoop_ticks {I vlim dt tlim : ℚ} {ndt : ℤ} {nMax : ℕ} (hndt : 0 < ndt) (hdt : 0 < dt) (hm : 1 ≤ nMax) (fuel : ℕ)
    {v v' : CCVars} {c c' : Cyc U} {th th' : Thr} {b : Bool}
    (h : ccLoop I vlim tlim ndt nMax fuel v c th = (.ok (.inr (v', b)), c', th'))
    (hd : v.ttot < tlim → v.dti = dt) (hn : 1 ≤ v.nOnce) (hx : v.nOnce ≤ nMax) :
    Ticks dt tlim ndt nMax v.ttot v.idat c v'.ttot v'.idat c' := by
  have stop : ∀ {v : CCVars} {c : Cyc U} {th : Thr} {b' : Bool},
      ((.ok (.inr (v, b')), c, th) : Outcome (Status ⊕ (CCVars × Bool)) × Cyc U × Thr) = (.ok (.inr (v', b)), c', th') →
      Ticks dt tlim ndt nMax v.ttot v.idat c v'.ttot v'.idat c' := by
    intro v c th b' h
    have h1 := congrArg Prod.fst (Sum.inr.inj (Outcome.ok.inj (congrArg Prod.fst h)))
    have h1 : v = v' := h1
    have h2 : c = c' := congrArg (fun q => q.2.1) h
    rw [h1, h2]; exact .stop _ _ _
  induction fuel generalizing v c th with
  | zero =>
    unfold ccLoop at h
    by_cases hlt : v.ttot < tlim
    · rw [if_pos hlt] at h; cases h
    · rw [if_neg hlt] at h; exact stop h
  | succ fuel ih =>
    unfold ccLoop at h
    by_cases hlt : v.ttot < tlim
    · rw [if_pos hlt] at h
      rcases hb : ccBody I vlim tlim ndt nMax v c th with ⟨o, c1, th1⟩
      rw [hb] at h
      match o, hb, h with
      | .throw e, _, h => cases h
      | .ub e, _, h => cases h
      | .ok (.ret st), _, h => cases h
      | .ok (.brk v1), hb, h =>
        obtain ⟨q1, q2, q3, dti, n, e, r1, r2, r3, r4, r5, r6, r7, r8, r9⟩ :=
          ccBody_tick hndt hb (.inl rfl) hlt hdt (hd hlt) hn hx hm
        have := stop h
        rw [e] at this
        exact .tick dti n r1 r2 r3 r4 r5 r6 r7 r8 r9 this
      | .ok (.cont v1), hb, h =>
        obtain ⟨q1, q2, q3, dti, n, e, r1, r2, r3, r4, r5, r6, r7, r8, r9⟩ :=
          ccBody_tick hndt hb (.inr rfl) hlt hdt (hd hlt) hn hx hm
        have := ih h q3 q1 q2
        rw [e] at this
        exact .tick dti n r1 r2 r3 r4 r5 r6 r7 r8 r9 this
    · rw [if_neg hlt] at h; exact stop h

theorem cvLoop_ticks [VoltageUnit U] (hvol : ∀ (u : U) v, Clocked.clocks (VoltageUnit.setVoltage u v).2 = Clocked.clocks u)
    {Vset Ilim dt tlim : ℚ} {nt : ℕ} {ndt : ℤ} (hndt : 0 < ndt) (hdt : 0 < dt) (hnt : (nt : ℚ) - 1 < tlim / dt)
    (hnt2 : tlim / dt ≤ nt) (left i : ℕ) (hi : i + left = nt) {c c' : Cyc U} {ttot ttot' : ℚ} {th th' : Thr} {x : Option Bool}
    (htt : 0 < left → ttot = i * dt)
    (h : cvLoop Vset Ilim tlim dt nt ndt left i c ttot th = (.ok (.inr x), c', ttot', th')) :
    ∃ i', Ticks dt tlim ndt 1 ttot (i % ndt.toNat) c ttot' i' c' := by
  have e1 : dt * ((nt : ℚ) - 1) < tlim := by
    rw [lt_div_iff₀ hdt] at hnt; linarith
  have e2 : tlim ≤ nt * dt := by rwa [div_le_iff₀ hdt] at hnt2
  obtain ⟨m, hm⟩ : ∃ m : ℕ, ndt = m := ⟨ndt.toNat, (Int.toNat_of_nonneg hndt.le).symm⟩
  subst hm
  have hm : 0 < m := by exact_mod_cast hndt
  simp only [Int.toNat_natCast]
  induction left generalizing i c ttot th with
  | zero =>
    unfold cvLoop at h
    have h2 : c = c' := congrArg (fun q => q.2.1) h
    have h3 : ttot = ttot' := congrArg (fun q => q.2.2.1) h
    rw [h2, h3]; exact ⟨_, .stop _ _ _⟩
  | succ left ih =>
    have htt := htt (Nat.succ_pos _)
    unfold cvLoop at h
    rcases hb : cvBody Vset Ilim tlim dt nt m i c ttot th with ⟨o, c1, tt1, th1⟩
    rw [hb] at h
    have key : ∀ y, o = .ok (.inr y) → ∃ dti, tt1 = ttot + dti * (1 : ℕ) ∧ 0 < dti ∧ dti ≤ dt ∧ ttot + dti * (1 : ℕ) ≤ tlim ∧
        (ttot + dti * (1 : ℕ) < tlim → dti = dt) ∧ After c.su (dti * (1 : ℕ)) c1.su ∧
        ((m : ℤ) ≤ (i % m + 1 : ℕ) → RecordsBetween c c1 [c1.su] ∧ (i + 1) % m = 0) ∧
        (¬ (m : ℤ) ≤ (i % m + 1 : ℕ) → RecordsBetween c c1 [] ∧ (i + 1) % m = i % m + 1) ∧
        (0 < left → tt1 = (i + 1 : ℕ) * dt) := by
      intro y hy
      subst hy
      unfold cvBody at hb
      have h1 := hvol c.su Vset
      rcases hk : VoltageUnit.setVoltage c.su Vset with ⟨st | e | w, u1⟩ <;> rw [hk] at h1 hb
      · dsimp only at hb h1
        obtain ⟨dti, hdti⟩ : ∃ d, d = (if i + 1 = nt then tlim - dt * ((nt : ℚ) - 1) else dt) := ⟨_, rfl⟩
        rw [← hdti] at hb
        have h2 := Clocked.step_clocks u1 dti 1
        rcases hk2 : timeStep u1 dti 1 with ⟨o | e | w, u2⟩ <;> rw [hk2] at h2 hb
        · dsimp only at hb h2
          have hc : c1 = storeIf (decide (0 < (m : ℤ)) && decide (((i : ℤ) + 1) % m = 0)) (c.withSU u2) ∧ tt1 = ttot + dti := by
            have q1 := congrArg (fun q => q.2.1) hb
            have q2 := congrArg (fun q => q.2.2.1) hb
            dsimp only at q1 q2
            split_ifs at q1 q2 <;> exact ⟨q1.symm, q2.symm⟩
          have hd0 : 0 < dti ∧ dti ≤ dt ∧ ttot + dti ≤ tlim ∧ (ttot + dti < tlim → dti = dt) ∧
              (0 < left → ttot + dti = (i + 1 : ℕ) * dt) := by
            by_cases hq : i + 1 = nt
            · rw [if_pos hq] at hdti
              have ei : (i : ℚ) + 1 = nt := by exact_mod_cast hq
              have e3 : ttot + dti = tlim := by rw [hdti, htt, ← ei]; ring
              refine ⟨by linarith, by rw [hdti]; linarith, e3.le, fun hl => by linarith, fun hl => by omega⟩
            · rw [if_neg hq] at hdti
              have e3 : ttot + dti = (i + 1 : ℕ) * dt := by rw [hdti, htt]; push_cast; ring
              have e4 : ((i + 1 : ℕ) : ℚ) ≤ nt - 1 := by
                have : i + 1 + 1 ≤ nt := by omega
                have : ((i + 1 + 1 : ℕ) : ℚ) ≤ nt := by exact_mod_cast this
                push_cast at this ⊢; linarith
              exact ⟨hdti ▸ hdt, hdti.le, by rw [e3]; nlinarith, fun _ => hdti, fun _ => e3⟩
          have hr0 : RecordsBetween c (c.withSU u2) [] := records_of_eq rfl
          have hmod : ((i : ℤ) + 1) % m = 0 ↔ (i + 1) % m = 0 := by
            rw [show ((i : ℤ) + 1) % m = (((i + 1) % m : ℕ) : ℤ) by push_cast; rfl]
            exact_mod_cast Iff.rfl
          have hlt : i % m < m := Nat.mod_lt _ hm
          refine ⟨dti, by rw [hc.2]; simp, hd0.1, hd0.2.1, by simpa using hd0.2.2.1, by simpa using hd0.2.2.2.1, ?_, ?_, ?_, ?_⟩
          · unfold After
            rw [hc.1, storeIf_su, withSU_su, h2 rfl, h1]
            simp
          · intro hs
            have hs : m = i % m + 1 := by
              have : m ≤ i % m + 1 := by exact_mod_cast hs
              omega
            have hz : (i + 1) % m = 0 := by
              rcases Nat.lt_or_ge 1 m with q | q
              · rw [Nat.add_mod, Nat.mod_eq_of_lt q, ← hs, Nat.mod_self]
              · have : m = 1 := by omega
                rw [this, Nat.mod_one]
            have eb : (decide (0 < (m : ℤ)) && decide (((i : ℤ) + 1) % m = 0)) = true := by
              rw [decide_eq_true hndt, decide_eq_true (hmod.mpr hz)]; rfl
            rw [hc.1, eb]
            exact ⟨records_trans hr0 (storeIf_records _), hz⟩
          · intro hs
            have hs : i % m + 1 < m := by
              have : ¬ m ≤ i % m + 1 := by exact_mod_cast hs
              omega
            have hz : (i + 1) % m = i % m + 1 := by
              rw [Nat.add_mod, Nat.mod_eq_of_lt (show 1 < m by omega), Nat.mod_eq_of_lt hs]
            have eb : (decide (0 < (m : ℤ)) && decide (((i : ℤ) + 1) % m = 0)) = false := by
              rw [show decide (((i : ℤ) + 1) % m = 0) = false from decide_eq_false (fun q => by have := hmod.mp q; omega), Bool.and_false]
            rw [hc.1, eb]
            exact ⟨hr0, hz⟩
          · intro hl
            rw [hc.2]; exact hd0.2.2.2.2 hl
        · have := congrArg Prod.fst hb
          cases this
        · have := congrArg Prod.fst hb
          cases this
      · have := congrArg Prod.fst hb
        cases this
      · have := congrArg Prod.fst hb
        cases this
    match o, hb, h with
    | .throw e, _, h => cases h
    | .ub e, _, h => cases h
    | .ok (.inl st), _, h => cases h
    | .ok (.inr (some y)), hb, h =>
      obtain ⟨dti, r0, r1, r2, r5, r6, r7, r8, r9, -⟩ := key _ rfl
      have h2 : c1 = c' := congrArg (fun q => q.2.1) h
      have h3 : tt1 = ttot' := congrArg (fun q => q.2.2.1) h
      refine ⟨(i + 1) % m, .tick dti 1 r1 r2 (le_refl _) (le_refl _) r5 r6 r7 r8 r9 ?_⟩
      rw [← r0, h2, h3]; exact .stop _ _ _
    | .ok (.inr none), hb, h =>
      obtain ⟨dti, r0, r1, r2, r5, r6, r7, r8, r9, r10⟩ := key _ rfl
      obtain ⟨i', hi'⟩ := ih (i + 1) (by omega) r10 h
      refine ⟨i', .tick dti 1 r1 r2 (le_refl _) (le_refl _) r5 r6 r7 r8 r9 ?_⟩
      rw [← r0]; exact hi'

end

/-! ### Recording changes nothing else -/

/-- The same result up to `R`. -/
inductive SameRes {A B : Type} (R : A → B → Prop) : Outcome A → Outcome B → Prop
  | ok {a : A} {b : B} (h : R a b) : SameRes R (.ok a) (.ok b)
  | throw (e : Int) : SameRes R (.throw e) (.throw e)
  | ub (w : String) : SameRes R (.ub w) (.ub w)

/-- The same unit under the same diagnostics. -/
def CycAlike (c d : Cyc U) : Prop := c.su = d.su ∧ c.diagnostic = d.diagnostic

theorem alike_storeIf {c d : Cyc U} (h : CycAlike c d) (a b : Bool) : CycAlike (storeIf a c) (storeIf b d) := by
  unfold CycAlike
  rw [storeIf_su, storeIf_su, storeIf_diag, storeIf_diag]; exact h

theorem alike_withSU {c d : Cyc U} (h : CycAlike c d) (u : U) : CycAlike (c.withSU u) (d.withSU u) := ⟨rfl, h.2⟩

/-- Equal except for the count of steps since the last record. -/
inductive RestAlike : Status ⊕ RestVars → Status ⊕ RestVars → Prop
  | inl (s : Status) : RestAlike (.inl s) (.inl s)
  | inr (dti ttot : ℚ) (i j n : ℕ) (b : Bool) : RestAlike (.inr ⟨dti, ttot, i, n, b⟩) (.inr ⟨dti, ttot, j, n, b⟩)

theorem restBody_alike (tlim : ℚ) (m k : ℤ) (nMax : ℕ) (dti ttot : ℚ) (i j n : ℕ) (b : Bool) {c d : Cyc U} (h : CycAlike c d) :
    SameRes RestAlike (restBody tlim m nMax ⟨dti, ttot, i, n, b⟩ c).1 (restBody tlim k nMax ⟨dti, ttot, j, n, b⟩ d).1 ∧
    CycAlike (restBody tlim m nMax ⟨dti, ttot, i, n, b⟩ c).2 (restBody tlim k nMax ⟨dti, ttot, j, n, b⟩ d).2 := by
  unfold restBody
  rw [h.1]
  rcases StorageUnit.setCurrent d.su 0 false with ⟨st | e | w, u1⟩
  · dsimp only
    by_cases hb : st.isBad = true
    · rw [if_pos hb, if_pos hb]; exact ⟨.ok (.inl _), alike_withSU h u1⟩
    · rw [if_neg hb, if_neg hb]
      generalize (if n * dti > tlim - ttot then 1 else n) = k0
      generalize (if dti > tlim - ttot then tlim - ttot else dti) = dt0
      rcases timeStep u1 dt0 k0 with ⟨st | e | w, u2⟩
      · exact ⟨.ok (.inr _ _ _ _ _ _), alike_storeIf (alike_withSU h u2) _ _⟩
      · exact ⟨.throw e, alike_withSU h u2⟩
      · exact ⟨.ub w, alike_withSU h u2⟩
  · exact ⟨.throw e, alike_withSU h u1⟩
  · exact ⟨.ub w, alike_withSU h u1⟩

theorem restLoop_alike (tlim : ℚ) (m k : ℤ) (nMax fuel : ℕ) (dti ttot : ℚ) (i j n : ℕ) (b : Bool) {c d : Cyc U}
    (h : CycAlike c d) :
    SameRes RestAlike (restLoop tlim m nMax fuel ⟨dti, ttot, i, n, b⟩ c).1 (restLoop tlim k nMax fuel ⟨dti, ttot, j, n, b⟩ d).1 ∧
    CycAlike (restLoop tlim m nMax fuel ⟨dti, ttot, i, n, b⟩ c).2 (restLoop tlim k nMax fuel ⟨dti, ttot, j, n, b⟩ d).2 := by
  induction fuel generalizing dti ttot i j n b c d with
  | zero =>
    unfold restLoop
    dsimp only
    by_cases hl : ttot < tlim
    · rw [if_pos hl, if_pos hl]; exact ⟨.ub _, h⟩
    · rw [if_neg hl, if_neg hl]; exact ⟨.ok (.inr _ _ _ _ _ _), h⟩
  | succ fuel ih =>
    unfold restLoop
    dsimp only
    by_cases hl : ttot < tlim
    · rw [if_pos hl, if_pos hl]
      obtain ⟨h1, h2⟩ := restBody_alike tlim m k nMax dti ttot i j n b h
      generalize restBody tlim m nMax ⟨dti, ttot, i, n, b⟩ c = r at *
      generalize restBody tlim k nMax ⟨dti, ttot, j, n, b⟩ d = s at *
      obtain ⟨r, c1⟩ := r
      obtain ⟨s, d1⟩ := s
      dsimp only at h1 h2
      cases h1 with
      | throw e => exact ⟨.throw e, h2⟩
      | ub w => exact ⟨.ub w, h2⟩
      | ok h1 =>
        cases h1 with
        | inl s => exact ⟨.ok (.inl s), h2⟩
        | inr dti ttot i j n b => exact ih dti ttot i j n b h2
    · rw [if_neg hl, if_neg hl]; exact ⟨.ok (.inr _ _ _ _ _ _), h⟩

/-- `rest` depends on `ndt` only by the largest number of steps at once. -/
theorem rest_alike (fuel : ℕ) {c d : Cyc U} (h : CycAlike c d) (tlim dt : ℚ) (m k : ℤ) (th : Thr)
    (hm : (if decide (0 < m) = true then min 10 m.toNat else 10) = (if decide (0 < k) = true then min 10 k.toNat else 10)) :
    SameBut (rest fuel c tlim dt m th) (rest fuel d tlim dt k th) ∧
    CycAlike (rest fuel c tlim dt m th).2.1 (rest fuel d tlim dt k th).2.1 := by
  have key : (rest fuel c tlim dt m th).1 = (rest fuel d tlim dt k th).1 ∧
      CycAlike (rest fuel c tlim dt m th).2.1 (rest fuel d tlim dt k th).2.1 ∧
      (rest fuel c tlim dt m th).2.2 = (rest fuel d tlim dt k th).2.2 := by
    unfold rest
    dsimp only
    rw [hm]
    obtain ⟨h1, h2⟩ := restLoop_alike tlim m k (if decide (0 < k) = true then min 10 k.toNat else 10) fuel dt 0 0 0 1 true
      (alike_storeIf h (decide (0 < m)) (decide (0 < k)))
    generalize restLoop tlim m (if decide (0 < k) = true then min 10 k.toNat else 10) fuel ⟨dt, 0, 0, 1, true⟩
      (storeIf (decide (0 < m)) c) = r at *
    generalize restLoop tlim k (if decide (0 < k) = true then min 10 k.toNat else 10) fuel ⟨dt, 0, 0, 1, true⟩
      (storeIf (decide (0 < k)) d) = s at *
    obtain ⟨r, c1⟩ := r
    obtain ⟨s, d1⟩ := s
    dsimp only at h1 h2
    cases h1 with
    | throw e => exact ⟨rfl, h2, rfl⟩
    | ub w => exact ⟨rfl, h2, rfl⟩
    | ok h1 =>
      cases h1 with
      | inl s => exact ⟨rfl, h2, rfl⟩
      | inr dti ttot i j n b =>
        dsimp only
        by_cases ht : ttot ≥ tlim ∧ |ttot - tlim| < 1
        · rw [if_pos ht, if_pos ht, h2.1]
          rcases StorageUnit.setCurrent d1.su 0 false with ⟨st | e | w, u1⟩
          · exact ⟨rfl, alike_storeIf (alike_withSU h2 u1) _ _, rfl⟩
          · exact ⟨rfl, alike_withSU h2 u1, rfl⟩
          · exact ⟨rfl, alike_withSU h2 u1, rfl⟩
        · rw [if_neg ht, if_neg ht]; exact ⟨rfl, h2, rfl⟩
  exact ⟨⟨key.1, key.2.1.1, key.2.2⟩, key.2.1⟩

theorem cycSet_alike {c d : Cyc U} (h : CycAlike c d) (I vlim : ℚ) :
    (c.setCurrent I vlim).1 = (d.setCurrent I vlim).1 ∧ CycAlike (c.setCurrent I vlim).2 (d.setCurrent I vlim).2 := by
  unfold Cyc.setCurrent
  dsimp only
  rw [h.1, h.2]
  rcases StorageUnit.setCurrent d.su I d.diagnostic with ⟨st | e | w, u1⟩
  · dsimp only
    by_cases hv : st.isVoltageLimitsViolated = true
    · rw [if_pos hv, if_pos hv]
      rcases StorageUnit.setCurrent u1 (StorageUnit.I d.su) false with ⟨st2 | e | w, u2⟩ <;> exact ⟨rfl, alike_withSU h u2⟩
    · rw [if_neg hv, if_neg hv]
      split_ifs <;> exact ⟨rfl, alike_withSU h u1⟩
  · exact ⟨rfl, alike_withSU h u1⟩
  · exact ⟨rfl, alike_withSU h u1⟩

/-- Equal except for the count of steps since the last record. -/
def CCAlike (v w : CCVars) : Prop := ({ v with idat := 0 } : CCVars) = { w with idat := 0 }

inductive NextAlike : CCNext → CCNext → Prop
  | ret (s : Status) : NextAlike (.ret s) (.ret s)
  | brk {v w : CCVars} (h : CCAlike v w) : NextAlike (.brk v) (.brk w)
  | cont {v w : CCVars} (h : CCAlike v w) : NextAlike (.cont v) (.cont w)

theorem CCAlike.fields {v w : CCVars} (h : CCAlike v w) : v.dti = w.dti ∧ v.ttot = w.ttot ∧ v.nOnce = w.nOnce ∧ v.vo = w.vo ∧
    v.vi = w.vi ∧ v.allowUp = w.allowUp := by
  unfold CCAlike at h
  simpa [CCVars.mk.injEq] using h

theorem ccVoltage_alike {c d : Cyc U} (h : CycAlike c d) : ccVoltage c = ccVoltage d := by
  unfold ccVoltage; rw [h.1, h.2]

theorem ccBody_alike (I vlim tlim : ℚ) (m k : ℤ) (nMax : ℕ) {v w : CCVars} (hv : CCAlike v w) {c d : Cyc U} (h : CycAlike c d)
    (th : Thr) :
    SameRes NextAlike (ccBody I vlim tlim m nMax v c th).1 (ccBody I vlim tlim k nMax w d th).1 ∧
    CycAlike (ccBody I vlim tlim m nMax v c th).2.1 (ccBody I vlim tlim k nMax w d th).2.1 ∧
    (ccBody I vlim tlim m nMax v c th).2.2 = (ccBody I vlim tlim k nMax w d th).2.2 := by
  obtain ⟨f1, f2, f3, f4, f5, f6⟩ := hv.fields
  unfold ccBody
  obtain ⟨h1, h2⟩ := cycSet_alike h I vlim
  generalize c.setCurrent I vlim = r at *
  generalize d.setCurrent I vlim = s at *
  obtain ⟨r, c1⟩ := r
  obtain ⟨s, d1⟩ := s
  dsimp only at h1 h2
  subst h1
  rcases r with st | e | q
  · dsimp only
    rw [f1, f2, f3, f4, f6, h2.1]
    generalize (if w.nOnce * w.dti > tlim - w.ttot then 1 else w.nOnce) = k0
    generalize (if w.dti > tlim - w.ttot then tlim - w.ttot else w.dti) = dt0
    rcases timeStep d1.su dt0 k0 with ⟨st | e | q, u2⟩
    · dsimp only
      rw [ccVoltage_alike (alike_withSU h2 u2)]
      rcases ccVoltage (d1.withSU u2) with s | vi
      · exact ⟨.ok (.ret s), alike_withSU h2 u2, rfl⟩
      · dsimp only
        have ha := alike_storeIf (alike_withSU h2 u2) (decide (0 < m) && decide (m ≤ ((v.idat + k0 : ℕ) : ℤ)))
          (decide (0 < k) && decide (k ≤ ((w.idat + k0 : ℕ) : ℤ)))
        by_cases hb : (I < 0 ∧ vi > vlim) ∨ (I > 0 ∧ vi < vlim)
        · rw [if_pos hb, if_pos hb]; exact ⟨.ok (.brk rfl), ha, rfl⟩
        · rw [if_neg hb, if_neg hb]
          refine ⟨.ok (.cont ?_), ha, rfl⟩
          unfold CCAlike
          dsimp only
          rw [ha.1]
    · exact ⟨.ok (.ret _), alike_withSU h2 u2, rfl⟩
    · exact ⟨.ub q, alike_withSU h2 u2, rfl⟩
  · exact ⟨.throw e, h2, rfl⟩
  · exact ⟨.ub q, h2, rfl⟩

inductive LoopAlike : Status ⊕ (CCVars × Bool) → Status ⊕ (CCVars × Bool) → Prop
  | inl (s : Status) : LoopAlike (.inl s) (.inl s)
  | inr {v w : CCVars} (b : Bool) (h : CCAlike v w) : LoopAlike (.inr (v, b)) (.inr (w, b))

theorem ccLoop_alike (I vlim tlim : ℚ) (m k : ℤ) (nMax fuel : ℕ) {v w : CCVars} (hv : CCAlike v w) {c d : Cyc U} (h : CycAlike c d)
    (th : Thr) :
    SameRes LoopAlike (ccLoop I vlim tlim m nMax fuel v c th).1 (ccLoop I vlim tlim k nMax fuel w d th).1 ∧
    CycAlike (ccLoop I vlim tlim m nMax fuel v c th).2.1 (ccLoop I vlim tlim k nMax fuel w d th).2.1 ∧
    (ccLoop I vlim tlim m nMax fuel v c th).2.2 = (ccLoop I vlim tlim k nMax fuel w d th).2.2 := by
  induction fuel generalizing v w c d th with
  | zero =>
    unfold ccLoop
    rw [hv.fields.2.1]
    by_cases hl : w.ttot < tlim
    · rw [if_pos hl, if_pos hl]; exact ⟨.ub _, h, rfl⟩
    · rw [if_neg hl, if_neg hl]; exact ⟨.ok (.inr _ hv), h, rfl⟩
  | succ fuel ih =>
    unfold ccLoop
    rw [hv.fields.2.1]
    by_cases hl : w.ttot < tlim
    · rw [if_pos hl, if_pos hl]
      obtain ⟨h1, h2, h3⟩ := ccBody_alike I vlim tlim m k nMax hv h th
      generalize ccBody I vlim tlim m nMax v c th = r at *
      generalize ccBody I vlim tlim k nMax w d th = s at *
      obtain ⟨r, c1, t1⟩ := r
      obtain ⟨s, d1, t2⟩ := s
      dsimp only at h1 h2 h3
      subst h3
      cases h1 with
      | throw e => exact ⟨.throw e, h2, rfl⟩
      | ub w => exact ⟨.ub w, h2, rfl⟩
      | ok h1 =>
        cases h1 with
        | ret s => exact ⟨.ok (.inl s), h2, rfl⟩
        | brk hv' => exact ⟨.ok (.inr _ hv'), h2, rfl⟩
        | cont hv' => exact ih hv' h2 t1
    · rw [if_neg hl, if_neg hl]; exact ⟨.ok (.inr _ hv), h, rfl⟩

/-- `CC` depends on `ndt` only by the largest number of steps at once. -/
theorem CC_alike (fuel : ℕ) {c d : Cyc U} (h : CycAlike c d) (I vlim tlim dt : ℚ) (m k : ℤ) (th : Thr)
    (hm : (if decide (0 < m) = true then min 2 m.toNat else 2) = (if decide (0 < k) = true then min 2 k.toNat else 2)) :
    (CC fuel c I vlim tlim dt m th).1 = (CC fuel d I vlim tlim dt k th).1 ∧
    CycAlike (CC fuel c I vlim tlim dt m th).2.1 (CC fuel d I vlim tlim dt k th).2.1 ∧
    (CC fuel c I vlim tlim dt m th).2.2 = (CC fuel d I vlim tlim dt k th).2.2 := by
  unfold CC
  dsimp only
  rw [hm]
  generalize (if decide (0 < k) = true then min 2 k.toNat else 2) = nm
  obtain ⟨h1, h2⟩ := cycSet_alike (alike_storeIf h (decide (0 < m)) (decide (0 < k))) I vlim
  generalize Cyc.setCurrent (storeIf (decide (0 < m)) c) I vlim = r at *
  generalize Cyc.setCurrent (storeIf (decide (0 < k)) d) I vlim = s at *
  obtain ⟨r, c1⟩ := r
  obtain ⟨s, d1⟩ := s
  dsimp only at h1 h2
  subst h1
  rcases r with st | e | q
  · dsimp only
    by_cases hs : (!st.isSuccessful) = true
    · rw [if_pos hs, if_pos hs]; exact ⟨rfl, h2, rfl⟩
    rw [if_neg hs, if_neg hs, h2.1]
    by_cases hv : (I < 0 ∧ V d1.su > vlim) ∨ (I > 0 ∧ V d1.su < vlim)
    · rw [if_pos hv, if_pos hv]; exact ⟨rfl, h2, rfl⟩
    rw [if_neg hv, if_neg hv]
    obtain ⟨k1, k2, k3⟩ := ccLoop_alike I vlim tlim m k nm fuel
      (v := { dti := dt, ttot := 0, idat := 0, nOnce := 1, vo := V d1.su, vi := V d1.su, allowUp := true })
      (w := { dti := dt, ttot := 0, idat := 0, nOnce := 1, vo := V d1.su, vi := V d1.su, allowUp := true }) rfl h2 th
    generalize ccLoop I vlim tlim m nm fuel
      { dti := dt, ttot := 0, idat := 0, nOnce := 1, vo := V d1.su, vi := V d1.su, allowUp := true } c1 th = r2 at *
    generalize ccLoop I vlim tlim k nm fuel
      { dti := dt, ttot := 0, idat := 0, nOnce := 1, vo := V d1.su, vi := V d1.su, allowUp := true } d1 th = s2 at *
    obtain ⟨r2, c2, t1⟩ := r2
    obtain ⟨s2, d2, t2⟩ := s2
    dsimp only at k1 k2 k3
    subst k3
    cases k1 with
    | throw e => exact ⟨rfl, k2, rfl⟩
    | ub w => exact ⟨rfl, k2, rfl⟩
    | ok k1 =>
      cases k1 with
      | inl s => exact ⟨rfl, k2, rfl⟩
      | @inr v w b hvw =>
        dsimp only
        rw [hvw.fields.2.1]
        by_cases ht : w.ttot ≥ tlim
        · rw [if_pos ht, if_pos ht]; exact ⟨rfl, alike_storeIf k2 _ _, rfl⟩
        rw [if_neg ht, if_neg ht]
        by_cases hb : b = true
        · rw [if_pos hb, if_pos hb]; exact ⟨rfl, alike_storeIf k2 _ _, rfl⟩
        · rw [if_neg hb, if_neg hb]; exact ⟨rfl, k2, rfl⟩
  · exact ⟨rfl, h2, rfl⟩
  · exact ⟨rfl, h2, rfl⟩

section
variable [VoltageUnit U]

theorem cvBody_alike (Vset Ilim tlim dt : ℚ) (nt : ℕ) (m k : ℤ) (i : ℕ) {c d : Cyc U} (h : CycAlike c d) (ttot : ℚ) (th : Thr) :
    (cvBody Vset Ilim tlim dt nt m i c ttot th).1 = (cvBody Vset Ilim tlim dt nt k i d ttot th).1 ∧
    CycAlike (cvBody Vset Ilim tlim dt nt m i c ttot th).2.1 (cvBody Vset Ilim tlim dt nt k i d ttot th).2.1 ∧
    (cvBody Vset Ilim tlim dt nt m i c ttot th).2.2 = (cvBody Vset Ilim tlim dt nt k i d ttot th).2.2 := by
  unfold cvBody
  rw [h.1]
  rcases VoltageUnit.setVoltage d.su Vset with ⟨st | e | w, u1⟩
  · dsimp only
    generalize (if i + 1 = nt then tlim - dt * ((nt : ℚ) - 1) else dt) = dti
    rcases timeStep u1 dti 1 with ⟨st | e | w, u2⟩
    · have ha := alike_storeIf (alike_withSU h u2) (decide (0 < m) && decide (((i : ℤ) + 1) % m = 0))
        (decide (0 < k) && decide (((i : ℤ) + 1) % k = 0))
      dsimp only
      split_ifs <;> exact ⟨rfl, ha, rfl⟩
    · exact ⟨rfl, alike_withSU h u2, rfl⟩
    · exact ⟨rfl, alike_withSU h u2, rfl⟩
  · exact ⟨rfl, alike_withSU h u1, rfl⟩
  · exact ⟨rfl, alike_withSU h u1, rfl⟩

theorem cvLoop_alike (Vset Ilim tlim dt : ℚ) (nt : ℕ) (m k : ℤ) (left i : ℕ) {c d : Cyc U} (h : CycAlike c d) (ttot : ℚ)
    (th : Thr) :
    (cvLoop Vset Ilim tlim dt nt m left i c ttot th).1 = (cvLoop Vset Ilim tlim dt nt k left i d ttot th).1 ∧
    CycAlike (cvLoop Vset Ilim tlim dt nt m left i c ttot th).2.1 (cvLoop Vset Ilim tlim dt nt k left i d ttot th).2.1 ∧
    (cvLoop Vset Ilim tlim dt nt m left i c ttot th).2.2 = (cvLoop Vset Ilim tlim dt nt k left i d ttot th).2.2 := by
  induction left generalizing i c d ttot th with
  | zero => exact ⟨rfl, h, rfl⟩
  | succ left ih =>
    unfold cvLoop
    obtain ⟨h1, h2, h3⟩ := cvBody_alike Vset Ilim tlim dt nt m k i h ttot th
    generalize cvBody Vset Ilim tlim dt nt m i c ttot th = r at *
    generalize cvBody Vset Ilim tlim dt nt k i d ttot th = s at *
    obtain ⟨r, c1, q1⟩ := r
    obtain ⟨s, d1, q2⟩ := s
    dsimp only at h1 h2 h3
    subst h1 h3
    match r, q1 with
    | .throw e, _ => exact ⟨rfl, h2, rfl⟩
    | .ub e, _ => exact ⟨rfl, h2, rfl⟩
    | .ok (.inl st), _ => exact ⟨rfl, h2, rfl⟩
    | .ok (.inr (some y)), _ => exact ⟨rfl, h2, rfl⟩
    | .ok (.inr none), (t1, th1) => exact ih (i + 1) h2 t1 th1

theorem CV_alike {c d : Cyc U} (h : CycAlike c d) (Vset Ilim tlim dt : ℚ) (m k : ℤ) (th : Thr) :
    (CV c Vset Ilim tlim dt m th).1 = (CV d Vset Ilim tlim dt k th).1 ∧
    CycAlike (CV c Vset Ilim tlim dt m th).2.1 (CV d Vset Ilim tlim dt k th).2.1 ∧
    (CV c Vset Ilim tlim dt m th).2.2 = (CV d Vset Ilim tlim dt k th).2.2 := by
  unfold CV
  dsimp only
  have h0 := alike_storeIf h (decide (0 < m)) (decide (0 < k))
  generalize storeIf (decide (0 < m)) c = c0 at *
  generalize storeIf (decide (0 < k)) d = d0 at *
  rw [h0.1]
  by_cases q1 : |StorageUnit.I d0.su| < Ilim ∧ vLimit (V d0.su) Vset = true
  · rw [if_pos q1, if_pos q1]; exact ⟨rfl, h0, rfl⟩
  rw [if_neg q1, if_neg q1]
  by_cases q2 : dt = 0 ∨ ⌈tlim / dt⌉ < 0
  · rw [if_pos q2, if_pos q2]; exact ⟨rfl, h0, rfl⟩
  rw [if_neg q2, if_neg q2]
  obtain ⟨h1, h2, h3⟩ := cvLoop_alike Vset Ilim tlim dt ⌈tlim / dt⌉.toNat m k ⌈tlim / dt⌉.toNat 0 h0 0 th
  generalize cvLoop Vset Ilim tlim dt ⌈tlim / dt⌉.toNat m ⌈tlim / dt⌉.toNat 0 c0 0 th = r at *
  generalize cvLoop Vset Ilim tlim dt ⌈tlim / dt⌉.toNat k ⌈tlim / dt⌉.toNat 0 d0 0 th = s at *
  obtain ⟨r, c1, q1⟩ := r
  obtain ⟨s, d1, q2⟩ := s
  dsimp only at h1 h2 h3
  subst h1 h3
  match r, q1 with
  | .throw e, _ => exact ⟨rfl, h2, rfl⟩
  | .ub e, _ => exact ⟨rfl, h2, rfl⟩
  | .ok (.inl st), _ => exact ⟨rfl, h2, rfl⟩
  | .ok (.inr x), (t1, th1) =>
    dsimp only
    by_cases ht : t1 ≥ tlim
    · rw [if_pos ht, if_pos ht]; exact ⟨rfl, alike_storeIf h2 _ _, rfl⟩
    rw [if_neg ht, if_neg ht]
    match x with
    | some true => exact ⟨rfl, alike_storeIf h2 _ _, rfl⟩
    | some false => exact ⟨rfl, alike_storeIf h2 _ _, rfl⟩
    | none => exact ⟨rfl, h2, rfl⟩

theorem CCCVt_alike (fuel : ℕ) {c d : Cyc U} (h : CycAlike c d) (I Vset Ilim tlim dt : ℚ) (m k : ℤ) (th : Thr)
    (hm : (if decide (0 < m) = true then min 2 m.toNat else 2) = (if decide (0 < k) = true then min 2 k.toNat else 2)) :
    (CCCVt fuel c I Vset Ilim tlim dt m th).1 = (CCCVt fuel d I Vset Ilim tlim dt k th).1 ∧
    CycAlike (CCCVt fuel c I Vset Ilim tlim dt m th).2.1 (CCCVt fuel d I Vset Ilim tlim dt k th).2.1 ∧
    (CCCVt fuel c I Vset Ilim tlim dt m th).2.2 = (CCCVt fuel d I Vset Ilim tlim dt k th).2.2 := by
  unfold CCCVt
  rw [h.1]
  by_cases q1 : Vset < (lim d.su).Vmin ∨ Vset > (lim d.su).Vmax
  · rw [if_pos q1, if_pos q1]; exact ⟨rfl, h, rfl⟩
  rw [if_neg q1, if_neg q1]
  rcases StorageUnit.setCurrent d.su 0 false with ⟨st | e | w, u⟩
  · dsimp only
    by_cases hf : st.isFailed = true
    · rw [if_pos hf, if_pos hf]; exact ⟨rfl, alike_withSU h u, rfl⟩
    rw [if_neg hf, if_neg hf]
    generalize (if V u > Vset then |I| else -|I|) = i0
    obtain ⟨h1, h2, h3⟩ := CC_alike fuel (alike_withSU h u) i0 Vset tlim dt m k Thr.zero hm
    generalize CC fuel (c.withSU u) i0 Vset tlim dt m Thr.zero = r at *
    generalize CC fuel (d.withSU u) i0 Vset tlim dt k Thr.zero = s at *
    obtain ⟨r, c1, t1⟩ := r
    obtain ⟨s, d1, t2⟩ := s
    dsimp only at h1 h2 h3
    subst h1 h3
    rcases r with st | e | w
    · dsimp only
      obtain ⟨k1, k2, k3⟩ := CV_alike h2 Vset |Ilim| (tlim - t1.time) dt m k Thr.zero
      generalize CV c1 Vset |Ilim| (tlim - t1.time) dt m Thr.zero = r at *
      generalize CV d1 Vset |Ilim| (tlim - t1.time) dt k Thr.zero = s at *
      obtain ⟨r, c2, t3⟩ := r
      obtain ⟨s, d2, t4⟩ := s
      dsimp only at k1 k2 k3
      subst k1 k3
      rcases r with st | e | w <;> exact ⟨rfl, k2, rfl⟩
    · exact ⟨rfl, h2, rfl⟩
    · exact ⟨rfl, h2, rfl⟩
  · exact ⟨rfl, alike_withSU h u, rfl⟩
  · exact ⟨rfl, alike_withSU h u, rfl⟩

end

end Slide

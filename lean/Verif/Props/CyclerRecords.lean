import Verif.Lemmas.CyclerRecords
import Verif.Lemmas.CellCycler
import Verif.Props.UseCase

/-!
C124: what a cycler records.  C125: recording changes nothing else, except for the number of steps at once.
-/

namespace Slide
open StorageUnit Spec Cyc CellLaws

variable {C : Type} [StorageUnit C] [VoltageUnit C] [CellLaws C]

theorem nMax_cast {ndt : ℤ} (h : 0 < ndt) (a : ℕ) :
    ((if decide (0 < ndt) = true then min a ndt.toNat else a : ℕ) : ℚ) = ((min (a : ℤ) ndt : ℤ) : ℚ) := by
  rw [if_pos (decide_eq_true h)]
  have : ((min a ndt.toNat : ℕ) : ℤ) = min (a : ℤ) ndt := by
    rw [Nat.cast_min, Int.toNat_of_nonneg h.le]
  exact_mod_cast congrArg (Int.cast : ℤ → ℚ) this

theorem trivial_observed {U : Type} [StorageUnit U] (I vlim : ℚ) :
    Observed (fun _ : Cyc U => True) (fun _ => ()) (fun _ _ => ()) I vlim :=
  ⟨fun _ _ _ _ _ _ _ => rfl, fun _ _ _ _ _ _ _ _ _ _ => trivial, fun _ => rfl, fun _ _ _ => rfl⟩

theorem after_zero' {U : Type} [StorageUnit U] [Clocked U] {u v : U} (h : Clocked.clocks v = Clocked.clocks u) : After u 0 v := by
  unfold After; simpa using h

theorem start_records {U : Type} [StorageUnit U] (c : Cyc U) : RecordsBetween c (storeIf true c) [c.su] := by
  have := storeIf_records c
  rwa [storeIf_su] at this

/-! ### C124 -/

/-- C124, partial: a rest that reports its time limit recorded the unit at its beginning and at its end.  In between the
records are at least `ndt*dt` apart – but up to nine steps more, while `RestRecordsAsDocumented` asks for exactly
`ndt*dt`.  Without recording the log is untouched. -/
theorem restRecords_partial {U : Type} [StorageUnit U] [Clocked U] (fuel : ℕ) (c c' : Cyc U) (tlim dt : ℚ) (ndt : ℤ)
    (th th' : Thr) (hdt : 0 < dt) (ht : 0 ≤ tlim) (h : c.rest fuel tlim dt ndt th = (.ok .ReachedTimeLimit, c', th')) :
    (ndt ≤ 0 → c'.log = c.log) ∧
    (0 < ndt → PhaseRecorded (ndt * dt) ((ndt + (min 10 ndt : ℤ) - 1) * dt) tlim c c') := by
  refine ⟨fun hn => ?_, fun hn => ?_⟩
  · have := (rest_rel (silent_rel (U := U) (not_lt.mpr hn)) fuel c tlim dt th).1
    rw [h] at this; exact this
  unfold Cyc.rest at h
  dsimp only at h
  rw [decide_eq_true hn] at h
  have hm := nMax_pos (ndt := ndt) 10 (by norm_num)
  have hc := nMax_cast hn 10
  rw [decide_eq_true hn] at hm hc
  generalize (if true = true then min 10 ndt.toNat else 10) = nm at h hm hc
  rcases hl : restLoop tlim ndt nm fuel ⟨dt, 0, 0, 1, true⟩ (storeIf true c) with ⟨(st | v) | e | w, c1⟩
  · rw [hl] at h
    dsimp only at h
    -- the loop only returns early with a bad status
    have hb : ∀ (fuel : ℕ) (v : RestVars) (a : Cyc U), restLoop tlim ndt nm fuel v a = (.ok (.inl st), c1) →
        st.isBad = true := by
      intro fuel
      induction fuel with
      | zero =>
        intro v a h
        unfold restLoop at h
        by_cases hq : v.ttot < tlim
        · rw [if_pos hq] at h; cases h
        · rw [if_neg hq] at h; cases h
      | succ fuel ih =>
        intro v a h
        unfold restLoop at h
        by_cases hq : v.ttot < tlim
        · rw [if_pos hq] at h
          rcases hk : restBody tlim ndt nm v a with ⟨(s | v1) | e | w, a1⟩ <;> rw [hk] at h
          · have e1 := Sum.inl.inj (Outcome.ok.inj (congrArg Prod.fst h))
            have e1 : s = st := e1
            rw [← e1]
            unfold restBody at hk
            generalize StorageUnit.setCurrent a.su 0 false = r at hk
            rcases r with ⟨s1 | e | w, u1⟩
            · dsimp only at hk
              by_cases hbad : s1.isBad = true
              · rw [if_pos hbad] at hk
                have e2 := Sum.inl.inj (Outcome.ok.inj (congrArg Prod.fst hk))
                have e2 : s1 = s := e2
                rw [← e2]; exact hbad
              · rw [if_neg hbad] at hk
                generalize (if v.nOnce * v.dti > tlim - v.ttot then 1 else v.nOnce) = k0 at hk
                generalize (if v.dti > tlim - v.ttot then tlim - v.ttot else v.dti) = dt0 at hk
                generalize timeStep u1 dt0 k0 = r at hk
                rcases r with ⟨o | e | w, u2⟩ <;>
                · have := congrArg Prod.fst hk
                  cases this
            · have := congrArg Prod.fst hk
              cases this
            · have := congrArg Prod.fst hk
              cases this
          · exact ih v1 a1 h
          · cases h
          · cases h
        · rw [if_neg hq] at h; cases h
    have e1 := Outcome.ok.inj (congrArg Prod.fst h)
    have e1 : st = .ReachedTimeLimit := e1
    have := hb fuel _ _ hl
    rw [e1] at this
    exact absurd this (by decide)
  · rw [hl] at h
    dsimp only at h
    have hT := restLoop_ticks hn hdt hm fuel hl (fun _ => rfl) (le_refl 1) hm
    by_cases hq : v.ttot ≥ tlim ∧ |v.ttot - tlim| < 1
    · rw [if_pos hq] at h
      have hcl := Clocked.set_clocks c1.su 0 false
      rcases hk : StorageUnit.setCurrent c1.su 0 false with ⟨s | e | w, u⟩ <;> rw [hk] at h hcl
      · have h2 : storeIf true (c1.withSU u) = c' := congrArg (fun q => q.2.1) h
        have hb : RecordsBetween c (storeIf true c) [c.su] := start_records c
        have he : RecordsBetween c1 c' [c'.su] := by
          rw [← h2]
          exact records_trans (records_of_eq (c := c1) (c' := c1.withSU u) rfl) (storeIf_records _)
        have hu0 : After c.su 0 (storeIf true c).su := by rw [storeIf_su]; exact after_zero _
        have hu1 : After c1.su 0 c'.su := by
          rw [← h2, storeIf_su]; exact after_zero' hcl
        obtain ⟨-, k2, k3⟩ := hT.phase hdt hn hb hu0 he hu1
        have e3 : v.ttot = tlim := le_antisymm (k2 ht) hq.1
        rw [e3, hc] at k3
        exact_mod_cast k3
      · have := congrArg Prod.fst h
        cases this
      · have := congrArg Prod.fst h
        cases this
    · rw [if_neg hq] at h
      have := congrArg Prod.fst h
      cases this
  · rw [hl] at h
    have := congrArg Prod.fst h
    cases this
  · rw [hl] at h
    have := congrArg Prod.fst h
    cases this

/-- C124: a constant-current phase on any tree of modules that reports one of its limits after simulating some time
recorded the unit at its beginning, at its end, and in between at intervals of `ndt` or – from `ndt = 2` on – `ndt+1`
steps. -/
theorem cc_records (d fuel : ℕ) (c c' : Cyc (Tree C d)) (I vlim tlim dt : ℚ) (ndt : ℤ) (th th' : Thr) (st : Status)
    (hdt : 0 < dt) (ht : 0 ≤ tlim) (hn : 0 < ndt) (h : c.CC fuel I vlim tlim dt ndt th = (.ok st, c', th'))
    (hst : st = .ReachedTimeLimit ∨ st = .ReachedVoltageLimit) (hpos : th.time < th'.time) :
    PhaseRecorded (ndt * dt) ((ndt + (min 2 ndt : ℤ) - 1) * dt) (th'.time - th.time) c c' := by
  have hcode : ¬ 0 ≤ st.code := by rcases hst with rfl | rfl <;> simp [Status.code]
  unfold Cyc.CC at h
  dsimp only at h
  rw [decide_eq_true hn] at h
  have hm := nMax_pos (ndt := ndt) 2 (by norm_num)
  have hc := nMax_cast hn 2
  rw [decide_eq_true hn] at hm hc
  generalize (if true = true then min 2 ndt.toNat else 2) = nm at h hm hc
  have early : ∀ {s : Status} {c1 : Cyc (Tree C d)},
      ((.ok s, c1, th) : Outcome Status × Cyc (Tree C d) × Thr) = (.ok st, c', th') → False := by
    intro s c1 h
    have e : th = th' := congrArg (fun q => q.2.2) h
    rw [e] at hpos; exact lt_irrefl _ hpos
  have hlog := cycSet_log (storeIf true c) I vlim
  have hclk : Clocked.clocks (Cyc.setCurrent (storeIf true c) I vlim).2.su = Clocked.clocks (storeIf true c).su :=
    cycSet_su (P := fun u => Clocked.clocks u = Clocked.clocks (storeIf true c).su) (fun u i b hu => by rw [Clocked.set_clocks, hu])
      _ I vlim rfl
  rcases hk : Cyc.setCurrent (storeIf true c) I vlim with ⟨s | e | w, c1⟩ <;> rw [hk] at h hlog hclk
  · dsimp only at h
    by_cases hs : (!s.isSuccessful) = true
    · rw [if_pos hs] at h; exact (early h).elim
    rw [if_neg hs] at h
    by_cases hv : (I < 0 ∧ V c1.su > vlim) ∨ (I > 0 ∧ V c1.su < vlim)
    · rw [if_pos hv] at h; exact (early h).elim
    rw [if_neg hv] at h
    rcases hl : ccLoop I vlim tlim ndt nm fuel
      { dti := dt, ttot := 0, idat := 0, nOnce := 1, vo := V c1.su, vi := V c1.su, allowUp := true } c1 th with ⟨o2, c2, th2⟩
    rw [hl] at h
    match o2, hl, h with
    | .throw e, _, h => cases h
    | .ub e, _, h => cases h
    | .ok (.inl s), hl, h =>
      have e1 := Outcome.ok.inj (congrArg Prod.fst h)
      have e1 : s = st := e1
      exact absurd (e1 ▸ ccLoop_ret_code d fuel hl) hcode
    | .ok (.inr (v, b)), hl, h =>
      obtain ⟨-, -, -, r4, -⟩ := ccLoop_inr (trivial_observed I vlim) fuel hl trivial ht hdt (le_refl 1) hm
      have hT := ccLoop_ticks hn hdt hm fuel hl (fun _ => rfl) (le_refl 1) hm
      have fin : ∀ {s : Status}, ((.ok s, storeIf true c2, th2) : Outcome Status × Cyc (Tree C d) × Thr) = (.ok st, c', th') →
          PhaseRecorded (ndt * dt) ((ndt + (min 2 ndt : ℤ) - 1) * dt) (th'.time - th.time) c c' := by
        intro s h
        have e2 : storeIf true c2 = c' := congrArg (fun q => q.2.1) h
        have e3 : th2 = th' := congrArg (fun q => q.2.2) h
        have hb : RecordsBetween c c1 [c.su] :=
          records_trans (start_records c) (records_of_eq (c := storeIf true c) (c' := c1) hlog.1)
        have he : RecordsBetween c2 c' [c'.su] := by
          rw [← e2]; exact storeIf_records c2
        have hu0 : After c.su 0 c1.su := after_zero' (by rw [hclk, storeIf_su])
        have hu1 : After c2.su 0 c'.su := by rw [← e2, storeIf_su]; exact after_zero _
        obtain ⟨-, -, k3⟩ := hT.phase hdt hn hb hu0 he hu1
        have e4 : th'.time - th.time = v.ttot := by rw [← e3, r4]; ring
        rw [e4]
        rw [hc] at k3
        exact_mod_cast k3
      dsimp only at h
      by_cases htt : v.ttot ≥ tlim
      · rw [if_pos htt] at h; exact fin h
      · rw [if_neg htt] at h
        by_cases hb : b = true
        · rw [if_pos hb] at h; exact fin h
        · rw [if_neg hb] at h
          have := congrArg Prod.fst h
          cases this
  · have := congrArg Prod.fst h
    cases this
  · have := congrArg Prod.fst h
    cases this

theorem checkSafety_code (lo hi v : ℚ) (h : checkSafety lo hi v ≠ .SafeVoltage) : 0 ≤ (checkSafety lo hi v).code := by
  unfold checkSafety at *
  by_cases h1 : v < lo
  · rw [if_pos h1]; simp [Status.code]
  · rw [if_neg h1] at *
    by_cases h2 : v > hi
    · rw [if_pos h2]; simp [Status.code]
    · rw [if_neg h2] at h; exact absurd rfl h

/-- Early returns of a constant-voltage phase have a status that is none of its limits. -/
theorem cvLoop_ret_code {U : Type} [StorageUnit U] [VoltageUnit U] {Vset Ilim tlim dt : ℚ} {nt : ℕ} {ndt : ℤ} :
    ∀ (left i : ℕ) (a : Cyc U) (t : ℚ) (q : Thr) (s : Status) (r : Cyc U × ℚ × Thr),
      cvLoop Vset Ilim tlim dt nt ndt left i a t q = (.ok (.inl s), r) → 0 ≤ s.code := by
  intro left
  induction left with
  | zero => intro i a t q s r h; cases h
  | succ left ih =>
    intro i a t q s r h
    unfold cvLoop at h
    rcases hb : cvBody Vset Ilim tlim dt nt ndt i a t q with ⟨o, a1, t1, q1⟩
    rw [hb] at h
    match o, hb, h with
    | .throw e, _, h => cases h
    | .ub e, _, h => cases h
    | .ok (.inr (some y)), _, h => cases h
    | .ok (.inr none), _, h => exact ih _ _ _ _ _ _ h
    | .ok (.inl s1), hb, h =>
      have e1 := Sum.inl.inj (Outcome.ok.inj (congrArg Prod.fst h))
      have e1 : s1 = s := e1
      rw [← e1]
      unfold cvBody at hb
      generalize VoltageUnit.setVoltage a.su Vset = r at hb
      rcases r with ⟨s2 | e | w, u1⟩
      · dsimp only at hb
        generalize timeStep u1 (if i + 1 = nt then tlim - dt * ((nt : ℚ) - 1) else dt) 1 = r at hb
        rcases r with ⟨o | e | w, u2⟩
        · dsimp only at hb
          have hsf := checkSafety_code ((lim u2).VMIN * (99/100)) ((lim u2).VMAX * (101/100)) (V u2)
          generalize checkSafety ((lim u2).VMIN * (99/100)) ((lim u2).VMAX * (101/100)) (V u2) = sf at hb hsf
          by_cases hs : sf ≠ .SafeVoltage
          · rw [if_pos hs] at hb
            have e2 : sf = s1 := Sum.inl.inj (Outcome.ok.inj (congrArg Prod.fst hb))
            rw [← e2]; exact hsf hs
          · rw [if_neg hs] at hb
            have e2 := congrArg Prod.fst hb
            split_ifs at e2 <;> cases e2
        · have e2 := Sum.inl.inj (Outcome.ok.inj (congrArg Prod.fst hb))
          rw [← e2]; simp [Status.code]
        · have := congrArg Prod.fst hb
          cases this
      · have := congrArg Prod.fst hb
        cases this
      · have := congrArg Prod.fst hb
        cases this

/-- C124: a constant-voltage phase on any tree of modules that is not over before it starts, and ends by its time, its
current or a vanishing current, recorded the unit at its beginning, at its end, and exactly every `ndt*dt` seconds in
between. -/
theorem cv_records (d : ℕ) (c c' : Cyc (Tree C d)) (Vset Ilim tlim dt : ℚ) (ndt : ℤ) (th th' : Thr) (st : Status)
    (hdt : 0 < dt) (ht : 0 ≤ tlim) (hn : 0 < ndt) (h : c.CV Vset Ilim tlim dt ndt th = (.ok st, c', th'))
    (hst : st = .ReachedTimeLimit ∨ st = .ReachedCurrentLimit ∨ st = .ReachedSmallCurrent)
    (hstart : Ilim ≤ |StorageUnit.I c.su|) :
    ∃ T, 0 ≤ T ∧ T ≤ tlim ∧ (st = .ReachedTimeLimit → T = tlim) ∧ PhaseRecorded (ndt * dt) (ndt * dt) T c c' := by
  unfold Cyc.CV at h
  dsimp only at h
  rw [decide_eq_true hn, storeIf_su, if_neg (fun q => absurd q.1 (not_lt.mpr hstart))] at h
  have hnn : 0 ≤ tlim / dt := div_nonneg ht hdt.le
  rw [if_neg (fun q => q.elim (fun q => absurd q hdt.ne') (fun q => absurd q (not_lt.mpr (Int.ceil_nonneg hnn))))] at h
  have hcl : ((⌈tlim / dt⌉.toNat : ℕ) : ℚ) = ⌈tlim / dt⌉ := by
    have : ((⌈tlim / dt⌉.toNat : ℕ) : ℤ) = ⌈tlim / dt⌉ := Int.toNat_of_nonneg (Int.ceil_nonneg hnn)
    exact_mod_cast congrArg (Int.cast : ℤ → ℚ) this
  have hnt : ((⌈tlim / dt⌉.toNat : ℕ) : ℚ) - 1 < tlim / dt := by
    rw [hcl]; linarith [Int.ceil_lt_add_one (tlim / dt)]
  have hnt2 : tlim / dt ≤ ((⌈tlim / dt⌉.toNat : ℕ) : ℚ) := by rw [hcl]; exact Int.le_ceil _
  generalize ⌈tlim / dt⌉.toNat = nt at h hnt hnt2
  have hcode := cvLoop_ret_code (U := Tree C d) (Vset := Vset) (Ilim := Ilim) (tlim := tlim) (dt := dt) (nt := nt) (ndt := ndt)
  rcases hl : cvLoop Vset Ilim tlim dt nt ndt nt 0 (storeIf true c) 0 th with ⟨o2, c2, t2, th2⟩
  rw [hl] at h
  match o2, hl, h with
  | .throw e, _, h => cases h
  | .ub e, _, h => cases h
  | .ok (.inl s), hl, h =>
    have e1 := Outcome.ok.inj (congrArg Prod.fst h)
    have e1 : s = st := e1
    have := hcode _ _ _ _ _ _ _ hl
    rw [e1] at this
    rcases hst with rfl | rfl | rfl <;> simp [Status.code] at this
  | .ok (.inr o), hl, h =>
    obtain ⟨i', hT⟩ := cvLoop_ticks (fun u v => cells_setVoltage_times d u v) hn hdt hnt hnt2 nt 0 (by omega) (fun _ => by simp) hl
    rw [Nat.zero_mod] at hT
    have fin : ∀ {s : Status}, ((.ok s, storeIf true c2, th2) : Outcome Status × Cyc (Tree C d) × Thr) = (.ok st, c', th') →
        (s = .ReachedTimeLimit → t2 ≥ tlim) →
        ∃ T, 0 ≤ T ∧ T ≤ tlim ∧ (st = .ReachedTimeLimit → T = tlim) ∧ PhaseRecorded (ndt * dt) (ndt * dt) T c c' := by
      intro s h hs
      have e1 : s = st := Outcome.ok.inj (congrArg Prod.fst h)
      have e2 : storeIf true c2 = c' := congrArg (fun q => q.2.1) h
      have he : RecordsBetween c2 c' [c'.su] := by
        rw [← e2]; exact storeIf_records c2
      have hu0 : After c.su 0 (storeIf true c).su := by rw [storeIf_su]; exact after_zero _
      have hu1 : After c2.su 0 c'.su := by rw [← e2, storeIf_su]; exact after_zero _
      obtain ⟨k1, k2, k3⟩ := hT.phase hdt hn (start_records c) hu0 he hu1
      refine ⟨t2, k1, k2 ht, fun q => le_antisymm (k2 ht) (hs (e1.trans q)), ?_⟩
      have e4 : ((ndt : ℚ) + (1 : ℕ) - 1) * dt = ndt * dt := by push_cast; ring
      rwa [e4] at k3
    dsimp only at h
    by_cases htt : t2 ≥ tlim
    · rw [if_pos htt] at h; exact fin h (fun _ => htt)
    · rw [if_neg htt] at h
      match o, h with
      | some true, h => exact fin h (fun q => (by cases q))
      | some false, h => exact fin h (fun q => (by cases q))
      | none, h =>
        have := congrArg Prod.fst h
        cases this

section
variable {U : Type} [StorageUnit U] [VoltageUnit U]

/-- C124: without recording nothing is added to the log, whatever happens. -/
theorem no_records (fuel : ℕ) (c : Cyc U) (ndt : ℤ) (th : Thr) (h : ndt ≤ 0) :
    (∀ tlim dt, (c.rest fuel tlim dt ndt th).2.1.log = c.log) ∧
    (∀ I vlim tlim dt, (c.CC fuel I vlim tlim dt ndt th).2.1.log = c.log) ∧
    (∀ Vset Ilim tlim dt, (c.CV Vset Ilim tlim dt ndt th).2.1.log = c.log) ∧
    (∀ I Vset Ilim tlim dt, (c.CCCVt fuel I Vset Ilim tlim dt ndt th).2.1.log = c.log) := by
  have hR := silent_rel (U := U) (not_lt.mpr h)
  exact ⟨fun tlim dt => (rest_rel hR fuel c tlim dt th).1, fun I vlim tlim dt => (CC_rel hR fuel c I vlim tlim dt th).1,
    fun Vset Ilim tlim dt => (CV_rel hR c Vset Ilim tlim dt th).1,
    fun I Vset Ilim tlim dt => (CCCVt_rel hR fuel c I Vset Ilim tlim dt th).1⟩

/-- C124: whatever happens in a phase, data points are only added to the log, the cycler keeps the right count of the points
in memory, never holds more than 100000, and exports exactly when one more is to be stored. -/
theorem records_exported (fuel : ℕ) (c : Cyc U) (ndt : ℤ) (th : Thr) :
    (∀ tlim dt, LogsWell c (c.rest fuel tlim dt ndt th).2.1) ∧
    (∀ I vlim tlim dt, LogsWell c (c.CC fuel I vlim tlim dt ndt th).2.1) ∧
    (∀ Vset Ilim tlim dt, LogsWell c (c.CV Vset Ilim tlim dt ndt th).2.1) ∧
    (∀ I Vset Ilim tlim dt, LogsWell c (c.CCCVt fuel I Vset Ilim tlim dt ndt th).2.1) := by
  have hR := logsWell_rel (U := U) (0 < ndt)
  exact ⟨fun tlim dt => rest_rel hR fuel c tlim dt th, fun I vlim tlim dt => CC_rel hR fuel c I vlim tlim dt th,
    fun Vset Ilim tlim dt => CV_rel hR c Vset Ilim tlim dt th,
    fun I Vset Ilim tlim dt => CCCVt_rel hR fuel c I Vset Ilim tlim dt th⟩

end

/-- A cycler with an empty log. -/
def freshCycler {U : Type} (u : U) : Cyc U := { su := u, diagnostic := true, index := 0, log := [] }

/-- Times of the records of a single cell. -/
def recordTimes (c : Cyc (ECM 0)) : List ℚ := (stored c.log).map fun u => u.st.time

/-- The documented interval is not kept: a rest of 20 seconds with `dt = 1` and `ndt = 3` should record at 0, 3, 6, 9, …; the
third record is made after 8 seconds, since the loop takes several steps at once. -/
theorem rest_records_run : ((freshCycler smallCell).rest 20 20 1 3 Thr.zero).1 = .ok .ReachedTimeLimit ∧
    recordTimes ((freshCycler smallCell).rest 20 20 1 3 Thr.zero).2.1 = [0, 3, 8, 11, 14, 17, 20, 20] := by
  decide +kernel

/-- C124, full statement: false of the code. -/
theorem not_restRecordsAsDocumented : ¬ RestRecordsAsDocumented (ECM 0) := by
  intro hall
  obtain ⟨h1, h2⟩ := rest_records_run
  generalize hr : (freshCycler smallCell).rest 20 20 1 3 Thr.zero = r at h1 h2
  obtain ⟨o, c', th'⟩ := r
  dsimp only at h1 h2
  subst h1
  obtain ⟨mid, ts, ⟨es, e1, e2⟩, e3, e4, -⟩ := (hall 20 (freshCycler smallCell) c' 20 1 3 Thr.zero th' (by norm_num) (by norm_num) hr).2
    (by norm_num)
  have e5 : (stored c'.log).map (fun u => u.st.time) = [0, 3, 8, 11, 14, 17, 20, 20] := h2
  rw [e1, show (freshCycler smallCell).log = [] from rfl, List.nil_append, e2] at e5
  -- the second record in between should be after 6 seconds
  match mid, ts, e3, e4, e5 with
  | [], _, _, _, e5 => simp at e5
  | [_], _, _, _, e5 => simp at e5
  | u :: v :: mid, t :: s :: ts, .cons hu (.cons hv _), e4, e5 =>
    obtain ⟨q1, q2, q3, q4, q5, -⟩ := e4
    have hv : v.st.time = 0 + s := List.head_eq_of_cons_eq hv
    simp only [List.map_cons, List.cons_append, List.cons.injEq] at e5
    have : s = 8 := by rw [← e5.2.2.1, hv, zero_add]
    norm_num at q2 q5
    linarith

/-- Non-vacuity of `restRecords_partial`: the run above. -/
example : ∃ c' th', (freshCycler smallCell).rest 20 20 1 3 Thr.zero = (.ok .ReachedTimeLimit, c', th') :=
  ⟨_, _, Prod.ext rest_records_run.1 rfl⟩

/-- Non-vacuity of `cc_records`: a charge that reports its voltage limit after 1400 seconds; records every 300 or 400 seconds. -/
example : ((freshCycler smallCell).CC 100 (-1) 4 2000 100 3 Thr.zero).1 = .ok .ReachedVoltageLimit ∧
    ((freshCycler smallCell).CC 100 (-1) 4 2000 100 3 Thr.zero).2.2.time = 1400 ∧
    recordTimes ((freshCycler smallCell).CC 100 (-1) 4 2000 100 3 Thr.zero).2.1 = [0, 300, 600, 900, 1200, 1400] := by
  decide +kernel

/-- A 1 Ah cell with a resistance. -/
def recordedCell : ECM 0 := ⟨⟨1, 1/10, fun _ => 0, fun _ => 0, ECM.defaultOCV⟩, smallCell.st⟩

/-- Non-vacuity of `cv_records`: a constant-voltage phase at 3.2 V that ends after 50 seconds. -/
example : ((freshCycler recordedCell).CV (32/10) 0 50 10 2 Thr.zero).1 = .ok .ReachedTimeLimit ∧
    recordTimes ((freshCycler recordedCell).CV (32/10) 0 50 10 2 Thr.zero).2.1 = [0, 20, 40, 50] := by
  decide +kernel

/-! ### C125 -/

/-- C125, partial: recording makes no difference to what happens, if `ndt` is at least 10 for `rest` and at least 2 for the
phases with constant current; for constant voltage always.  `RecordingHarmless` asks for it for all `ndt`. -/
theorem recordingHarmless_partial {U : Type} [StorageUnit U] [VoltageUnit U] (fuel : ℕ) (c : Cyc U) (ndt : ℤ) (th : Thr) :
    (ndt ≤ 0 ∨ 10 ≤ ndt → ∀ tlim dt, SameBut (c.rest fuel tlim dt ndt th) (c.rest fuel tlim dt 0 th)) ∧
    (ndt ≤ 0 ∨ 2 ≤ ndt → ∀ I vlim tlim dt, SameBut (c.CC fuel I vlim tlim dt ndt th) (c.CC fuel I vlim tlim dt 0 th)) ∧
    (∀ Vset Ilim tlim dt, SameBut (c.CV Vset Ilim tlim dt ndt th) (c.CV Vset Ilim tlim dt 0 th)) ∧
    (ndt ≤ 0 ∨ 2 ≤ ndt → ∀ I Vset Ilim tlim dt,
      SameBut (c.CCCVt fuel I Vset Ilim tlim dt ndt th) (c.CCCVt fuel I Vset Ilim tlim dt 0 th)) := by
  have hm : ∀ a : ℕ, (ndt ≤ 0 ∨ (a : ℤ) ≤ ndt) → (if decide (0 < ndt) = true then min a ndt.toNat else a) =
      (if decide (0 < (0 : ℤ)) = true then min a (0 : ℤ).toNat else a) := by
    intro a h
    rw [if_neg (show ¬ decide (0 < (0 : ℤ)) = true by decide)]
    by_cases hn : 0 < ndt
    · rw [if_pos (decide_eq_true hn)]; omega
    · rw [if_neg (by simpa using hn)]
  have ha : CycAlike c c := ⟨rfl, rfl⟩
  refine ⟨fun h tlim dt => (rest_alike fuel ha tlim dt ndt 0 th (hm 10 h)).1, fun h I vlim tlim dt => ?_,
    fun Vset Ilim tlim dt => ?_, fun h I Vset Ilim tlim dt => ?_⟩
  · obtain ⟨h1, h2, h3⟩ := CC_alike fuel ha I vlim tlim dt ndt 0 th (hm 2 h)
    exact ⟨h1, h2.1, h3⟩
  · obtain ⟨h1, h2, h3⟩ := CV_alike ha Vset Ilim tlim dt ndt 0 th
    exact ⟨h1, h2.1, h3⟩
  · obtain ⟨h1, h2, h3⟩ := CCCVt_alike fuel ha I Vset Ilim tlim dt ndt 0 th (hm 2 h)
    exact ⟨h1, h2.1, h3⟩

/-- C125: how often data is recorded makes no difference either, from 10 (rest) or 2 (constant current) steps on. -/
theorem recording_interval {U : Type} [StorageUnit U] [VoltageUnit U] (fuel : ℕ) (c : Cyc U) (m k : ℤ) (th : Thr) (hm : 2 ≤ m)
    (hk : 2 ≤ k) :
    (10 ≤ m → 10 ≤ k → ∀ tlim dt, SameBut (c.rest fuel tlim dt m th) (c.rest fuel tlim dt k th)) ∧
    (∀ I vlim tlim dt, SameBut (c.CC fuel I vlim tlim dt m th) (c.CC fuel I vlim tlim dt k th)) ∧
    (∀ I Vset Ilim tlim dt, SameBut (c.CCCVt fuel I Vset Ilim tlim dt m th) (c.CCCVt fuel I Vset Ilim tlim dt k th)) := by
  have tr : ∀ {a b d : Outcome Status × Cyc U × Thr}, SameBut a d → SameBut b d → SameBut a b := fun h k =>
    ⟨h.1.trans k.1.symm, h.2.1.trans k.2.1.symm, h.2.2.trans k.2.2.symm⟩
  have p := recordingHarmless_partial fuel c m th
  have q := recordingHarmless_partial fuel c k th
  exact ⟨fun a b tlim dt => tr (p.1 (.inr a) tlim dt) (q.1 (.inr b) tlim dt),
    fun I vlim tlim dt => tr (p.2.1 (.inr hm) I vlim tlim dt) (q.2.1 (.inr hk) I vlim tlim dt),
    fun I Vset Ilim tlim dt => tr (p.2.2.2 (.inr hm) I Vset Ilim tlim dt) (q.2.2.2 (.inr hk) I Vset Ilim tlim dt)⟩

/-- A 1 Ah cell whose open-circuit voltage rises steeply between 57 and 60 % of charge. -/
def kneeCell : ECM 0 :=
  ⟨⟨1, 0, fun _ => 0, fun _ => 0, fun x => (match Interp.tableInterp [0, 57/100, 60/100, 1] [3, 33/10, 405/100, 41/10] x with
    | .ok v => some v
    | _ => none)⟩, smallCell.st⟩

/-- C125, full statement: false of the code. Charged to 4 V in steps of 3 minutes with a record every step, this cell is
stopped after 6 minutes; without records it is charged for 9 minutes. -/
theorem not_recordingHarmless : ¬ RecordingHarmless (ECM 0) := by
  intro hall
  have h := ((hall 20 (freshCycler kneeCell) 1 Thr.zero).2.1 (-1) 4 3600 180).2.2
  have h1 : ((freshCycler kneeCell).CC 20 (-1) 4 3600 180 1 Thr.zero).2.2.time = 360 := by decide +kernel
  have h2 : ((freshCycler kneeCell).CC 20 (-1) 4 3600 180 0 Thr.zero).2.2.time = 540 := by decide +kernel
  rw [h, h2] at h1
  norm_num at h1

/-- Non-vacuity of `recordingHarmless_partial`: the same charge with records. -/
example : ((freshCycler kneeCell).CC 20 (-1) 4 3600 180 2 Thr.zero).2.2.time = 540 ∧
    recordTimes ((freshCycler kneeCell).CC 20 (-1) 4 3600 180 2 Thr.zero).2.1 = [0, 540, 540] := by decide +kernel

end Slide

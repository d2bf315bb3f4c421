import Verif.Lemmas.CyclerLoops
import Verif.Lemmas.States

/-!
The procedures of the cycler on trees of cells that obey `CellLaws` (used by C21 - C24, C55, C56 and C109).
-/

namespace Slide
open StorageUnit Spec Cyc CellLaws

variable {C : Type} [StorageUnit C] [VoltageUnit C] [CellLaws C]

theorem cellWise_time {a b : List (C)} {s : ℚ}
    (h : List.Forall₂ (fun x y : C => time y = time x + s) a b) :
    b.map (fun c => time c) = a.map fun c => time c + s := by
  induction h with
  | nil => rfl
  | cons p _ ih => simp only [List.map_cons, ih, p]

theorem cells_set_times (d : ℕ) (t : Tree C d) (i : ℚ) (b : Bool) :
    (cells d (setCurrent t i b).2).map (fun c => time c) = (cells d t).map fun c => time c := by
  have h := List.Forall₂.imp (S := fun x y : C => time y = time x + 0) (fun a b hab => by
    rw [(only_meters hab).1, add_zero]) (cellWise_cells d (cells_setCurrent_only d t i b))
  simpa using cellWise_time h

theorem cells_timeStep_nonneg (d : ℕ) (t : Tree C d) (dt : ℚ) (k : ℕ) (h : (timeStep t dt k).1 = .ok ()) :
    0 ≤ dt := by
  by_contra hneg
  have hneg : dt < 0 := not_le.mp hneg
  cases d with
  | zero =>
    change (timeStep (U := C) t dt k).1 = _ at h
    rw [(step_throws (C := C) t dt k hneg).1] at h
    cases h
  | succ d =>
    cases t with
    | cell c =>
      change (timeStep c dt k).1 = _ at h
      rw [(step_throws c dt k hneg).1] at h
      cases h
    | series m =>
      change (ModuleS.timeStep m dt k).1 = _ at h
      unfold ModuleS.timeStep at h
      rw [if_pos hneg] at h
      cases h
    | parallel m =>
      change (ModuleP.timeStep m dt k).1 = _ at h
      unfold ModuleP.timeStep at h
      rw [if_pos hneg] at h
      cases h

/-- After an accepted time step of a tree every cell has advanced, at the current it had. -/
theorem cells_timeStep_meters (d : ℕ) (t : Tree C d) (dt : ℚ) (k : ℕ) (h : (timeStep t dt k).1 = .ok ()) :
    List.Forall₂ (fun a b : C => Cap b = Cap a ∧ time b = time a + k * dt ∧
        Ah b = Ah a + |I a| * (k * dt) / 3600 ∧ SOC b = SOC a - I a * (k * dt) / 3600 / Cap a)
      (cells d t) (cells d (timeStep t dt k).2) := by
  have hdt := cells_timeStep_nonneg d t dt k h
  refine List.Forall₂.imp ?_ (cellWise_cells d (cells_timeStep_steps d t dt k h))
  intro a b hab
  obtain ⟨h1, h2, h3, h4⟩ := only_meters hab.2
  obtain ⟨g1, g2, g3, g4⟩ := step_meters a dt k hab.1
  exact ⟨h4.trans g4, h1.trans g1, h2.trans g2, h3.trans g3⟩

/-- The clocks of a tree are those of its cells. -/
instance treeClocked (d : ℕ) : Clocked (Tree C d) where
  clocks t := (cells d t).map fun c => time c
  set_clocks t i b := cells_set_times d t i b
  step_clocks t dt k h := by
    have h1 := cells_timeStep_meters d t dt k h
    rw [cellWise_time (List.Forall₂.imp (fun a b hab => hab.2.1) h1), List.map_map]
    rfl

/-- A series string can always be rested. -/
theorem seriesString_restable [CellTotal C] (d : ℕ) : Restable (SeriesString (C := C) d) where
  set u h := ⟨.Success, (seriesString_set d u 0 h).1, isBad_success⟩
  set_P u h := seriesString_set_keeps d u 0 false h
  step u dt k h hdt := seriesString_step d u dt k h hdt
  step_P u dt k h _ := seriesString_step_keeps d u dt k h

/-! ### rest -/

/-- Whenever `rest` reports the time limit – on any tree of modules – every cell has advanced by exactly the
requested duration and the reported time grew by it; charge and energy throughput are untouched. -/
theorem cells_rest_exact (d : ℕ) (fuel : ℕ) (c c' : Cyc (Tree C d)) (tlim dt : ℚ) (ndt : ℤ) (th th' : Thr)
    (h : rest fuel c tlim dt ndt th = (.ok .ReachedTimeLimit, c', th')) (ht : 0 ≤ tlim) (hd : 0 < dt) :
    th' = { th with time := th.time + tlim } ∧
      (cells d c'.su).map (fun x => time x) = (cells d c.su).map fun x => time x + tlim := by
  unfold rest at h
  dsimp only at h
  rcases hl : restLoop tlim ndt (if decide (0 < ndt) = true then min 10 ndt.toNat else 10) fuel
    { dti := dt, ttot := 0, idat := 0, nOnce := 1, ninc := true } (storeIf (decide (0 < ndt)) c) with ⟨o, c1⟩
  rw [hl] at h
  match o, hl, h with
  | .throw e, _, h => cases h
  | .ub e, _, h => cases h
  | .ok (.inl st), hl, h =>
    have hb := restLoop_inl fuel hl
    simp only [Prod.mk.injEq, Outcome.ok.injEq] at h
    rw [h.1] at hb
    cases hb
  | .ok (.inr v), hl, h =>
    obtain ⟨r1, r2⟩ := restLoop_inr_clocks fuel hl ht hd (le_refl 1) (nMax_pos 10 (by norm_num))
    dsimp only at h
    rw [r1, if_pos ⟨le_refl _, by norm_num⟩] at h
    have h2 := cells_set_times d c1.su 0 false
    generalize StorageUnit.setCurrent c1.su 0 false = r at *
    obtain ⟨o2, u⟩ := r
    cases o2 with
    | throw e => cases h
    | ub e => cases h
    | ok st =>
      simp only [Prod.mk.injEq, true_and] at h
      obtain ⟨rfl, rfl⟩ := h
      refine ⟨rfl, ?_⟩
      simp only [storeIf_su, withSU_su]
      rw [h2]
      have r2 : (cells d c1.su).map (fun x => time x) =
        ((cells d (storeIf (decide (0 < ndt)) c).su).map fun x => time x).map fun t => t + (tlim - 0) := r2
      rw [r2, List.map_map, storeIf_su]
      simp [Function.comp_def]

/-- On a series string – in particular on a single cell – `rest` always reaches its time limit. -/
theorem cells_rest_reaches [CellTotal C] (d : ℕ) (fuel : ℕ) (c : Cyc (Tree C d)) (tlim dt : ℚ) (ndt : ℤ) (th : Thr)
    (hs : SeriesString d c.su) (ht : 0 ≤ tlim) (hd : 0 < dt) (hf : tlim ≤ fuel * dt) :
    (rest fuel c tlim dt ndt th).1 = .ok .ReachedTimeLimit := by
  unfold rest
  obtain ⟨v, c1, h1, h2, h3⟩ := restLoop_total (seriesString_restable (C := C) d) (tlim := tlim) (ndt := ndt)
    (nMax := if decide (0 < ndt) = true then min 10 ndt.toNat else 10) fuel
    (v := { dti := dt, ttot := 0, idat := 0, nOnce := 1, ninc := true }) (c := storeIf (decide (0 < ndt)) c)
    (by rw [storeIf_su]; exact hs) ht hd (le_refl 1) (nMax_pos 10 (by norm_num)) (by simpa using hf)
  dsimp only
  rw [h1]
  dsimp only
  rw [h2, if_pos ⟨le_refl _, by norm_num⟩]
  have h4 := (seriesString_set d c1.su 0 h3).1
  generalize StorageUnit.setCurrent c1.su 0 false = r at *
  obtain ⟨o, u⟩ := r
  cases h4
  rfl

theorem worst_code_le (a b : Status) : a.code ≤ (Status.worst a b).code := by
  unfold Status.worst
  split_ifs with h
  · exact h.le
  · exact le_refl _

theorem foldl_worst_code {α : Type} (f : α → Status) (l : List α) (s : Status) :
    s.code ≤ (l.foldl (fun r k => Status.worst r (f k)) s).code := by
  induction l generalizing s with
  | nil => exact le_refl _
  | cons a l ih => exact le_trans (worst_code_le s (f a)) (ih _)

theorem cells_check_code (d : ℕ) (t : Tree C d) : 0 ≤ (StorageUnit.checkVoltage t).code := by
  cases d with
  | zero => exact check_code (C := C) t
  | succ d =>
    cases t with
    | cell c => exact check_code c
    | series m => exact foldl_worst_code (fun k : Kid (Tree C d) => StorageUnit.checkVoltage k.su) m.kids .Success
    | parallel m => exact foldl_worst_code (fun k : Kid (Tree C d) => StorageUnit.checkVoltage k.su) m.kids .Success

/-- Statuses with which a constant-current phase reports that it reached one of its limits. -/
theorem ccBody_ret_code (d : ℕ) {I vlim tlim : ℚ} {ndt : ℤ} {nMax : ℕ} {v : CCVars} {c c' : Cyc (Tree C d)}
    {th th' : Thr} {st : Status} (h : ccBody I vlim tlim ndt nMax v c th = (.ok (.ret st), c', th')) :
    0 ≤ st.code := by
  unfold ccBody at h
  generalize c.setCurrent I vlim = r at h
  obtain ⟨o, c1⟩ := r
  cases o with
  | throw e => cases h
  | ub e => cases h
  | ok st1 =>
    dsimp only at h
    generalize timeStep c1.su _ _ = r2 at h
    obtain ⟨o2, u2⟩ := r2
    cases o2 with
    | throw e =>
      simp only [Prod.mk.injEq, Outcome.ok.injEq, CCNext.ret.injEq] at h
      rw [← h.1]; simp [Status.code]
    | ub e => cases h
    | ok _ =>
      dsimp only at h
      rcases hv : ccVoltage (c1.withSU u2) with s | vi
      · rw [hv] at h
        simp only [Prod.mk.injEq, Outcome.ok.injEq, CCNext.ret.injEq] at h
        rw [← h.1]
        unfold ccVoltage at hv
        by_cases hdg : (c1.withSU u2).diagnostic = true
        · rw [if_pos hdg] at hv
          dsimp only at hv
          by_cases hs : (StorageUnit.checkVoltage (c1.withSU u2).su).isSuccessful = true
          · rw [if_pos hs] at hv; cases hv
          · rw [if_neg hs] at hv
            rw [← Sum.inl.inj hv]
            exact cells_check_code d _
        · rw [if_neg hdg] at hv
          by_cases hs : V (c1.withSU u2).su ≤ 0
          · rw [if_pos hs] at hv
            rw [← Sum.inl.inj hv]; simp [Status.code]
          · rw [if_neg hs] at hv; cases hv
      · rw [hv] at h
        dsimp only at h
        by_cases hb : (I < 0 ∧ vi > vlim) ∨ (I > 0 ∧ vi < vlim)
        · rw [if_pos hb] at h; cases h
        · rw [if_neg hb] at h; cases h

theorem ccLoop_ret_code (d : ℕ) {I vlim tlim : ℚ} {ndt : ℤ} {nMax : ℕ} (fuel : ℕ) {v : CCVars}
    {c c' : Cyc (Tree C d)} {th th' : Thr} {st : Status}
    (h : ccLoop I vlim tlim ndt nMax fuel v c th = (.ok (.inl st), c', th')) : 0 ≤ st.code := by
  induction fuel generalizing v c th with
  | zero =>
    unfold ccLoop at h
    by_cases hlt : v.ttot < tlim
    · rw [if_pos hlt] at h; cases h
    · rw [if_neg hlt] at h; cases h
  | succ fuel ih =>
    unfold ccLoop at h
    by_cases hlt : v.ttot < tlim
    · rw [if_pos hlt] at h
      rcases hb : ccBody I vlim tlim ndt nMax v c th with ⟨o, c1, th1⟩
      rw [hb] at h
      match o, hb, h with
      | .throw e, _, h => cases h
      | .ub e, _, h => cases h
      | .ok (.brk v1), _, h => cases h
      | .ok (.cont v1), _, h => exact ih h
      | .ok (.ret st1), hb, h =>
        simp only [Prod.mk.injEq, Outcome.ok.injEq, Sum.inl.injEq] at h
        rw [← h.1]
        exact ccBody_ret_code d hb
    · rw [if_neg hlt] at h; cases h

/-- The generic accounting theorem of `CC`: `ob` is anything observed on the unit. -/
theorem cells_cc_accounts {d : ℕ} {A : Type} {Good : Cyc (Tree C d) → Prop} {ob : Tree C d → A}
    {upd : ℚ → A → A} {I vlim : ℚ} (hO : Observed Good ob upd I vlim)
    (hset : ∀ c, ob (Cyc.setCurrent c I vlim).2.su = ob c.su)
    (hstore : ∀ c b, Good c → Good (storeIf b c)) (hgset : ∀ c, Good c → Good (Cyc.setCurrent c I vlim).2)
    (fuel : ℕ) (c c' : Cyc (Tree C d)) (tlim dt : ℚ) (ndt : ℤ) (th th' : Thr) (st : Status)
    (h : CC fuel c I vlim tlim dt ndt th = (.ok st, c', th')) (hd : 0 < dt) (ht : 0 ≤ tlim) (hg : Good c)
    (hst : st = .ReachedTimeLimit ∨ st = .ReachedVoltageLimit) :
    ∃ τ, 0 ≤ τ ∧ τ ≤ tlim ∧ (st = .ReachedTimeLimit → τ = tlim) ∧
      th'.time = th.time + τ ∧ th'.Ah = th.Ah + |I| * τ / 3600 ∧ ob c'.su = upd τ (ob c.su) := by
  have hcode : ¬ 0 ≤ st.code := by rcases hst with rfl | rfl <;> simp [Status.code]
  unfold CC at h
  dsimp only at h
  have h1 := hset (storeIf (decide (0 < ndt)) c)
  have hg1 := hgset _ (hstore c (decide (0 < ndt)) hg)
  have hi : ∀ st1, (Cyc.setCurrent (storeIf (decide (0 < ndt)) c) I vlim).1 = .ok st1 → st1 ≠ .ReachedTimeLimit := by
    intro st1 hst1
    unfold Cyc.setCurrent at hst1
    dsimp only at hst1
    generalize StorageUnit.setCurrent (storeIf (decide (0 < ndt)) c).su I (storeIf (decide (0 < ndt)) c).diagnostic = r at hst1
    obtain ⟨o, u1⟩ := r
    cases o with
    | throw e => cases hst1
    | ub e => cases hst1
    | ok s =>
      dsimp only at hst1
      by_cases hv : s.isVoltageLimitsViolated = true
      · rw [if_pos hv] at hst1
        generalize StorageUnit.setCurrent u1 _ false = r2 at hst1
        obtain ⟨o2, u2⟩ := r2
        cases o2 with
        | throw e => cases hst1
        | ub e => cases hst1
        | ok s2 =>
          simp only [Outcome.ok.injEq] at hst1
          rw [← hst1]
          rintro rfl
          simp [Status.isVoltageLimitsViolated, Status.code] at hv
      · rw [if_neg hv] at hst1
        split_ifs at hst1 <;> · simp only [Outcome.ok.injEq] at hst1; rw [← hst1]; simp
  rcases hs : Cyc.setCurrent (storeIf (decide (0 < ndt)) c) I vlim with ⟨o, c1⟩
  rw [hs] at h h1 hg1 hi
  rw [storeIf_su] at h1
  cases o with
  | throw e => cases h
  | ub e => cases h
  | ok st1 =>
    dsimp only at h
    have zero_case : ∀ {s : Status}, ((.ok s, c1, th) : Outcome Status × Cyc (Tree C d) × Thr) = (.ok st, c', th') →
        s ≠ .ReachedTimeLimit → ∃ τ, 0 ≤ τ ∧ τ ≤ tlim ∧ (st = .ReachedTimeLimit → τ = tlim) ∧
        th'.time = th.time + τ ∧ th'.Ah = th.Ah + |I| * τ / 3600 ∧ ob c'.su = upd τ (ob c.su) := by
      intro s h hs
      simp only [Prod.mk.injEq, Outcome.ok.injEq] at h
      obtain ⟨rfl, rfl, rfl⟩ := h
      exact ⟨0, le_refl _, ht, fun h => absurd h hs, by simp, by simp, by rw [hO.zero]; exact h1⟩
    by_cases hsuc : (!st1.isSuccessful) = true
    · rw [if_pos hsuc] at h
      exact zero_case h (hi st1 rfl)
    · rw [if_neg hsuc] at h
      by_cases hv : (I < 0 ∧ V c1.su > vlim) ∨ (I > 0 ∧ V c1.su < vlim)
      · rw [if_pos hv] at h
        exact zero_case h (by simp)
      · rw [if_neg hv] at h
        rcases hl : ccLoop I vlim tlim ndt (if decide (0 < ndt) = true then min 2 ndt.toNat else 2) fuel
          { dti := dt, ttot := 0, idat := 0, nOnce := 1, vo := V c1.su, vi := V c1.su, allowUp := true } c1 th with
          ⟨o2, c2, th2⟩
        rw [hl] at h
        match o2, hl, h with
        | .throw e, _, h => cases h
        | .ub e, _, h => cases h
        | .ok (.inl s), hl, h =>
          simp only [Prod.mk.injEq, Outcome.ok.injEq] at h
          exact absurd (h.1 ▸ ccLoop_ret_code d fuel hl) hcode
        | .ok (.inr (v, b)), hl, h =>
          obtain ⟨r1, r2, r3, r4, r5, r6, r7⟩ := ccLoop_inr hO fuel hl hg1 ht hd (le_refl 1) (nMax_pos 2 (by norm_num))
          simp only [sub_zero] at r4 r5 r6
          have fin : ∀ {s : Status}, ((.ok s, storeIf (decide (0 < ndt)) c2, th2) :
              Outcome Status × Cyc (Tree C d) × Thr) = (.ok st, c', th') → (s = .ReachedTimeLimit → v.ttot = tlim) →
              ∃ τ, 0 ≤ τ ∧ τ ≤ tlim ∧ (st = .ReachedTimeLimit → τ = tlim) ∧
              th'.time = th.time + τ ∧ th'.Ah = th.Ah + |I| * τ / 3600 ∧ ob c'.su = upd τ (ob c.su) := by
            intro s h hs
            simp only [Prod.mk.injEq, Outcome.ok.injEq] at h
            obtain ⟨rfl, rfl, rfl⟩ := h
            exact ⟨v.ttot, r1, r2, hs, r4, r5, by rw [storeIf_su, r6, h1]⟩
          dsimp only at h
          by_cases htt : v.ttot ≥ tlim
          · rw [if_pos htt] at h
            exact fin h fun _ => le_antisymm r2 htt
          · rw [if_neg htt] at h
            by_cases hb : b = true
            · rw [if_pos hb] at h
              exact fin h fun h => by cases h
            · rw [if_neg hb] at h; cases h

/-- when `CC` reports one of its limits – on any tree of modules, in any mode – there is a time `τ` within the
limit such that every cell has advanced by exactly `τ`, and the reported time and charge grew by `τ` and
`|I|*τ/3600`; `ReachedTimeLimit` means `τ` is the full time. -/
theorem cells_cc_time (d fuel : ℕ) (c c' : Cyc (Tree C d)) (I vlim tlim dt : ℚ) (ndt : ℤ) (th th' : Thr)
    (st : Status) (h : CC fuel c I vlim tlim dt ndt th = (.ok st, c', th')) (hd : 0 < dt) (ht : 0 ≤ tlim)
    (hst : st = .ReachedTimeLimit ∨ st = .ReachedVoltageLimit) :
    ∃ τ, 0 ≤ τ ∧ τ ≤ tlim ∧ (st = .ReachedTimeLimit → τ = tlim) ∧
      th'.time = th.time + τ ∧ th'.Ah = th.Ah + |I| * τ / 3600 ∧
      (cells d c'.su).map (fun x => time x) = (cells d c.su).map fun x => time x + τ := by
  have hset : ∀ c : Cyc (Tree C d), (cells d (Cyc.setCurrent c I vlim).2.su).map (fun x => time x) =
      (cells d c.su).map fun x => time x := fun c =>
    cycSet_su (P := fun u => (cells d u).map (fun x => time x) = (cells d c.su).map fun x => time x)
      (fun u i b hu => by rw [cells_set_times]; exact hu) c I vlim rfl
  have hO : Observed (U := Tree C d) (fun _ => True) (fun u => (cells d u).map fun x => time x)
      (fun τ l => l.map fun t => t + τ) I vlim := by
    refine ⟨?_, fun _ _ _ _ _ _ _ _ _ _ => trivial, fun a => by simp, fun s t a => by simp [Function.comp_def, add_assoc]⟩
    intro c dt k _ _ _ hok
    rw [← hset c]
    have := Clocked.step_clocks _ dt k hok
    rw [mul_comm] at this
    exact this
  obtain ⟨τ, h1, h2, h3, h4, h5, h6⟩ := cells_cc_accounts hO hset (fun _ _ _ => trivial) (fun _ _ => trivial)
    fuel c c' tlim dt ndt th th' st h hd ht trivial hst
  refine ⟨τ, h1, h2, h3, h4, h5, ?_⟩
  rw [h6, List.map_map]
  rfl

theorem cycSet_series (d : ℕ) (c : Cyc (Tree C d)) (I vlim : ℚ) (hs : SeriesString d c.su)
    (hd : c.diagnostic = false) : (c.setCurrent I vlim).2.su = (StorageUnit.setCurrent c.su I false).2 := by
  unfold Cyc.setCurrent
  rw [hd]
  have h := (seriesString_set d c.su I hs).1
  generalize StorageUnit.setCurrent c.su I false = r at *
  obtain ⟨o, u⟩ := r
  cases h
  dsimp only
  rw [if_neg (by simp [Status.isVoltageLimitsViolated, Status.code])]
  split_ifs <;> rfl

theorem map_eq_of_forall₂ {A X Y : Type} {R : X → Y → Prop} {f : X → A} {g : Y → A} (hR : ∀ x y, R x y → g y = f x)
    {a : List X} {b : List Y} (h : List.Forall₂ R a b) : b.map g = a.map f := by
  induction h with
  | nil => rfl
  | cons p _ ih => rw [List.map_cons, List.map_cons, ih, hR _ _ p]

/-- On a series string without individual voltage checks, when `CC` reports one of its limits: anything observed on
the cells (`led`) that does not depend on the current and that a time step advances by `adv` – additive in time – has
been advanced by the reported time. -/
theorem cells_cc_ledger {A : Type} (led : C → A) (adv : ℚ → ℚ → A → A) (h0 : ∀ a b : C, Only a b → led b = led a)
    (h1 : ∀ (a : C) dt (k : ℕ), (timeStep a dt k).1 = .ok () → led (timeStep a dt k).2 = adv (StorageUnit.I a) (k * dt) (led a))
    (hz : ∀ I a, adv I 0 a = a) (ha : ∀ I s t a, adv I t (adv I s a) = adv I (s + t) a)
    (d fuel : ℕ) (c c' : Cyc (Tree C d)) (I vlim tlim dt : ℚ) (ndt : ℤ) (th th' : Thr)
    (st : Status) (h : CC fuel c I vlim tlim dt ndt th = (.ok st, c', th')) (hd : 0 < dt) (ht : 0 ≤ tlim)
    (hst : st = .ReachedTimeLimit ∨ st = .ReachedVoltageLimit) (hs : SeriesString d c.su) (hdiag : c.diagnostic = false) :
    ∃ τ, 0 ≤ τ ∧ τ ≤ tlim ∧ (st = .ReachedTimeLimit → τ = tlim) ∧
      th'.time = th.time + τ ∧ th'.Ah = th.Ah + |I| * τ / 3600 ∧
      (cells d c'.su).map led = (cells d c.su).map fun x => adv I τ (led x) := by
  have hset1 : ∀ (t : Tree C d) i b, (cells d (StorageUnit.setCurrent t i b).2).map led = (cells d t).map led := fun t i b =>
    map_eq_of_forall₂ h0 (cellWise_cells d (cells_setCurrent_only d t i b))
  have hset : ∀ c : Cyc (Tree C d), (cells d (Cyc.setCurrent c I vlim).2.su).map led = (cells d c.su).map led := fun c =>
    cycSet_su (P := fun u => (cells d u).map led = (cells d c.su).map led) (fun u i b hu => by rw [hset1]; exact hu)
      c I vlim rfl
  have hgset : ∀ c : Cyc (Tree C d), SeriesString d c.su → SeriesString d (Cyc.setCurrent c I vlim).2.su := fun c hc =>
    cycSet_su (P := SeriesString d) (fun u i b hu => seriesString_set_keeps d u i b hu) c I vlim hc
  have hO : Observed (U := Tree C d) (fun c => SeriesString d c.su ∧ c.diagnostic = false) (fun u => (cells d u).map led)
      (fun τ l => l.map fun q => adv I τ q) I vlim := by
    refine ⟨?_, ?_, fun a => by simp [hz], fun s t a => ?_⟩
    · intro c dt k hg hdt _ hok
      rw [← hset c]
      have hI : ∀ x ∈ cells d (Cyc.setCurrent c I vlim).2.su, StorageUnit.I x = I := by
        rw [cycSet_series d c I vlim hg.1 hg.2]
        exact (seriesString_set d c.su I hg.1).2
      rw [map_eq_of_forall₂ (R := CellStepped dt k) (g := led) (f := fun x => adv (StorageUnit.I x) (k * dt) (led x))
        (fun a b hab => (h0 _ _ hab.2).trans (h1 a dt k hab.1)) (cellWise_cells d (cells_timeStep_steps d _ dt k hok)),
        List.map_map]
      apply List.map_congr_left
      intro x hx
      simp only [Function.comp_apply, mul_comm (k:ℚ) dt, hI x hx]
    · intro c c' dt k hg hdt _ hok hsu hdg
      exact ⟨by rw [hsu]; exact seriesString_step_keeps d _ dt k (hgset c hg.1), by rw [hdg]; exact hg.2⟩
    · rw [List.map_map]
      apply List.map_congr_left
      intro x _
      exact ha I s t x
  obtain ⟨τ, h1, h2, h3, h4, h5, h6⟩ := cells_cc_accounts hO hset (fun c b hc => by simpa using hc)
    (fun c hc => ⟨hgset c hc.1, by rw [cycSet_diag]; exact hc.2⟩) fuel c c' tlim dt ndt th th' st h hd ht ⟨hs, hdiag⟩ hst
  exact ⟨τ, h1, h2, h3, h4, h5, by rw [h6, List.map_map]; rfl⟩

/-- on a series string (also: a single cell) without individual voltage checks, when `CC` reports one of its
limits every cell has received the charge that is reported: its throughput counter grew by `|I|*τ/3600` – as the
reported one – and its SOC fell by `I*τ/3600/capacity`, with `τ` the reported time. -/
theorem cells_cc_charge (d fuel : ℕ) (c c' : Cyc (Tree C d)) (I vlim tlim dt : ℚ) (ndt : ℤ) (th th' : Thr)
    (st : Status) (h : CC fuel c I vlim tlim dt ndt th = (.ok st, c', th')) (hd : 0 < dt) (ht : 0 ≤ tlim)
    (hst : st = .ReachedTimeLimit ∨ st = .ReachedVoltageLimit) (hs : SeriesString d c.su) (hdiag : c.diagnostic = false) :
    ∃ τ, 0 ≤ τ ∧ τ ≤ tlim ∧ (st = .ReachedTimeLimit → τ = tlim) ∧
      th'.time = th.time + τ ∧ th'.Ah = th.Ah + |I| * τ / 3600 ∧
      (cells d c'.su).map (fun x => (time x, Ah x, SOC x, Cap x)) =
        (cells d c.su).map fun x => (time x + τ, Ah x + |I| * τ / 3600, SOC x - I * τ / 3600 / Cap x, Cap x) := by
  refine cells_cc_ledger (fun x : C => (time x, Ah x, SOC x, Cap x))
    (fun I τ q => (q.1 + τ, q.2.1 + |I| * τ / 3600, q.2.2.1 - I * τ / 3600 / q.2.2.2, q.2.2.2)) ?_ ?_ ?_ ?_
    d fuel c c' I vlim tlim dt ndt th th' st h hd ht hst hs hdiag
  · intro a b hab
    obtain ⟨h1, h2, h3, h4⟩ := only_meters hab
    simp only [h1, h2, h3, h4]
  · intro a dt k hdt
    obtain ⟨g1, g2, g3, g4⟩ := step_meters a dt k hdt
    simp only [g1, g2, g3, g4]
  · intro I a
    simp
  · intro I s t a
    simp only [Prod.mk.injEq, and_true]
    refine ⟨by ring, by ring, by ring⟩

theorem cells_setVoltage_times (d : ℕ) (t : Tree C d) (v : ℚ) :
    (cells d (VoltageUnit.setVoltage t v).2).map (fun c => time c) = (cells d t).map fun c => time c := by
  have h := List.Forall₂.imp (S := fun x y : C => time y = time x + 0) (fun a b hab => by
    rw [(only_meters hab).1, add_zero]) (cellWise_cells d (cells_setVoltage_only d t v))
  simpa using cellWise_time h

theorem cvLoop_clock (d : ℕ) (Vset Ilim tlim dt : ℚ) (nt : ℕ) (ndt : ℤ) (hnt : (nt : ℚ) - 1 < tlim / dt)
    (hnt2 : tlim / dt ≤ nt) (hd : 0 < dt) (left i : ℕ) (hi : i + left = nt)
    (c c' : Cyc (Tree C d)) (ttot ttot' : ℚ) (htt : 0 < left → ttot = i * dt) (htt2 : left = 0 → ttot = tlim)
    (th th' : Thr) (x : Option Bool)
    (h : cvLoop Vset Ilim tlim dt nt ndt left i c ttot th = (.ok (.inr x), c', ttot', th')) :
    ttot ≤ ttot' ∧ ttot' ≤ tlim ∧ (x = none → ttot' = tlim) ∧
    (cells d c'.su).map (fun a => time a) = (cells d c.su).map fun a => time a + (ttot' - ttot) := by
  have e1 : dt * ((nt : ℚ) - 1) < tlim := by
    rw [lt_div_iff₀ hd] at hnt; linarith
  have e2 : tlim ≤ nt * dt := by rwa [div_le_iff₀ hd] at hnt2
  induction left generalizing i c ttot th with
  | zero =>
    unfold cvLoop at h
    simp only [Prod.mk.injEq, Outcome.ok.injEq, Sum.inr.injEq] at h
    obtain ⟨rfl, rfl, rfl, rfl⟩ := h
    exact ⟨le_refl _, (htt2 rfl).le, fun _ => htt2 rfl, by simp⟩
  | succ left ih =>
    have htt := htt (Nat.succ_pos _)
    unfold cvLoop at h
    have hb := cvBody_step Vset Ilim tlim dt nt ndt i c ttot th
    generalize cvBody Vset Ilim tlim dt nt ndt i c ttot th = r at *
    obtain ⟨o, c1, ttot1, th1⟩ := r
    dsimp only at hb
    cases hb with
    | failed _ _ hf _ =>
      rcases hf with ⟨e, rfl⟩ | ⟨w, rfl⟩ | rfl <;> cases h
    | stepped y _ dti _ hdti hok hsu hth hx =>
      have hclk : (cells d c1.su).map (fun a => time a) = (cells d c.su).map fun a => time a + dti := by
        have h1 := Clocked.step_clocks _ dti 1 hok
        have h2 := cells_setVoltage_times d c.su Vset
        rw [hsu]
        have h1 : (cells d (timeStep (VoltageUnit.setVoltage c.su Vset).2 dti 1).2).map (fun a => time a) =
          ((cells d (VoltageUnit.setVoltage c.su Vset).2).map fun a => time a).map fun t => t + ((1:ℕ):ℚ) * dti := h1
        rw [h1, h2, List.map_map]
        simp [Function.comp_def]
      have hcast : ((i + 1 + left : ℕ) : ℚ) = nt := by exact_mod_cast (by omega : i + 1 + left = nt)
      push_cast at hcast
      have hl : (0:ℚ) ≤ left := by positivity
      have hnew : ttot + dti = (if i + 1 = nt then tlim else (i + 1) * dt) ∧ 0 < dti ∧ ttot + dti ≤ tlim := by
        by_cases hlast : i + 1 = nt
        · rw [if_pos hlast] at hdti ⊢
          have hc : (i : ℚ) + 1 = nt := by exact_mod_cast hlast
          have : ttot = dt * ((nt:ℚ) - 1) := by rw [htt, ← hc]; ring
          refine ⟨by rw [hdti, this]; ring, by rw [hdti]; linarith, by rw [hdti, this]; linarith⟩
        · rw [if_neg hlast] at hdti ⊢
          have h1 : (1:ℚ) ≤ left := by
            have : 1 ≤ left := by omega
            exact_mod_cast this
          refine ⟨by rw [htt, hdti]; ring, by rw [hdti]; exact hd, ?_⟩
          rw [htt, hdti]
          nlinarith
      match y, h with
      | .inl s, h => cases h
      | .inr (some b), h =>
        simp only [Prod.mk.injEq, Outcome.ok.injEq, Sum.inr.injEq] at h
        obtain ⟨rfl, rfl, rfl, rfl⟩ := h
        refine ⟨by linarith [hnew.2.1], hnew.2.2, fun h => (by cases h), ?_⟩
        rw [hclk]
        apply List.map_congr_left
        intro a _
        ring
      | .inr none, h =>
        obtain ⟨r1, r2, r3, r4⟩ := ih (i + 1) (by omega) c1 (ttot + dti)
          (fun hpos => by rw [hnew.1, if_neg (by omega)]; push_cast; ring)
          (fun h0 => by rw [hnew.1, if_pos (by omega)]) th1 h
        refine ⟨by linarith [hnew.2.1], r2, r3, ?_⟩
        have hm : (cells d c1.su).map (fun a => time a + (ttot' - (ttot + dti))) =
            ((cells d c1.su).map fun a => time a).map fun t => t + (ttot' - (ttot + dti)) := by
          simp [Function.comp_def]
        rw [r4, hm, hclk, List.map_map]
        apply List.map_congr_left
        intro a _
        simp only [Function.comp_apply]
        ring

/-- when `CV` reports one of its limits – on any tree – every cell was simulated for the same time `τ` within the
time limit, and `ReachedTimeLimit` means the full time. (The reported time does not contain `τ`, see C23.) -/
theorem cells_cv_time (d : ℕ) (c c' : Cyc (Tree C d)) (Vset Ilim tlim dt : ℚ) (ndt : ℤ) (th th' : Thr) (st : Status)
    (h : CV c Vset Ilim tlim dt ndt th = (.ok st, c', th')) (hd : 0 < dt) (ht : 0 ≤ tlim)
    (hst : st = .ReachedTimeLimit ∨ st = .ReachedCurrentLimit ∨ st = .ReachedSmallCurrent) :
    ∃ τ, 0 ≤ τ ∧ τ ≤ tlim ∧ (st = .ReachedTimeLimit → τ = tlim) ∧
      (cells d c'.su).map (fun a => time a) = (cells d c.su).map fun a => time a + τ := by
  unfold CV at h
  dsimp only at h
  by_cases h1 : |I (storeIf (decide (0 < ndt)) c).su| < Ilim ∧ vLimit (V (storeIf (decide (0 < ndt)) c).su) Vset = true
  · rw [if_pos h1] at h
    simp only [Prod.mk.injEq, Outcome.ok.injEq] at h
    obtain ⟨rfl, rfl, rfl⟩ := h
    exact ⟨0, le_refl _, ht, fun h => (by cases h), by simp⟩
  · rw [if_neg h1] at h
    by_cases h2 : dt = 0 ∨ ⌈tlim / dt⌉ < 0
    · rw [if_pos h2] at h; cases h
    · rw [if_neg h2] at h
      push Not at h2
      have hq : 0 ≤ tlim / dt := by positivity
      have hN : ((⌈tlim / dt⌉.toNat : ℕ) : ℚ) = (⌈tlim / dt⌉ : ℤ) := by
        have : ((⌈tlim / dt⌉.toNat : ℕ) : ℤ) = ⌈tlim / dt⌉ := Int.toNat_of_nonneg h2.2
        exact_mod_cast this
      have hk := cvLoop_clock d Vset Ilim tlim dt ⌈tlim / dt⌉.toNat ndt
        (by rw [hN]; linarith [Int.ceil_lt_add_one (tlim / dt)]) (by rw [hN]; exact Int.le_ceil _) hd
        ⌈tlim / dt⌉.toNat 0 (by omega) (storeIf (decide (0 < ndt)) c)
      have hz : ⌈tlim / dt⌉.toNat = 0 → (0:ℚ) = tlim := by
        intro h0
        have : (⌈tlim / dt⌉ : ℚ) = 0 := by rw [← hN, h0]; simp
        have h3 := Int.le_ceil (tlim / dt)
        rw [this, div_le_iff₀ hd] at h3
        linarith
      rcases hl : cvLoop Vset Ilim tlim dt ⌈tlim / dt⌉.toNat ndt ⌈tlim / dt⌉.toNat 0 (storeIf (decide (0 < ndt)) c) 0 th with
        ⟨o, c1, ttot1, th1⟩
      rw [hl] at h
      have hinl := cvLoop_inl Vset Ilim tlim dt ⌈tlim / dt⌉.toNat ndt ⌈tlim / dt⌉.toNat 0 (storeIf (decide (0 < ndt)) c) 0 th
      match o, hl, h with
      | .throw e, _, h => cases h
      | .ub e, _, h => cases h
      | .ok (.inl s), hl, h =>
        simp only [Prod.mk.injEq, Outcome.ok.injEq] at h
        have := hinl s (by rw [hl])
        rw [h.1] at this
        rcases hst with rfl | rfl | rfl <;> simp at this
      | .ok (.inr x), hl, h =>
        obtain ⟨r1, r2, r3, r4⟩ := hk c1 0 ttot1 (fun _ => by simp) hz th th1 x hl
        have fin : ∀ s : Status, (.ok s, storeIf (decide (0 < ndt)) c1, th1) = ((.ok st, c', th') :
            Outcome Status × Cyc (Tree C d) × Thr) → (s = .ReachedTimeLimit → ttot1 = tlim) →
            ∃ τ, 0 ≤ τ ∧ τ ≤ tlim ∧ (st = .ReachedTimeLimit → τ = tlim) ∧
            (cells d c'.su).map (fun a => time a) = (cells d c.su).map fun a => time a + τ := by
          intro s h hs
          simp only [Prod.mk.injEq, Outcome.ok.injEq] at h
          obtain ⟨rfl, rfl, rfl⟩ := h
          exact ⟨ttot1, r1, r2, hs, by rw [storeIf_su, r4, storeIf_su]; simp⟩
        dsimp only at h
        by_cases h3 : ttot1 ≥ tlim
        · rw [if_pos h3] at h
          exact fin _ h fun _ => le_antisymm r2 h3
        · rw [if_neg h3] at h
          match x, h with
          | none, h => cases h
          | some true, h => exact fin _ h fun h => by cases h
          | some false, h => exact fin _ h fun h => by cases h

theorem cell_cv_ledger (c : C) (Vset dti : ℚ) (hok : (timeStep (VoltageUnit.setVoltage c Vset).2 dti 1).1 = .ok ()) :
    Ah (timeStep (VoltageUnit.setVoltage c Vset).2 dti 1).2 =
      Ah c + |I (timeStep (VoltageUnit.setVoltage c Vset).2 dti 1).2 * dti / 3600| := by
  have hd : 0 ≤ dti := cells_timeStep_nonneg (C := C) 0 _ dti 1 hok
  rw [(step_meters _ dti 1 hok).2.1, step_I _ dti 1 hok, (only_meters (only_setVoltage c Vset)).2.1,
    mul_div_assoc (I _) dti 3600, abs_mul, abs_of_nonneg (by positivity : (0:ℚ) ≤ dti / 3600)]
  push_cast
  ring

/-- on a single cell the charge reported for a constant-voltage phase is the charge the cell
counted, whatever the reason for stopping. -/
theorem cell_cv_charge_of (c c' : Cyc C) (Vset Ilim tlim dt : ℚ) (ndt : ℤ) (th th' : Thr) (st : Status)
    (h : CV c Vset Ilim tlim dt ndt th = (.ok st, c', th')) (hs : st ≠ .timeStep_CC_failed ∨ CellTotal C) :
    th'.Ah - th.Ah = Ah c'.su - Ah c.su := by
  have key : ∀ (nt left i : ℕ) (c c' : Cyc C) (ttot ttot' : ℚ) (th th' : Thr) (x : Status ⊕ Option Bool),
      (x ≠ .inl .timeStep_CC_failed ∨ CellTotal C) →
      cvLoop Vset Ilim tlim dt nt ndt left i c ttot th = (.ok x, c', ttot', th') →
      th'.Ah - th.Ah = Ah c'.su - Ah c.su := by
    intro nt left
    induction left with
    | zero =>
      intro i c c' ttot ttot' th th' x _ h
      unfold cvLoop at h
      simp only [Prod.mk.injEq, Outcome.ok.injEq] at h
      obtain ⟨_, rfl, rfl, rfl⟩ := h
      simp
    | succ left ih =>
      intro i c c' ttot ttot' th th' x hx0 h
      unfold cvLoop at h
      have hb := cvBody_step Vset Ilim tlim dt nt ndt i c ttot th
      generalize cvBody Vset Ilim tlim dt nt ndt i c ttot th = r at *
      obtain ⟨o, c1, ttot1, th1⟩ := r
      dsimp only at hb
      cases hb with
      | failed _ _ hf hu =>
        rcases hf with ⟨e, rfl⟩ | ⟨w, rfl⟩ | rfl
        · cases h
        · cases h
        · obtain ⟨dti, e, h1, h2⟩ := hu rfl
          simp only [Prod.mk.injEq, Outcome.ok.injEq] at h
          obtain ⟨rfl, rfl, rfl, rfl⟩ := h
          have := hx0.resolve_left (by simp)
          rw [h1]
          by_cases hneg : dti < 0
          · rw [(only_meters (step_throws _ dti 1 hneg).2).2.1, (only_meters (only_setVoltage c.su Vset)).2.1]
            simp
          · rw [CellTotal.step_ok _ dti 1 (not_lt.mp hneg)] at h2; cases h2
      | stepped y _ dti _ hdti hok hsu hth hx =>
        have h1 : th1.Ah - th.Ah = Ah c1.su - Ah c.su := by
          rw [hth, hsu, cell_cv_ledger c.su Vset dti hok]
          simp
        match y, h with
        | .inl s, h =>
          simp only [Prod.mk.injEq, Outcome.ok.injEq] at h
          obtain ⟨_, rfl, rfl, rfl⟩ := h
          exact h1
        | .inr (some b), h =>
          simp only [Prod.mk.injEq, Outcome.ok.injEq] at h
          obtain ⟨_, rfl, rfl, rfl⟩ := h
          exact h1
        | .inr none, h =>
          have := ih _ _ _ _ _ _ _ _ hx0 h
          linarith
  unfold CV at h
  dsimp only at h
  by_cases h1 : |I (storeIf (decide (0 < ndt)) c).su| < Ilim ∧ vLimit (V (storeIf (decide (0 < ndt)) c).su) Vset = true
  · rw [if_pos h1] at h
    simp only [Prod.mk.injEq, Outcome.ok.injEq] at h
    obtain ⟨rfl, rfl, rfl⟩ := h
    simp
  · rw [if_neg h1] at h
    by_cases h2 : dt = 0 ∨ ⌈tlim / dt⌉ < 0
    · rw [if_pos h2] at h; cases h
    · rw [if_neg h2] at h
      rcases hl : cvLoop Vset Ilim tlim dt ⌈tlim / dt⌉.toNat ndt ⌈tlim / dt⌉.toNat 0 (storeIf (decide (0 < ndt)) c) 0 th with
        ⟨o, c1, ttot1, th1⟩
      rw [hl] at h
      match o, hl, h with
      | .throw e, _, h => cases h
      | .ub e, _, h => cases h
      | .ok (.inl s), hl, h =>
        simp only [Prod.mk.injEq, Outcome.ok.injEq] at h
        obtain ⟨rfl, rfl, rfl⟩ := h
        have hk := key _ _ _ _ _ _ _ _ _ _ (hs.imp_left fun hn e => hn (Sum.inl.inj e)) hl
        simpa using hk
      | .ok (.inr x), hl, h =>
        have hk := key _ _ _ _ _ _ _ _ _ _ (.inl (by simp)) hl
        have fin : ∀ s : Status, (.ok s, storeIf (decide (0 < ndt)) c1, th1) = ((.ok st, c', th') :
            Outcome Status × Cyc C × Thr) → th'.Ah - th.Ah = Ah c'.su - Ah c.su := by
          intro s h
          simp only [Prod.mk.injEq, Outcome.ok.injEq] at h
          obtain ⟨_, rfl, rfl⟩ := h
          simpa using hk
        dsimp only at h
        by_cases h3 : ttot1 ≥ tlim
        · rw [if_pos h3] at h
          exact fin _ h
        · rw [if_neg h3] at h
          match x, h with
          | none, h => cases h
          | some true, h => exact fin _ h
          | some false, h => exact fin _ h

theorem cell_cv_charge [CellTotal C] (c c' : Cyc C) (Vset Ilim tlim dt : ℚ) (ndt : ℤ) (th th' : Thr) (st : Status)
    (h : CV c Vset Ilim tlim dt ndt th = (.ok st, c', th')) : th'.Ah - th.Ah = Ah c'.su - Ah c.su :=
  cell_cv_charge_of c c' Vset Ilim tlim dt ndt th th' st h (.inr inferInstance)

/-- on a single cell, when the constant-current phase ended at one of its limits, the charge
reported by `CCCV` is the charge the cell counted over both phases, whatever ended the constant-voltage phase. -/
theorem cell_cccv_charge_of (fuel : ℕ) (c c' : Cyc C) (I Vset Ilim tlim dt : ℚ) (ndt : ℤ) (th th' : Thr) (st : Status)
    (h : CCCVt fuel c I Vset Ilim tlim dt ndt th = (.ok st, c', th')) (hs : st ≠ .timeStep_CC_failed ∨ CellTotal C) (hd : 0 < dt) (ht : 0 ≤ tlim)
    (hv : ¬ (Vset < (lim c.su).Vmin ∨ Vset > (lim c.su).Vmax)) (hdiag : c.diagnostic = false)
    (hcc : let u := (StorageUnit.setCurrent c.su 0 false).2; let i := if V u > Vset then |I| else -|I|;
      (CC fuel (c.withSU u) i Vset tlim dt ndt Thr.zero).1 = .ok .ReachedTimeLimit ∨
      (CC fuel (c.withSU u) i Vset tlim dt ndt Thr.zero).1 = .ok .ReachedVoltageLimit) :
    th'.Ah = Ah c'.su - Ah c.su := by
  dsimp only at hcc
  unfold CCCVt at h
  rw [if_neg (show ¬ (Vset < (lim c.su).Vmin ∨ Vset > (lim c.su).Vmax) from hv)] at h
  have hz := (set_unchecked c.su 0).1
  have hon := only_set c.su 0 false
  generalize StorageUnit.setCurrent c.su 0 false = r0 at *
  obtain ⟨o0, u⟩ := r0
  cases hz
  dsimp only at h hcc hon
  rw [if_neg (by decide)] at h
  generalize (if V u > Vset then |I| else -|I|) = i at h hcc
  have hacc := fun st c1 th1 (hh : CC fuel (c.withSU u) i Vset tlim dt ndt Thr.zero = (.ok st, c1, th1)) hst =>
    cells_cc_charge (C := C) 0 fuel (c.withSU u) c1 i Vset tlim dt ndt Thr.zero th1 st hh hd ht hst
      trivial hdiag
  rcases hr : CC fuel (c.withSU u) i Vset tlim dt ndt Thr.zero with ⟨o1, c1, th1⟩
  rw [hr] at h hcc
  cases o1 with
  | throw e => cases h
  | ub e => cases h
  | ok s1 =>
    dsimp only at h hcc
    obtain ⟨τ, _, _, _, _, hAh, hl⟩ := hacc s1 c1 th1 hr (by simpa using hcc)
    have hl : [(time c1.su, Ah c1.su, SOC c1.su, Cap c1.su)] =
      [(time u + τ, Ah u + |i| * τ / 3600, SOC u - i * τ / 3600 / Cap u, Cap u)] := hl
    simp only [List.cons.injEq, Prod.mk.injEq, and_true] at hl
    have hA : Ah c1.su = Ah c.su + |i| * τ / 3600 := by rw [hl.2.1, (only_meters hon).2.1]
    have hcv := fun st2 c2 th2 => cell_cv_charge_of c1 c2 Vset |Ilim| (tlim - th1.time) dt ndt Thr.zero th2 st2
    generalize CV c1 Vset |Ilim| (tlim - th1.time) dt ndt Thr.zero = r2 at *
    obtain ⟨o2, c2, th2⟩ := r2
    cases o2 with
    | throw e => cases h
    | ub e => cases h
    | ok s2 =>
      simp only [Prod.mk.injEq, Outcome.ok.injEq] at h
      obtain ⟨rfl, rfl, rfl⟩ := h
      have h2 : th2.Ah - 0 = Ah c2.su - Ah c1.su := hcv _ c2 th2 rfl hs
      have h1 : th1.Ah = 0 + |i| * τ / 3600 := hAh
      show th1.Ah + th2.Ah = _
      linarith

theorem cell_cccv_charge [CellTotal C] (fuel : ℕ) (c c' : Cyc C) (I Vset Ilim tlim dt : ℚ) (ndt : ℤ) (th th' : Thr) (st : Status)
    (h : CCCVt fuel c I Vset Ilim tlim dt ndt th = (.ok st, c', th')) (hd : 0 < dt) (ht : 0 ≤ tlim)
    (hv : ¬ (Vset < (lim c.su).Vmin ∨ Vset > (lim c.su).Vmax)) (hdiag : c.diagnostic = false)
    (hcc : let u := (StorageUnit.setCurrent c.su 0 false).2; let i := if V u > Vset then |I| else -|I|;
      (CC fuel (c.withSU u) i Vset tlim dt ndt Thr.zero).1 = .ok .ReachedTimeLimit ∨
      (CC fuel (c.withSU u) i Vset tlim dt ndt Thr.zero).1 = .ok .ReachedVoltageLimit) :
    th'.Ah = Ah c'.su - Ah c.su :=
  cell_cccv_charge_of fuel c c' I Vset Ilim tlim dt ndt th th' st h (.inr inferInstance) hd ht hv hdiag hcc

omit [VoltageUnit C] [CellLaws C] in
theorem trivialObs {d : ℕ} (I vlim : ℚ) :
    Observed (U := Tree C d) (fun _ => True) (fun _ => ()) (fun _ _ => ()) I vlim :=
  ⟨fun _ _ _ _ _ _ _ => rfl, fun _ _ _ _ _ _ _ _ _ _ => trivial, fun _ => rfl, fun _ _ _ => rfl⟩

/-- if a charge starts below the limit (nothing is needed for a discharge), then
`ReachedVoltageLimit` means that the voltage is beyond the limit. -/
theorem cells_cc_voltageLimit (d fuel : ℕ) (c c' : Cyc (Tree C d)) (I vlim tlim dt : ℚ) (ndt : ℤ) (th th' : Thr)
    (hd : 0 < dt) (ht : 0 ≤ tlim) (hI : I ≠ 0) (hini : I < 0 → V c.su < vlim)
    (h : CC fuel c I vlim tlim dt ndt th = (.ok .ReachedVoltageLimit, c', th')) : BeyondLimit I vlim (V c'.su) := by
  unfold CC at h
  dsimp only at h
  have hi : ∀ st1 c1, Cyc.setCurrent (storeIf (decide (0 < ndt)) c) I vlim = (.ok st1, c1) →
      st1 = .ReachedVoltageLimit → BeyondLimit I vlim (V c1.su) := by
    intro st1 c1 hs hst
    subst hst
    unfold Cyc.setCurrent at hs
    dsimp only at hs
    rw [storeIf_su] at hs
    generalize StorageUnit.setCurrent c.su I (storeIf (decide (0 < ndt)) c).diagnostic = r at hs
    obtain ⟨o, u1⟩ := r
    cases o with
    | throw e => cases hs
    | ub e => cases hs
    | ok s =>
      dsimp only at hs
      by_cases hv : s.isVoltageLimitsViolated = true
      · rw [if_pos hv] at hs
        generalize StorageUnit.setCurrent u1 _ false = r2 at hs
        obtain ⟨o2, u2⟩ := r2
        cases o2 with
        | throw e => cases hs
        | ub e => cases hs
        | ok s2 =>
          simp only [Prod.mk.injEq, Outcome.ok.injEq] at hs
          rw [hs.1] at hv
          simp [Status.isVoltageLimitsViolated, Status.code] at hv
      · rw [if_neg hv] at hs
        by_cases h1 : I < 0 ∧ V c.su ≤ vlim ∧ V u1 > vlim
        · rw [if_pos h1] at hs
          simp only [Prod.mk.injEq, true_and] at hs
          rw [← hs]
          exact Or.inl ⟨h1.1, h1.2.2⟩
        · rw [if_neg h1] at hs
          by_cases h2 : V c.su ≥ vlim ∧ V u1 < vlim
          · rw [if_pos h2] at hs
            simp only [Prod.mk.injEq, true_and] at hs
            rw [← hs]
            rcases lt_or_gt_of_ne hI with hneg | hpos
            · exact absurd h2.1 (not_le.mpr (hini hneg))
            · exact Or.inr ⟨hpos, h2.2⟩
          · rw [if_neg h2] at hs; cases hs
  rcases hs : Cyc.setCurrent (storeIf (decide (0 < ndt)) c) I vlim with ⟨o, c1⟩
  rw [hs] at h
  cases o with
  | throw e => cases h
  | ub e => cases h
  | ok st1 =>
    dsimp only at h
    by_cases hsuc : (!st1.isSuccessful) = true
    · rw [if_pos hsuc] at h
      simp only [Prod.mk.injEq, Outcome.ok.injEq] at h
      rw [← h.2.1]
      exact hi st1 c1 hs h.1
    · rw [if_neg hsuc] at h
      by_cases hv : (I < 0 ∧ V c1.su > vlim) ∨ (I > 0 ∧ V c1.su < vlim)
      · rw [if_pos hv] at h
        simp only [Prod.mk.injEq, true_and] at h
        rw [← h.1]
        exact hv
      · rw [if_neg hv] at h
        rcases hl : ccLoop I vlim tlim ndt (if decide (0 < ndt) = true then min 2 ndt.toNat else 2) fuel
          { dti := dt, ttot := 0, idat := 0, nOnce := 1, vo := V c1.su, vi := V c1.su, allowUp := true } c1 th with
          ⟨o2, c2, th2⟩
        rw [hl] at h
        match o2, hl, h with
        | .throw e, _, h => cases h
        | .ub e, _, h => cases h
        | .ok (.inl s), hl, h =>
          simp only [Prod.mk.injEq, Outcome.ok.injEq] at h
          have := ccLoop_ret_code d fuel hl
          rw [h.1] at this
          simp [Status.code] at this
        | .ok (.inr (v, b)), hl, h =>
          have hr := ccLoop_inr (trivialObs I vlim) fuel hl trivial ht hd (le_refl 1) (nMax_pos 2 (by norm_num))
          obtain ⟨r1, r2, r3, r4, r5, r6, r7⟩ := hr
          dsimp only at h
          by_cases htt : v.ttot ≥ tlim
          · rw [if_pos htt] at h; cases h
          · rw [if_neg htt] at h
            by_cases hb : b = true
            · rw [if_pos hb] at h
              simp only [Prod.mk.injEq, true_and] at h
              rw [← h.1, storeIf_su]
              exact (r7 hb).2
            · rw [if_neg hb] at h; cases h

/-- A capacity test that reports failure restores the unit. -/
theorem lawful_capacityTest_failure {U : Type} [StorageUnit U] [LawfulStates U] (fuel : ℕ) (c : Cyc U) (q ttot : ℚ)
    (hv : Valid c.su) :
    (∀ st c1 th1, CC fuel c (-(1/25) * Cap c.su) (lim c.su).Vmax TIME_INF 1 0 Thr.zero = (.ok st, c1, th1) →
      st ≠ .ReachedVoltageLimit →
      testCapacity fuel c q ttot = (.ok 0, { c1 with su := c.su }, q, ttot + th1.time)) ∧
    (∀ c1 th1 st c2 th2, CC fuel c (-(1/25) * Cap c.su) (lim c.su).Vmax TIME_INF 1 0 Thr.zero =
        (.ok .ReachedVoltageLimit, c1, th1) →
      CC fuel c1 (1/25 * Cap c.su) (lim c1.su).Vmin TIME_INF 1 0 Thr.zero = (.ok st, c2, th2) →
      st ≠ .ReachedVoltageLimit →
      testCapacity fuel c q ttot = (.ok 0, { c2 with su := c.su }, q, ttot + th1.time + th2.time)) := by
  have keeps : ∀ c0 : Cyc U, Same c.su c0.su → ∀ I vlim : ℚ, Same c.su (CC fuel c0 I vlim TIME_INF 1 0 Thr.zero).2.1.su :=
    fun c0 h0 I vlim => (CC_keeps (P := fun u => Same c.su u)
      (fun u i b hu => LawfulStates.trans hu (LawfulStates.setCurrent_same u i b))
      (fun u dt k hu => LawfulStates.trans hu (LawfulStates.timeStep_same u dt k)) fuel c0 I vlim TIME_INF 1 0 Thr.zero h0).1
  have restore : ∀ c1 : Cyc U, Same c.su c1.su →
      setStates c1.su (getStates c.su) false = (.ok (.Success, []), c.su) := by
    intro c1 hs
    have := LawfulStates.roundtrip c.su c1.su [] hs hv
    rwa [List.append_nil] at this
  constructor
  · intro st c1 th1 h1 hst
    have hs := keeps c (LawfulStates.refl _) (-(1/25) * Cap c.su) (lim c.su).Vmax
    rw [h1] at hs
    unfold testCapacity
    dsimp only
    rw [h1]
    dsimp only
    rw [if_pos hst, restore c1 hs]
    rfl
  · intro c1 th1 st c2 th2 h1 h2 hst
    have hs1 := keeps c (LawfulStates.refl _) (-(1/25) * Cap c.su) (lim c.su).Vmax
    rw [h1] at hs1
    have hs2 := keeps c1 hs1 (1/25 * Cap c.su) (lim c1.su).Vmin
    rw [h2] at hs2
    unfold testCapacity
    dsimp only
    rw [h1]
    dsimp only
    rw [if_neg (by simp), h2]
    dsimp only
    rw [if_pos hst, restore c2 hs2]
    rfl

/-- what a successful test leaves behind, on every series string without individual voltage checks: the charge
throughput counter of every cell has grown by exactly the reported charge – so the unit is *not* as before whenever
any charge was moved. -/
theorem cells_capacityTest_success (d fuel : ℕ) (c c1 c2 : Cyc (Tree C d)) (q ttot : ℚ) (th1 th2 : Thr)
    (hs : SeriesString d c.su) (hdiag : c.diagnostic = false)
    (h1 : CC fuel c (-(1/25) * Cap c.su) (lim c.su).Vmax TIME_INF 1 0 Thr.zero = (.ok .ReachedVoltageLimit, c1, th1))
    (h2 : CC fuel c1 (1/25 * Cap c.su) (lim c1.su).Vmin TIME_INF 1 0 Thr.zero = (.ok .ReachedVoltageLimit, c2, th2)) :
    ∃ q', testCapacity fuel c q ttot = (.ok th2.Ah, c2, q', ttot + th1.time + th2.time) ∧
      (cells d c2.su).map (fun x => Ah x) = (cells d c.su).map fun x => Ah x + q' := by
  have hT : (0:ℚ) ≤ TIME_INF := by norm_num [TIME_INF]
  have hk := CC_keeps (P := fun u => SeriesString d u) (fun u i b hu => seriesString_set_keeps d u i b hu)
    (fun u dt k hu => seriesString_step_keeps d u dt k hu) fuel c (-(1/25) * Cap c.su) (lim c.su).Vmax TIME_INF 1 0
    Thr.zero hs
  rw [h1] at hk
  have hs1 : SeriesString d c1.su := hk.1
  obtain ⟨τ1, _, _, _, _, a5, a6⟩ := cells_cc_charge d fuel c c1 _ _ _ _ _ _ _ _ h1 (by norm_num) hT (Or.inr rfl) hs hdiag
  obtain ⟨τ2, _, _, _, _, b5, b6⟩ := cells_cc_charge d fuel c1 c2 _ _ _ _ _ _ _ _ h2 (by norm_num) hT (Or.inr rfl) hs1
    (hk.2.trans hdiag)
  refine ⟨th1.Ah + th2.Ah, ?_, ?_⟩
  · unfold testCapacity
    dsimp only
    rw [h1]
    dsimp only
    rw [if_neg (by simp), h2]
    dsimp only
    rw [if_neg (by simp)]
  · have a7 := congrArg (List.map fun q : ℚ × ℚ × ℚ × ℚ => q.2.1) a6
    have b7 := congrArg (List.map fun q : ℚ × ℚ × ℚ × ℚ => q.2.1) b6
    rw [List.map_map, List.map_map] at a7 b7
    have a8 : (cells d c1.su).map (fun x => Ah x) = (cells d c.su).map fun x => Ah x + th1.Ah := by
      have e : th1.Ah = |(-(1/25) * Cap c.su)| * τ1 / 3600 := by rw [a5]; simp [Thr.zero]
      rw [e]; exact a7
    have b8 : (cells d c2.su).map (fun x => Ah x) = (cells d c1.su).map fun x => Ah x + th2.Ah := by
      have e : th2.Ah = |(1/25 * Cap c.su)| * τ2 / 3600 := by rw [b5]; simp [Thr.zero]
      rw [e]; exact b7
    have b9 : (cells d c1.su).map (fun x => Ah x + th2.Ah) = ((cells d c1.su).map fun x => Ah x).map fun q => q + th2.Ah := by
      simp [Function.comp_def]
    rw [b8, b9, a8, List.map_map]
    apply List.map_congr_left
    intro x _
    simp only [Function.comp_apply]
    ring


end Slide

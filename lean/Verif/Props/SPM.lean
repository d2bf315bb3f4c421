import Verif.Lemmas.SPM
import Verif.Tac

/-!
Properties C35 (the reported voltage is up to date), C36 (atomic setStates), C37 (degradation factors),
C72 (accepted states are valid) and C74 (characterisation resistance) of the single-particle cell.
-/

namespace Slide
open Spec SPM

variable {N : ℕ}

/-! ### C35 -/

/-- C35 (partial): any number of operations that are not the temperature setter, a parametrisation `overwrite`, or a
time step with degradation switched on keep the reported voltage up to date.  Missing: those operations
(`not_spmAlwaysFresh`, `not_fresh_cycling`). -/
theorem spm_fresh_partial (c : SPM N) (ops : List (SpmOp N)) (h0 : Fresh c) (hq : quietRun c ops) :
    Fresh (spmRun c ops) := by
  induction ops generalizing c with
  | nil => exact h0
  | cons o os ih => exact ih _ (fresh_after o hq.1 h0) hq.2

/-- C35: setting the current makes the voltage up to date again, whatever was done to the cell before (even if the
cached voltage was outdated), provided the current is accepted. -/
theorem spm_setCurrent_refreshes (c : SPM N) (i : ℚ) (check : Bool) (r : Status)
    (h : (c.setCurrent i check).1 = .ok r) (hr : r.isBad = false) : Fresh (c.setCurrent i check).2 := by
  unfold setCurrent at *
  set c1 : SPM N := { c with st := { c.st with I := i }, valid := false } with hc1
  have h1 : Fresh c1 := fresh_of_invalid rfl
  have hs := checkCurrent_snd c1 check
  rcases hk : c1.checkCurrent check with ⟨s | e | w, c2⟩
  · simp only [hk] at h ⊢
    have : s = r := by
      by_cases hb : s.isBad = true
      · rw [if_pos hb] at h; exact Outcome.ok.inj h
      · rw [if_neg hb] at h; exact Outcome.ok.inj h
    rw [if_neg (by rw [this, hr]; simp)]
    show Fresh c2
    have hc2 : c2 = if check then c1.V.2 else c1 := by rw [← hs, hk]
    rw [hc2]; split; exacts [fresh_V h1, h1]
  · simp only [hk] at h; simp at h
  · simp only [hk] at h; simp at h

/-- C35: what "up to date" means on a cell whose cache is empty or was just filled. -/
theorem spm_read_twice (c : SPM N) (v : ℚ) (h : c.V.1 = .ok v) (hv : v ≠ 0) : c.V.2.V = (.ok v, c.V.2) := by
  unfold SPM.V at h
  by_cases hval : c.valid = true
  · have e : c.V = (.ok c.st.V, c) := by unfold SPM.V; rw [if_pos hval]
    rw [if_pos hval] at h
    rw [e]; simp only; rw [e]; simp only at h; rw [h]
  · rw [if_neg hval] at h
    rcases hc : c.calcV with (_ | w) | e | w
    · rw [hc] at h; exact absurd (Outcome.ok.inj h).symm hv
    · rw [hc] at h
      have e : c.V = (.ok w, c.cache w) := by unfold SPM.V; rw [if_neg hval, hc]
      have hw : w = v := Outcome.ok.inj h
      rw [e]; simp only; rw [← hw]; rfl
    · rw [hc] at h; simp at h
    · rw [hc] at h; simp at h

/-- C35 fails: setting the temperature after reading the voltage leaves the old voltage in the cache. -/
theorem not_spmAlwaysFresh : ¬ SpmAlwaysFresh 1 := by
  intro h
  have := h spm1 [.readV, .setT 310] rfl
  revert this
  unfold Fresh
  decide +kernel

/-- C35 fails in ordinary cycling too: after setting a current and taking one time step with SEI growth, the reported
voltage is the one before the SEI layer grew. -/
theorem not_fresh_cycling : ¬ Fresh (spmRun spm1 [.setCurrent (1 / 10) true, .step (1 / 10) 1]) ∧
    (spm1.setCurrent (1 / 10) true).1 = .ok .Success ∧
    ((spm1.setCurrent (1 / 10) true).2.timeStep (1 / 10) 1).1 = .ok () := by
  unfold Fresh
  decide +kernel

/-- Hypotheses of `spm_fresh_partial` and `spm_setCurrent_refreshes` on concrete runs. -/
example : Fresh (spmRun spm1 [.readV, .block true, .setCurrent (1 / 10) true, .step (1 / 10) 3, .readV]) := by
  apply spm_fresh_partial _ _ (fresh_of_invalid rfl)
  exact ⟨trivial, trivial, trivial, (by show SPM.block _ = true; decide +kernel), trivial, trivial⟩

example : (spm1.setCurrent (1 / 10) true).1 = .ok .Success ∧ Status.isBad .Success = false ∧
    (spm1.V).1 = .ok (36 / 10) := by decide +kernel

/-! ### C36 -/

theorem setStates_eq (c : SPM N) (s : List ℚ) (check : Bool) (st : SpmState N) (h : decode N s = some st) :
    c.setStates s check =
      (match ({ c with st := st, valid := false } : SPM N).checkStates check with
      | (.ok r, c2) =>
        if r.isBad then (.ok (r, s.drop (22 + 2 * N)), { c2 with st := c.st, valid := c.valid })
        else (.ok (r, s.drop (22 + 2 * N)), c2)
      | (.throw e, c2) => (.throw e, c2)
      | (.ub w, c2) => (.ub w, c2)) := by
  unfold setStates; rw [h]; rfl

/-- C36 (partial): if `setStates` returns with a failure status, the cell is exactly what it was, cached voltage
included.  Missing: the exception for a negative `LLI` (`spm_setStates_throws`, `not_spmSetStatesAtomic`). -/
theorem spm_setStates_atomic_partial (c : SPM N) (s : List ℚ) (check : Bool) (r : Status) (rest : List ℚ)
    (h : (c.setStates s check).1 = .ok (r, rest)) (hr : r.isBad = true) : (c.setStates s check).2 = c := by
  rcases hd : decode N s with _ | st
  · unfold setStates at h; rw [hd] at h; simp at h
  · rw [setStates_eq c s check st hd] at h ⊢
    have hrest := checkStates_rest ({ c with st := st, valid := false } : SPM N) check
    rcases hk : ({ c with st := st, valid := false } : SPM N).checkStates check with ⟨q | e | w, c2⟩
    · rw [hk] at h hrest
      simp only at h hrest ⊢
      have hq : q = r := by
        split at h <;> exact congrArg Prod.fst (Outcome.ok.inj h)
      rw [if_pos (by rw [hq, hr])]
      simp only
      rw [hrest]
    · rw [hk] at h; simp at h
    · rw [hk] at h; simp at h

theorem checkV_throw (c : SPM N) (e : Int) : c.checkV.1 ≠ .throw e := by
  unfold checkV
  rcases c.V with ⟨v | e | w, c'⟩ <;> simp

/-- C36: the only exception that leaves `setStates` is 15, and it is thrown exactly for a vector whose entry for the
lost lithium is negative; the cell then holds the rejected vector. -/
theorem spm_setStates_throws (c : SPM N) (s : List ℚ) (check : Bool) (st : SpmState N) (hd : decode N s = some st)
    (e : Int) (h : (c.setStates s check).1 = .throw e) :
    e = 15 ∧ st.LLI < 0 ∧ (c.setStates s check).2 = { c with st := st, valid := false } := by
  rw [setStates_eq c s check st hd] at h ⊢
  set c1 : SPM N := { c with st := st, valid := false } with hc1
  have key : ∀ x c2, c1.checkStates check = (.throw x, c2) → x = 15 ∧ st.LLI < 0 ∧ c2 = c1 := by
    intro x c2 hx
    unfold checkStates at hx
    rcases hv : c1.validStates with v | y | w
    · rw [hv] at hx
      cases v
      · simp at hx
      · simp only at hx
        by_cases hb : check = true
        · rw [if_pos hb] at hx
          have := checkV_throw c1 x
          rw [hx] at this; exact absurd rfl this
        · rw [if_neg hb] at hx; simp at hx
    · rw [hv] at hx
      simp only [Prod.mk.injEq, Outcome.throw.injEq] at hx
      unfold validStates at hv
      split at hv
      · simp at hv
      · split at hv
        · rename_i hL
          have : (15 : Int) = y := Outcome.throw.inj hv
          exact ⟨by rw [← hx.1, this], hL, hx.2.symm⟩
        · simp at hv
    · rw [hv] at hx; simp at hx
  rcases hk : c1.checkStates check with ⟨q | x | w, c2⟩
  · rw [hk] at h; simp only at h; split at h <;> simp at h
  · rw [hk] at h
    simp only [Outcome.throw.injEq] at h
    obtain ⟨h1, h2, h3⟩ := key x c2 hk
    exact ⟨by rw [← h, h1], h2, by simp only; rw [h3]⟩
  · rw [hk] at h; simp at h

/-- C36: an accepted vector is stored as it is; only the entry for the voltage may be replaced by the voltage computed
from the other entries (when the voltage check is on). -/
theorem spm_setStates_accepts (c : SPM N) (s : List ℚ) (check : Bool) (st : SpmState N) (hd : decode N s = some st)
    (r : Status) (rest : List ℚ) (h : (c.setStates s check).1 = .ok (r, rest)) (hr : r.isBad = false) :
    rest = s.drop (22 + 2 * N) ∧
    (c.setStates s check).2 = { c with st := { st with V := (c.setStates s check).2.st.V },
                                       valid := (c.setStates s check).2.valid } ∧
    (check = false → (c.setStates s check).2.st = st) := by
  rw [setStates_eq c s check st hd] at h ⊢
  obtain ⟨c1, hc1⟩ : ∃ c1 : SPM N, c1 = { c with st := st, valid := false } := ⟨_, rfl⟩
  rw [← hc1] at h ⊢
  have hs := checkStates_snd c1 check
  have hf : check = false → (c1.checkStates check).2 = c1 := by
    intro hcf; unfold checkStates
    rcases c1.validStates with v | y | w
    · cases v <;> simp [hcf]
    · rfl
    · rfl
  rcases hk : c1.checkStates check with ⟨q | x | w, c2⟩
  · rw [hk] at h hs hf
    simp only at h hs hf ⊢
    have hq : q = r ∧ s.drop (22 + 2 * N) = rest := by
      split at h <;> exact Prod.mk.inj (Outcome.ok.inj h)
    rw [if_neg (by rw [hq.1, hr]; simp)]
    refine ⟨hq.2.symm, ?_, ?_⟩
    · show c2 = _
      rcases hs with e | e
      · rw [e, hc1]
      · rw [e, SPM.V_rest, hc1]
    · intro hcf
      show c2.st = st
      rw [hf hcf, hc1]
  · rw [hk] at h; simp at h
  · rw [hk] at h; simp at h

/-- The first fifteen entries of the state vector. -/
def spmHead (s : SpmState N) : List ℚ :=
  [s.I, s.V, s.T, s.delta, s.LLI, s.thickp, s.thickn, s.ep, s.en, s.ap, s.an, s.CS, s.Dp, s.Dn, s.deltaPl]

/-- The last seven entries of the state vector. -/
def spmTail (s : SpmState N) : List ℚ := [s.rDCp, s.rDCn, s.rDCcc, s.SOC, s.time, s.Ah, s.Wh]

theorem getStates_split (c : SPM N) (rest : List ℚ) :
    c.getStates ++ rest = spmHead c.st ++ (List.ofFn c.st.zp ++ (List.ofFn c.st.zn ++ (spmTail c.st ++ rest))) := by
  simp [getStates, spmHead, spmTail]

/-- C36: reading the states out and decoding them again gives the states back. -/
theorem spm_decode_getStates (c : SPM N) (rest : List ℚ) : decode N (c.getStates ++ rest) = some c.st := by
  have hl0 : (spmHead c.st).length = 15 := rfl
  have hl1 : (List.ofFn c.st.zp).length = N := List.length_ofFn
  have hl2 : (List.ofFn c.st.zn).length = N := List.length_ofFn
  have hl3 : (spmTail c.st).length = 7 := rfl
  rw [getStates_split]
  unfold decode
  rw [dif_pos (by simp only [List.length_append, hl0, hl1, hl2, hl3]; omega)]
  have htail : ∀ k (hk : k < 7) j (hj : j = 15 + 2 * N + k) (h : j <
      (spmHead c.st ++ (List.ofFn c.st.zp ++ (List.ofFn c.st.zn ++ (spmTail c.st ++ rest)))).length),
      (spmHead c.st ++ (List.ofFn c.st.zp ++ (List.ofFn c.st.zn ++ (spmTail c.st ++ rest))))[j] =
        (spmTail c.st)[k]'(by rw [hl3]; exact hk) := by
    intro k hk j hj h
    subst hj
    rw [List.getElem_append_right (by rw [hl0]; omega), List.getElem_append_right (by rw [hl0, hl1]; omega),
      List.getElem_append_right (by rw [hl0, hl1, hl2]; omega), List.getElem_append_left (by rw [hl0, hl1, hl2, hl3]; omega)]
    congr 1
    rw [hl0, hl1, hl2]; omega
  congr 1
  ext
  any_goals rfl
  · rename_i i
    show (spmHead c.st ++ (List.ofFn c.st.zp ++ (List.ofFn c.st.zn ++ (spmTail c.st ++ rest))))[15 + i.val]'_ = _
    rw [List.getElem_append_right (by rw [hl0]; omega), List.getElem_append_left (by rw [hl0, hl1]; omega)]
    simp [hl0]
  · rename_i i
    show (spmHead c.st ++ (List.ofFn c.st.zp ++ (List.ofFn c.st.zn ++ (spmTail c.st ++ rest))))[15 + N + i.val]'_ = _
    rw [List.getElem_append_right (by rw [hl0]; omega), List.getElem_append_right (by rw [hl0, hl1]; omega),
      List.getElem_append_left (by rw [hl0, hl1, hl2]; omega)]
    simp only [List.getElem_ofFn]
    congr 1
    ext
    simp only [hl0, hl1]; omega
  · exact htail 0 (by omega) _ (by omega) _
  · exact htail 1 (by omega) _ (by omega) _
  · exact htail 2 (by omega) _ (by omega) _
  · exact htail 3 (by omega) _ (by omega) _
  · exact htail 4 (by omega) _ (by omega) _
  · exact htail 5 (by omega) _ (by omega) _
  · exact htail 6 (by omega) _ (by omega) _

/-- C36: states read from one cell and accepted by another are then the states of that cell; the remaining values are
handed back. -/
theorem spm_restore (c c' : SPM N) (rest : List ℚ) (r : Status) (rest' : List ℚ)
    (h : (c'.setStates (c.getStates ++ rest) false).1 = .ok (r, rest')) (hr : r.isBad = false) :
    (c'.setStates (c.getStates ++ rest) false).2.st = c.st ∧ rest' = rest := by
  obtain ⟨h1, -, h3⟩ := spm_setStates_accepts c' _ false c.st (spm_decode_getStates c rest) r rest' h hr
  refine ⟨h3 rfl, ?_⟩
  rw [h1]
  have hl : c.getStates.length = 22 + 2 * N := by simp [getStates]; ring
  rw [← hl, List.drop_left]

/-- C36 fails: a vector with negative lost lithium makes `setStates` throw 15 and stays in the cell. -/
theorem not_spmSetStatesAtomic : ¬ SpmSetStatesAtomic 1 := by
  intro h
  have h1 := h spm1 ({ spm1 with st := { spm1.st with LLI := -1 } } : SPM 1).getStates true
  have h2 : (spm1.setStates ({ spm1 with st := { spm1.st with LLI := -1 } } : SPM 1).getStates true).1 = .throw 15 ∧
      (spm1.setStates ({ spm1 with st := { spm1.st with LLI := -1 } } : SPM 1).getStates true).2.st.LLI = -1 := by
    decide +kernel
  rcases h1 with ⟨r, rest, e, -⟩ | e
  · rw [e] at h2; simp at h2
  · rw [e] at h2
    have : spm1.st.LLI = 0 := rfl
    rw [this] at h2
    norm_num at h2

/-- A rejected vector (SOC too large), an accepted one and a thrown one. -/
example :
    (spm1.setStates ({ spm1 with st := { spm1.st with SOC := 2 } } : SPM 1).getStates true).1 =
      .ok (.Invalid_states, []) ∧ Status.isBad .Invalid_states = true ∧
    (spm1.setStates (({ spm1 with st := { spm1.st with SOC := 3 / 4 } } : SPM 1).getStates ++ [7]) false).1 =
      .ok (.Success, [7]) ∧
    (spm1.setStates ({ spm1 with st := { spm1.st with LLI := -1 } } : SPM 1).getStates true).1 = .throw 15 := by
  decide +kernel

/-! ### C72 -/

theorem relOff_pos {a b : ℚ} (ha : 0 < a) (h : relOff a b = false) : |a - b| ≤ 1 / 100000 * |a| := by
  unfold relOff at h
  rw [if_neg ha.ne'] at h
  have h' : |a - b| / a ≤ 1 / 100000 := by simpa using h
  rw [abs_of_pos ha]
  exact (div_le_iff₀ ha).mp h'

theorem validStates_valid {c : SPM N} (h : c.validStates = .ok true) (hp : 0 < c.st.ap) (hn : 0 < c.st.an) :
    SpmValid c := by
  unfold validStates at h
  split at h
  · simp at h
  · split at h
    · simp at h
    · rename_i hL
      have h := Outcome.ok.inj h
      simp only [Bool.and_eq_true, Bool.not_eq_true', Bool.or_eq_false_iff, decide_eq_false_iff_not, not_lt, not_le,
        concOk, checkSOC, ge_iff_le, gt_iff_lt] at h
      obtain ⟨⟨⟨⟨⟨⟨⟨⟨h1, h2⟩, h3⟩, h4⟩, h5⟩, h6⟩, h7⟩, h8⟩, h9⟩ := h
      refine ⟨?_, h2, ⟨h3.1.1.1, h3.1.2⟩, ⟨h3.1.1.2, h3.2⟩, h4, not_lt.mp hL, relOff_pos hp h5, relOff_pos hn h6,
        h7, ⟨h8.1.1, h8.1.2, h8.2⟩, h9⟩
      exact h1

theorem Spec.SpmValid.of_V {c : SPM N} (h : SpmValid c) (v : ℚ) (b : Bool) :
    SpmValid ({ c with st := { c.st with V := v }, valid := b } : SPM N) :=
  ⟨h.soc, h.temp, h.concP, h.concN, h.delta, h.LLI, h.surfP, h.surfN, h.CS, h.rDC, h.deltaPl⟩

/-- C72 (partial): states accepted by `setStates` are valid, if the effective surfaces are positive.  Missing: that
`setStates` refuses a negative effective surface (`not_spmAcceptsOnlyValid`). -/
theorem spm_acceptsOnlyValid_partial (c : SPM N) (s : List ℚ) (check : Bool) (st : SpmState N)
    (hd : decode N s = some st) (r : Status) (rest : List ℚ) (h : (c.setStates s check).1 = .ok (r, rest))
    (hr : r.isBad = false) (hp : 0 < st.ap) (hn : 0 < st.an) : SpmValid (c.setStates s check).2 := by
  rw [setStates_eq c s check st hd] at h ⊢
  obtain ⟨c1, hc1⟩ : ∃ c1 : SPM N, c1 = { c with st := st, valid := false } := ⟨_, rfl⟩
  rw [← hc1] at h ⊢
  have hs := checkStates_snd c1 check
  have hvalid : ∀ q c2, c1.checkStates check = (.ok q, c2) → q.isBad = false → SpmValid c1 := by
    intro q c2 hk hq
    unfold checkStates at hk
    rcases hv : c1.validStates with (_ | _) | y | w
    · rw [hv] at hk
      simp only [Prod.mk.injEq, Outcome.ok.injEq] at hk
      rw [← hk.1] at hq; exact absurd hq (by decide)
    · exact validStates_valid hv (by rw [hc1]; exact hp) (by rw [hc1]; exact hn)
    · rw [hv] at hk; simp at hk
    · rw [hv] at hk; simp at hk
  rcases hk : c1.checkStates check with ⟨q | x | w, c2⟩
  · rw [hk] at h hs
    simp only at h hs ⊢
    have hq : q = r := by
      split at h <;> exact congrArg Prod.fst (Outcome.ok.inj h)
    have hv := hvalid q c2 hk (by rw [hq, hr])
    rw [if_neg (by rw [hq, hr]; simp)]
    show SpmValid c2
    rcases hs with e | e
    · rw [e]; exact hv
    · rw [e, SPM.V_rest]; exact hv.of_V _ _
  · rw [hk] at h; simp at h
  · rw [hk] at h; simp at h

/-- C72 fails: a negative effective surface passes the relative comparison `|a - b| / a > tol`. -/
theorem not_spmAcceptsOnlyValid : ¬ SpmAcceptsOnlyValid 1 := by
  intro h
  have h1 := h spm1 ({ spm1 with st := { spm1.st with ap := -3 } } : SPM 1).getStates true .Success []
    (by decide +kernel) (by decide)
  have h2 := h1.surfP
  revert h2
  decide +kernel

example : decode 1 spm1.getStates = some spm1.st ∧ 0 < spm1.st.ap ∧ 0 < spm1.st.an :=
  ⟨by simpa using spm_decode_getStates spm1 [], by decide +kernel, by decide +kernel⟩

/-! ### C37 -/

/-- C37 fails: the two factors are ignored. -/
theorem not_spmFactorsApplied : ¬ SpmFactorsApplied 1 := by
  intro h
  have := (h spm1 spm1.deg 1 1 2 1 rfl rfl).1
  revert this
  decide +kernel

/-- C37: whatever factors are given, the cell is the same. -/
theorem spm_factors_ignored (c : SPM N) (deg : DegSel) (capf resf fsei flam : ℚ) :
    c.build deg capf resf fsei flam = c.build deg capf resf 1 1 := rfl

/-- C37 (partial): the capacity factor multiplies the capacity and the electrode area, the resistance factor
multiplies every contribution to the DC resistance except that of the SEI layer; without variation of the degradation
parameters all rate constants are those of the default cell.  Missing: the degradation factors
(`not_spmFactorsApplied`). -/
theorem spm_factors_partial (c : SPM N) (deg : DegSel) (capf resf fsei flam : ℚ) (hS : c.par.varSEI = 1)
    (hL : c.par.varLAM = 1) :
    let b := c.build deg capf resf fsei flam
    b.par = { c.par with cap := c.par.cap * capf, elecSurf := c.par.elecSurf * capf } ∧
    b.st = { c.st with rDCp := c.st.rDCp * resf, rDCn := c.st.rDCn * resf, rDCcc := c.st.rDCcc * resf } ∧
    b.deg = deg ∧
    (capf ≠ 0 → b.Rdc * capf =
      c.st.delta * c.par.rsei / (c.st.an * c.par.elecSurf * c.st.thickn) +
      resf * (c.Rdc - c.st.delta * c.par.rsei / (c.st.an * c.par.elecSurf * c.st.thickn))) := by
  intro b
  have hb : b = c.build deg capf resf fsei flam := rfl
  refine ⟨?_, rfl, rfl, ?_⟩
  · rw [hb]
    simp only [build, hS, hL, SeiPar.scale, CsPar.scale, LamPar.scale, PlPar.scale, mul_one]
  · intro hc
    rw [hb]
    simp only [build, Rdc]
    have e : ∀ x y : ℚ, x / (y * capf) * capf = x / y := by
      intro x y
      by_cases hy : y = 0
      · simp [hy]
      · field_simp
    have e3 : ∀ x y z : ℚ, x / (y * (c.par.elecSurf * capf) * z) * capf = x / (y * c.par.elecSurf * z) := by
      intro x y z
      rw [show y * (c.par.elecSurf * capf) * z = y * c.par.elecSurf * z * capf by ring, e]
    rw [add_mul, add_mul, add_mul, e3, e3, e3, e]
    ring

example : spm1.par.varSEI = 1 ∧ spm1.par.varLAM = 1 ∧ (spm1.build spm1.deg 2 3 4 5).par.cap = 2 ∧
    (spm1.build spm1.deg 2 3 4 5).st.rDCn = 3 := by decide +kernel

/-! ### C74 -/

/-- C74, full statement: after `setCharacterisationParam(…, Rdc)` the cell's DC resistance is `Rdc`. -/
def Spec.SpmCharacterisationRdc (N : ℕ) : Prop :=
  ∀ (c : SPM N) (Dp Dn kp kn r : ℚ), 0 < c.st.ap → 0 < c.st.an → 0 < c.st.thickp → 0 < c.st.thickn →
    0 < c.par.elecSurf → (c.setCharacterisation Dp Dn kp kn r).Rdc = r

/-- C74 fails: the specific resistance is computed as if the two electrodes were in parallel on their mean surface,
but applied to both in series. -/
theorem not_spmCharacterisationRdc : ¬ SpmCharacterisationRdc 1 := by
  intro h
  have := h spm1 1 1 1 1 1 (by decide +kernel) (by decide +kernel) (by decide +kernel) (by decide +kernel)
    (by decide +kernel)
  revert this
  decide +kernel

/-- C74 (partial): with electrodes of equal surface the resistance becomes twice `Rdc`, plus those of the SEI layer
and the current collector.  Missing: that it becomes `Rdc` (`not_spmCharacterisationRdc`). -/
theorem spm_characterisationRdc_partial (c : SPM N) (Dp Dn kp kn r : ℚ) (hS : c.par.elecSurf ≠ 0)
    (hn : c.st.an * c.st.thickn ≠ 0) (he : c.st.ap * c.st.thickp = c.st.an * c.st.thickn) :
    (c.setCharacterisation Dp Dn kp kn r).Rdc =
      2 * r + c.st.delta * c.par.rsei / (c.st.an * c.par.elecSurf * c.st.thickn) + c.st.rDCcc / c.par.elecSurf := by
  have h1 : c.st.an ≠ 0 := left_ne_zero_of_mul hn
  have h2 : c.st.thickn ≠ 0 := right_ne_zero_of_mul hn
  have hp : c.st.ap * c.st.thickp ≠ 0 := he ▸ hn
  have h3 : c.st.ap ≠ 0 := left_ne_zero_of_mul hp
  have h4 : c.st.thickp ≠ 0 := right_ne_zero_of_mul hp
  simp only [setCharacterisation, overwriteChar, Rdc]
  have e : c.st.thickp * c.st.ap * c.par.elecSurf = c.st.thickn * c.st.an * c.par.elecSurf := by
    rw [mul_comm c.st.thickp, he, mul_comm c.st.thickn]
  have e' : c.st.ap * c.par.elecSurf * c.st.thickp = c.st.an * c.par.elecSurf * c.st.thickn := by
    linear_combination c.par.elecSurf * he
  rw [e, e']
  field_simp
  ring

example : spm1.par.elecSurf ≠ 0 ∧ spm1.st.an * spm1.st.thickn ≠ 0 ∧
    spm1.st.ap * spm1.st.thickp = spm1.st.an * spm1.st.thickn := by decide +kernel

end Slide

import Verif.Lemmas.PackCycle

/-!
C143: cycling a pack of identical cells is cycling one of its cells.
-/

namespace Slide
open StorageUnit Spec Cyc

section
variable {C : Type} {d s p : ℕ}

theorem cycUniform_withSU {c : Cyc C} {P : Cyc (Tree C d)} (h : CycUniform d s p c P) {u : C} {t : Tree C d}
    (ht : UniformPack u d s p t) : CycUniform d s p (c.withSU u) (P.withSU t) :=
  ⟨ht, h.index, h.diagnostic, h.log⟩

theorem cycUniform_storeIf (b : Bool) {c : Cyc C} {P : Cyc (Tree C d)} (h : CycUniform d s p c P) :
    CycUniform d s p (storeIf b c) (storeIf b P) := by
  cases b
  · exact h
  · have he : SameEvent d s p (.store c.su) (.store P.su) := h.unit
    have hw : SameEvent d s p (Ev.write : Ev C) (.write : Ev (Tree C d)) := trivial
    show CycUniform d s p c.storeData P.storeData
    unfold storeData writeData
    dsimp only
    rw [h.index]
    by_cases hi : CELL_NDATA_MAX ≤ c.index
    · rw [if_pos hi, if_pos hi]
      exact ⟨h.unit, rfl, h.diagnostic, List.rel_append (List.rel_append h.log (.cons hw .nil)) (.cons he .nil)⟩
    · rw [if_neg hi, if_neg hi]
      exact ⟨h.unit, by rw [h.index], h.diagnostic, List.rel_append h.log (.cons he .nil)⟩

end

section
variable {C : Type} [StorageUnit C] {d s p : ℕ}

theorem cycUniform_set {c : Cyc C} {P : Cyc (Tree C d)} (h : CycUniform d s p c P) (hd : c.diagnostic = true) {I vlim : ℚ}
    (hv : 0 < vlim) (hset : (StorageUnit.setCurrent c.su I true).1 = .ok .Success) :
    ∃ st t', (st = .Success ∨ st = .ReachedVoltageLimit) ∧
      c.setCurrent I vlim = (.ok st, c.withSU (StorageUnit.setCurrent c.su I true).2) ∧
      P.setCurrent (p * I) (s * vlim) = (.ok st, P.withSU t') ∧
      UniformPack (StorageUnit.setCurrent c.su I true).2 d s p t' := by
  have hp : (0 : ℚ) < p := by exact_mod_cast (uniform_pos _ _ _ _ _ h.unit).2
  rcases hc : StorageUnit.setCurrent c.su I true with ⟨o, u1⟩
  rw [hc] at hset
  dsimp only at hset
  subst hset
  obtain ⟨t1, ht, hu⟩ := uniform_set_success h.unit hc
  obtain ⟨a1, -, a3, -⟩ := uniform_V_compare h.unit hv
  obtain ⟨-, b2, -, b4⟩ := uniform_V_compare hu hv
  have hI : p * I < 0 ↔ I < 0 := by
    constructor
    · intro h; by_contra hn; exact absurd h (not_lt.mpr (mul_nonneg hp.le (not_lt.mp hn)))
    · intro h; exact mul_neg_of_pos_of_neg hp h
  unfold Cyc.setCurrent
  dsimp only
  rw [h.diagnostic, hd, hc, ht]
  dsimp only
  simp only [show Status.Success.isVoltageLimitsViolated = false from rfl, Bool.false_eq_true, if_false, hI, a1, a3, b2, b4]
  by_cases h1 : I < 0 ∧ V c.su ≤ vlim ∧ V u1 > vlim
  · rw [if_pos h1, if_pos h1]; exact ⟨_, t1, .inr rfl, rfl, rfl, hu⟩
  · rw [if_neg h1, if_neg h1]
    by_cases h2 : V c.su ≥ vlim ∧ V u1 < vlim
    · rw [if_pos h2, if_pos h2]; exact ⟨_, t1, .inr rfl, rfl, rfl, hu⟩
    · rw [if_neg h2, if_neg h2]; exact ⟨_, t1, .inl rfl, rfl, rfl, hu⟩

theorem ccAdapt_sign (hp : 1 ≤ p) (I vlim vo vi a : ℚ) (nMax nOnce : ℕ) (up : Bool) :
    ccAdapt (p * I) vlim vo vi a nMax nOnce up = ccAdapt I vlim vo vi a nMax nOnce up := by
  have hp : (0 : ℚ) < p := by exact_mod_cast hp
  unfold ccAdapt
  by_cases h : I < 0
  · rw [if_pos h, if_pos (mul_neg_of_pos_of_neg hp h)]
  · rw [if_neg h, if_neg (not_lt.mpr (mul_nonneg hp.le (not_lt.mp h)))]

variable [LawfulCurrent C] [LawfulStep C] [CellChecks C] [CheckedSet C]

theorem cycUniform_ccBody (hl : HighLimits C) {c : Cyc C} {P : Cyc (Tree C d)} (h : CycUniform d s p c P)
    (hd : c.diagnostic = true) {I vlim : ℚ} (hv : 0 < vlim)
    (hset : (StorageUnit.setCurrent c.su I true).1 = .ok .Success) (tlim : ℚ) (ndt : ℤ) (nMax : ℕ) (v : CCVars) (th : Thr) :
    let r := ccBody I vlim tlim ndt nMax v c th
    let R := ccBody (p * I) (s * vlim) tlim ndt nMax (varsString s v) P (thrPack s p th)
    R.1 = (match r.1 with | .ok x => .ok (nextString s x) | .throw e => .throw e | .ub w => .ub w) ∧
      CycUniform d s p r.2.1 R.2.1 ∧ R.2.2 = thrPack s p r.2.2 ∧ r.2.1.diagnostic = true ∧
      ∀ v', r.1 = .ok (.cont v') → (StorageUnit.setCurrent r.2.1.su I true).1 = .ok .Success := by
  obtain ⟨hs1, hp1⟩ := uniform_pos _ _ _ _ _ h.unit
  have hp : (0 : ℚ) < p := by exact_mod_cast hp1
  have hs : (0 : ℚ) < s := by exact_mod_cast hs1
  obtain ⟨st, t1, -, e1, e2, hu⟩ := cycUniform_set h hd hv hset
  have hI1 : StorageUnit.I (StorageUnit.setCurrent c.su I true).2 = I := LawfulCurrent.sets c.su I true _ hset rfl
  unfold ccBody
  rw [e1, e2]
  generalize (StorageUnit.setCurrent c.su I true).2 = u1 at hu hI1 ⊢
  dsimp only
  rw [show (varsString s v).nOnce = v.nOnce from rfl, show (varsString s v).dti = v.dti from rfl,
    show (varsString s v).ttot = v.ttot from rfl, show (varsString s v).idat = v.idat from rfl,
    show (varsString s v).allowUp = v.allowUp from rfl, withSU_su, withSU_su]
  generalize (if v.nOnce * v.dti > tlim - v.ttot then 1 else v.nOnce) = n1
  generalize (if v.dti > tlim - v.ttot then tlim - v.ttot else v.dti) = d1
  by_cases hneg : d1 < 0
  · rw [LawfulStep.negative u1 d1 n1 hneg, uniform_neg hu hneg]
    exact ⟨rfl, cycUniform_withSU h hu, rfl, hd, fun v' hv' => by cases hv'⟩
  have hok := LawfulStep.returns u1 d1 n1 (not_lt.mp hneg)
  have hI2 := (LawfulStep.keepsI u1 d1 n1).trans hI1
  obtain ⟨hok', hu2⟩ := uniform_step u1 d s p t1 hu d1 n1 hok
  rcases hr : timeStep u1 d1 n1 with ⟨o, u2⟩
  rcases hR : timeStep t1 d1 n1 with ⟨o', t2⟩
  rw [hr] at hok hu2 hI2
  rw [hR] at hok' hu2
  dsimp only at hok hok' hu2 hI2
  subst hok
  subst hok'
  dsimp only
  have hcode : 0 ≤ (StorageUnit.checkVoltage u2).code := by rw [CellChecks.check]; exact cellCheck_code _ _
  have hstat := (uniform_readings u2 d s p t2 hu2).status hcode
  have hC2 : CycUniform d s p ((c.withSU u1).withSU u2) ((P.withSU t1).withSU t2) :=
    cycUniform_withSU (cycUniform_withSU h hu) hu2
  have c1 : ccVoltage ((c.withSU u1).withSU u2) =
      if (StorageUnit.checkVoltage u2).isSuccessful then .inr (V u2) else .inl (StorageUnit.checkVoltage u2) := by
    unfold ccVoltage
    rw [if_pos (show ((c.withSU u1).withSU u2).diagnostic = true from hd)]
    rfl
  have c2 : ccVoltage ((P.withSU t1).withSU t2) =
      if (StorageUnit.checkVoltage u2).isSuccessful then .inr (V t2) else .inl (StorageUnit.checkVoltage u2) := by
    unfold ccVoltage
    rw [if_pos (show ((P.withSU t1).withSU t2).diagnostic = true from h.diagnostic.trans hd), ← hstat]
    rfl
  rw [c1, c2]
  by_cases hsuc : (StorageUnit.checkVoltage u2).isSuccessful = true
  swap
  · rw [if_neg hsuc, if_neg hsuc]
    exact ⟨rfl, hC2, rfl, hd, fun v' hv' => by cases hv'⟩
  rw [if_pos hsuc, if_pos hsuc]
  dsimp only
  obtain ⟨hS, hV⟩ : StorageUnit.checkVoltage u2 = .Success ∧ 0 < V u2 := by
    rw [CellChecks.check] at hsuc ⊢
    obtain ⟨g1, x, g2, g3⟩ := check_success hsuc
    injection g2 with g2
    exact ⟨g1, g2 ▸ g3⟩
  have hVt := (uniform_readings u2 d s p t2 hu2).voltage hV
  rw [hVt]
  have hagain : (StorageUnit.setCurrent u2 I true).1 = .ok .Success := by
    have := CheckedSet.again u2 hS
    rwa [hI2] at this
  generalize V u2 = vi at hV ⊢
  generalize hb : (decide (0 < ndt) && decide (ndt ≤ ((v.idat + n1 : ℕ) : ℤ))) = b
  have hth : (⟨(thrPack s p th).time + d1 * n1, (thrPack s p th).Ah + |p * I| * (d1 * n1) / 3600,
      (thrPack s p th).Wh + |p * I| * (d1 * n1) / 3600 * (s * vi)⟩ : Thr) =
    thrPack s p ⟨th.time + d1 * n1, th.Ah + |I| * (d1 * n1) / 3600, th.Wh + |I| * (d1 * n1) / 3600 * vi⟩ := by
    unfold thrPack
    dsimp only
    rw [Thr.mk.injEq, abs_mul, abs_of_pos hp]
    exact ⟨rfl, by ring, by ring⟩
  have k1 : (p * I < 0) ↔ I < 0 := by
    constructor
    · intro h; by_contra hn; exact absurd h (not_lt.mpr (mul_nonneg hp.le (not_lt.mp hn)))
    · intro h; exact mul_neg_of_pos_of_neg hp h
  have k2 : (p * I > 0) ↔ I > 0 := by
    constructor
    · intro h; by_contra hn; exact absurd h (not_lt.mpr (mul_nonpos_of_nonneg_of_nonpos hp.le (not_lt.mp hn)))
    · intro h; exact mul_pos hp h
  have k3 : (s * vi > s * vlim) ↔ vi > vlim := mul_lt_mul_iff_right₀ hs
  have k4 : (s * vi < s * vlim) ↔ vi < vlim := mul_lt_mul_iff_right₀ hs
  have hcc : ((p * I < 0 ∧ s * vi > s * vlim) ∨ (p * I > 0 ∧ s * vi < s * vlim)) ↔
      ((I < 0 ∧ vi > vlim) ∨ (I > 0 ∧ vi < vlim)) := by rw [k1, k2, k3, k4]
  by_cases hc : (I < 0 ∧ vi > vlim) ∨ (I > 0 ∧ vi < vlim)
  · rw [if_pos (hcc.mpr hc), if_pos hc]
    exact ⟨rfl, cycUniform_storeIf b hC2, hth, by simpa using hd, fun v' hv' => by cases hv'⟩
  · rw [if_neg (fun h => hc (hcc.mp h)), if_neg hc]
    have hlow : ∀ x ≤ (31/10 : ℚ), Vlow t2 < x ↔ Vlow u2 < x := fun x hx =>
      uniform_Vlow hu2 (le_trans hx (hl _)) (le_trans (by norm_num) (hl _))
    have ha := ccAdapt_scale hs1 I vlim v.vo vi (Vlow t2) (Vlow u2) nMax n1 v.allowUp (hlow _ (le_refl _)) (hlow _ (by norm_num))
    have ha' := (ccAdapt_sign hp1 I (s * vlim) (s * v.vo) (s * vi) (Vlow t2) nMax n1 v.allowUp).trans ha
    rw [show (varsString s v).vo = s * v.vo from rfl, storeIf_su, storeIf_su, withSU_su, withSU_su, ha']
    exact ⟨rfl, cycUniform_storeIf b hC2, hth, by simpa using hd, fun v' hv' => by simpa using hagain⟩

theorem cycUniform_ccLoop (hl : HighLimits C) {I vlim : ℚ} (hv : 0 < vlim) (tlim : ℚ) (ndt : ℤ) (nMax : ℕ) (fuel : ℕ) :
    ∀ {c : Cyc C} {P : Cyc (Tree C d)} (_ : CycUniform d s p c P) (_ : c.diagnostic = true)
    (_ : (StorageUnit.setCurrent c.su I true).1 = .ok .Success) (v : CCVars) (th : Thr),
    let r := ccLoop I vlim tlim ndt nMax fuel v c th
    let R := ccLoop (p * I) (s * vlim) tlim ndt nMax fuel (varsString s v) P (thrPack s p th)
    R.1 = (match r.1 with | .ok x => .ok (loopString s x) | .throw e => .throw e | .ub w => .ub w) ∧
      CycUniform d s p r.2.1 R.2.1 ∧ R.2.2 = thrPack s p r.2.2 := by
  induction fuel with
  | zero =>
    intro c P h hd hset v th
    unfold ccLoop
    rw [show (varsString s v).ttot = v.ttot from rfl]
    by_cases g : v.ttot < tlim
    · rw [if_pos g, if_pos g]; exact ⟨rfl, h, rfl⟩
    · rw [if_neg g, if_neg g]; exact ⟨rfl, h, rfl⟩
  | succ f ih =>
    intro c P h hd hset v th
    unfold ccLoop
    rw [show (varsString s v).ttot = v.ttot from rfl]
    by_cases g : v.ttot < tlim
    · rw [if_pos g, if_pos g]
      obtain ⟨b1, b2, b3, b4, b5⟩ := cycUniform_ccBody hl h hd hv hset tlim ndt nMax v th
      generalize ccBody I vlim tlim ndt nMax v c th = r at b1 b2 b3 b4 b5 ⊢
      generalize ccBody (p * I) (s * vlim) tlim ndt nMax (varsString s v) P (thrPack s p th) = R at b1 b2 b3 b4 b5 ⊢
      obtain ⟨O, P', TH⟩ := R
      obtain ⟨(st | v' | v') | e | w, c', th'⟩ := r
      all_goals
        dsimp only at b1 b2 b3 b4 b5
        subst b1
        subst b3
      · exact ⟨rfl, b2, rfl⟩
      · exact ⟨rfl, b2, rfl⟩
      · exact ih b2 b4 (b5 v' rfl) v' th'
      · exact ⟨rfl, b2, rfl⟩
      · exact ⟨rfl, b2, rfl⟩
    · rw [if_neg g, if_neg g]; exact ⟨rfl, h, rfl⟩

/-- **A constant-current phase of a pack of identical cells is the constant-current phase of one of its cells.** The pack may
be nested in any way; the cycler makes its individual checks.  Asked for `p` times the current with `s` times the voltage
limit, the call has the same outcome as the call on the cell alone, in the same time, with `p` times the charge and `s p`
times the energy; afterwards the pack consists of copies of what the cell has become, and so do the units recorded. -/
theorem pack_cc_partial (hl : HighLimits C) {c : Cyc C} {P : Cyc (Tree C d)} (h : CycUniform d s p c P) (hd : c.diagnostic = true)
    (fuel : ℕ) {I vlim : ℚ} (hv : 0 < vlim) (hset : (StorageUnit.setCurrent c.su I true).1 = .ok .Success)
    (tlim dt : ℚ) (ndt : ℤ) (th : Thr) :
    let r := CC fuel c I vlim tlim dt ndt th
    let R := CC fuel P (p * I) (s * vlim) tlim dt ndt (thrPack s p th)
    R.1 = r.1 ∧ CycUniform d s p r.2.1 R.2.1 ∧ R.2.2 = thrPack s p r.2.2 := by
  obtain ⟨hs1, hp1⟩ := uniform_pos _ _ _ _ _ h.unit
  have hp : (0 : ℚ) < p := by exact_mod_cast hp1
  have hs : (0 : ℚ) < s := by exact_mod_cast hs1
  have h0 := cycUniform_storeIf (decide (0 < ndt)) h
  have hd0 : (storeIf (decide (0 < ndt)) c).diagnostic = true := by rw [storeIf_diag]; exact hd
  have hset0 : (StorageUnit.setCurrent (storeIf (decide (0 < ndt)) c).su I true).1 = .ok .Success := by
    rw [storeIf_su]; exact hset
  obtain ⟨st, t1, hst, e1, e2, hu⟩ := cycUniform_set h0 hd0 hv hset0
  rw [storeIf_su] at e1 hu
  have hI1 : StorageUnit.I (StorageUnit.setCurrent c.su I true).2 = I := LawfulCurrent.sets c.su I true _ hset rfl
  have hpass := CheckedSet.passes c.su I hset
  have hV1 : 0 < V (StorageUnit.setCurrent c.su I true).2 := by
    obtain ⟨-, x, g2, g3⟩ := check_success (by rw [hpass]; decide)
    injection g2 with g2
    exact g2 ▸ g3
  have hset1 : (StorageUnit.setCurrent (StorageUnit.setCurrent c.su I true).2 I true).1 = .ok .Success := by
    have g := CheckedSet.again (StorageUnit.setCurrent c.su I true).2 (by rw [CellChecks.check, hI1]; exact hpass)
    rwa [hI1] at g
  unfold CC
  dsimp only
  rw [e1, e2]
  have h1 := cycUniform_withSU h0 hu
  generalize (StorageUnit.setCurrent c.su I true).2 = u1 at hu hI1 hV1 hset1 h1 ⊢
  dsimp only
  by_cases hb : (!st.isSuccessful) = true
  · rw [if_pos hb, if_pos hb]; exact ⟨rfl, h1, rfl⟩
  rw [if_neg hb, if_neg hb]
  rw [withSU_su, withSU_su, (uniform_readings u1 d s p t1 hu).voltage hV1]
  have k1 : (p * I < 0) ↔ I < 0 := by
    constructor
    · intro h; by_contra hn; exact absurd h (not_lt.mpr (mul_nonneg hp.le (not_lt.mp hn)))
    · intro h; exact mul_neg_of_pos_of_neg hp h
  have k2 : (p * I > 0) ↔ I > 0 := by
    constructor
    · intro h; by_contra hn; exact absurd h (not_lt.mpr (mul_nonpos_of_nonneg_of_nonpos hp.le (not_lt.mp hn)))
    · intro h; exact mul_pos hp h
  have k3 : (s * V u1 > s * vlim) ↔ V u1 > vlim := mul_lt_mul_iff_right₀ hs
  have k4 : (s * V u1 < s * vlim) ↔ V u1 < vlim := mul_lt_mul_iff_right₀ hs
  have hcc : ((p * I < 0 ∧ s * V u1 > s * vlim) ∨ (p * I > 0 ∧ s * V u1 < s * vlim)) ↔
      ((I < 0 ∧ V u1 > vlim) ∨ (I > 0 ∧ V u1 < vlim)) := by rw [k1, k2, k3, k4]
  by_cases hc : (I < 0 ∧ V u1 > vlim) ∨ (I > 0 ∧ V u1 < vlim)
  · rw [if_pos (hcc.mpr hc), if_pos hc]; exact ⟨rfl, h1, rfl⟩
  rw [if_neg (fun h => hc (hcc.mp h)), if_neg hc]
  generalize (if decide (0 < ndt) = true then min 2 ndt.toNat else 2) = nMax
  obtain ⟨b1, b2, b3⟩ := cycUniform_ccLoop hl hv tlim ndt nMax fuel h1 (hd0 : Cyc.diagnostic _ = true) hset1
    ⟨dt, 0, 0, 1, V u1, V u1, true⟩ th
  rw [show varsString s ⟨dt, 0, 0, 1, V u1, V u1, true⟩ = ⟨dt, 0, 0, 1, s * V u1, s * V u1, true⟩ from rfl] at b1 b2 b3
  generalize ccLoop I vlim tlim ndt nMax fuel ⟨dt, 0, 0, 1, V u1, V u1, true⟩
    ((storeIf (decide (0 < ndt)) c).withSU u1) th = r at b1 b2 b3 ⊢
  generalize ccLoop (p * I) (s * vlim) tlim ndt nMax fuel ⟨dt, 0, 0, 1, s * V u1, s * V u1, true⟩
    ((storeIf (decide (0 < ndt)) P).withSU t1) (thrPack s p th) = R at b1 b2 b3 ⊢
  obtain ⟨O, P', TH⟩ := R
  obtain ⟨(st | ⟨v', b⟩) | e | w, c', th'⟩ := r
  all_goals
    dsimp only at b1 b2 b3
    subst b1
    subst b3
  · exact ⟨rfl, b2, rfl⟩
  · dsimp only [loopString]
    rw [show (varsString s v').ttot = v'.ttot from rfl]
    by_cases g1 : v'.ttot ≥ tlim
    · rw [if_pos g1, if_pos g1]; exact ⟨rfl, cycUniform_storeIf _ b2, rfl⟩
    · rw [if_neg g1, if_neg g1]
      by_cases g2 : b = true
      · rw [if_pos g2, if_pos g2]; exact ⟨rfl, cycUniform_storeIf _ b2, rfl⟩
      · rw [if_neg g2, if_neg g2]; exact ⟨rfl, b2, rfl⟩
  · exact ⟨rfl, b2, rfl⟩
  · exact ⟨rfl, b2, rfl⟩

omit [LawfulStep C] [CellChecks C] in
/-- A current that would take the cell beyond its safety limits is refused by the pack too: neither changes, both calls
report the same status and no throughput. -/
theorem pack_cc_refused [Replicable C] {c : Cyc C} {P : Cyc (Tree C d)} (h : CycUniform d s p c P) (hd : c.diagnostic = true)
    (fuel : ℕ) (I vlim : ℚ) {st : Status} (hset : (StorageUnit.setCurrent c.su I true).1 = .ok st) (hbad : st.isBad = true)
    (hcode : st.isVoltageLimitsViolated = true) (tlim dt : ℚ) (ndt : ℤ) (th : Thr) :
    let r := CC fuel c I vlim tlim dt ndt th
    let R := CC fuel P (p * I) (s * vlim) tlim dt ndt (thrPack s p th)
    r = (.ok st, storeIf (decide (0 < ndt)) c, th) ∧
      R.1 = .ok st ∧ CycUniform d s p r.2.1 R.2.1 ∧ R.2.2 = thrPack s p r.2.2 := by
  have h0 := cycUniform_storeIf (decide (0 < ndt)) h
  have hd0 : (storeIf (decide (0 < ndt)) c).diagnostic = true := by rw [storeIf_diag]; exact hd
  have hsu : (storeIf (decide (0 < ndt)) c).su = c.su := storeIf_su _ c
  have hsuc : (!st.isSuccessful) = true := by
    cases st <;> first | rfl | exact absurd hcode (by decide)
  have hrej := LawfulCurrent.rejects c.su I true st hset hbad
  obtain ⟨st1, hst1⟩ := LawfulCurrent.returns c.su (StorageUnit.I c.su) false
  obtain ⟨st', c', st'', t', k1, k2, -, -, k5⟩ := uniform_set c.su d s p _ h.unit I
  rw [k1] at hset
  have hst' : st' = st := by injection hset
  obtain ⟨rfl, -, rfl⟩ := k5 (by rw [hst']; exact hbad)
  subst hst'
  obtain ⟨st2, t2, g1, g2, -⟩ := uniform_set_self h.unit false
  have e1 : (storeIf (decide (0 < ndt)) c).setCurrent I vlim = (.ok st'', storeIf (decide (0 < ndt)) c) := by
    unfold Cyc.setCurrent
    dsimp only
    rw [hd0, hsu]
    rw [k1] at hrej ⊢
    dsimp only at hrej ⊢
    rw [if_pos hcode, hrej]
    have := CheckedSet.self c.su false
    generalize StorageUnit.setCurrent c.su (StorageUnit.I c.su) false = q at hst1 this
    obtain ⟨o, u⟩ := q
    dsimp only at hst1 this
    subst hst1
    subst this
    rw [← hsu]
    rfl
  have hsuP : (storeIf (decide (0 < ndt)) P).su = P.su := storeIf_su _ P
  have e2 : (storeIf (decide (0 < ndt)) P).setCurrent (p * I) (s * vlim) =
      (.ok st'', (storeIf (decide (0 < ndt)) P).withSU t2) := by
    unfold Cyc.setCurrent
    dsimp only
    rw [h0.diagnostic, hd0, hsuP, k2]
    dsimp only
    rw [if_pos hcode, (uniform_readings _ _ _ _ _ h.unit).current, g1]
  unfold CC
  dsimp only
  rw [e1, e2]
  dsimp only
  rw [if_pos hsuc, if_pos hsuc]
  refine ⟨rfl, rfl, ?_, rfl⟩
  have g3 := cycUniform_withSU h0 g2
  exact ⟨by rw [hsu]; exact g2, g3.index, g3.diagnostic, g3.log⟩

end

/-! ### Requests between the operating and the safety limits -/

/-- C143, the full statement: whatever current is asked for. -/
def PackCyclesLikeCell : Prop :=
  ∀ (d s p : ℕ) (c : Cyc (ECM 0)) (P : Cyc (Tree (ECM 0) d)) (fuel : ℕ) (I vlim tlim dt : ℚ) (ndt : ℤ) (th : Thr),
    CycUniform d s p c P → c.diagnostic = true → 0 < vlim →
    let r := CC fuel c I vlim tlim dt ndt th
    let R := CC fuel P (p * I) (s * vlim) tlim dt ndt (thrPack s p th)
    R.1 = r.1 ∧ CycUniform d s p r.2.1 R.2.1 ∧ R.2.2 = thrPack s p r.2.2

/-- It fails when the current takes the cell out of its operating window but not beyond its safety limits: the cell
reports `Vmax_violation`, and the cycler takes the current back and does not start; a module reports success, and the
cycler starts and leaves the current on when the check after the first step fails.  Here a cell at 4.18 V is to be charged
with 20 A (to 4.22 V); the phase is to end at 4.25 V or after four seconds. -/
theorem not_packCyclesLikeCell : ¬ PackCyclesLikeCell := by
  intro h
  have h1 := (h 1 2 1 { su := bucket (218/230) 0, diagnostic := true }
    { su := Node.series { T := 288, kids := List.replicate 2 ⟨0, bucket (218/230) 0⟩ }, diagnostic := true } 10 (-20) (425/100) 4 2 0
    Thr.zero ⟨⟨2, 1, _, by decide, by decide, rfl, rfl, rfl, rfl, rfl⟩, rfl, rfl, .nil⟩ rfl (by norm_num)).2.1.unit
  have h2 := (uniform_readings _ _ _ _ _ h1).current
  revert h2
  decide +kernel

/-! ### Examples -/

/-- The hypotheses of `pack_cc_partial`: two blocks in series of three cells in parallel, half full, with a record already
made, discharged with 15 A to 5.4 V or for an hour. -/
example (fuel : ℕ) :
    let c : Cyc (ECM 0) := { su := bucket half 0, diagnostic := true, index := 1, log := [.store (bucket half 0)] }
    let P : Cyc (Tree (ECM 0) 2) := { su := pack23 (bucket half 0), diagnostic := true, index := 1, log := [.store (pack23 (bucket half 0))] }
    let r := CC fuel c 5 (27/10) 3600 2 1 Thr.zero
    let R := CC fuel P ((3 : ℕ) * 5) ((2 : ℕ) * (27/10)) 3600 2 1 (thrPack 2 3 Thr.zero)
    R.1 = r.1 ∧ CycUniform 2 2 3 r.2.1 R.2.1 ∧ R.2.2 = thrPack 2 3 r.2.2 :=
  have hu : UniformPack (bucket half 0) 2 2 3 (pack23 (bucket half 0)) :=
    ⟨2, 1, _, by decide, by decide, rfl, rfl, 3, 1, _, by decide, by decide, rfl, rfl, rfl, rfl, rfl⟩
  pack_cc_partial (C := ECM 0) ecm_highLimits (c := ⟨bucket half 0, 1, true, [.store (bucket half 0)]⟩)
    (P := ⟨pack23 (bucket half 0), 1, true, [.store (pack23 (bucket half 0))]⟩)
    ⟨hu, rfl, rfl, .cons (show SameEvent 2 2 3 (.store _) (.store _) from hu) .nil⟩ rfl fuel (by norm_num) (by decide +kernel) 3600 2 1 Thr.zero

/-- A run of six seconds: it ends with the time limit, with three times the charge and six times the energy. -/
example :
    let c : Cyc (ECM 0) := { su := bucket half 0, diagnostic := true }
    let P : Cyc (Tree (ECM 0) 2) := { su := pack23 (bucket half 0), diagnostic := true }
    let r := CC 10 c 5 (27/10) 6 2 1 Thr.zero
    let R := CC 10 P (3 * 5) (2 * (27/10)) 6 2 1 (thrPack 2 3 Thr.zero)
    R.1 = .ok .ReachedTimeLimit ∧ V R.2.1.su = 2 * V r.2.1.su ∧ r.2.1.su.st.SOC < 1/2 ∧ 0 < r.2.2.Wh ∧
      R.2.2.Ah = 3 * r.2.2.Ah ∧ R.2.2.Wh = 6 * r.2.2.Wh ∧ R.2.1.log.length = r.2.1.log.length ∧ 2 ≤ r.2.1.log.length := by
  decide +kernel

/-- The hypotheses of `pack_cc_refused`: 1000 A per cell would take the cells to 1.15 V. -/
example :
    (StorageUnit.setCurrent (bucket half 0) 1000 true).1 = .ok .VMIN_violation ∧ Status.VMIN_violation.isBad = true ∧
      Status.VMIN_violation.isVoltageLimitsViolated = true := by
  decide +kernel

end Slide

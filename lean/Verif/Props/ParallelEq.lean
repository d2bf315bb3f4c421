import Verif.Props.Parallel

/-!
C04: equalisation of the branch voltages by `Module_p::setCurrent` and `redistributeCurrent`.
-/

namespace Slide
open StorageUnit Spec ModuleP

variable {n : ℕ}

/-! ### Voltage of a cell as a function of its current -/

theorem ecm_V_withI (c : ECM n) (i : ℚ) (h : (c.par.ocv c.st.SOC).isSome) :
    (c.withI i).V = c.V - c.par.Rdc * (i - c.st.I) := by
  obtain ⟨o, ho⟩ := Option.isSome_iff_exists.mp h
  simp [ECM.V, ECM.withI, ho]; ring

theorem ecm_accepts (c : ECM n) (i : ℚ) (h1 : 2 ≤ (c.withI i).V) (h2 : (c.withI i).V ≤ 43/10) :
    ∃ st, StorageUnit.setCurrent c i true = (.ok st, c.withI i) ∧ st.isOK = true := by
  have hnb : ((c.setCurrent i true).1).isBad = false := by
    rw [Bool.eq_false_iff]
    intro hb
    rw [ecm_setCurrent_rejects_iff] at hb
    have : V { c with st := { c.st with I := i } } = (c.withI i).V := rfl
    rcases hb.2 with h | h | h
    · have h : (c.withI i).V ≤ 0 := h
      linarith
    · have h : (c.withI i).V < 2 := h.1
      linarith
    · have h : 43/10 < (c.withI i).V := h.1
      linarith
  rcases ecm_setCurrent_atomic c i true with ⟨_, e⟩ | ⟨e, _⟩
  · refine ⟨(c.setCurrent i true).1, ?_, ?_⟩
    · show (Outcome.ok (c.setCurrent i true).1, (c.setCurrent i true).2) = _
      rw [e]; rfl
    · simpa [Status.isBad] using hnb
  · rw [e] at hnb; cases hnb

/-! ### One correction sweep over accepted branches -/

/-- The branch after a correction towards the mean voltage `m`. -/
def upd (m : ℚ) (b : Branch (ECM n)) : Branch (ECM n) :=
  let ia := b.ia - (m - b.kid.su.V) * b.kid.su.par.cap
  { kid := { b.kid with su := b.kid.su.withI ia }, ia := ia }

/-- The branch has no contact resistance, a defined OCV and carries its target current. -/
structure Plain (b : Branch (ECM n)) : Prop where
  rc : b.kid.rc = 0
  ocv : (b.kid.su.par.ocv b.kid.su.st.SOC).isSome
  ia : b.kid.su.st.I = b.ia

theorem upd_plain (m : ℚ) (b : Branch (ECM n)) (h : Plain b) : Plain (upd m b) :=
  ⟨h.rc, h.ocv, rfl⟩

theorem upd_V (m : ℚ) (b : Branch (ECM n)) (h : Plain b) : (upd m b).kid.su.V =
    b.kid.su.V + b.kid.su.par.Rdc * b.kid.su.par.cap * (m - b.kid.su.V) := by
  simp only [upd]
  rw [ecm_V_withI _ _ h.ocv, h.ia]; ring

theorem vallLoop_plain (ks : List (Kid (ECM n))) (h : ∀ k ∈ ks, k.rc = 0) :
    (vallLoop ks).1 = ks.map fun k => k.su.V := by
  induction ks with
  | nil => rfl
  | cons k ks ih =>
    simp only [vallLoop, h k (by simp), mul_zero, sub_zero, List.map_id', List.map_cons,
      ih (fun j hj => h j (by simp [hj]))]
    rfl

theorem sweep_plain (m : ℚ) (bs : List (Branch (ECM n))) (h : ∀ b ∈ bs, Plain b)
    (ha : ∀ b ∈ bs, 2 ≤ (upd m b).kid.su.V ∧ (upd m b).kid.su.V ≤ 43/10) :
    sweep m bs (bs.map fun b => b.kid.su.V) = (.ok (), bs.map (upd m)) := by
  induction bs with
  | nil => rfl
  | cons b bs ih =>
    have hb := ha b (by simp)
    obtain ⟨st, hst, _⟩ := ecm_accepts b.kid.su (b.ia - (m - b.kid.su.V) * b.kid.su.par.cap) hb.1 hb.2
    simp only [List.map_cons]
    unfold sweep
    dsimp only
    have hcap : StorageUnit.Cap b.kid.su = b.kid.su.par.cap := rfl
    rw [hcap, hst]
    dsimp only
    rw [ih (fun b hb => h b (by simp [hb])) (fun b hb => ha b (by simp [hb]))]
    rfl

/-- One round of the equalisation loop when all branches are plain and accept their corrections. -/
theorem eqLoop_step (tol : ℚ) (fuel : ℕ) (bs : List (Branch (ECM n))) (h : ∀ b ∈ bs, Plain b)
    (ha : ∀ b ∈ bs, 2 ≤ (upd (mean (bs.map fun b => b.kid.su.V)) b).kid.su.V ∧
      (upd (mean (bs.map fun b => b.kid.su.V)) b).kid.su.V ≤ 43/10) :
    eqLoop tol (fuel + 1) bs = if spread (bs.map fun b => b.kid.su.V) < tol then (.ok true, bs)
      else eqLoop tol fuel (bs.map (upd (mean (bs.map fun b => b.kid.su.V)))) := by
  have hv : (vallLoop (kidsOf bs)).1 = bs.map fun b => b.kid.su.V := by
    rw [vallLoop_plain]
    · simp [kidsOf, Function.comp_def]
    · intro k hk
      obtain ⟨b, hb, rfl⟩ := List.mem_map.mp hk
      exact (h b hb).rc
  conv_lhs => unfold eqLoop
  dsimp only
  rw [hv, sweep_plain _ bs h ha]

/-! ### Means -/

theorem mean_bounds (vs : List ℚ) (lo hi : ℚ) (hne : vs ≠ []) (h : ∀ v ∈ vs, lo ≤ v ∧ v ≤ hi) :
    lo ≤ mean vs ∧ mean vs ≤ hi := by
  have hl : (0 : ℚ) < vs.length := by
    have := List.length_pos_iff.mpr hne
    exact_mod_cast this
  have key : ∀ l : List ℚ, (∀ v ∈ l, lo ≤ v ∧ v ≤ hi) → lo * l.length ≤ l.sum ∧ l.sum ≤ hi * l.length := by
    intro l hl
    induction l with
    | nil => simp
    | cons a l ih =>
      have h1 := hl a (by simp)
      have h2 := ih (fun v hv => hl v (by simp [hv]))
      simp only [List.sum_cons, List.length_cons]
      push_cast
      constructor <;> nlinarith [h1.1, h1.2, h2.1, h2.2]
  have := key vs h
  unfold mean
  exact ⟨by rw [le_div_iff₀ hl]; exact this.1, by rw [div_le_iff₀ hl]; exact this.2⟩

theorem sum_affine (vs : List ℚ) (q m : ℚ) :
    (vs.map fun v => v + q * (m - v)).sum = (1 - q) * vs.sum + q * m * vs.length := by
  induction vs with
  | nil => simp
  | cons a l ih => simp only [List.map_cons, List.sum_cons, ih, List.length_cons]; push_cast; ring

theorem mean_affine (vs : List ℚ) (q : ℚ) (hne : vs ≠ []) :
    mean (vs.map fun v => v + q * (mean vs - v)) = mean vs := by
  have hl : (vs.length : ℚ) ≠ 0 := by
    have := List.length_pos_iff.mpr hne
    exact_mod_cast (by omega : vs.length ≠ 0)
  have hs : vs.sum = mean vs * vs.length := by unfold mean; field_simp
  conv_lhs => unfold mean
  rw [sum_affine, List.length_map]
  rw [show vs.sum / (vs.length : ℚ) = mean vs from rfl, hs]
  field_simp
  ring

theorem spread_affine (vs : List ℚ) (q : ℚ) (hne : vs ≠ []) :
    spread (vs.map fun v => v + q * (mean vs - v)) = |1 - q| * spread vs := by
  unfold spread
  rw [mean_affine vs q hne]
  generalize mean vs = m
  rw [List.map_map]
  induction vs with
  | nil => exact absurd rfl hne
  | cons a l ih =>
    by_cases hl : l = []
    · subst hl
      simp only [List.map_cons, List.map_nil, List.sum_cons, List.sum_nil, add_zero, Function.comp]
      rw [← abs_mul]; congr 1; ring
    · simp only [List.map_cons, List.sum_cons, ih hl, Function.comp]
      rw [mul_add, ← abs_mul]
      congr 2; ring

/-! ### Identical branches -/

/-- Plain branches with the same resistance and capacity whose voltages are inside the safety window. -/
structure Alike (R c : ℚ) (b : Branch (ECM n)) : Prop extends Plain b where
  R : b.kid.su.par.Rdc = R
  cap : b.kid.su.par.cap = c

theorem upd_alike {R c : ℚ} (m : ℚ) (b : Branch (ECM n)) (h : Alike R c b) : Alike R c (upd m b) :=
  ⟨upd_plain m b h.toPlain, h.R, h.cap⟩

theorem alike_voltages {R c : ℚ} (m : ℚ) (bs : List (Branch (ECM n))) (h : ∀ b ∈ bs, Alike R c b) :
    ((bs.map (upd m)).map fun b => b.kid.su.V) =
      (bs.map fun b => b.kid.su.V).map fun v => v + R * c * (m - v) := by
  rw [List.map_map, List.map_map]
  apply List.map_congr_left
  intro b hb
  simp only [Function.comp]
  rw [upd_V m b (h b hb).toPlain, (h b hb).R, (h b hb).cap]

theorem alike_total {R c : ℚ} (bs : List (Branch (ECM n))) (hne : bs ≠ []) (h : ∀ b ∈ bs, Alike R c b) :
    ((bs.map (upd (mean (bs.map fun b => b.kid.su.V)))).map Branch.ia).sum = (bs.map Branch.ia).sum := by
  have hl : (bs.length : ℚ) ≠ 0 := by
    have := List.length_pos_iff.mpr hne
    exact_mod_cast (by omega : bs.length ≠ 0)
  have hs : (bs.map fun b => b.kid.su.V).sum = mean (bs.map fun b => b.kid.su.V) * bs.length := by
    unfold mean; rw [List.length_map]; field_simp
  generalize mean (bs.map fun b => b.kid.su.V) = m at *
  have key : ∀ l : List (Branch (ECM n)), (∀ b ∈ l, Alike R c b) →
      ((l.map (upd m)).map Branch.ia).sum =
        (l.map Branch.ia).sum - c * (m * l.length - (l.map fun b => b.kid.su.V).sum) := by
    intro l hl
    induction l with
    | nil => simp
    | cons b l ih =>
      have h1 := (hl b (by simp)).cap
      simp only [List.map_cons, List.sum_cons, ih (fun b hb => hl b (by simp [hb])), List.length_cons]
      push_cast
      simp only [upd, h1]
      ring
  rw [key bs h, hs]; ring

theorem eqLoop_alike (tol R c : ℚ) (hq0 : 0 < R * c) (hq1 : R * c ≤ 1) (fuel : ℕ) (bs : List (Branch (ECM n)))
    (hne : bs ≠ []) (h : ∀ b ∈ bs, Alike R c b) (hv : ∀ b ∈ bs, 2 ≤ b.kid.su.V ∧ b.kid.su.V ≤ 43/10)
    (hc : (1 - R * c) ^ fuel * spread (bs.map fun b => b.kid.su.V) < tol) :
    ∃ bs', eqLoop tol (fuel + 1) bs = (.ok true, bs') ∧ (∀ b ∈ bs', Alike R c b) ∧
      (bs'.map Branch.ia).sum = (bs.map Branch.ia).sum := by
  induction fuel generalizing bs with
  | zero =>
    refine ⟨bs, ?_, h, rfl⟩
    unfold eqLoop
    have hv : (vallLoop (kidsOf bs)).1 = bs.map fun b => b.kid.su.V := by
      rw [vallLoop_plain]
      · simp [kidsOf, Function.comp_def]
      · intro k hk
        obtain ⟨b, hb, rfl⟩ := List.mem_map.mp hk
        exact (h b hb).rc
    dsimp only
    rw [hv, if_pos (by simpa using hc)]
  | succ fuel ih =>
    set vs := bs.map fun b => b.kid.su.V with hvs
    have hvne : vs ≠ [] := by rw [hvs]; simpa using hne
    have hm := mean_bounds vs 2 (43/10) hvne (by
      intro v hv'
      obtain ⟨b, hb, rfl⟩ := List.mem_map.mp hv'
      exact hv b hb)
    have hacc : ∀ b ∈ bs, 2 ≤ (upd (mean vs) b).kid.su.V ∧ (upd (mean vs) b).kid.su.V ≤ 43/10 := by
      intro b hb
      have e := upd_V (mean vs) b (h b hb).toPlain
      rw [(h b hb).R, (h b hb).cap] at e
      rw [e]
      have := hv b hb
      constructor <;> nlinarith [this.1, this.2, hm.1, hm.2]
    rw [eqLoop_step tol (fuel+1) bs (fun b hb => (h b hb).toPlain) hacc]
    by_cases hs : spread vs < tol
    · rw [if_pos hs]; exact ⟨bs, rfl, h, rfl⟩
    · rw [if_neg hs]
      have hv' := alike_voltages (mean vs) bs h
      rw [← hvs] at hv'
      obtain ⟨bs', e1, e2, e3⟩ := ih (bs.map (upd (mean vs))) (by simpa using hne)
        (by
          intro b hb
          obtain ⟨b0, hb0, rfl⟩ := List.mem_map.mp hb
          exact upd_alike _ _ (h b0 hb0))
        (by
          intro b hb
          obtain ⟨b0, hb0, rfl⟩ := List.mem_map.mp hb
          exact hacc b0 hb0)
        (by
          rw [hv', spread_affine vs _ hvne, abs_of_nonneg (by linarith), ← mul_assoc, ← pow_succ]
          exact hc)
      refine ⟨bs', e1, e2, ?_⟩
      rw [e3, alike_total bs hne h]

/-- Full statement of C04. -/
def ParallelSetCurrentExact (n : ℕ) : Prop :=
  ∀ (m : ModuleP (ECM n)) (Inew : ℚ), m.kids ≠ [] → m.kids.length ≤ 100 →
    (∀ k ∈ m.kids, 0 < k.su.par.Rdc ∧ 0 < k.su.par.cap) →
    (m.setCurrent Inew true).1 = .ok .Success →
    totalCurrent (m.setCurrent Inew true).2.kids = Inew ∧
    Agree (1/1000000000) (vallLoop (m.setCurrent Inew true).2.kids).1

theorem setCurrent_of_init (m : ModuleP (ECM n)) (Inew dI : ℚ) (b : Bool) (hne : m.kids ≠ [])
    (hlen : m.kids.length ≤ 100) (hdI : (Inew - totalCurrent m.kids) / m.kids.length = dI)
    (hv : ∀ k ∈ m.kids, 2 ≤ (k.su.withI (k.su.st.I + dI)).V ∧ (k.su.withI (k.su.st.I + dI)).V ≤ 43/10) :
    ∃ st, st.isOK = true ∧ m.setCurrent Inew b =
      match eqLoop (1/1000000000) 10550 (m.kids.map fun k =>
        ({ kid := { k with su := k.su.withI (k.su.st.I + dI) }, ia := k.su.st.I + dI } : Branch (ECM n))) with
      | (.ok conv, bs'') => (.ok (if conv then .Success else st), { m with kids := kidsOf bs'' })
      | (.throw c, bs'') => (.throw c, { m with kids := kidsOf bs'' })
      | (.ub w, bs'') => (.ub w, { m with kids := kidsOf bs'' }) := by
  have hset : ∀ k ∈ m.kids, ∃ st, StorageUnit.setCurrent k.su (StorageUnit.I k.su + dI) true =
      (.ok st, k.su.withI (k.su.st.I + dI)) ∧ st.isOK = true := fun k hk =>
    ecm_accepts k.su (k.su.st.I + dI) (hv k hk).1 (hv k hk).2
  obtain ⟨st, e, bs', h1, h2, h3⟩ := initLoop_spec dI .Success m.kids (by decide)
  rcases h3 with ⟨h3, h4, h5⟩ | ⟨h3, pre, k, post, h4, h5, h6, h7⟩
  · subst h3
    refine ⟨st, by simpa using h2, ?_⟩
    unfold ModuleP.setCurrent
    rw [if_neg hne, if_neg (by simp [NSUs_MAX]; omega)]
    dsimp only
    have hd : (Inew - tsum StorageUnit.I m.kids) / m.kids.length = dI := hdI
    rw [hd, h1]
    have hbs : bs' = m.kids.map fun k =>
        ({ kid := { k with su := k.su.withI (k.su.st.I + dI) }, ia := k.su.st.I + dI } : Branch (ECM n)) := by
      rw [h4]
      apply List.map_congr_left
      intro k hk
      obtain ⟨s, hs, _⟩ := hset k hk
      simp only [Kid.set, hs]
      rfl
    rw [hbs]
    dsimp only
    generalize eqLoop (1/1000000000) 10550 (m.kids.map fun k =>
        ({ kid := { k with su := k.su.withI (k.su.st.I + dI) }, ia := k.su.st.I + dI } : Branch (ECM n))) = r
    obtain ⟨o, x⟩ := r
    cases o <;> rfl
  · exfalso
    subst h3
    obtain ⟨s, hs, hok⟩ := hset k (by rw [h4]; simp)
    rw [hs] at h5
    simp only [Outcome.ok.injEq] at h5
    rw [h5, h2] at hok
    simp at hok

/-- C04, positive part: for branches of equal resistance `R` and capacity `c` (of any number of RC pairs, with any OCV
curves and any states) without contact resistance, with `0 < R*c ≤ 1`, whose voltages after an equal split of the
extra current are inside the safety window, and with enough iterations for the geometric convergence, `setCurrent`
returns `Success`, the branch currents sum to exactly the requested current and the terminal voltages agree. -/
theorem parallel_setCurrent_alike_partial (m : ModuleP (ECM n)) (Inew R c : ℚ) (b : Bool)
    (hne : m.kids ≠ []) (hlen : m.kids.length ≤ 100)
    (hid : ∀ k ∈ m.kids, k.rc = 0 ∧ k.su.par.Rdc = R ∧ k.su.par.cap = c ∧ (k.su.par.ocv k.su.st.SOC).isSome)
    (hq0 : 0 < R * c) (hq1 : R * c ≤ 1)
    (hv : ∀ k ∈ m.kids,
      let i := k.su.st.I + (Inew - totalCurrent m.kids) / m.kids.length
      2 ≤ (k.su.withI i).V ∧ (k.su.withI i).V ≤ 43/10)
    (hc : (1 - R * c) ^ 10549 * spread (m.kids.map fun k =>
      (k.su.withI (k.su.st.I + (Inew - totalCurrent m.kids) / m.kids.length)).V) < 1/1000000000) :
    (m.setCurrent Inew b).1 = .ok .Success ∧
    totalCurrent (m.setCurrent Inew b).2.kids = Inew ∧
    Agree (1/1000000000) (vallLoop (m.setCurrent Inew b).2.kids).1 := by
  set dI := (Inew - totalCurrent m.kids) / m.kids.length with hdI
  have hl : (m.kids.length : ℚ) ≠ 0 := by
    have := List.length_pos_iff.mpr hne
    exact_mod_cast (by omega : m.kids.length ≠ 0)
  obtain ⟨st, _, hset⟩ := setCurrent_of_init m Inew dI b hne hlen hdI.symm hv
  set bs := m.kids.map fun k =>
    ({ kid := { k with su := k.su.withI (k.su.st.I + dI) }, ia := k.su.st.I + dI } : Branch (ECM n)) with hbs
  have halike : ∀ b ∈ bs, Alike R c b := by
    intro b hb
    obtain ⟨k, hk, rfl⟩ := List.mem_map.mp hb
    obtain ⟨h1, h2, h3, h4⟩ := hid k hk
    exact ⟨⟨h1, h4, rfl⟩, h2, h3⟩
  have hvs : (bs.map fun b => b.kid.su.V) = m.kids.map fun k => (k.su.withI (k.su.st.I + dI)).V := by
    rw [hbs, List.map_map]; rfl
  obtain ⟨bs', e1, e2, e3⟩ := eqLoop_alike (1/1000000000) R c hq0 hq1 10549 bs (by simpa [hbs] using hne) halike
    (by
      intro b hb
      obtain ⟨k, hk, rfl⟩ := List.mem_map.mp hb
      exact hv k hk)
    (by rw [hvs]; exact hc)
  obtain ⟨cv, hcv, hagree⟩ := eqLoop_total (1/1000000000) 10550 bs
  rw [e1] at hset hagree hcv
  cases hcv
  rw [hset]
  refine ⟨rfl, ?_, hagree rfl⟩
  have ht : totalCurrent (kidsOf bs') = (bs'.map Branch.ia).sum := by
    unfold totalCurrent kidsOf
    rw [List.map_map]
    congr 1
    apply List.map_congr_left
    intro b hb
    exact (e2 b hb).ia
  show totalCurrent (kidsOf bs') = Inew
  rw [ht, e3, hbs, List.map_map]
  have : ∀ l : List (Kid (ECM n)), (l.map (Branch.ia ∘ fun k =>
      ({ kid := { k with su := k.su.withI (k.su.st.I + dI) }, ia := k.su.st.I + dI } : Branch (ECM n)))).sum =
      totalCurrent l + l.length * dI := by
    intro l
    induction l with
    | nil => simp [totalCurrent]
    | cons k l ih =>
      simp only [List.map_cons, List.sum_cons, ih, Function.comp, List.length_cons, totalCurrent]
      push_cast
      show k.su.st.I + dI + _ = k.su.st.I + _ + _
      ring
  rw [this, hdI]
  field_simp
  ring

/-- C04: redistribution: `Success` means that the terminal voltages agree to 1e-10 (for well-behaved children and more
than one branch). -/
theorem parallel_redistribute_agree_partial {U : Type} [StorageUnit U] [LawfulCurrent U] (m : ModuleP U)
    (h2 : 2 ≤ m.kids.length) (h : m.redistribute.1 = .ok .Success) :
    Agree (1/10000000000) (vallLoop m.redistribute.2.kids).1 := by
  unfold redistribute at h ⊢
  rw [if_neg (by omega)] at h ⊢
  split_ifs at h ⊢ with h3
  dsimp only at h ⊢
  obtain ⟨c, hc, ha⟩ := eqLoop_total (1/10000000000) 2500
    (m.kids.map fun k => ({ kid := k, ia := StorageUnit.I k.su } : Branch U))
  have hp : eqLoop (1/10000000000) 2500
      (m.kids.map fun k => ({ kid := k, ia := StorageUnit.I k.su } : Branch U)) = (.ok c, (eqLoop (1/10000000000) 2500
      (m.kids.map fun k => ({ kid := k, ia := StorageUnit.I k.su } : Branch U))).2) := by rw [← hc]
  rw [hp] at h ⊢
  cases c
  · simp at h
  · exact ha rfl

/-- C04: with at most 100 branches redistribution ends with one of two statuses; with more it throws 10 and leaves the module
as it was. -/
theorem parallel_redistribute_ends {U : Type} [StorageUnit U] [LawfulCurrent U] (m : ModuleP U) :
    (m.kids.length ≤ 100 → m.redistribute.1 = .ok .Success ∨ m.redistribute.1 = .ok .RedistributeCurrent_failed) ∧
      (100 < m.kids.length → m.redistribute = (.throw 10, m)) := by
  refine ⟨fun h => ?_, fun h => ?_⟩
  · unfold redistribute
    by_cases h1 : m.kids.length ≤ 1
    · rw [if_pos h1]; exact .inl rfl
    rw [if_neg h1, if_neg (by simp [NSUs_MAX]; omega)]
    dsimp only
    obtain ⟨c, hc, -⟩ := eqLoop_total (1/10000000000) 2500
      (m.kids.map fun k => ({ kid := k, ia := StorageUnit.I k.su } : Branch U))
    generalize eqLoop (1/10000000000) 2500
      (m.kids.map fun k => ({ kid := k, ia := StorageUnit.I k.su } : Branch U)) = r at hc
    obtain ⟨o, bs⟩ := r
    dsimp only at hc
    subst hc
    cases c
    · exact .inr rfl
    · exact .inl rfl
  · unfold redistribute
    rw [if_neg (by omega), if_pos (by simpa [NSUs_MAX] using h)]

/-! ### Witnesses -/

/-- A bucket cell with given capacity and resistance. -/
def cellRC (R c soc i : ℚ) : ECM 0 where
  par := { cap := c, Rdc := R, Rp := Fin.elim0, invTau := Fin.elim0, ocv := ECM.defaultOCV }
  st := { T := 288, SOC := soc, I := i, Ir := Fin.elim0, time := 0, Ah := 0, Wh := 0 }

theorem cellRC_V (R c soc i : ℚ) (h : 0 ≤ soc ∧ soc ≤ 1) :
    (cellRC R c soc i).V = 2 + 23/10 * soc - R * i := by
  simp [ECM.V, cellRC, ECM.defaultOCV_eq, h]

/-- Two cells of different capacity (10 Ah / 100 mΩ and 20 Ah / 50 mΩ) in parallel. -/
def unequal : ModuleP (ECM 0) :=
  { T := 288, kids := [⟨0, cellRC (1/10) 10 half 0⟩, ⟨0, cellRC (1/20) 20 half 0⟩] }

/-- C04 (sum of currents) is false of the code for branches of different capacity: the corrections are weighted with the
capacity, so they do not cancel. Asking for 1.5 A gives 1.6875 A and status `Success`. -/
theorem parallel_setCurrent_wrong_total :
    (unequal.setCurrent (3/2) true).1 = .ok .Success ∧
    totalCurrent (unequal.setCurrent (3/2) true).2.kids = 27/16 := by
  have hh : (0:ℚ) ≤ half ∧ half ≤ 1 := by norm_num [half]
  have hw : ∀ R c i j, (cellRC R c half i).withI j = cellRC R c half j := fun _ _ _ _ => rfl
  have i0 : ∀ R c i, (cellRC R c half i).st.I = i := fun _ _ _ => rfl
  have V0 := fun R c i => cellRC_V R c half i hh
  have hd : (3/2 - totalCurrent unequal.kids) / (unequal.kids.length : ℚ) = 3/4 := by
    have : totalCurrent unequal.kids = 0 + (0 + 0) := rfl
    rw [this]
    simp [unequal]; norm_num
  obtain ⟨st, hst, hset⟩ := setCurrent_of_init unequal (3/2) (3/4) true (by simp [unequal]) (by simp [unequal]) hd (by
    intro k hk
    simp only [unequal, List.mem_cons, List.not_mem_nil, or_false] at hk
    rcases hk with rfl | rfl
    · simp only [hw, i0, V0]; norm_num [half]
    · simp only [hw, i0, V0]; norm_num [half])
  set b1 : Branch (ECM 0) := { kid := ⟨0, cellRC (1/10) 10 half (3/4)⟩, ia := 3/4 } with hb1
  set b2 : Branch (ECM 0) := { kid := ⟨0, cellRC (1/20) 20 half (3/4)⟩, ia := 3/4 } with hb2
  have hbs : (unequal.kids.map fun k =>
      ({ kid := { k with su := k.su.withI (k.su.st.I + 3/4) }, ia := k.su.st.I + 3/4 } : Branch (ECM 0))) = [b1, b2] := by
    simp only [unequal, List.map_cons, List.map_nil, hw, i0, zero_add, hb1, hb2]
  rw [hbs] at hset
  have hp1 : Plain b1 := ⟨rfl, by simp [hb1, cellRC, ECM.defaultOCV_eq, hh], rfl⟩
  have hp2 : Plain b2 := ⟨rfl, by simp [hb2, cellRC, ECM.defaultOCV_eq, hh], rfl⟩
  have v1 : b1.kid.su.V = 3075/1000 := by simp only [hb1, V0]; norm_num [half]
  have v2 : b2.kid.su.V = 31125/10000 := by simp only [hb2, V0]; norm_num [half]
  have hm : mean ([b1, b2].map fun b => b.kid.su.V) = 309375/100000 := by
    simp only [List.map_cons, List.map_nil, v1, v2, mean]; norm_num
  have u1 : upd (309375/100000) b1 = { kid := ⟨0, cellRC (1/10) 10 half (9/16)⟩, ia := 9/16 } := by
    simp only [upd, v1]
    simp only [hb1, hw]
    have : (cellRC (1/10) 10 half (3/4)).par.cap = 10 := rfl
    rw [this]
    norm_num
  have u2 : upd (309375/100000) b2 = { kid := ⟨0, cellRC (1/20) 20 half (9/8)⟩, ia := 9/8 } := by
    simp only [upd, v2]
    simp only [hb2, hw]
    have : (cellRC (1/20) 20 half (3/4)).par.cap = 20 := rfl
    rw [this]
    norm_num
  have hpl : ∀ b ∈ [b1, b2], Plain b := by
    intro b hb
    simp only [List.mem_cons, List.not_mem_nil, or_false] at hb
    rcases hb with rfl | rfl <;> assumption
  have hacc : ∀ b ∈ [b1, b2], 2 ≤ (upd (mean ([b1, b2].map fun b => b.kid.su.V)) b).kid.su.V ∧
      (upd (mean ([b1, b2].map fun b => b.kid.su.V)) b).kid.su.V ≤ 43/10 := by
    intro b hb
    rw [hm]
    simp only [List.mem_cons, List.not_mem_nil, or_false] at hb
    rcases hb with rfl | rfl
    · rw [u1]; simp only [V0]; norm_num [half]
    · rw [u2]; simp only [V0]; norm_num [half]
  have s1 : ¬ spread ([b1, b2].map fun b => b.kid.su.V) < 1/1000000000 := by
    unfold spread
    rw [hm]
    simp only [List.map_cons, List.map_nil, v1, v2]
    norm_num [abs_of_pos, abs_of_neg]
  have step1 := eqLoop_step (1/1000000000) 10549 [b1, b2] hpl hacc
  rw [if_neg s1, hm] at step1
  simp only [List.map_cons, List.map_nil] at step1
  have hconv : eqLoop (1/1000000000) 10549 [upd (309375/100000) b1, upd (309375/100000) b2] =
      (.ok true, [upd (309375/100000) b1, upd (309375/100000) b2]) := by
    have hva : (vallLoop (kidsOf [upd (309375/100000) b1, upd (309375/100000) b2])).1 =
        [309375/100000, 309375/100000] := by
      rw [vallLoop_plain]
      · simp only [kidsOf, List.map_cons, List.map_nil, u1, u2, V0]; norm_num [half]
      · intro k hk
        simp only [kidsOf, List.map_cons, List.map_nil, List.mem_cons, List.not_mem_nil, or_false] at hk
        rcases hk with rfl | rfl <;> rfl
    rw [show (10549 : ℕ) = 10548 + 1 from rfl]
    unfold eqLoop
    dsimp only
    rw [hva, if_pos]
    norm_num [spread, mean]
  rw [hconv] at step1
  rw [show (10549 + 1 : ℕ) = 10550 from rfl] at step1
  rw [step1] at hset
  rw [hset]
  refine ⟨rfl, ?_⟩
  show totalCurrent (kidsOf [upd (309375/100000) b1, upd (309375/100000) b2]) = _
  rw [u1, u2]
  have : totalCurrent (kidsOf [({ kid := ⟨0, cellRC (1/10) 10 half (9/16)⟩, ia := 9/16 } : Branch (ECM 0)),
    { kid := ⟨0, cellRC (1/20) 20 half (9/8)⟩, ia := 9/8 }]) = 9/16 + (9/8 + 0) := rfl
  rw [this]; norm_num

theorem parallel_setCurrent_not_exact : ¬ ParallelSetCurrentExact 0 := by
  intro h
  have h1 := h unequal (3/2) (by simp [unequal]) (by simp [unequal]) (by
    intro k hk
    simp only [unequal, List.mem_cons, List.not_mem_nil, or_false] at hk
    rcases hk with rfl | rfl
    · show (0:ℚ) < 1/10 ∧ (0:ℚ) < 10
      norm_num
    · show (0:ℚ) < 1/20 ∧ (0:ℚ) < 20
      norm_num) parallel_setCurrent_wrong_total.1
  rw [parallel_setCurrent_wrong_total.2] at h1
  norm_num at h1

/-- C04 (equal voltages) also fails: two alike branches with `R*c = 2` oscillate for ever; after 10550 rounds the code gives up
and still returns the status of the last child. -/
def oscillating : ModuleP (ECM 0) :=
  { T := 288, kids := [⟨0, cellRC (1/10) 20 half 1⟩, ⟨0, cellRC (1/10) 20 half 0⟩] }

theorem oscillate_loop (tol : ℚ) (htol : tol ≤ 1/100) (fuel : ℕ) (bs : List (Branch (ECM 0)))
    (h : ∀ b ∈ bs, Alike (1/10) 20 b) (x y : ℚ) (hv : (bs.map fun b => b.kid.su.V) = [x, y])
    (hxy : (x = 29/10 ∧ y = 3) ∨ (x = 3 ∧ y = 29/10)) :
    ∃ bs', eqLoop tol fuel bs = (.ok false, bs') ∧ (∀ b ∈ bs', Alike (1/10) 20 b) ∧
      ((bs'.map fun b => b.kid.su.V) = [29/10, 3] ∨ (bs'.map fun b => b.kid.su.V) = [3, 29/10]) := by
  induction fuel generalizing bs x y with
  | zero =>
    refine ⟨bs, rfl, h, ?_⟩
    rcases hxy with ⟨rfl, rfl⟩ | ⟨rfl, rfl⟩
    · exact Or.inl hv
    · exact Or.inr hv
  | succ fuel ih =>
    have hmean : mean (bs.map fun b => b.kid.su.V) = 295/100 := by
      rw [hv]
      rcases hxy with ⟨rfl, rfl⟩ | ⟨rfl, rfl⟩ <;> norm_num [mean]
    have hv' := alike_voltages (295/100) bs h
    rw [hv] at hv'
    have hv'' : ((bs.map (upd (295/100))).map fun b => b.kid.su.V) = [y, x] := by
      rw [hv']
      rcases hxy with ⟨rfl, rfl⟩ | ⟨rfl, rfl⟩ <;> norm_num
    have hacc : ∀ b ∈ bs, 2 ≤ (upd (mean (bs.map fun b => b.kid.su.V)) b).kid.su.V ∧
        (upd (mean (bs.map fun b => b.kid.su.V)) b).kid.su.V ≤ 43/10 := by
      intro b hb
      rw [hmean]
      have : (upd (295/100) b).kid.su.V ∈ ((bs.map (upd (295/100))).map fun b => b.kid.su.V) :=
        List.mem_map_of_mem (List.mem_map_of_mem hb)
      rw [hv''] at this
      simp only [List.mem_cons, List.not_mem_nil, or_false] at this
      rcases this with e | e <;> rw [e] <;> rcases hxy with ⟨rfl, rfl⟩ | ⟨rfl, rfl⟩ <;> norm_num
    rw [eqLoop_step tol fuel bs (fun b hb => (h b hb).toPlain) hacc]
    have hs : ¬ spread (bs.map fun b => b.kid.su.V) < tol := by
      have : spread (bs.map fun b => b.kid.su.V) = 1/10 := by
        unfold spread
        rw [hmean, hv]
        rcases hxy with ⟨rfl, rfl⟩ | ⟨rfl, rfl⟩ <;> norm_num [abs_of_pos, abs_of_neg]
      rw [this]; linarith
    rw [if_neg hs, hmean]
    exact ih (bs.map (upd (295/100))) (by
      intro b hb
      obtain ⟨b0, hb0, rfl⟩ := List.mem_map.mp hb
      exact upd_alike _ _ (h b0 hb0)) y x hv'' (by
        rcases hxy with ⟨rfl, rfl⟩ | ⟨rfl, rfl⟩
        · exact Or.inr ⟨rfl, rfl⟩
        · exact Or.inl ⟨rfl, rfl⟩)

/-- The call asks for 4 A; it returns an accepted status (of the last child's `setCurrent`, here `Success`) although
the two terminal voltages still differ by 0.1 V. -/
theorem parallel_setCurrent_not_equalised :
    (∃ st, (oscillating.setCurrent 4 true).1 = .ok st ∧ st.isOK = true) ∧
    ¬ Agree (1/100) (vallLoop (oscillating.setCurrent 4 true).2.kids).1 := by
  have hh : (0:ℚ) ≤ half ∧ half ≤ 1 := by norm_num [half]
  have hw : ∀ R c i j, (cellRC R c half i).withI j = cellRC R c half j := fun _ _ _ _ => rfl
  have i0 : ∀ R c i, (cellRC R c half i).st.I = i := fun _ _ _ => rfl
  have V0 := fun R c i => cellRC_V R c half i hh
  have hd : (4 - totalCurrent oscillating.kids) / (oscillating.kids.length : ℚ) = 3/2 := by
    have : totalCurrent oscillating.kids = 1 + (0 + 0) := rfl
    rw [this]
    simp [oscillating]; norm_num
  obtain ⟨st, hst, hset⟩ := setCurrent_of_init oscillating 4 (3/2) true (by simp [oscillating])
    (by simp [oscillating]) hd (by
    intro k hk
    simp only [oscillating, List.mem_cons, List.not_mem_nil, or_false] at hk
    rcases hk with rfl | rfl
    · simp only [hw, i0, V0]; norm_num [half]
    · simp only [hw, i0, V0]; norm_num [half])
  set bs := (oscillating.kids.map fun k =>
      ({ kid := { k with su := k.su.withI (k.su.st.I + 3/2) }, ia := k.su.st.I + 3/2 } : Branch (ECM 0))) with hbs
  have hal : ∀ b ∈ bs, Alike (1/10) 20 b := by
    intro b hb
    rw [hbs] at hb
    obtain ⟨k, hk, rfl⟩ := List.mem_map.mp hb
    simp only [oscillating, List.mem_cons, List.not_mem_nil, or_false] at hk
    rcases hk with rfl | rfl <;>
      exact ⟨⟨rfl, by simp [cellRC, ECM.withI, ECM.defaultOCV_eq, hh], rfl⟩, rfl, rfl⟩
  have hv : (bs.map fun b => b.kid.su.V) = [29/10, 3] := by
    simp only [hbs, oscillating, List.map_cons, List.map_nil, hw, i0, V0]; norm_num [half]
  obtain ⟨bs', e1, e2, e3⟩ := oscillate_loop (1/1000000000) (by norm_num) 10550 bs hal _ _ hv (Or.inl ⟨rfl, rfl⟩)
  rw [e1] at hset
  rw [hset]
  refine ⟨⟨st, rfl, hst⟩, ?_⟩
  show ¬ Agree (1/100) (vallLoop (kidsOf bs')).1
  have hva : (vallLoop (kidsOf bs')).1 = bs'.map fun b => b.kid.su.V := by
    rw [vallLoop_plain]
    · simp [kidsOf, Function.comp_def]
    · intro k hk
      obtain ⟨b, hb, rfl⟩ := List.mem_map.mp hk
      exact (e2 b hb).rc
  rw [hva]
  intro ha
  rcases e3 with e | e <;> rw [e] at ha
  · have := ha 3 (by simp) (29/10) (by simp)
    norm_num [abs_of_pos] at this
  · have := ha 3 (by simp) (29/10) (by simp)
    norm_num [abs_of_pos] at this

/-- An empty parallel module accepts any current (`Module_p.cpp:168`) without carrying it. -/
theorem parallel_setCurrent_empty (T Inew : ℚ) (b : Bool) :
    ({ T := T, kids := [] } : ModuleP (ECM n)).setCurrent Inew b = (.ok .Success, { T := T, kids := [] }) := rfl

/-- The hypotheses of `parallel_setCurrent_alike_partial` are met by three alike cells with different currents. -/
example : let m : ModuleP (ECM 0) := { T := 288, kids :=
      [⟨0, cellRC (1/100) 10 half 1⟩, ⟨0, cellRC (1/100) 10 half 0⟩, ⟨0, cellRC (1/100) 10 half 2⟩] }
    (m.setCurrent 6 true).1 = .ok .Success ∧ totalCurrent (m.setCurrent 6 true).2.kids = 6 := by
  intro m
  have hh : (0:ℚ) ≤ half ∧ half ≤ 1 := by norm_num [half]
  have hw : ∀ R c i j, (cellRC R c half i).withI j = cellRC R c half j := fun _ _ _ _ => rfl
  have i0 : ∀ R c i, (cellRC R c half i).st.I = i := fun _ _ _ => rfl
  have V0 := fun R c i => cellRC_V R c half i hh
  have hd : (6 - totalCurrent m.kids) / (m.kids.length : ℚ) = 1 := by
    have : totalCurrent m.kids = 1 + (0 + (2 + 0)) := rfl
    rw [this]
    simp [m]; norm_num
  have key := parallel_setCurrent_alike_partial m 6 (1/100) 10 true (by simp [m]) (by simp [m])
    (by
      intro k hk
      simp only [m, List.mem_cons, List.not_mem_nil, or_false] at hk
      rcases hk with rfl | rfl | rfl <;>
        exact ⟨rfl, rfl, rfl, by simp [cellRC, ECM.defaultOCV_eq, hh]⟩)
    (by norm_num) (by norm_num)
    (by
      rw [hd]
      intro k hk
      simp only [m, List.mem_cons, List.not_mem_nil, or_false] at hk
      rcases hk with rfl | rfl | rfl <;> simp only [hw, i0, V0] <;> norm_num [half])
    (by
      rw [hd]
      have hs : spread (m.kids.map fun k => (k.su.withI (k.su.st.I + 1)).V) ≤ 1 := by
        simp only [m, List.map_cons, List.map_nil, hw, i0, V0]
        norm_num [spread, mean, half, abs_of_pos, abs_of_neg]
      have h2 : (1 - 1/100 * 10 : ℚ) ^ 10549 < 1/1000000000 := by
        have e : (1 - 1/100 * 10 : ℚ) = 9/10 := by norm_num
        rw [e]
        exact lt_of_le_of_lt (pow_le_pow_of_le_one (by norm_num) (by norm_num) (by norm_num : 200 ≤ 10549))
          (by norm_num)
      have h6 : (0:ℚ) ≤ (1 - 1/100 * 10 : ℚ) ^ 10549 := pow_nonneg (by norm_num) _
      exact lt_of_le_of_lt (mul_le_of_le_one_right h6 hs) h2)
  exact ⟨key.1, key.2.1⟩

end Slide

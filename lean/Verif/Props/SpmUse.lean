import Verif.Spec.SpmUse
import Verif.Props.SpmHeat
import Verif.Props.SPM

/-!
Properties C102 (currents are taken or refused as a whole), C103 (the meters), C104 (reading has no effect) and C105
(setting a voltage) of the single-particle cell.
-/

namespace Slide
open Spec SPM

variable {N : ℕ}

/-! ### C102 -/

/-- A second reading gives the first one. -/
theorem V_again (c : SPM N) : c.V.2.V.1 = c.V.1 := by
  by_cases hv : c.valid = true
  · have e : c.V = (.ok c.st.V, c) := by unfold SPM.V; rw [if_pos hv]
    rw [e]; simp only; rw [e]
  · have e : c.V = match c.calcV with
      | .ok none => (.ok 0, c)
      | .ok (some v) => (.ok v, c.cache v)
      | .throw e => (.throw e, c)
      | .ub w => (.ub w, c) := by unfold SPM.V; exact if_neg hv
    rcases hc : c.calcV with (_ | v) | x | w
    all_goals rw [hc] at e; simp only at e; rw [e]; simp only
    all_goals first | rfl | rw [e]

theorem checkV_status (c : SPM N) (r : Status) (h : c.checkV.1 = .ok r) :
    (∃ v, c.V.1 = .ok v ∧ r = checkVoltage cellLimits (some v) c.st.I) ∨
      (∃ e, c.V.1 = .throw e) ∧ r = .V_not_calculated := by
  unfold checkV at h
  rcases hk : c.V with ⟨v | e | w, c'⟩
  · rw [hk] at h; exact .inl ⟨v, rfl, (Outcome.ok.inj h).symm⟩
  · rw [hk] at h; exact .inr ⟨⟨e, rfl⟩, (Outcome.ok.inj h).symm⟩
  · rw [hk] at h; simp at h

theorem Spec.OnlyCurrentDiffers.refl (c : SPM N) : OnlyCurrentDiffers c c := ⟨rfl, rfl, rfl, ⟨rfl, rfl, rfl, rfl⟩, rfl, rfl, rfl⟩

theorem Spec.OnlyCurrentDiffers.trans {a b c : SPM N} (h : OnlyCurrentDiffers a b) (g : OnlyCurrentDiffers b c) :
    OnlyCurrentDiffers a c := by
  refine ⟨g.par.trans h.par, ?_, g.stress.trans h.stress,
    ⟨g.heat.1.trans h.heat.1, g.heat.2.1.trans h.heat.2.1, g.heat.2.2.1.trans h.heat.2.2.1,
      g.heat.2.2.2.trans h.heat.2.2.2⟩,
    g.rest.1.trans h.rest.1, g.rest.2.1.trans h.rest.2.1, g.rest.2.2.trans h.rest.2.2⟩
  have h1 := h.st
  have h2 := g.st
  rw [← h1, ← h2]

theorem V_onlyCurrent (c : SPM N) : OnlyCurrentDiffers c c.V.2 := by
  rw [SPM.V_rest c]; exact ⟨rfl, rfl, rfl, ⟨rfl, rfl, rfl, rfl⟩, rfl, rfl, rfl⟩

theorem withCurrent_onlyCurrent (c : SPM N) (i : ℚ) : OnlyCurrentDiffers c (withCurrent c i) :=
  ⟨rfl, rfl, rfl, ⟨rfl, rfl, rfl, rfl⟩, rfl, rfl, rfl⟩

theorem spm_setCurrent_eq (c : SPM N) (i : ℚ) (check : Bool) : c.setCurrent i check =
    match (withCurrent c i).checkCurrent check with
    | (.ok s, c2) =>
      if s.isBad then (.ok s, { c2 with st := { c2.st with I := c.st.I, V := c.st.V }, valid := c.valid })
      else (.ok s, c2)
    | (.throw e, c2) => (.throw e, c2)
    | (.ub w, c2) => (.ub w, c2) := rfl

/-- C102: setting a current never throws. -/
theorem spm_setCurrent_never_throws (c : SPM N) (i : ℚ) (check : Bool) (e : Int) :
    (c.setCurrent i check).1 ≠ .throw e := by
  rw [spm_setCurrent_eq]
  have h : ∀ e, ((withCurrent c i).checkCurrent check).1 ≠ .throw e := by
    intro e; unfold checkCurrent; cases check
    · simp
    · simpa using checkV_throw (withCurrent c i) e
  rcases hk : (withCurrent c i).checkCurrent check with ⟨s | e' | w, c2⟩
  · simp only; split <;> simp
  · exact absurd (by rw [hk]) (h e')
  · simp

/-- C102: a refused current leaves the cell exactly as it was, including the stored voltage. -/
theorem spm_setCurrent_refused (c : SPM N) (i : ℚ) (check : Bool) (r : Status)
    (h : (c.setCurrent i check).1 = .ok r) (hr : r.isBad = true) : (c.setCurrent i check).2 = c := by
  rw [spm_setCurrent_eq] at h ⊢
  have hs := checkCurrent_snd (withCurrent c i) check
  rcases hk : (withCurrent c i).checkCurrent check with ⟨s | e | w, c2⟩
  · rw [hk] at h hs
    simp only at h hs ⊢
    have hsr : s = r := by
      by_cases hb : s.isBad = true
      · rw [if_pos hb] at h; exact Outcome.ok.inj h
      · rw [if_neg hb] at h; exact Outcome.ok.inj h
    rw [if_pos (by rw [hsr, hr])]
    simp only
    rw [hs]
    cases check
    · rfl
    · simp only [if_true]; rw [SPM.V_rest]; rfl
  · rw [hk] at h; simp at h
  · rw [hk] at h; simp at h

/-- C102: an accepted current is the current of the cell, nothing else changes, and the status is the classification
(C15) of the voltage the cell reports from now on. -/
theorem spm_setCurrent_accepted (c : SPM N) (i : ℚ) (check : Bool) (r : Status)
    (h : (c.setCurrent i check).1 = .ok r) (hr : r.isBad = false) :
    (c.setCurrent i check).2.st.I = i ∧ OnlyCurrentDiffers c (c.setCurrent i check).2 ∧
    (c.setCurrent i check).2.V.1 = (withCurrent c i).V.1 ∧
    (check = true → ∃ v, (c.setCurrent i check).2.V.1 = .ok v ∧ r = checkVoltage cellLimits (some v) i) := by
  rw [spm_setCurrent_eq] at h ⊢
  have hs := checkCurrent_snd (withCurrent c i) check
  have hst : ∀ r, ((withCurrent c i).checkCurrent check).1 = .ok r → check = true →
      (withCurrent c i).checkV.1 = .ok r := by
    intro r hh hc; rw [hc] at hh; exact hh
  rcases hk : (withCurrent c i).checkCurrent check with ⟨s | e | w, c2⟩
  · rw [hk] at h hs hst
    simp only at h hs ⊢
    have hsr : s = r := by
      by_cases hb : s.isBad = true
      · rw [if_pos hb] at h; exact Outcome.ok.inj h
      · rw [if_neg hb] at h; exact Outcome.ok.inj h
    subst hsr
    rw [if_neg (by rw [hr]; simp)]
    simp only
    have hV : c2.V.1 = (withCurrent c i).V.1 := by
      rw [hs]; cases check
      · rfl
      · exact V_again (withCurrent c i)
    refine ⟨?_, ?_, hV, ?_⟩
    · rw [hs]; cases check
      · rfl
      · simp only [if_true]; rw [SPM.V_rest]; rfl
    · rw [hs]; cases check
      · exact withCurrent_onlyCurrent c i
      · exact (withCurrent_onlyCurrent c i).trans (V_onlyCurrent _)
    · intro hc
      rcases checkV_status _ _ (hst s rfl hc) with ⟨v, hv, hr'⟩ | ⟨-, hr'⟩
      · exact ⟨v, hV.trans hv, hr'⟩
      · rw [hr'] at hr; exact absurd hr (by decide)
  · rw [hk] at h; simp at h
  · rw [hk] at h; simp at h

/-- C102: without the check every current is accepted. -/
theorem spm_setCurrent_unchecked (c : SPM N) (i : ℚ) : (c.setCurrent i false).1 = .ok .Success := rfl

/-- Hypotheses of the theorems above: an accepted current, and a refused one on a cell with a stored voltage. -/
example : (spm1.setCurrent (1 / 10) true).1 = .ok .Success ∧
    (spm1.V.2.setCurrent 2 true).1 = .ok .VMIN_violation ∧ Status.isBad .VMIN_violation = true ∧
    spm1.V.2.valid = true ∧ (withCurrent spm1.V.2 2).V.1 ≠ spm1.V.1 := by
  decide +kernel

/-! ### C103 -/

/-- The stress record and the block play no part in a reading. -/
theorem V_core (c : SPM N) (s : SpmStress) (b : Bool) :
    ({ c with stress := s, block := b } : SPM N).V = (c.V.1, { c.V.2 with stress := s, block := b }) := by
  unfold SPM.V
  have hc : ({ c with stress := s, block := b } : SPM N).calcV = c.calcV := rfl
  have hv : ({ c with stress := s, block := b } : SPM N).valid = c.valid := rfl
  rw [hc, hv]
  by_cases h : c.valid = true
  · rw [if_pos h, if_pos h]
  · rw [if_neg h, if_neg h]
    rcases c.calcV with (_ | v) | e | w <;> rfl

theorem diffStep_core (c : SPM N) (s : SpmStress) (b : Bool) (dt : ℚ) :
    ∃ s', ({ c with stress := s, block := b } : SPM N).diffStep dt =
      ((c.diffStep dt).1, { (c.diffStep dt).2 with stress := s', block := b }) := by
  unfold diffStep
  have hf : ({ c with stress := s, block := b } : SPM N).finite = c.finite := rfl
  have hd : ({ c with stress := s, block := b } : SPM N).diffState dt =
    { c.diffState dt with stress := { s with daiUpd := false, laresUpd := false }, block := b } := rfl
  rw [hf, hd, V_core]
  by_cases h : (!c.finite) = true ∨ c.par.cap = 0
  · rw [if_pos h, if_pos h]; exact ⟨s, rfl⟩
  · rw [if_neg h, if_neg h]
    rcases (c.diffState dt).V with ⟨v | e | w, c2⟩ <;> exact ⟨_, rfl⟩

theorem diffLoop_core (dt : ℚ) (b : Bool) (k : ℕ) : ∀ (c : SPM N) (s : SpmStress),
    ∃ s', SPM.diffLoop dt k ({ c with stress := s, block := b } : SPM N) =
      ((SPM.diffLoop dt k c).1, { (SPM.diffLoop dt k c).2 with stress := s', block := b }) := by
  induction k with
  | zero => intro c s; exact ⟨s, rfl⟩
  | succ k ih =>
    intro c s
    obtain ⟨s1, h1⟩ := diffStep_core c s b dt
    rw [SPM.diffLoop, SPM.diffLoop, h1]
    unfold SPM.andThen
    rcases hr : (c.diffStep dt).1 with _ | e | w
    · exact ih _ s1
    · exact ⟨s1, rfl⟩
    · exact ⟨s1, rfl⟩

theorem diffStep_energy {c : SPM N} {dt : ℚ} (h : (c.diffStep dt).1 = .ok ()) :
    ∃ v, (c.diffStep dt).2.V.1 = .ok v ∧ (c.diffStep dt).2.st.Wh = c.st.Wh + |c.st.I * (dt / 3600) * v| := by
  unfold diffStep at h ⊢
  split at h
  · simp at h
  · rename_i hf
    rw [if_neg hf]
    have h1 := V_again (c.diffState dt)
    have h2 := SPM.V_rest (c.diffState dt)
    rcases hk : (c.diffState dt).V with ⟨v | e | w, c2⟩ <;> rw [hk] at h h1 h2
    · refine ⟨v, ?_, ?_⟩
      · simp only at h1 ⊢
        rw [← h1]
        unfold SPM.V
        have hc : ({ c2 with st := { c2.st with Wh := c2.st.Wh + |c.st.I * (dt / 3600) * v| } } : SPM N).calcV = c2.calcV := rfl
        rw [hc]
        simp only
        split
        · rfl
        · rcases c2.calcV with (_ | v) | e | w <;> rfl
      · simp only at h2 ⊢; rw [h2]; rfl
    · simp at h
    · simp at h

/-- The energy counter after `n` steps. -/
theorem diffLoop_energy (dt : ℚ) (n : ℕ) : ∀ c : SPM N, (SPM.diffLoop dt n c).1 = .ok () →
    ∃ v : ℕ → ℚ, (∀ k < n, (SPM.diffLoop dt (k + 1) c).2.V.1 = .ok (v k)) ∧
      (SPM.diffLoop dt n c).2.st.Wh = c.st.Wh + ∑ k ∈ Finset.range n, |c.st.I * (dt / 3600) * v k| := by
  induction n with
  | zero => intro c _; exact ⟨fun _ => 0, by simp, by simp [SPM.diffLoop]⟩
  | succ n ih =>
    intro c h
    rw [SPM.diffLoop] at h
    obtain ⟨h1, h2, h3⟩ := andThen_ok h
    obtain ⟨v0, e0, w0⟩ := diffStep_energy h1
    obtain ⟨v, ev, wv⟩ := ih _ h2
    have hI := (diffStep_ok h1).2.1.I
    have hloop : ∀ k, SPM.diffLoop dt (k + 1) c = SPM.diffLoop dt k (c.diffStep dt).2 ∨ (c.diffStep dt).1 ≠ .ok () := by
      intro k; left; rw [SPM.diffLoop]; unfold SPM.andThen; rw [h1]
    refine ⟨fun k => if k = 0 then v0 else v (k - 1), ?_, ?_⟩
    · intro k hk
      rcases (hloop k).resolve_right (by simpa using h1) with e
      rw [e]
      rcases k with _ | k
      · simpa [SPM.diffLoop] using e0
      · simpa using ev k (by omega)
    · rw [SPM.diffLoop, h3, wv, w0, hI, Finset.sum_range_succ']
      simp only [Nat.add_sub_cancel, if_true, Nat.succ_ne_zero, if_false]
      ring

theorem ageStep_Wh (a : SPM N) (x : ℚ) : (a.ageStep x).2.st.Wh = a.st.Wh := by
  unfold ageStep SPM.andThen
  obtain ⟨-, hst, -⟩ := sameAge_upd a
  rcases hr : a.updDai.updLares with ⟨_ | e | w, c1⟩
  · rw [hr] at hst
    simp only at hst ⊢
    rcases c1.degRate with d | e | w
    · simp only [addRate]; rw [hst]
    · simp only; rw [hst]
    · simp only; rw [hst]
  · rw [hr] at hst; simp only at hst ⊢; rw [hst]
  · rw [hr] at hst; simp only at hst ⊢; rw [hst]

/-- Everything after the diffusion steps leaves the meters alone. -/
theorem timeStep_meters (c : SPM N) {dt : ℚ} (n : ℤ) (hdt : 0 ≤ dt) :
    (c.timeStep dt n).2.st.time = (SPM.diffLoop dt n.toNat (c.rotate (n * dt))).2.st.time ∧
    (c.timeStep dt n).2.st.Ah = (SPM.diffLoop dt n.toNat (c.rotate (n * dt))).2.st.Ah ∧
    (c.timeStep dt n).2.st.Wh = (SPM.diffLoop dt n.toNat (c.rotate (n * dt))).2.st.Wh := by
  unfold timeStep
  rw [if_neg (not_lt.mpr hdt)]
  generalize SPM.diffLoop dt n.toNat (c.rotate (n * dt)) = r
  obtain ⟨o, a⟩ := r
  unfold SPM.andThen
  rcases o with _ | e | w
  · simp only
    split
    · exact ⟨rfl, rfl, rfl⟩
    · obtain ⟨t, ht⟩ := thermStep_st a (dt * n)
      rcases (a.thermStep (dt * n)).1 with _ | e | w
      · have hk := ageStep_keeps (a.thermStep (dt * n)).2 (dt * n)
        have hw := ageStep_Wh (a.thermStep (dt * n)).2 (dt * n)
        exact ⟨hk.2.2.1.trans (by rw [ht]), hk.2.2.2.1.trans (by rw [ht]), hw.trans (by rw [ht])⟩
      · exact ⟨by simp only [ht], by simp only [ht], by simp only [ht]⟩
      · exact ⟨by simp only [ht], by simp only [ht], by simp only [ht]⟩
  · exact ⟨rfl, rfl, rfl⟩
  · exact ⟨rfl, rfl, rfl⟩

theorem blocked_timeStep (c : SPM N) {dt : ℚ} (n : ℤ) (hdt : 0 ≤ dt) (hb : c.block = true) :
    c.timeStep dt n = SPM.diffLoop dt n.toNat (c.rotate (n * dt)) := by
  unfold timeStep
  rw [if_neg (not_lt.mpr hdt)]
  have hk : ∀ c' : SPM N, c'.block = true → ∀ k, (SPM.diffLoop dt k c').2.block = true := fun c' hc k =>
    diffLoop_keeps (P := fun c => c.block = true) dt (fun c h => (diffStep_block c dt).trans h) k c' hc
  have hb' := hk (c.rotate (n * dt)) hb n.toNat
  generalize SPM.diffLoop dt n.toNat (c.rotate (n * dt)) = r at *
  obtain ⟨o, a⟩ := r
  unfold SPM.andThen
  rcases o with _ | e | w
  · simp only at hb' ⊢; rw [if_pos hb']
  · rfl
  · rfl

/-- C103: the energy counter.  A time step of `n` steps of `dt` seconds that succeeds adds, for every single step, the
energy current × voltage × time at the voltage reached with that step – the voltage a cell without ageing and heat
reports after the same number of steps. -/
theorem spm_energy (c : SPM N) {dt : ℚ} {n : ℤ} (h : (c.timeStep dt n).1 = .ok ()) :
    ∃ v : ℕ → ℚ, (∀ k < n.toNat, ((blocked c).timeStep dt (k + 1)).2.V.1 = .ok (v k)) ∧
      (c.timeStep dt n).2.st.Wh = c.st.Wh + ∑ k ∈ Finset.range n.toNat, |c.st.I * v k| * dt / 3600 := by
  obtain ⟨hdt, hl, -⟩ := timeStep_ok h
  obtain ⟨v, hv, hw⟩ := diffLoop_energy dt n.toNat _ hl
  refine ⟨v, ?_, ?_⟩
  · intro k hk
    rw [blocked_timeStep _ _ hdt rfl, ← hv k hk]
    have hn : ((k : ℤ) + 1).toNat = k + 1 := by omega
    rw [hn]
    obtain ⟨s', hs⟩ := diffLoop_core dt true (k + 1) (c.rotate (n * dt))
      ((blocked c).rotate (((k : ℤ) + 1 : ℤ) * dt)).stress
    have he : ({ c.rotate (n * dt) with stress := ((blocked c).rotate (((k : ℤ) + 1 : ℤ) * dt)).stress, block := true } : SPM N) =
      (blocked c).rotate (((k : ℤ) + 1 : ℤ) * dt) := rfl
    rw [he] at hs
    rw [hs]
    simp only [V_core]
  · rw [(timeStep_meters c n hdt).2.2, hw]
    have hI : (c.rotate (n * dt)).st.I = c.st.I := rfl
    have hW : (c.rotate (n * dt)).st.Wh = c.st.Wh := rfl
    rw [hI, hW]
    congr 1
    refine Finset.sum_congr rfl fun k _ => ?_
    rw [show c.st.I * (dt / 3600) * v k = c.st.I * v k * (dt / 3600) by ring, abs_mul,
      abs_of_nonneg (show (0 : ℚ) ≤ dt / 3600 by positivity)]
    ring

/-- C103: a negative time step is refused and changes nothing. -/
theorem spm_negative_step (c : SPM N) {dt : ℚ} (n : ℤ) (h : dt < 0) : c.timeStep dt n = (.throw 10, c) := by
  unfold timeStep; rw [if_pos h]

theorem diffLoop_add (dt : ℚ) (m n : ℕ) : ∀ c : SPM N,
    SPM.diffLoop dt (m + n) c = SPM.andThen (SPM.diffLoop dt m c) (SPM.diffLoop dt n) := by
  induction m with
  | zero => intro c; rw [Nat.zero_add]; rfl
  | succ m ih =>
    intro c
    rw [show m + 1 + n = (m + n) + 1 by ring, SPM.diffLoop, SPM.diffLoop]
    unfold SPM.andThen
    rcases (c.diffStep dt).1 with _ | e | w
    · simp only; rw [ih]; rfl
    · rfl
    · rfl

/-- C103: the size of a batch does not matter to a cell without ageing and heat: `m + n` steps at once or first `m` and
then `n` give the same result, the same states and the same voltage. -/
theorem spm_batches (c : SPM N) {dt : ℚ} (m n : ℕ) (hdt : 0 ≤ dt) (h : (c.block) = true)
    (hm : (c.timeStep dt m).1 = .ok ()) :
    ((c.timeStep dt m).2.timeStep dt n).1 = (c.timeStep dt (m + n : ℕ)).1 ∧
    ((c.timeStep dt m).2.timeStep dt n).2.st = (c.timeStep dt (m + n : ℕ)).2.st ∧
    ((c.timeStep dt m).2.timeStep dt n).2.V.1 = (c.timeStep dt (m + n : ℕ)).2.V.1 := by
  have hb : (c.timeStep dt m).2.block = true := by
    rw [blocked_timeStep c _ hdt h]
    exact diffLoop_keeps (P := fun c => c.block = true) dt (fun c h => (diffStep_block c dt).trans h) _ _ h
  rw [blocked_timeStep _ _ hdt hb, blocked_timeStep c (m + n : ℕ) hdt h]
  rw [blocked_timeStep c m hdt h] at hm ⊢
  rw [Int.toNat_natCast, Int.toNat_natCast, Int.toNat_natCast, diffLoop_add]
  rw [Int.toNat_natCast] at hm
  obtain ⟨s1, h1⟩ := diffLoop_core dt true m (c.rotate ((m : ℤ) * dt)) (c.rotate (((m + n : ℕ) : ℤ) * dt)).stress
  have e1 : ({ c.rotate ((m : ℤ) * dt) with stress := (c.rotate (((m + n : ℕ) : ℤ) * dt)).stress, block := true } : SPM N) =
      c.rotate (((m + n : ℕ) : ℤ) * dt) := by unfold rotate; simp only; rw [← h]
  rw [e1, hm] at h1
  unfold SPM.andThen
  rw [h1]
  simp only
  obtain ⟨s2, h2⟩ := diffLoop_core dt true n ((SPM.diffLoop dt m (c.rotate ((m : ℤ) * dt))).2.rotate ((n : ℤ) * dt)) s1
  have hbl : (SPM.diffLoop dt m (c.rotate ((m : ℤ) * dt))).2.block = true :=
    diffLoop_keeps (P := fun c => c.block = true) dt (fun c h => (diffStep_block c dt).trans h) _ _ h
  have e2 : ({ (SPM.diffLoop dt m (c.rotate ((m : ℤ) * dt))).2.rotate ((n : ℤ) * dt) with stress := s1, block := true } : SPM N) =
      { (SPM.diffLoop dt m (c.rotate ((m : ℤ) * dt))).2 with stress := s1, block := true } := rfl
  rw [e2] at h2
  rw [h2]
  refine ⟨rfl, rfl, ?_⟩
  simp only [V_core]

theorem Spec.MetersForward.refl (c : SPM N) : MetersForward c c := ⟨le_refl _, le_refl _, le_refl _⟩

theorem Spec.MetersForward.trans {a b c : SPM N} (h : MetersForward a b) (g : MetersForward b c) : MetersForward a c :=
  ⟨h.time.trans g.time, h.Ah.trans g.Ah, h.Wh.trans g.Wh⟩

theorem meters_of_V (c : SPM N) : MetersForward c c.V.2 := by
  rw [SPM.V_rest c]; exact ⟨le_refl _, le_refl _, le_refl _⟩

theorem meters_diffStep (c : SPM N) {dt : ℚ} (hdt : 0 ≤ dt) : MetersForward c (c.diffStep dt).2 := by
  have h0 : MetersForward c (c.diffState dt) :=
    ⟨by simp only [diffState]; linarith, by simp only [diffState]; linarith [abs_nonneg (c.st.I * (dt / 3600))], le_refl _⟩
  have h1 := h0.trans (meters_of_V (c.diffState dt))
  unfold diffStep
  split
  · exact .refl c
  · rcases hk : (c.diffState dt).V with ⟨v | e | w, c2⟩ <;> rw [hk] at h1
    · exact ⟨h1.time, h1.Ah, h1.Wh.trans (by simp only; linarith [abs_nonneg (c.st.I * (dt / 3600) * v)])⟩
    · exact h1
    · exact h1

theorem meters_timeStep (c : SPM N) (dt : ℚ) (n : ℤ) : MetersForward c (c.timeStep dt n).2 := by
  by_cases hdt : dt < 0
  · rw [spm_negative_step c n hdt]; exact .refl c
  · have hdt' := not_lt.mp hdt
    obtain ⟨h1, h2, h3⟩ := timeStep_meters c n hdt'
    have h := diffLoop_keeps (P := fun x => MetersForward c x) dt (fun x h => h.trans (meters_diffStep x hdt')) n.toNat
      (c.rotate (n * dt)) ⟨le_refl _, le_refl _, le_refl _⟩
    exact ⟨by rw [h1]; exact h.time, by rw [h2]; exact h.Ah, by rw [h3]; exact h.Wh⟩

theorem meters_setCurrent (c : SPM N) (i : ℚ) (k : Bool) : MetersForward c (c.setCurrent i k).2 := by
  have h := spm_setCurrent_eq c i k
  have h2 : ((withCurrent c i).checkCurrent k).2.st.time = c.st.time ∧
      ((withCurrent c i).checkCurrent k).2.st.Ah = c.st.Ah ∧ ((withCurrent c i).checkCurrent k).2.st.Wh = c.st.Wh := by
    rw [checkCurrent_snd]; split
    · rw [SPM.V_rest]; exact ⟨rfl, rfl, rfl⟩
    · exact ⟨rfl, rfl, rfl⟩
  rw [h]
  rcases hk : (withCurrent c i).checkCurrent k with ⟨s | e | w, c2⟩ <;> rw [hk] at h2
  · simp only at h2 ⊢
    split
    · exact ⟨h2.1.ge, h2.2.1.ge, h2.2.2.ge⟩
    · exact ⟨h2.1.ge, h2.2.1.ge, h2.2.2.ge⟩
  · exact ⟨h2.1.ge, h2.2.1.ge, h2.2.2.ge⟩
  · exact ⟨h2.1.ge, h2.2.1.ge, h2.2.2.ge⟩

theorem meters_setSOC (c : SPM N) (s : ℚ) (k : Bool) : MetersForward c (c.setSOC s k).2 := by
  unfold setSOC
  split
  · exact .refl c
  · simp only
    split
    · have h2 : ({ c with st := { c.st with SOC := s } } : SPM N).checkV.2.st.time = c.st.time ∧
        ({ c with st := { c.st with SOC := s } } : SPM N).checkV.2.st.Ah = c.st.Ah ∧
        ({ c with st := { c.st with SOC := s } } : SPM N).checkV.2.st.Wh = c.st.Wh := by
        rw [checkV_snd, SPM.V_rest]; exact ⟨rfl, rfl, rfl⟩
      rcases hk : ({ c with st := { c.st with SOC := s } } : SPM N).checkV with ⟨r | e | w, c2⟩ <;> rw [hk] at h2
      · simp only at h2 ⊢
        split
        · exact ⟨h2.1.ge, h2.2.1.ge, h2.2.2.ge⟩
        · exact ⟨h2.1.ge, h2.2.1.ge, h2.2.2.ge⟩
      · exact ⟨h2.1.ge, h2.2.1.ge, h2.2.2.ge⟩
      · exact ⟨h2.1.ge, h2.2.1.ge, h2.2.2.ge⟩
    · exact ⟨le_refl _, le_refl _, le_refl _⟩

theorem meters_after (c : SPM N) (o : SpmOp N) (h : keepsMeters o) : MetersForward c (spmAfter c o) := by
  cases o with
  | readV => exact meters_of_V c
  | setCurrent i k => exact meters_setCurrent c i k
  | setSOC s k => exact meters_setSOC c s k
  | setStates s k => exact absurd h id
  | step dt n => exact meters_timeStep c dt n
  | setTenv t => unfold spmAfter setTenv; simp only; split <;> exact ⟨le_refl _, le_refl _, le_refl _⟩
  | setC fp fn => unfold spmAfter setC; simp only; split <;> exact ⟨le_refl _, le_refl _, le_refl _⟩
  | setStateObj st => exact absurd h id
  | block k => exact ⟨le_refl _, le_refl _, le_refl _⟩
  | setGeometric x1 x2 x3 x4 x5 x6 => exact ⟨le_refl _, le_refl _, le_refl _⟩
  | setT t => exact ⟨le_refl _, le_refl _, le_refl _⟩
  | overwriteChar x y z => exact ⟨le_refl _, le_refl _, le_refl _⟩
  | overwriteGeo x1 x2 x3 x4 x5 x6 => exact ⟨le_refl _, le_refl _, le_refl _⟩
  | setCharacterisation x1 x2 x3 x4 x5 => exact ⟨le_refl _, le_refl _, le_refl _⟩

/-- C103: clock, charge counter and energy counter never run backwards, whatever is done with the cell, refused and
failing operations included – unless new states are put in. -/
theorem spm_meters_forward (c : SPM N) (ops : List (SpmOp N)) (h : ∀ o ∈ ops, keepsMeters o) :
    MetersForward c (spmRun c ops) := by
  induction ops generalizing c with
  | nil => exact .refl c
  | cons o os ih =>
    exact (meters_after c o (h o (List.mem_cons_self ..))).trans
      (ih _ (fun p hp => h p (List.mem_cons_of_mem _ hp)))

/-- Hypotheses of the theorems above: a cell under current with ageing and heat makes five steps of ten seconds, and its
blocked twin makes two and then three. -/
example : (((spm1.setCurrent (1 / 10) true).2.timeStep 10 5).1 = .ok () ∧
    0 < ((spm1.setCurrent (1 / 10) true).2.timeStep 10 5).2.st.Wh ∧
    ((blocked (spm1.setCurrent (1 / 10) true).2).timeStep 10 2).1 = .ok ()) ∧
    (blocked (spm1.setCurrent (1 / 10) true).2).block = true := by
  decide +kernel

/-! ### C104 -/

/-- The cell with another voltage memory. -/
def memo (c : SPM N) (v : ℚ) (f : Bool) : SPM N := { c with st := { c.st with V := v }, valid := f }

theorem sameRest_iff (a b : SPM N) : SameRest a b ↔ b = memo a b.st.V b.valid := by
  unfold SameRest memo
  constructor
  · intro h
    have h2 := congrArg (fun c : SPM N => ({ c with st := { c.st with V := b.st.V }, valid := b.valid } : SPM N)) h
    exact h2.symm
  · intro h; rw [h]

theorem SameRest.refl (a : SPM N) : SameRest a a := rfl

/-- Two cells that will behave alike. -/
def SpmAlike (a b : SPM N) : Prop := a = b ∨ (SameRest a b ∧ Fresh a ∧ Fresh b)

theorem fresh_V_eq {c : SPM N} (h : Fresh c) (v : ℚ) : c.V.1 = (memo c v false).V.1 := by
  rw [h]
  unfold SPM.V
  simp only [memo, Bool.false_eq_true, if_false]
  have : ({ c with st := { c.st with V := v }, valid := false } : SPM N).calcV =
    ({ c with valid := false } : SPM N).calcV := rfl
  rw [this]
  rcases ({ c with valid := false } : SPM N).calcV with (_ | v) | e | w <;> rfl

theorem spmAlike_V {a b : SPM N} (h : SpmAlike a b) : a.V.1 = b.V.1 ∧ SpmAlike a.V.2 b.V.2 := by
  rcases h with rfl | ⟨hs, ha, hb⟩
  · exact ⟨rfl, .inl rfl⟩
  · have hb' := (sameRest_iff a b).mp hs
    refine ⟨?_, .inr ⟨?_, fresh_V ha, fresh_V hb⟩⟩
    · rw [fresh_V_eq ha 0, fresh_V_eq hb 0, hb']; rfl
    · rw [SPM.V_rest a, SPM.V_rest b, hb']; rfl

theorem spmAlike_read {a b : SPM N} (h : SpmAlike a b) : SpmAlike a b.V.2 := by
  rcases h with rfl | ⟨hs, ha, hb⟩
  · by_cases hv : a.valid = true
    · left; unfold SPM.V; rw [if_pos hv]
    · have hf : Fresh a := fresh_of_invalid (by simpa using hv)
      right; exact ⟨by rw [SPM.V_rest a]; rfl, hf, fresh_V hf⟩
  · right; refine ⟨?_, ha, fresh_V hb⟩
    unfold SameRest at hs ⊢
    rw [hs, SPM.V_rest b]

theorem checkV_fst (c : SPM N) : c.checkV.1 = match c.V.1 with
    | .ok v => .ok (checkVoltage cellLimits (some v) c.st.I)
    | .throw _ => .ok (checkVoltage cellLimits none c.st.I)
    | .ub w => .ub w := by
  unfold checkV; rcases c.V with ⟨v | e | w, c'⟩ <;> rfl

theorem sameRest_I {a b : SPM N} (h : SameRest a b) : a.st.I = b.st.I := by
  rw [(sameRest_iff a b).mp h]; rfl

theorem spmAlike_checkV {a b : SPM N} (h : SpmAlike a b) : a.checkV.1 = b.checkV.1 ∧ SpmAlike a.checkV.2 b.checkV.2 := by
  have hV := spmAlike_V h
  rw [checkV_snd, checkV_snd, checkV_fst, checkV_fst, hV.1]
  refine ⟨?_, hV.2⟩
  have hI : a.st.I = b.st.I := by
    rcases h with rfl | ⟨hs, -, -⟩
    · rfl
    · exact sameRest_I hs
  rw [hI]

theorem spmAlike_of_invalid {a b : SPM N} (h : SameRest a b) (ha : a.valid = false) (hb : b.valid = false) : SpmAlike a b :=
  .inr ⟨h, fresh_of_invalid ha, fresh_of_invalid hb⟩

theorem spmAlike_rest {a b : SPM N} (h : SpmAlike a b) : SameRest a b := by
  rcases h with rfl | ⟨hs, -, -⟩
  · rfl
  · exact hs

theorem spmAlike_setCurrent {a b : SPM N} (h : SpmAlike a b) (i : ℚ) (k : Bool) :
    (a.setCurrent i k).1 = (b.setCurrent i k).1 ∧ SpmAlike (a.setCurrent i k).2 (b.setCurrent i k).2 := by
  have h1 : SpmAlike (withCurrent a i) (withCurrent b i) := by
    refine spmAlike_of_invalid ?_ rfl rfl
    rw [(sameRest_iff a b).mp (spmAlike_rest h)]; rfl
  have h2 : ((withCurrent a i).checkCurrent k).1 = ((withCurrent b i).checkCurrent k).1 ∧
      SpmAlike ((withCurrent a i).checkCurrent k).2 ((withCurrent b i).checkCurrent k).2 := by
    cases k
    · exact ⟨rfl, h1⟩
    · exact spmAlike_checkV h1
  have ha := spm_setCurrent_refused a i k
  have hb := spm_setCurrent_refused b i k
  rw [spm_setCurrent_eq] at ha ⊢
  rw [spm_setCurrent_eq] at hb ⊢
  rcases hka : (withCurrent a i).checkCurrent k with ⟨s | e | w, c2⟩ <;>
  rcases hkb : (withCurrent b i).checkCurrent k with ⟨s' | e' | w', c2'⟩ <;>
  rw [hka, hkb] at h2 <;> simp only [reduceCtorEq, false_and, Outcome.ok.injEq, Outcome.throw.injEq, Outcome.ub.injEq] at h2
  · obtain ⟨rfl, h2⟩ := h2
    rw [hka] at ha; rw [hkb] at hb
    by_cases hs : s.isBad = true
    · simp only [hs, if_true] at ha hb ⊢
      rw [ha s rfl hs, hb s rfl hs]; exact ⟨trivial, h⟩
    · simp only [hs]; exact ⟨by simp, by simpa using h2⟩
  · exact ⟨by simp [h2.1], h2.2⟩
  · exact ⟨by simp [h2.1], h2.2⟩

theorem spmAlike_setSOC {a b : SPM N} (h : SpmAlike a b) (s : ℚ) (k : Bool) :
    (a.setSOC s k).1 = (b.setSOC s k).1 ∧ SpmAlike (a.setSOC s k).2 (b.setSOC s k).2 := by
  have hset : ∀ {x y : SPM N} (s : ℚ), SpmAlike x y →
      SpmAlike ({ x with st := { x.st with SOC := s } } : SPM N) { y with st := { y.st with SOC := s } } := by
    rintro x y s (rfl | ⟨hs, hx, hy⟩)
    · exact .inl rfl
    · refine .inr ⟨?_, fresh_congr (b := x) rfl rfl rfl hx, fresh_congr (b := y) rfl rfl rfl hy⟩
      rw [(sameRest_iff x y).mp hs]; rfl
  have hS : a.st.SOC = b.st.SOC := by rw [(sameRest_iff a b).mp (spmAlike_rest h)]; rfl
  unfold setSOC
  by_cases hc : (!checkSOC s) = true
  · rw [if_pos hc, if_pos hc]; exact ⟨rfl, h⟩
  · rw [if_neg hc, if_neg hc]
    simp only
    have h1 := hset s h
    cases k
    · exact ⟨rfl, h1⟩
    · have h2 := spmAlike_checkV h1
      simp only [if_true]
      rcases hka : ({ a with st := { a.st with SOC := s } } : SPM N).checkV with ⟨r | e | w, c2⟩ <;>
      rcases hkb : ({ b with st := { b.st with SOC := s } } : SPM N).checkV with ⟨r' | e' | w', c2'⟩ <;>
      rw [hka, hkb] at h2 <;>
      simp only [reduceCtorEq, false_and, Outcome.ok.injEq, Outcome.throw.injEq, Outcome.ub.injEq] at h2
      · obtain ⟨rfl, h2⟩ := h2
        by_cases hb : r.isBad = true
        · simp only [hb, if_true]; rw [hS]; exact ⟨trivial, hset _ h2⟩
        · simp only [hb]; exact ⟨by simp, by simpa using h2⟩
      · exact ⟨by simp [h2.1], h2.2⟩
      · exact ⟨by simp [h2.1], h2.2⟩

theorem spmAlike_setStates {a b : SPM N} (h : SpmAlike a b) (s : List ℚ) (k : Bool) :
    (a.setStates s k).1 = (b.setStates s k).1 ∧ SpmAlike (a.setStates s k).2 (b.setStates s k).2 := by
  unfold setStates
  rcases decode N s with _ | st
  · exact ⟨rfl, h⟩
  · have hb := (sameRest_iff a b).mp (spmAlike_rest h)
    have e1 : ({ b with st := st, valid := false } : SPM N) = { a with st := st, valid := false } := by rw [hb]; rfl
    simp only
    rw [e1]
    obtain ⟨c1, hc1⟩ : ∃ c1 : SPM N, c1 = { a with st := st, valid := false } := ⟨_, rfl⟩
    rw [← hc1]
    have hr := checkStates_rest c1 k
    rcases hk : c1.checkStates k with ⟨r | e | w, c2⟩
    · simp only
      split
      · refine ⟨rfl, ?_⟩
        rw [hk, hc1] at hr
        simp only at hr
        have ea : ({ c2 with st := a.st, valid := a.valid } : SPM N) = a := by rw [hr]
        have eb : ({ c2 with st := b.st, valid := b.valid } : SPM N) = b := by
          rw [hr]; conv_rhs => rw [hb]
          rw [hb]; rfl
        rw [ea, eb]; exact h
      · exact ⟨rfl, .inl rfl⟩
    · exact ⟨rfl, .inl rfl⟩
    · exact ⟨rfl, .inl rfl⟩

theorem calcV_none {c : SPM N} (h : c.calcV = .ok none) : c.concOk = false := by
  unfold calcV at h
  by_cases hf : (!c.finite) = true
  · rw [if_pos hf] at h; simp at h
  · rw [if_neg hf] at h
    by_contra hk
    rw [if_neg (by simpa using hk)] at h
    rcases h1 : look c.par.dTot (c.cps / c.par.Cmaxpos) with d | e | w <;> rw [h1] at h
    · rcases h2 : look c.par.ocvN (c.cns / c.par.Cmaxneg) with n | e | w <;> rw [h2] at h
      · rcases h3 : look c.par.ocvP (c.cps / c.par.Cmaxpos) with p | e | w <;> rw [h3] at h
        · change (if _ then _ else _) = _ at h
          split at h <;> simp at h
        · cases h
        · cases h
      · cases h
      · cases h
    · cases h
    · cases h

/-- One step of cells that behave alike: they still do, and they are the same cell unless the concentrations have left
their range. -/
theorem spmAlike_diffStep {a b : SPM N} (h : SpmAlike a b) (dt : ℚ) :
    (a.diffStep dt).1 = (b.diffStep dt).1 ∧ SpmAlike (a.diffStep dt).2 (b.diffStep dt).2 ∧
    ((a.diffStep dt).1 = .ok () → (a.diffStep dt).2 = (b.diffStep dt).2 ∨ (a.diffStep dt).2.concOk = false) := by
  have hb := (sameRest_iff a b).mp (spmAlike_rest h)
  generalize b.st.V = v at hb
  generalize b.valid = f at hb
  subst hb
  unfold diffStep
  have hfin : (memo a v f).finite = a.finite := rfl
  have hcap : (memo a v f).par.cap = a.par.cap := rfl
  have hdiff : (memo a v f).diffState dt = memo (a.diffState dt) v false := rfl
  have hI : (memo a v f).st.I = a.st.I := rfl
  rw [hfin, hcap, hdiff, hI]
  split
  · exact ⟨rfl, h, by simp⟩
  · have hva : (a.diffState dt).valid = false := rfl
    have eA : (a.diffState dt).V = match (a.diffState dt).calcV with
      | .ok none => (.ok 0, a.diffState dt)
      | .ok (some v) => (.ok v, (a.diffState dt).cache v)
      | .throw e => (.throw e, a.diffState dt)
      | .ub w => (.ub w, a.diffState dt) := by unfold SPM.V; exact if_neg (by rw [hva]; simp)
    have eB : (memo (a.diffState dt) v false).V = match (a.diffState dt).calcV with
      | .ok none => (.ok 0, memo (a.diffState dt) v false)
      | .ok (some v) => (.ok v, (a.diffState dt).cache v)
      | .throw e => (.throw e, memo (a.diffState dt) v false)
      | .ub w => (.ub w, memo (a.diffState dt) v false) := by
      unfold SPM.V; exact if_neg (by simp [memo])
    rcases hc : (a.diffState dt).calcV with (_ | u) | e | w
    · rw [hc] at eA eB
      rw [eA, eB]
      exact ⟨rfl, spmAlike_of_invalid rfl rfl rfl, fun _ => .inr (calcV_none hc)⟩
    · rw [hc] at eA eB
      rw [eA, eB]
      exact ⟨rfl, .inl rfl, fun _ => .inl rfl⟩
    · rw [hc] at eA eB
      rw [eA, eB]
      exact ⟨rfl, spmAlike_of_invalid rfl rfl rfl, by simp⟩
    · rw [hc] at eA eB
      rw [eA, eB]
      exact ⟨rfl, spmAlike_of_invalid rfl rfl rfl, by simp⟩

theorem spmAlike_diffLoop (dt : ℚ) (k : ℕ) : ∀ {a b : SPM N}, SpmAlike a b →
    (SPM.diffLoop dt k a).1 = (SPM.diffLoop dt k b).1 ∧ SpmAlike (SPM.diffLoop dt k a).2 (SPM.diffLoop dt k b).2 ∧
    (0 < k → (SPM.diffLoop dt k a).1 = .ok () →
      (SPM.diffLoop dt k a).2 = (SPM.diffLoop dt k b).2 ∨ (SPM.diffLoop dt k a).2.concOk = false) := by
  induction k with
  | zero => intro a b h; exact ⟨rfl, h, fun h => absurd h (lt_irrefl _)⟩
  | succ k ih =>
    intro a b h
    obtain ⟨h1, h2, h3⟩ := spmAlike_diffStep h dt
    rw [SPM.diffLoop, SPM.diffLoop]
    unfold SPM.andThen
    rw [← h1]
    rcases hr : (a.diffStep dt).1 with _ | e | w
    · obtain ⟨g1, g2, g3⟩ := ih h2
      refine ⟨g1, g2, fun _ hok => ?_⟩
      rcases Nat.eq_zero_or_pos k with rfl | hk
      · exact h3 (by rw [hr])
      · exact g3 hk hok
    · exact ⟨rfl, h2, by simp⟩
    · exact ⟨rfl, h2, by simp⟩

theorem spmAlike_rotate {a b : SPM N} (h : SpmAlike a b) (x : ℚ) : SpmAlike (a.rotate x) (b.rotate x) := by
  rcases h with rfl | ⟨hs, ha, hb⟩
  · exact .inl rfl
  · refine .inr ⟨?_, fresh_congr (b := a) rfl rfl rfl ha, fresh_congr (b := b) rfl rfl rfl hb⟩
    rw [(sameRest_iff a b).mp hs]; rfl

theorem spmAlike_timeStep {a b : SPM N} (h : SpmAlike a b) (dt : ℚ) {n : ℤ} (hn : 0 < n) :
    (a.timeStep dt n).1 = (b.timeStep dt n).1 ∧ SpmAlike (a.timeStep dt n).2 (b.timeStep dt n).2 := by
  unfold timeStep
  by_cases hdt : dt < 0
  · rw [if_pos hdt, if_pos hdt]; exact ⟨rfl, h⟩
  · rw [if_neg hdt, if_neg hdt]
    obtain ⟨g1, g2, g3⟩ := spmAlike_diffLoop dt n.toNat (spmAlike_rotate h (n * dt))
    have hk : 0 < n.toNat := by omega
    generalize SPM.diffLoop dt n.toNat (a.rotate (n * dt)) = ra at *
    generalize SPM.diffLoop dt n.toNat (b.rotate (n * dt)) = rb at *
    obtain ⟨oa, a1⟩ := ra
    obtain ⟨ob, b1⟩ := rb
    simp only at g1 g2 g3
    subst g1
    unfold SPM.andThen
    rcases oa with _ | e | w
    · rcases g3 hk rfl with he | hc
      · subst he; exact ⟨rfl, .inl rfl⟩
      · have hb := (sameRest_iff a1 b1).mp (spmAlike_rest g2)
        have hbl : b1.block = a1.block := by rw [hb]; rfl
        have hh : b1.heat = a1.heat := by rw [hb]; rfl
        simp only [hbl]
        split
        · exact ⟨rfl, g2⟩
        · unfold thermStep
          rw [hh]
          rcases hq : a1.heat with q | e | w
          · unfold heat at hq
            rw [hc] at hq
            split at hq <;> simp at hq
          · exact ⟨rfl, g2⟩
          · exact ⟨rfl, g2⟩
    · exact ⟨rfl, g2⟩
    · exact ⟨rfl, g2⟩

theorem spmAlike_setTenv {a b : SPM N} (h : SpmAlike a b) (t : ℚ) :
    (a.setTenv t).1 = (b.setTenv t).1 ∧ SpmAlike (a.setTenv t).2 (b.setTenv t).2 := by
  unfold setTenv
  split
  · exact ⟨rfl, h⟩
  · refine ⟨rfl, ?_⟩
    rcases h with rfl | ⟨hs, ha, hb'⟩
    · exact .inl rfl
    · refine .inr ⟨?_, fresh_congr (b := a) rfl rfl rfl ha, fresh_congr (b := b) rfl rfl rfl hb'⟩
      rw [(sameRest_iff a b).mp hs]; rfl

theorem spmAlike_setC {a b : SPM N} (h : SpmAlike a b) (fp fn : ℚ) :
    (a.setC fp fn).1 = (b.setC fp fn).1 ∧ SpmAlike (a.setC fp fn).2 (b.setC fp fn).2 := by
  unfold setC
  split
  · exact ⟨rfl, h⟩
  · refine ⟨rfl, spmAlike_of_invalid ?_ rfl rfl⟩
    rw [(sameRest_iff a b).mp (spmAlike_rest h)]; rfl

/-- Cells that behave alike give the same answer to every operation of C104 and still behave alike. -/
theorem spmAlike_after {a b : SPM N} (h : SpmAlike a b) (o : SpmOp N) (ho : forgetful o) :
    spmAnswer a o = spmAnswer b o ∧ SpmAlike (spmAfter a o) (spmAfter b o) := by
  have hb := (sameRest_iff a b).mp (spmAlike_rest h)
  cases o with
  | readV => exact ⟨congrArg SpmAnswer.voltage (spmAlike_V h).1, (spmAlike_V h).2⟩
  | setCurrent i k => exact ⟨congrArg SpmAnswer.status (spmAlike_setCurrent h i k).1, (spmAlike_setCurrent h i k).2⟩
  | setSOC s k => exact ⟨congrArg SpmAnswer.status (spmAlike_setSOC h s k).1, (spmAlike_setSOC h s k).2⟩
  | setStates s k => exact ⟨congrArg SpmAnswer.states (spmAlike_setStates h s k).1, (spmAlike_setStates h s k).2⟩
  | step dt n => exact ⟨congrArg SpmAnswer.done (spmAlike_timeStep h dt ho).1, (spmAlike_timeStep h dt ho).2⟩
  | setTenv t => exact ⟨congrArg SpmAnswer.done (spmAlike_setTenv h t).1, (spmAlike_setTenv h t).2⟩
  | setC fp fn => exact ⟨congrArg SpmAnswer.done (spmAlike_setC h fp fn).1, (spmAlike_setC h fp fn).2⟩
  | setStateObj st => exact ⟨rfl, .inl (by unfold spmAfter setStateObj; rw [hb]; rfl)⟩
  | block k =>
    refine ⟨rfl, ?_⟩
    rcases h with rfl | ⟨hs, ha, hb'⟩
    · exact .inl rfl
    · refine .inr ⟨?_, fresh_congr (b := a) rfl rfl rfl ha, fresh_congr (b := b) rfl rfl rfl hb'⟩
      unfold spmAfter
      rw [hb]; rfl
  | setGeometric x1 x2 x3 x4 x5 x6 =>
    refine ⟨rfl, spmAlike_of_invalid ?_ rfl rfl⟩
    unfold spmAfter
    rw [hb]; rfl
  | setT t => exact absurd ho id
  | overwriteChar x y z => exact absurd ho id
  | overwriteGeo x1 x2 x3 x4 x5 x6 => exact absurd ho id
  | setCharacterisation x1 x2 x3 x4 x5 => exact absurd ho id

theorem spmAlike_script (os : List (Option (SpmOp N))) : ∀ {a b : SPM N}, SpmAlike a b →
    (∀ o, some o ∈ os → forgetful o) →
    scriptAnswers b os = spmAnswers a (withoutReadings os) ∧
      SpmAlike (spmRun a (withoutReadings os)) (scriptEnd b os) := by
  induction os with
  | nil => intro a b h _; exact ⟨rfl, h⟩
  | cons o os ih =>
    intro a b h ho
    rcases o with _ | o
    · exact ih (spmAlike_read h) (fun o hm => ho o (List.mem_cons_of_mem _ hm))
    · obtain ⟨h1, h2⟩ := spmAlike_after h o (ho o (List.mem_cons_self ..))
      obtain ⟨g1, g2⟩ := ih h2 (fun o hm => ho o (List.mem_cons_of_mem _ hm))
      refine ⟨?_, g2⟩
      show spmAnswer b o :: _ = spmAnswer a o :: _
      rw [h1, g1]; rfl

/-- C104: reading the voltage of a cell in between other operations has no effect, for any number of readings at any
places: all answers are the same as without the readings, and so are the cell at the end and the voltage it then
reports – as long as nobody sets the temperature by hand or uses the parametrisation functions, and every time step
covers at least one step. -/
theorem spm_reading_no_effect_partial (c : SPM N) (os : List (Option (SpmOp N)))
    (ho : ∀ o, some o ∈ os → forgetful o) :
    scriptAnswers c os = spmAnswers c (withoutReadings os) ∧
    SameRest (spmRun c (withoutReadings os)) (scriptEnd c os) ∧
    (scriptEnd c os).V.1 = (spmRun c (withoutReadings os)).V.1 := by
  obtain ⟨h1, h2⟩ := spmAlike_script os (.inl rfl : SpmAlike c c) ho
  exact ⟨h1, spmAlike_rest h2, (spmAlike_V h2).1.symm⟩

/-- C104, full statement: reading never has an effect. -/
theorem not_spmReadingNoEffect : ¬ SpmReadingNoEffect 1 := by
  intro h
  have := h spm1 [none, some (.setT 300), some .readV]
  revert this
  decide +kernel

/-- The script of the theorem with ageing and heat switched on, readings in five places; the answers are not all
trivial. -/
example : (∀ o, some o ∈ [none, some (SpmOp.setCurrent (N := 1) (1 / 10) true), none, none, some (.step 1 3), none,
      some .readV, none] → forgetful o) ∧
    spm1.block = false ∧
    (scriptEnd spm1 [none, some (SpmOp.setCurrent (1 / 10) true), none, none, some (.step 1 3), none, some .readV,
      none]).st.Wh ≠ 0 := by
  refine ⟨?_, rfl, by decide +kernel⟩
  intro o hm
  simp only [List.mem_cons, Option.some.injEq, reduceCtorEq, false_or, List.not_mem_nil, or_false] at hm
  rcases hm with rfl | rfl | rfl
  · trivial
  · show (0 : ℤ) < 3; norm_num
  · trivial

/-! ### C105 -/

theorem setCurrent_onlyCurrent (c : SPM N) (i : ℚ) (k : Bool) : OnlyCurrentDiffers c (c.setCurrent i k).2 := by
  have h2 : OnlyCurrentDiffers c ((withCurrent c i).checkCurrent k).2 := by
    rw [checkCurrent_snd]; split
    · exact (withCurrent_onlyCurrent c i).trans (V_onlyCurrent _)
    · exact withCurrent_onlyCurrent c i
  rw [spm_setCurrent_eq]
  rcases hk : (withCurrent c i).checkCurrent k with ⟨s | e | w, c2⟩ <;> rw [hk] at h2
  · simp only at h2 ⊢
    split
    · exact ⟨h2.par, h2.st, h2.stress, h2.heat, h2.rest⟩
    · exact h2
  · exact h2
  · exact h2

theorem calcV_throw {c : SPM N} {e : Int} (h : c.calcV = .throw e) : e = 1 := by
  have hl : ∀ (f : ℚ → Option ℚ) x e, look f x = .throw e → e = 1 := by
    intro f x e h; unfold look at h; split at h
    · cases h
    · injection h with h; exact h.symm
  unfold calcV at h
  split at h
  · cases h
  · split at h
    · cases h
    · rcases h1 : look c.par.dTot (c.cps / c.par.Cmaxpos) with d | e | w <;> rw [h1] at h
      · rcases h2 : look c.par.ocvN (c.cns / c.par.Cmaxneg) with n | e | w <;> rw [h2] at h
        · rcases h3 : look c.par.ocvP (c.cps / c.par.Cmaxpos) with p | e | w <;> rw [h3] at h
          · change (if _ then _ else _) = _ at h
            split at h <;> simp at h
          · cases h; exact hl _ _ _ h3
          · cases h
        · cases h; exact hl _ _ _ h2
        · cases h
      · cases h; exact hl _ _ _ h1
      · cases h

theorem V_throw {c : SPM N} {e : Int} (h : c.V.1 = .throw e) : e = 1 := by
  unfold SPM.V at h
  split at h
  · cases h
  · rcases hc : c.calcV with (_ | v) | x | w <;> rw [hc] at h
    · cases h
    · cases h
    · injection h with h; rw [← h]; exact calcV_throw hc
    · cases h

theorem voltTry_spec (Vset Ia : ℚ) (c : SPM N) :
    OnlyCurrentDiffers c (voltTry Vset Ia c).2 ∧
    ((voltTry Vset Ia c).1 = .ok none → ReportsVoltage (voltTry Vset Ia c).2 Vset) ∧
    (∀ e, (voltTry Vset Ia c).1 = .throw e → e = 1) := by
  unfold voltTry
  have hc := V_onlyCurrent c
  have ht := @V_throw N c
  have hag := V_again c
  rcases hV : c.V with ⟨Va | e | w, c0⟩ <;> rw [hV] at hc ht hag <;> simp only at hc ht hag ⊢
  · split
    · rename_i hlt
      exact ⟨hc, fun _ => ⟨Va, hag, hlt⟩, fun e he => (by cases he)⟩
    · generalize (if Vset > Va then Ia - 1 / 100 * c0.par.cap else Ia + 1 / 100 * c0.par.cap) = Ib
      have h1 := setCurrent_onlyCurrent c0 Ib true
      have n1 := spm_setCurrent_never_throws c0 Ib true
      rcases hs : c0.setCurrent Ib true with ⟨s | e | w, c1⟩ <;> rw [hs] at h1 n1 <;> simp only at h1 n1 ⊢
      · have h2 := V_onlyCurrent c1
        have t2 := @V_throw N c1
        rcases hV2 : c1.V with ⟨Vb | e | w, c2⟩ <;> rw [hV2] at h2 t2 <;> simp only at h2 t2 ⊢
        · split
          · exact ⟨(hc.trans h1).trans h2, fun he => (by cases he), fun e he => (by cases he)⟩
          · generalize Ib - (Vb - Vset) * ((Ia - Ib) / (Va - Vb)) = Ic
            have h3 := setCurrent_onlyCurrent c2 Ic true
            have n3 := spm_setCurrent_never_throws c2 Ic true
            rcases hs3 : c2.setCurrent Ic true with ⟨s | e | w, c3⟩ <;> rw [hs3] at h3 n3 <;> simp only at h3 n3 ⊢
            · exact ⟨((hc.trans h1).trans h2).trans h3, fun he => (by cases he), fun e he => (by cases he)⟩
            · exact absurd rfl (n3 e)
            · exact ⟨((hc.trans h1).trans h2).trans h3, fun he => (by cases he), fun e he => (by cases he)⟩
        · exact ⟨(hc.trans h1).trans h2, fun he => (by cases he),
            fun e' he => t2 (by injection he with he; rw [he])⟩
        · exact ⟨(hc.trans h1).trans h2, fun he => (by cases he), fun e he => (by cases he)⟩
      · exact absurd rfl (n1 e)
      · exact ⟨hc.trans h1, fun he => (by cases he), fun e he => (by cases he)⟩
  · exact ⟨hc, fun he => (by cases he), fun e' he => ht (by injection he with he; rw [he])⟩
  · exact ⟨hc, fun he => (by cases he), fun e he => (by cases he)⟩

theorem voltLoop_spec (Vset : ℚ) (fuel : ℕ) : ∀ (Ia : ℚ) (c : SPM N),
    OnlyCurrentDiffers c (voltLoop Vset fuel Ia c).2 ∧
    ((voltLoop Vset fuel Ia c).1 = .ok .Success → ReportsVoltage (voltLoop Vset fuel Ia c).2 Vset) ∧
    (∀ r, (voltLoop Vset fuel Ia c).1 = .ok r → r = .Success ∨ r = .RedistributeCurrent_failed) ∧
    (∀ e, (voltLoop Vset fuel Ia c).1 = .throw e → e = 1) := by
  induction fuel with
  | zero =>
    intro Ia c
    exact ⟨.refl c, fun h => by simp [voltLoop] at h, fun r h => .inr (by simpa [voltLoop] using h.symm),
      fun e h => by simp [voltLoop] at h⟩
  | succ fuel ih =>
    intro Ia c
    rw [voltLoop]
    obtain ⟨h1, h2, h3⟩ := voltTry_spec Vset Ia c
    rcases hV : voltTry Vset Ia c with ⟨(_ | Ic) | e | w, c1⟩ <;> rw [hV] at h1 h2 h3 <;> simp only at h1 h2 h3 ⊢
    · exact ⟨h1, fun _ => h2 trivial, fun r h => .inl (by injection h with h; exact h.symm), fun e h => (by cases h)⟩
    · obtain ⟨g1, g2, g3, g4⟩ := ih Ic c1
      exact ⟨h1.trans g1, g2, g3, g4⟩
    · exact ⟨h1, fun h => (by cases h), fun r h => (by cases h), fun e' he => h3 e' (by injection he with he; rw [he])⟩
    · exact ⟨h1, fun h => (by cases h), fun r h => (by cases h), fun e h => (by cases h)⟩

/-- C105: `Success` of setting a voltage means that the cell reports that voltage, up to a microvolt.  Whatever the
answer is, nothing but the current (and with it the voltage) has changed: no time passes, no charge moves.  There are
only two answers, and the only exception is that of the curves. -/
theorem spm_setVoltage_partial (c : SPM N) (Vset : ℚ) :
    ((c.setVoltage Vset).1 = .ok .Success → ReportsVoltage (c.setVoltage Vset).2 Vset) ∧
    OnlyCurrentDiffers c (c.setVoltage Vset).2 ∧
    (∀ r, (c.setVoltage Vset).1 = .ok r → r = .Success ∨ r = .RedistributeCurrent_failed) ∧
    (∀ e, (c.setVoltage Vset).1 = .throw e → e = 1) := by
  obtain ⟨h1, h2, h3, h4⟩ := voltLoop_spec Vset 50 c.st.I c
  exact ⟨h2, h1, h3, h4⟩

/-- C105: a cell that already reports the voltage keeps its current. -/
theorem spm_setVoltage_already (c : SPM N) (Vset : ℚ) (h : ReportsVoltage c Vset) :
    c.setVoltage Vset = (.ok .Success, c.V.2) := by
  obtain ⟨v, hv, hl⟩ := h
  have h : voltTry Vset c.st.I c = (.ok none, c.V.2) := by
    unfold voltTry
    rcases hV : c.V with ⟨Va | e | w, c0⟩ <;> rw [hV] at hv
    · simp only [Outcome.ok.injEq] at hv
      subst hv
      simp only
      rw [if_pos hl]
    · cases hv
    · cases hv
  unfold setVoltage
  rw [voltLoop, h]

/-- C105, full statement: refused voltages are not refused cleanly. -/
theorem not_spmSetVoltageOrRefuse : ¬ SpmSetVoltageOrRefuse 1 := by
  intro h
  have hu : ∃ w, (spm1.setVoltage 5).1 = .ub w := ⟨"division by Va - Vb = 0", by decide +kernel⟩
  obtain ⟨w, hw⟩ := hu
  rcases h spm1 5 (18 / 5) (by decide +kernel) with ⟨h1, -⟩ | ⟨r, h1, -⟩
  · rw [hw] at h1; cases h1
  · rw [hw] at h1; cases h1

/-- The same attempt leaves the cell with another current than before. -/
theorem spm_setVoltage_leaves_current : spm1.st.I = 0 ∧ (spm1.setVoltage 5).1 ≠ .ok .Success ∧
    (spm1.setVoltage 5).2.st.I = -1 / 100 := by
  decide +kernel

/-- Hypotheses of the theorems above: from 3.6 V at rest to 3 V under current. -/
example : (spm1.setVoltage 3).1 = .ok .Success ∧ spm1.V.1 = .ok (18 / 5) ∧ (spm1.setVoltage 3).2.st.I ≠ 0 := by
  decide +kernel

end Slide

import Verif.Lemmas.SPMDiff
import Verif.Spec.SpmFail
import Verif.Tac

/-! Lemmas about the exceptions of the single-particle cell. -/

namespace Slide
open Spec SPM

variable {N : ℕ}

theorem Outcome.bind_eq_throw {α β : Type} {o : Outcome α} {f : α → Outcome β} {e : Int} (h : (o >>= f) = .throw e) :
    o = .throw e ∨ ∃ a, o = .ok a ∧ f a = .throw e := by
  rcases o with a | x | w
  · exact .inr ⟨a, rfl, h⟩
  · left; rw [Outcome.throw_bind] at h; injection h with h; rw [h]
  · cases h

theorem look_throw {f : ℚ → Option ℚ} {x : ℚ} {e : Int} (h : look f x = .throw e) : e = 1 ∧ f x = none := by
  unfold look at h
  rcases hf : f x with _ | y
  · rw [hf] at h; injection h with h; exact ⟨h.symm, rfl⟩
  · rw [hf] at h; cases h

theorem frac_mem {a b : ℚ} (h0 : 0 ≤ a) (h1 : a ≤ b) : 0 ≤ a / b ∧ a / b ≤ 1 :=
  ⟨div_nonneg h0 (h0.trans h1), div_le_one_of_le₀ h1 (h0.trans h1)⟩

theorem concOk_frac {c : SPM N} (h : c.concOk = true) :
    (0 ≤ c.cps / c.par.Cmaxpos ∧ c.cps / c.par.Cmaxpos ≤ 1) ∧ (0 ≤ c.cns / c.par.Cmaxneg ∧ c.cns / c.par.Cmaxneg ≤ 1) := by
  unfold concOk at h
  simp only [ge_iff_le, Bool.not_eq_true', Bool.or_eq_false_iff, decide_eq_false_iff_not, not_le] at h
  obtain ⟨⟨⟨h1, h2⟩, h3⟩, h4⟩ := h
  exact ⟨frac_mem h1.le h3.le, frac_mem h2.le h4.le⟩

theorem calcV_throw' {c : SPM N} {e : Int} (h : c.calcV = .throw e) : e = 1 ∧ ¬ CurvesCover c.par := by
  unfold calcV at h
  split at h
  · cases h
  · split at h
    · cases h
    · rename_i hc
      obtain ⟨hp, hn⟩ := concOk_frac (c := c) (by simpa using hc)
      rcases Outcome.bind_eq_throw h with h1 | ⟨d, -, h⟩
      · exact ⟨(look_throw h1).1, fun k => (k _ hp.1 hp.2).2.2.1 (look_throw h1).2⟩
      rcases Outcome.bind_eq_throw h with h1 | ⟨n, -, h⟩
      · exact ⟨(look_throw h1).1, fun k => (k _ hn.1 hn.2).2.1 (look_throw h1).2⟩
      rcases Outcome.bind_eq_throw h with h1 | ⟨p, -, h⟩
      · exact ⟨(look_throw h1).1, fun k => (k _ hp.1 hp.2).1 (look_throw h1).2⟩
      split at h <;> cases h

theorem V_throw' {c : SPM N} {e : Int} (h : c.V.1 = .throw e) : e = 1 ∧ ¬ CurvesCover c.par := by
  unfold SPM.V at h
  split at h
  · cases h
  · rcases hc : c.calcV with (_ | v) | x | w <;> rw [hc] at h
    · cases h
    · cases h
    · injection h with h; rw [← h]; exact calcV_throw' hc
    · cases h

theorem diffStep_throw {c : SPM N} {dt : ℚ} {e : Int} (h : (c.diffStep dt).1 = .throw e) : e = 1 ∧ ¬ CurvesCover c.par := by
  unfold diffStep at h
  split at h
  · cases h
  · rcases hk : (c.diffState dt).V with ⟨v | x | w, c2⟩ <;> rw [hk] at h
    · cases h
    · have : (c.diffState dt).V.1 = .throw e := by
        rw [hk]; injection h with h; rw [h]
      exact V_throw' (c := c.diffState dt) this
    · cases h

theorem andThen_throw {r : Outcome Unit × SPM N} {f : SPM N → Outcome Unit × SPM N} {e : Int}
    (h : (SPM.andThen r f).1 = .throw e) :
    (r.1 = .throw e ∧ (SPM.andThen r f).2 = r.2) ∨
    (r.1 = .ok () ∧ (f r.2).1 = .throw e ∧ (SPM.andThen r f).2 = (f r.2).2) := by
  unfold SPM.andThen at h ⊢
  rcases r with ⟨_ | x | w, a⟩
  · exact .inr ⟨rfl, h, rfl⟩
  · left; exact ⟨h, rfl⟩
  · cases h

/-- A failing diffusion step has already moved the lithium and the clocks. -/
theorem diffStep_throw_state {c : SPM N} {dt : ℚ} {e : Int} (h : (c.diffStep dt).1 = .throw e) :
    DiffFrame c (c.diffStep dt).2 ∧
    (c.diffStep dt).2.st.zp = (fun j => c.st.zp j + dt * c.dzp j) ∧
    (c.diffStep dt).2.st.zn = (fun j => c.st.zn j + dt * c.dzn j) ∧
    (c.diffStep dt).2.st.SOC = c.st.SOC + dt * c.dSOC ∧
    (c.diffStep dt).2.st.time = c.st.time + dt ∧
    (c.diffStep dt).2.st.Ah = c.st.Ah + |c.st.I * (dt / 3600)| := by
  have hage := sameAge_diffStep c dt
  have hb := diffStep_block c dt
  unfold diffStep at h hage hb ⊢
  split at h
  · simp at h
  · rename_i hf
    rw [if_neg hf] at hage hb ⊢
    have h2 := SPM.V_rest (c.diffState dt)
    rcases hk : (c.diffState dt).V with ⟨v | e | w, c2⟩
    · rw [hk] at h; simp at h
    · rw [hk] at h2 hage hb
      simp only at h2 hage hb ⊢
      refine ⟨⟨hage, ?_, ?_, ?_, ?_, hb, ?_, ?_, ?_⟩, ?_, ?_, ?_, ?_, ?_⟩ <;> rw [h2] <;> rfl
    · rw [hk] at h; simp at h

/-- A failing run of diffusion steps stops after the step that fails. -/
theorem diffLoop_throw {dt : ℚ} (hdt : 0 ≤ dt) {e : Int} (k : ℕ) : ∀ c : SPM N, (SPM.diffLoop dt k c).1 = .throw e →
    e = 1 ∧ ¬ CurvesCover c.par ∧ DiffFrame c (SPM.diffLoop dt k c).2 ∧
    ∃ m, 1 ≤ m ∧ m ≤ k ∧ AfterSteps c dt m (SPM.diffLoop dt k c).2 := by
  induction k with
  | zero => intro c h; cases h
  | succ k ih =>
    intro c h
    rw [SPM.diffLoop] at h ⊢
    rcases andThen_throw h with ⟨h1, h2⟩ | ⟨h1, h2, h3⟩
    · rw [h2]
      obtain ⟨f, ezp, ezn, eS, et, eA⟩ := diffStep_throw_state h1
      refine ⟨(diffStep_throw h1).1, (diffStep_throw h1).2, f, 1, le_refl _, by omega, ?_, ?_, ?_, ?_, ?_⟩
      · rw [et]; push_cast; ring
      · rw [eS]; unfold dSOC; push_cast; ring
      · rw [eA, abs_mul, abs_of_nonneg (show (0 : ℚ) ≤ dt / 3600 by positivity)]; push_cast; ring
      · intro j hj; rw [ezp]; simp only [dzp, hj]; push_cast; ring
      · intro j hj; rw [ezn]; simp only [dzn, hj]; push_cast; ring
    · rw [h3]
      obtain ⟨-, f, ezp, ezn, eS, et, eA⟩ := diffStep_ok h1
      obtain ⟨g1, g2, g3, m, hm1, hm, g⟩ := ih _ h2
      have hjp : (c.diffStep dt).2.jp = c.jp := by
        unfold jp iApp; rw [f.age.par, f.I, f.age.ap, f.age.thickp]
      have hjn : (c.diffStep dt).2.jn = c.jn := by
        unfold jn iApp; rw [f.age.par, f.I, f.age.an, f.age.thickn]
      refine ⟨g1, by rw [← f.age.par]; exact g2, f.trans g3, m + 1, by omega, by omega, ?_, ?_, ?_, ?_, ?_⟩
      · rw [g.time, et]; push_cast; ring
      · rw [g.soc, eS, f.I, f.age.par]; unfold dSOC; push_cast; ring
      · rw [g.ah, eA, f.I, abs_mul, abs_of_nonneg (show (0 : ℚ) ≤ dt / 3600 by positivity)]; push_cast; ring
      · intro j hj
        rw [g.cathode j (by rw [f.age.par]; exact hj), f.age.par, hjp, ezp]
        simp only [dzp, hj]; push_cast; ring
      · intro j hj
        rw [g.anode j (by rw [f.age.par]; exact hj), f.age.par, hjn, ezn]
        simp only [dzn, hj]; push_cast; ring

theorem heat_throw {c : SPM N} {e : Int} (h : c.heat = .throw e) : e = 101 ∨ (e = 1 ∧ ¬ CurvesCover c.par) := by
  unfold heat at h
  split at h
  · cases h
  · split at h
    · injection h with h; exact .inl h.symm
    · rename_i hc
      obtain ⟨hp, -⟩ := concOk_frac (c := c) (by simpa using hc)
      split at h
      · cases h
      · rcases Outcome.bind_eq_throw h with h1 | ⟨d, -, h⟩
        · exact .inr ⟨(look_throw h1).1, fun k => (k _ hp.1 hp.2).2.2.1 (look_throw h1).2⟩
        · cases h

theorem thermAlone_throw {c : SPM N} {e : Int} (h : c.thermAlone.1 = .throw e) : e = 9 ∧ c.par.tModel ≠ 0 := by
  unfold thermAlone at h
  split at h
  · cases h
  · rename_i ht
    split at h
    · cases h
    · simp only at h
      split at h
      · injection h with h; exact ⟨h.symm, ht⟩
      · cases h

theorem thermStep_throw {c : SPM N} {x : ℚ} {e : Int} (h : (c.thermStep x).1 = .throw e) :
    e = 101 ∨ (e = 1 ∧ ¬ CurvesCover c.par) ∨ (e = 9 ∧ c.parent = false ∧ c.par.tModel ≠ 0) := by
  unfold thermStep at h
  rcases hq : c.heat with q | y | w <;> rw [hq] at h
  · change (SPM.thermPass _).1 = _ at h
    unfold thermPass at h
    split at h
    · cases h
    · rename_i hp
      rcases ht : ({ c with Qgen := c.Qgen + q * x, thermTime := c.thermTime + x } : SPM N).thermAlone with ⟨t | y | w, a⟩
      · simp only [ht] at h; cases h
      · simp only [ht] at h
        have hte := thermAlone_throw (c := ({ c with Qgen := c.Qgen + q * x, thermTime := c.thermTime + x } : SPM N))
          (e := e) (by rw [ht]; injection h with h; rw [h])
        exact .inr (.inr ⟨hte.1, by simpa using hp, hte.2⟩)
      · simp only [ht] at h; cases h
  · injection h with h
    subst h
    rcases heat_throw hq with h | h
    · exact .inl h
    · exact .inr (.inl h)
  · cases h

theorem updLares_throw {c : SPM N} {e : Int} (h : c.updLares.1 = .throw e) : e = 101 ∨ (e = 1 ∧ ¬ CurvesCover c.par) := by
  unfold updLares at h
  split at h
  · split at h
    · cases h
    · split at h
      · injection h with h; exact .inl h.symm
      · rename_i hc
        push Not at hc
        rcases hl : look c.par.laresCurve (c.cns / c.par.Cmaxneg) with s | y | w <;> rw [hl] at h
        · cases h
        · injection h with h
          subst h
          obtain ⟨k0, k1⟩ := frac_mem hc.2.1 hc.2.2.2
          exact .inr ⟨(look_throw hl).1, fun k => (k _ k0 k1).2.2.2.2 (look_throw hl).2⟩
        · cases h
  · cases h

theorem sumModels_throw {f : ℕ → Outcome ℚ} {e : Int} (ids : List ℕ) (h : sumModels f ids = .throw e) :
    ∃ i ∈ ids, f i = .throw e := by
  induction ids with
  | nil => cases h
  | cons i is ih =>
    rw [sumModels] at h
    rcases Outcome.bind_eq_throw h with h1 | ⟨a, -, h⟩
    · exact ⟨i, by simp, h1⟩
    · rcases Outcome.bind_eq_throw h with h1 | ⟨r, -, h⟩
      · obtain ⟨j, hj, h2⟩ := ih h1
        exact ⟨j, by simp [hj], h2⟩
      · cases h

theorem lamSum_throw {c : SPM N} {e : Int} (ids : List ℕ) (h : c.lamSum ids = .throw e) :
    ∃ i ∈ ids, c.lamModel i = .throw e := by
  induction ids with
  | nil => cases h
  | cons i is ih =>
    rw [lamSum] at h
    rcases Outcome.bind_eq_throw h with h1 | ⟨a, -, h⟩
    · exact ⟨i, by simp, h1⟩
    · rcases Outcome.bind_eq_throw h with h1 | ⟨r, -, h⟩
      · obtain ⟨j, hj, h2⟩ := ih h1
        exact ⟨j, by simp [hj], h2⟩
      · cases h

theorem seriesRate_throw {a b c d : ℚ} {e : Int} : seriesRate a b c d ≠ .throw e := by
  unfold seriesRate
  split
  · split <;> simp
  · split
    · simp
    · split <;> simp

theorem seiModel_throw {c : SPM N} {o : ℚ} {i : ℕ} {e : Int} (h : c.seiModel o i = .throw e) : e = 106 ∧ 4 < i := by
  unfold seiModel at h
  rcases i with _ | _ | _ | _ | _ | k
  · cases h
  · cases h
  · exact absurd h seriesRate_throw
  · exact absurd h seriesRate_throw
  · exact absurd h seriesRate_throw
  · injection h with h
    exact ⟨h.symm, by omega⟩

theorem csModel_throw {c : SPM N} {o : ℚ} {i : ℕ} {e : Int} (h : c.csModel o i = .throw e) :
    (e = 106 ∧ 5 < i) ∨ (e = 108 ∧ ((i = 1 ∧ c.stress.laresUpd = false) ∨ (i = 2 ∧ c.stress.daiUpd = false))) := by
  unfold csModel at h
  rcases i with _ | _ | _ | _ | _ | _ | k
  · cases h
  · simp only [zero_add] at h
    split at h
    · rename_i hu; injection h with h; exact .inr ⟨h.symm, .inl ⟨rfl, by simpa using hu⟩⟩
    · split at h <;> cases h
  · simp only [zero_add, Nat.reduceAdd] at h
    split at h
    · rename_i hu; injection h with h; exact .inr ⟨h.symm, .inr ⟨rfl, by simpa using hu⟩⟩
    · split at h <;> cases h
  · cases h
  · cases h
  · cases h
  · injection h with h
    exact .inl ⟨h.symm, by omega⟩

theorem lamModel_throw {c : SPM N} {i : ℕ} {e : Int} (h : c.lamModel i = .throw e) :
    (e = 106 ∧ 4 < i) ∨ (e = 108 ∧ i = 1 ∧ c.stress.daiUpd = false) ∨
    (e = 1 ∧ c.par.ocvP (c.cps / c.par.Cmaxpos) = none) := by
  unfold lamModel at h
  rcases i with _ | _ | _ | _ | _ | k
  · cases h
  · simp only [zero_add] at h
    split at h
    · rename_i hu; injection h with h; exact .inr (.inl ⟨h.symm, rfl, by simpa using hu⟩)
    · split at h <;> cases h
  · cases h
  · rcases Outcome.bind_eq_throw h with h1 | ⟨a, -, h⟩
    · exact .inr (.inr (look_throw h1))
    · cases h
  · cases h
  · injection h with h
    exact .inl ⟨h.symm, by omega⟩

/-- Why the degradation rates of a cell with updated stresses may be unavailable. -/
theorem degRate_throw {c : SPM N} {e : Int} (hd : c.stress.dai = true → c.stress.daiUpd = true)
    (hl : c.stress.lares = true → c.stress.laresUpd = true) (h : c.degRate = .throw e) :
    e = 101 ∨ (e = 1 ∧ ¬ CurvesCover c.par) ∨ (e = 106 ∧ unknownModel c.deg) ∨ (e = 108 ∧ ¬ StressPrepared c) := by
  unfold degRate at h
  simp only at h
  split at h
  · cases h
  split at h
  · injection h with h; exact .inl h.symm
  rename_i hc
  obtain ⟨hp, hn⟩ := concOk_frac (c := c) (by simpa using hc)
  split at h
  · cases h
  rcases Outcome.bind_eq_throw h with h1 | ⟨d, -, h⟩
  · exact .inr (.inl ⟨(look_throw h1).1, fun k => (k _ hp.1 hp.2).2.2.2.1 (look_throw h1).2⟩)
  rcases Outcome.bind_eq_throw h with h1 | ⟨n, -, h⟩
  · exact .inr (.inl ⟨(look_throw h1).1, fun k => (k _ hn.1 hn.2).2.1 (look_throw h1).2⟩)
  rcases Outcome.bind_eq_throw h with h1 | ⟨s, -, h⟩
  · unfold SEI at h1
    rcases Outcome.bind_eq_throw h1 with h2 | ⟨a, -, h2⟩
    · obtain ⟨i, hi, h3⟩ := sumModels_throw _ h2
      obtain ⟨h4, h5⟩ := seiModel_throw h3
      exact .inr (.inr (.inl ⟨h4, .inl ⟨i, hi, h5⟩⟩))
    · rcases hp : c.deg.SEIpor with _ | _ | k <;> rw [hp] at h2
      · cases h2
      · cases h2
      · injection h2 with h2
        exact .inr (.inr (.inl ⟨h2.symm, .inr (.inl (by omega))⟩))
  rcases Outcome.bind_eq_throw h with h1 | ⟨s, -, h⟩
  · unfold crack at h1
    rcases Outcome.bind_eq_throw h1 with h2 | ⟨a, -, h2⟩
    · obtain ⟨i, hi, h3⟩ := sumModels_throw _ h2
      rcases csModel_throw h3 with ⟨h4, h5⟩ | ⟨h4, ⟨h5, h6⟩ | ⟨h5, h6⟩⟩
      · exact .inr (.inr (.inl ⟨h4, .inr (.inr (.inl ⟨i, hi, h5⟩))⟩))
      · refine .inr (.inr (.inr ⟨h4, fun k => ?_⟩))
        have := hl (k.2 (List.any_eq_true.mpr ⟨i, hi, by simp [h5]⟩))
        rw [h6] at this; cases this
      · refine .inr (.inr (.inr ⟨h4, fun k => ?_⟩))
        have := hd (k.1 (by rw [Bool.or_eq_true]; exact .inl (List.any_eq_true.mpr ⟨i, hi, by simp [h5]⟩)))
        rw [h6] at this; cases this
    · rcases hp : c.deg.CSdiff with _ | _ | k <;> rw [hp] at h2
      · cases h2
      · simp only [zero_add] at h2
        split at h2 <;> cases h2
      · injection h2 with h2
        exact .inr (.inr (.inl ⟨h2.symm, .inr (.inr (.inr (.inl (by omega))))⟩))
  rcases Outcome.bind_eq_throw h with h1 | ⟨l, -, h⟩
  · obtain ⟨i, hi, h3⟩ := lamSum_throw _ h1
    rcases lamModel_throw h3 with ⟨h4, h5⟩ | ⟨h4, h5, h6⟩ | ⟨h4, h5⟩
    · exact .inr (.inr (.inl ⟨h4, .inr (.inr (.inr (.inr (.inl ⟨i, hi, h5⟩))))⟩))
    · refine .inr (.inr (.inr ⟨h4, fun k => ?_⟩))
      have := hd (k.1 (by rw [Bool.or_eq_true]; exact .inr (List.any_eq_true.mpr ⟨i, hi, by simp [h5]⟩)))
      rw [h6] at this; cases this
    · exact .inr (.inl ⟨h4, fun k => (k _ hp.1 hp.2).1 h5⟩)
  rcases Outcome.bind_eq_throw h with h1 | ⟨i, -, h⟩
  · unfold plating at h1
    rcases hp : c.deg.pl with _ | _ | k <;> rw [hp] at h1
    · cases h1
    · cases h1
    · injection h1 with h1
      exact .inr (.inr (.inl ⟨h1.symm, .inr (.inr (.inr (.inr (.inr (by omega)))))⟩))
  · cases h

/-- The stress flags after the updates. -/
theorem upd_flags {c : SPM N} (h : c.updDai.updLares.1 = .ok ()) :
    let a := c.updDai.updLares.2
    (a.stress.dai = true → a.stress.daiUpd = true) ∧ (a.stress.lares = true → a.stress.laresUpd = true) ∧
    a.stress.dai = c.stress.dai ∧ a.stress.lares = c.stress.lares := by
  have h1 : (c.updDai.stress.dai = true → c.updDai.stress.daiUpd = true) ∧ c.updDai.stress.dai = c.stress.dai ∧
      c.updDai.stress.lares = c.stress.lares := by
    unfold updDai
    split
    · exact ⟨fun _ => rfl, rfl, rfl⟩
    · rename_i hd; exact ⟨fun k => absurd k hd, rfl, rfl⟩
  generalize c.updDai = b at *
  unfold updLares at h ⊢
  split at h
  · rename_i hl
    rw [if_pos hl]
    split at h
    · cases h
    · rename_i hf
      rw [if_neg hf]
      split at h
      · cases h
      · rename_i hc
        rw [if_neg hc]
        rcases hk : look b.par.laresCurve (b.cns / b.par.Cmaxneg) with s | y | w <;> rw [hk] at h
        · exact ⟨h1.1, fun _ => rfl, h1.2.1, h1.2.2⟩
        · cases h
        · cases h
  · rename_i hl
    rw [if_neg hl]
    exact ⟨h1.1, fun k => absurd k hl, h1.2.1, h1.2.2⟩

theorem ageStep_throw {c : SPM N} {x : ℚ} {e : Int} (h : (c.ageStep x).1 = .throw e) :
    (e = 101 ∨ (e = 1 ∧ ¬ CurvesCover c.par) ∨ (e = 106 ∧ unknownModel c.deg) ∨ (e = 108 ∧ ¬ StressPrepared c)) ∧
    (c.ageStep x).2 = c.updDai.updLares.2 := by
  unfold ageStep at h ⊢
  have hs := (sameAge_upd c).1
  rcases andThen_throw h with ⟨h1, h2⟩ | ⟨h1, h2, h3⟩
  · refine ⟨?_, h2⟩
    have hp : c.updDai.par = c.par := by unfold updDai; split <;> rfl
    rcases updLares_throw h1 with k | k
    · exact .inl k
    · rw [hp] at k; exact .inr (.inl k)
  · rw [h3]
    obtain ⟨f1, f2, f3, f4⟩ := upd_flags h1
    rcases hd : c.updDai.updLares.2.degRate with d | y | w <;> rw [hd] at h2
    · cases h2
    · injection h2 with h2
      subst h2
      refine ⟨?_, rfl⟩
      have := degRate_throw f1 f2 hd
      rw [hs.par, hs.deg] at this
      rcases this with k | k | k | k
      · exact .inl k
      · exact .inr (.inl k)
      · exact .inr (.inr (.inl k))
      · refine .inr (.inr (.inr ⟨k.1, fun hp => k.2 ?_⟩))
        unfold StressPrepared
        rw [hs.deg, f3, f4]
        exact hp
    · cases h2

end Slide

import Verif.Lemmas.SPM
import Verif.Tac

/-! Lemmas about the degradation of the single-particle cell. -/

namespace Slide
open Spec SPM

variable {N : ℕ}

/-- `b` has the parameters, the selected models and the degradation states of `a`. -/
structure SameAge (a b : SPM N) : Prop where
  par : b.par = a.par
  deg : b.deg = a.deg
  delta : b.st.delta = a.st.delta
  LLI : b.st.LLI = a.st.LLI
  thickp : b.st.thickp = a.st.thickp
  thickn : b.st.thickn = a.st.thickn
  ep : b.st.ep = a.st.ep
  en : b.st.en = a.st.en
  ap : b.st.ap = a.st.ap
  an : b.st.an = a.st.an
  CS : b.st.CS = a.st.CS
  deltaPl : b.st.deltaPl = a.st.deltaPl
  Dn : b.st.Dn = a.st.Dn

theorem SameAge.refl (a : SPM N) : SameAge a a := ⟨rfl, rfl, rfl, rfl, rfl, rfl, rfl, rfl, rfl, rfl, rfl, rfl, rfl⟩

theorem SameAge.trans {a b c : SPM N} (h : SameAge a b) (k : SameAge b c) : SameAge a c :=
  ⟨k.par.trans h.par, k.deg.trans h.deg, k.delta.trans h.delta, k.LLI.trans h.LLI, k.thickp.trans h.thickp,
   k.thickn.trans h.thickn, k.ep.trans h.ep, k.en.trans h.en, k.ap.trans h.ap, k.an.trans h.an, k.CS.trans h.CS,
   k.deltaPl.trans h.deltaPl, k.Dn.trans h.Dn⟩

theorem sameAge_V (c : SPM N) : SameAge c c.V.2 := by
  rw [SPM.V_rest]; exact ⟨rfl, rfl, rfl, rfl, rfl, rfl, rfl, rfl, rfl, rfl, rfl, rfl, rfl⟩

theorem sameAge_checkCurrent (c : SPM N) (b : Bool) : SameAge c (c.checkCurrent b).2 := by
  rw [checkCurrent_snd]; split; exacts [sameAge_V c, .refl c]

theorem sameAge_setCurrent (c : SPM N) (i : ℚ) (b : Bool) : SameAge c (c.setCurrent i b).2 := by
  unfold setCurrent
  set c1 : SPM N := { c with st := { c.st with I := i }, valid := false } with hc1
  have h1 : SameAge c c1 := ⟨rfl, rfl, rfl, rfl, rfl, rfl, rfl, rfl, rfl, rfl, rfl, rfl, rfl⟩
  have h2 := sameAge_checkCurrent c1 b
  rcases hk : c1.checkCurrent b with ⟨s | e | w, c2⟩
  · rw [hk] at h2
    simp only [hk]
    split
    · have := h1.trans h2
      exact ⟨this.1, this.2, this.3, this.4, this.5, this.6, this.7, this.8, this.9, this.10, this.11, this.12, this.13⟩
    · exact h1.trans h2
  · rw [hk] at h2; simp only [hk]; exact h1.trans h2
  · rw [hk] at h2; simp only [hk]; exact h1.trans h2

theorem sameAge_setSOC (c : SPM N) (s : ℚ) (b : Bool) : SameAge c (c.setSOC s b).2 := by
  unfold setSOC
  split
  · exact .refl c
  · set c1 : SPM N := { c with st := { c.st with SOC := s } } with hc1
    have h1 : SameAge c c1 := ⟨rfl, rfl, rfl, rfl, rfl, rfl, rfl, rfl, rfl, rfl, rfl, rfl, rfl⟩
    cases b
    · exact h1
    · have hs : SameAge c1 c1.checkV.2 := by rw [checkV_snd]; exact sameAge_V c1
      rcases hk : c1.checkV with ⟨r | e | w, c2⟩
      · rw [hk] at hs
        simp only [if_true, hk]
        split
        · have := h1.trans hs
          exact ⟨this.1, this.2, this.3, this.4, this.5, this.6, this.7, this.8, this.9, this.10, this.11, this.12, this.13⟩
        · exact h1.trans hs
      · rw [hk] at hs; simp only [if_true, hk]; exact h1.trans hs
      · rw [hk] at hs; simp only [if_true, hk]; exact h1.trans hs

theorem sameAge_diffStep (c : SPM N) (dt : ℚ) : SameAge c (c.diffStep dt).2 := by
  unfold diffStep
  split
  · exact .refl c
  · have h1 : SameAge c (c.diffState dt) := ⟨rfl, rfl, rfl, rfl, rfl, rfl, rfl, rfl, rfl, rfl, rfl, rfl, rfl⟩
    have h2 := sameAge_V (c.diffState dt)
    rcases hk : (c.diffState dt).V with ⟨v | e | w, c2⟩
    · rw [hk] at h2
      have := h1.trans h2
      exact ⟨this.1, this.2, this.3, this.4, this.5, this.6, this.7, this.8, this.9, this.10, this.11, this.12, this.13⟩
    · rw [hk] at h2; exact h1.trans h2
    · rw [hk] at h2; exact h1.trans h2

theorem thermAlone_snd (c : SPM N) : c.thermAlone.2 = c ∨ c.thermAlone.2 = c.thermDone := by
  unfold thermAlone
  split
  · exact .inr rfl
  · split
    · exact .inl rfl
    · simp only
      split <;> exact .inr rfl

theorem sameAge_thermPass (c : SPM N) : SameAge c c.thermPass.2 ∧
    c.thermPass.2.st.I = c.st.I ∧ c.thermPass.2.stress.dt = c.stress.dt := by
  unfold thermPass
  split
  · exact ⟨.refl c, rfl, rfl⟩
  · have h2 : SameAge c c.thermAlone.2 ∧ c.thermAlone.2.st.I = c.st.I ∧
        c.thermAlone.2.stress.dt = c.stress.dt := by
      rcases thermAlone_snd c with e | e <;> rw [e]
      · exact ⟨.refl c, rfl, rfl⟩
      · exact ⟨⟨rfl, rfl, rfl, rfl, rfl, rfl, rfl, rfl, rfl, rfl, rfl, rfl, rfl⟩, rfl, rfl⟩
    rcases hk : c.thermAlone with ⟨t | e | w, c2⟩
    · rw [hk] at h2
      exact ⟨h2.1.trans ⟨rfl, rfl, rfl, rfl, rfl, rfl, rfl, rfl, rfl, rfl, rfl, rfl, rfl⟩, h2.2⟩
    · rw [hk] at h2; exact h2
    · rw [hk] at h2; exact h2

theorem sameAge_thermStep (c : SPM N) (h : ℚ) : SameAge c (c.thermStep h).2 ∧
    (c.thermStep h).2.st.I = c.st.I ∧ (c.thermStep h).2.stress.dt = c.stress.dt := by
  unfold thermStep
  rcases c.heat with q | e | w
  · have h2 := sameAge_thermPass ({ c with Qgen := c.Qgen + q * h, thermTime := c.thermTime + h } : SPM N)
    have h0 : SameAge c ({ c with Qgen := c.Qgen + q * h, thermTime := c.thermTime + h } : SPM N) :=
      ⟨rfl, rfl, rfl, rfl, rfl, rfl, rfl, rfl, rfl, rfl, rfl, rfl, rfl⟩
    exact ⟨h0.trans h2.1, h2.2⟩
  · exact ⟨.refl c, rfl, rfl⟩
  · exact ⟨.refl c, rfl, rfl⟩

theorem sameAge_upd (c : SPM N) : SameAge c c.updDai.updLares.2 ∧ c.updDai.updLares.2.st = c.st ∧
    c.updDai.updLares.2.stress.dt = c.stress.dt := by
  have h1 : SameAge c c.updDai ∧ c.updDai.st = c.st ∧ c.updDai.stress.dt = c.stress.dt := by
    unfold updDai; split
    · exact ⟨⟨rfl, rfl, rfl, rfl, rfl, rfl, rfl, rfl, rfl, rfl, rfl, rfl, rfl⟩, rfl, rfl⟩
    · exact ⟨.refl c, rfl, rfl⟩
  have h2 : ∀ a : SPM N, SameAge a a.updLares.2 ∧ a.updLares.2.st = a.st ∧ a.updLares.2.stress.dt = a.stress.dt := by
    intro a
    unfold updLares
    split
    · split
      · exact ⟨.refl a, rfl, rfl⟩
      · split
        · exact ⟨.refl a, rfl, rfl⟩
        · split
          · exact ⟨⟨rfl, rfl, rfl, rfl, rfl, rfl, rfl, rfl, rfl, rfl, rfl, rfl, rfl⟩, rfl, rfl⟩
          · exact ⟨.refl a, rfl, rfl⟩
          · exact ⟨.refl a, rfl, rfl⟩
    · exact ⟨.refl a, rfl, rfl⟩
  obtain ⟨a, b, e⟩ := h1
  obtain ⟨f, g, k⟩ := h2 c.updDai
  exact ⟨a.trans f, g.trans b, k.trans e⟩

/-- A time step either changes no degradation state, or adds the degradation rates of a cell of the same age. -/
theorem timeStep_age (c : SPM N) (dt : ℚ) (n : ℤ) :
    SameAge c (c.timeStep dt n).2 ∨
    (0 ≤ dt ∧ ∃ c1 d, SameAge c c1 ∧ c1.st.I = c.st.I ∧ c1.stress.dt = n * dt ∧ c1.degRate = .ok d ∧
      (c.timeStep dt n).2 = c1.addRate d (dt * n)) := by
  unfold timeStep
  split
  · exact .inl (.refl c)
  · rename_i hdt
    have hdt : 0 ≤ dt := not_lt.mp hdt
    have hI : ∀ a : SPM N, (a.diffStep dt).2.st.I = a.st.I ∧ (a.diffStep dt).2.stress.dt = a.stress.dt := by
      intro a
      unfold diffStep
      split
      · exact ⟨rfl, rfl⟩
      · have h2 := SPM.V_rest (a.diffState dt)
        rcases hk : (a.diffState dt).V with ⟨v | e | w, c2⟩ <;>
        · rw [hk] at h2; simp only at h2 ⊢; rw [h2]; exact ⟨rfl, rfl⟩
    have h1 := diffLoop_keeps (P := fun a => SameAge c a ∧ a.st.I = c.st.I ∧ a.stress.dt = n * dt) dt
      (fun a h => ⟨h.1.trans (sameAge_diffStep a dt), (hI a).1.trans h.2.1, (hI a).2.trans h.2.2⟩) n.toNat
      (c.rotate (n * dt)) ⟨⟨rfl, rfl, rfl, rfl, rfl, rfl, rfl, rfl, rfl, rfl, rfl, rfl, rfl⟩, rfl, rfl⟩
    generalize diffLoop dt n.toNat (c.rotate (n * dt)) = r at h1
    unfold SPM.andThen
    rcases r with ⟨_ | e | w, a⟩
    · simp only at h1 ⊢
      by_cases hb : a.block = true
      · rw [if_pos hb]; exact .inl h1.1
      · rw [if_neg hb]
        obtain ⟨h2, h2'⟩ := sameAge_thermStep a (dt * n)
        have hk2 : SameAge c (a.thermStep (dt * n)).2 ∧ (a.thermStep (dt * n)).2.st.I = c.st.I ∧
            (a.thermStep (dt * n)).2.stress.dt = n * dt :=
          ⟨h1.1.trans h2, h2'.1.trans h1.2.1, h2'.2.trans h1.2.2⟩
        generalize a.thermStep (dt * n) = r at hk2
        rcases r with ⟨_ | e | w, b⟩
        · simp only at hk2 ⊢
          unfold ageStep SPM.andThen
          obtain ⟨hu, hst, hsd⟩ := sameAge_upd b
          generalize b.updDai.updLares = r at hu hst hsd
          rcases r with ⟨_ | e | w, e1⟩
          · simp only at hu hst hsd ⊢
            rcases hd : e1.degRate with d | x | x
            · right
              exact ⟨hdt, e1, d, hk2.1.trans hu, by rw [hst]; exact hk2.2.1, hsd.trans hk2.2.2, hd, rfl⟩
            · exact .inl (hk2.1.trans hu)
            · exact .inl (hk2.1.trans hu)
          · exact .inl (hk2.1.trans hu)
          · exact .inl (hk2.1.trans hu)
        · exact .inl hk2.1
        · exact .inl hk2.1
    · exact .inl h1.1
    · exact .inl h1.1

/-! ### Signs of the rates -/

theorem seriesRate_nonneg {num a delta d x : ℚ} (hn : 0 ≤ num) (ha : 0 ≤ a) (hdel : 0 ≤ delta) (hd : 0 ≤ d)
    (h : seriesRate num a delta d = .ok x) : 0 ≤ x := by
  unfold seriesRate at h
  split at h
  · split at h
    · simp at h
    · exact (Outcome.ok.inj h).le
  · split at h
    · exact (Outcome.ok.inj h).le
    · split at h
      · simp at h
      · rw [← Outcome.ok.inj h]
        exact div_nonneg hn (add_nonneg (div_nonneg zero_le_one ha) (div_nonneg hdel hd))

theorem faraday_pos : (0 : ℚ) < Faraday := by unfold Faraday; norm_num

theorem sumModels_nonneg {f : ℕ → Outcome ℚ} (hf : ∀ i x, f i = .ok x → 0 ≤ x) (ids : List ℕ) :
    ∀ x, sumModels f ids = .ok x → 0 ≤ x := by
  induction ids with
  | nil => intro x h; exact (Outcome.ok.inj h).le
  | cons i is ih =>
    intro x h
    unfold sumModels at h
    obtain ⟨a, ha, h⟩ := Outcome.bind_eq_ok.mp h
    obtain ⟨r, hr, h⟩ := Outcome.bind_eq_ok.mp h
    rw [← Outcome.ok.inj h]
    exact add_nonneg (hf i a ha) (ih r hr)

theorem seiModel_nonneg {c : SPM N} (hp : SpmPhysical c.par) (hdel : 0 ≤ c.st.delta) (o : ℚ) (i : ℕ) (x : ℚ)
    (h : c.seiModel o i = .ok x) : 0 ≤ x := by
  have F := faraday_pos.le
  have n := hp.nsei.le
  have e := hp.exp
  have k : ∀ k y z : ℚ, 0 ≤ k → 0 ≤ c.par.nsei * Faraday * (k * c.par.exp y) * c.par.exp z := fun k y z hk =>
    mul_nonneg (mul_nonneg (mul_nonneg n F) (mul_nonneg hk (e _))) (e _)
  have k' : ∀ k y : ℚ, 0 ≤ k → 0 ≤ c.par.nsei * Faraday * (k * c.par.exp y) := fun k y hk =>
    mul_nonneg (mul_nonneg n F) (mul_nonneg hk (e _))
  have ha : 0 ≤ aLK := by unfold aLK; norm_num
  unfold seiModel at h
  split at h
  · exact (Outcome.ok.inj h).le
  · rw [← Outcome.ok.inj h]; exact k _ _ _ hp.k1
  · exact seriesRate_nonneg hp.c_elec0 (k _ _ _ hp.k2) hdel (k' _ _ hp.D2) h
  · exact seriesRate_nonneg (mul_nonneg ha (e _)) (k _ _ _ hp.k3) hdel (k' _ _ hp.D3) h
  · exact seriesRate_nonneg (mul_nonneg ha (e _)) (k _ _ _ hp.k4) hdel (k' _ _ hp.D4) h
  · simp at h

theorem kcr_nonneg {c : SPM N} (hp : SpmPhysical c.par) : 0 ≤ c.kcr := by
  unfold kcr
  have := hp.k5
  have e := hp.exp (c.par.cs.k5_T / Rgas * (1 / c.par.T_ref - 1 / c.st.T))
  split
  · exact le_refl _
  · split
    · positivity
    · split
      · exact le_refl _
      · positivity

theorem csModel_nonneg {c : SPM N} (hp : SpmPhysical c.par) (o : ℚ) (i : ℕ) (x : ℚ) (h : c.csModel o i = .ok x) :
    0 ≤ x := by
  have F := faraday_pos.le
  have n := hp.nsei.le
  unfold csModel at h
  split at h
  · exact (Outcome.ok.inj h).le
  · split at h
    · simp at h
    · split at h
      · simp at h
      · rw [← Outcome.ok.inj h]; exact mul_nonneg hp.a1 (hp.sqrt _)
  · split at h
    · simp at h
    · split at h
      · simp at h
      · rw [← Outcome.ok.inj h]; exact mul_nonneg hp.a2 (hp.sqrt _)
  · rw [← Outcome.ok.inj h]; exact mul_nonneg hp.a3 (sq_nonneg _)
  · rw [← Outcome.ok.inj h]
    exact mul_nonneg (mul_nonneg hp.a4 (sub_nonneg.mpr (le_max_right _ _))) (abs_nonneg _)
  · rw [← Outcome.ok.inj h]
    exact mul_nonneg (mul_nonneg (mul_nonneg n F) (kcr_nonneg hp)) (hp.exp _)
  · simp at h

theorem csMult_nonneg {c : SPM N} (hc : 0 ≤ c.st.CS) (hs : 0 ≤ c.anodeSurf) (ids : List ℕ) :
    0 ≤ (ids.map c.csMult).sum := by
  apply List.sum_nonneg
  intro x hx
  obtain ⟨i, -, rfl⟩ := List.mem_map.mp hx
  unfold csMult; split
  · exact le_refl _
  · exact div_nonneg hc hs

theorem plating_nonneg {c : SPM N} (hp : SpmPhysical c.par) (o x : ℚ) (h : c.plating o = .ok x) : 0 ≤ x := by
  unfold plating at h
  split at h
  · exact (Outcome.ok.inj h).le
  · rw [← Outcome.ok.inj h]
    exact mul_nonneg (mul_nonneg (mul_nonneg hp.npl.le faraday_pos.le) (mul_nonneg hp.kpl (hp.exp _))) (hp.exp _)
  · simp at h

theorem SEI_spec {c : SPM N} {o : ℚ} {p : ℚ × ℚ} (h : c.SEI o = .ok p) :
    sumModels (c.seiModel o) c.deg.SEI = .ok p.1 ∧
    (p.2 = 0 ∨ p.2 = -c.par.sei.porosity * (c.st.I / c.par.elecSurf / (c.st.an * c.par.n * Faraday * c.st.thickn) *
      c.par.Vmain + p.1 * c.par.Vsei)) ∧ (c.deg.SEIpor = 0 → p.2 = 0) := by
  unfold SEI at h
  obtain ⟨a, ha, h⟩ := Outcome.bind_eq_ok.mp h
  split at h
  · rw [← Outcome.ok.inj h]; exact ⟨ha, .inl rfl, fun _ => rfl⟩
  · rename_i hs
    rw [← Outcome.ok.inj h]; exact ⟨ha, .inr rfl, fun h0 => by rw [h0] at hs; exact absurd hs (by decide)⟩
  · simp at h

theorem crack_spec {c : SPM N} {o : ℚ} {p : ℚ × ℚ × ℚ} (h : c.crack o = .ok p) :
    sumModels (c.csModel o) c.deg.CS = .ok p.2.1 ∧ p.1 = (c.deg.CS.map c.csMult).sum := by
  unfold crack at h
  obtain ⟨a, ha, h⟩ := Outcome.bind_eq_ok.mp h
  split at h
  · rw [← Outcome.ok.inj h]; exact ⟨ha, rfl⟩
  · simp only at h
    split at h
    · simp at h
    · rw [← Outcome.ok.inj h]; exact ⟨ha, rfl⟩
  · simp at h

/-- What the degradation rates are made of. -/
theorem degRate_spec {c : SPM N} {d : DegRate N} (h : c.degRate = .ok d) :
    c.finite = true ∧ ∃ o sei cr l ipl, c.SEI o = .ok sei ∧ c.crack o = .ok cr ∧ c.lamSum c.deg.LAM = .ok l ∧
      c.plating o = .ok ipl ∧ d.delta = sei.1 / (c.par.nsei * Faraday * c.par.rhosei) ∧
      d.LLI = (sei.1 + sei.1 * cr.1 + ipl) * c.par.elecSurf * c.st.thickn * c.st.an ∧
      d.CS = cr.2.1 ∧ d.deltaPl = ipl / (c.par.npl * Faraday * c.par.rhopl) ∧
      d.thickp = l.thickp ∧ d.thickn = l.thickn ∧ d.ep = l.ep ∧ d.en = l.en + sei.2 ∧
      d.ap = l.ap + 3 / c.par.Rp * l.ep ∧ d.an = l.an + 3 / c.par.Rn * (l.en + sei.2) ∧ d.Dn = cr.2.2 ∧
      d.zn = fun j => c.par.M.Bn j * sei.1 / (c.par.nsei * Faraday) +
        c.par.M.Bn j * (sei.1 * cr.1) / (c.par.nsei * Faraday) + c.par.M.Bn j * ipl / (c.par.npl * Faraday) := by
  unfold degRate at h
  simp only at h
  split at h
  · simp at h
  · rename_i hf
    split at h
    · simp at h
    · split at h
      · simp at h
      · obtain ⟨d1, -, h⟩ := Outcome.bind_eq_ok.mp h
        obtain ⟨o1, -, h⟩ := Outcome.bind_eq_ok.mp h
        obtain ⟨sei, hsei, h⟩ := Outcome.bind_eq_ok.mp h
        obtain ⟨cr, hcr, h⟩ := Outcome.bind_eq_ok.mp h
        obtain ⟨l, hl, h⟩ := Outcome.bind_eq_ok.mp h
        obtain ⟨ipl, hpl, h⟩ := Outcome.bind_eq_ok.mp h
        have h := Outcome.ok.inj h
        refine ⟨by simpa using hf, _, sei, cr, l, ipl, hsei, hcr, hl, hpl, ?_⟩
        subst h
        exact ⟨rfl, rfl, rfl, rfl, rfl, rfl, rfl, rfl, rfl, rfl, rfl, rfl⟩

/-- The rates of the four one-way states are not negative. -/
theorem degRate_nonneg {c : SPM N} {d : DegRate N} (h : c.degRate = .ok d) (hp : SpmPhysical c.par)
    (hdel : 0 ≤ c.st.delta) :
    0 ≤ d.delta ∧ 0 ≤ d.CS ∧ 0 ≤ d.deltaPl ∧ (0 ≤ c.st.CS → 0 ≤ c.st.thickn * c.st.an → 0 ≤ d.LLI) := by
  obtain ⟨-, o, sei, cr, l, ipl, h1, h2, h3, h4, e1, e2, e3, e4, -⟩ := degRate_spec h
  have hs : 0 ≤ sei.1 := sumModels_nonneg (seiModel_nonneg hp hdel o) _ _ (SEI_spec h1).1
  have hc : 0 ≤ cr.2.1 := sumModels_nonneg (csModel_nonneg hp o) _ _ (crack_spec h2).1
  have hpl := plating_nonneg hp o ipl h4
  refine ⟨?_, ?_, ?_, ?_⟩
  · rw [e1]; exact div_nonneg hs (mul_nonneg (mul_nonneg hp.nsei.le faraday_pos.le) hp.rhosei.le)
  · rw [e3]; exact hc
  · rw [e4]; exact div_nonneg hpl (mul_nonneg (mul_nonneg hp.npl.le faraday_pos.le) hp.rhopl.le)
  · intro hCS hsurf
    have hm : 0 ≤ cr.1 := by
      rw [(crack_spec h2).2]
      refine csMult_nonneg hCS ?_ _
      unfold anodeSurf
      rw [show c.st.an * c.st.thickn = c.st.thickn * c.st.an by ring]
      exact mul_nonneg hsurf hp.elecSurf.le
    rw [e2, mul_assoc]
    exact mul_nonneg (mul_nonneg (add_nonneg (add_nonneg hs (mul_nonneg hs hm)) hpl) hp.elecSurf.le) hsurf

/-! ### Loss of active material -/

/-- All rates are not positive. -/
structure SPM.LamOut.NonPos (l : LamOut) : Prop where
  thickp : l.thickp ≤ 0
  thickn : l.thickn ≤ 0
  ap : l.ap ≤ 0
  an : l.an ≤ 0
  ep : l.ep ≤ 0
  en : l.en ≤ 0

theorem lamModel_nonpos {c : SPM N} (hp : SpmPhysical c.par) (hl : SpmPhysicalLam c.par) (hdt : 0 ≤ c.stress.dt)
    (hap : 0 ≤ c.st.ap) (han : 0 ≤ c.st.an) (i : ℕ) (l : LamOut) (h : c.lamModel i = .ok l) : l.NonPos := by
  have z : (0 : ℚ) ≤ 0 := le_refl _
  unfold lamModel at h
  split at h
  · rw [← Outcome.ok.inj h]; exact ⟨z, z, z, z, z, z⟩
  · split at h
    · simp at h
    · split at h
      · simp at h
      · rw [← Outcome.ok.inj h]
        have a : ∀ k x : ℚ, 0 ≤ k → -k * |x| / c.stress.dt ≤ 0 := fun k x hk =>
          div_nonpos_of_nonpos_of_nonneg (mul_nonpos_of_nonpos_of_nonneg (neg_nonpos.mpr hk) (abs_nonneg _)) hdt
        exact ⟨a _ _ hl.p1, a _ _ hl.n1, z, z, z, z⟩
  · simp only at h
    rw [← Outcome.ok.inj h]
    have e := hp.exp (c.par.lam.t2 * c.arrh)
    have a : ∀ u v x : ℚ, u ≤ 0 → v ≤ 0 →
        u * c.par.exp (c.par.lam.t2 * c.arrh) * |x| + v * c.par.exp (c.par.lam.t2 * c.arrh) * c.par.sqrt |x| ≤ 0 :=
      fun u v x hu hv => add_nonpos
        (mul_nonpos_of_nonpos_of_nonneg (mul_nonpos_of_nonpos_of_nonneg hu e) (abs_nonneg _))
        (mul_nonpos_of_nonpos_of_nonneg (mul_nonpos_of_nonpos_of_nonneg hv e) (hp.sqrt _))
    exact ⟨z, z, z, z, a _ _ _ hl.ap2 hl.bp2, a _ _ _ hl.an2 hl.bn2⟩
  · obtain ⟨o, -, h⟩ := Outcome.bind_eq_ok.mp h
    rw [← Outcome.ok.inj h]
    refine ⟨z, z, z, z, ?_, z⟩
    refine max_le (by norm_num) ?_
    refine div_nonpos_of_nonpos_of_nonneg ?_ (mul_nonneg hl.n.le faraday_pos.le)
    exact mul_nonpos_of_nonpos_of_nonneg (neg_nonpos.mpr (mul_nonneg hl.k3 (hp.exp _))) (hp.exp _)
  · rw [← Outcome.ok.inj h]
    exact ⟨z, z, mul_nonpos_of_nonpos_of_nonneg (neg_nonpos.mpr hl.p4) hap,
      mul_nonpos_of_nonpos_of_nonneg (neg_nonpos.mpr hl.n4) han, z, z⟩
  · simp at h

theorem lamSum_nonpos {c : SPM N} (hm : ∀ i l, c.lamModel i = .ok l → l.NonPos) (ids : List ℕ) :
    ∀ l, c.lamSum ids = .ok l → l.NonPos := by
  induction ids with
  | nil => intro l h; rw [← Outcome.ok.inj h]; exact ⟨le_refl _, le_refl _, le_refl _, le_refl _, le_refl _, le_refl _⟩
  | cons i is ih =>
    intro l h
    unfold lamSum at h
    obtain ⟨a, ha, h⟩ := Outcome.bind_eq_ok.mp h
    obtain ⟨r, hr, h⟩ := Outcome.bind_eq_ok.mp h
    rw [← Outcome.ok.inj h]
    have h1 := hm i a ha
    have h2 := ih r hr
    exact ⟨add_nonpos h1.1 h2.1, add_nonpos h1.2 h2.2, add_nonpos h1.3 h2.3, add_nonpos h1.4 h2.4,
      add_nonpos h1.5 h2.5, add_nonpos h1.6 h2.6⟩

/-- The rates of the amounts of active material are not positive, as long as the effective surfaces are not negative
and the porosity model is off or the cell is not charged. -/
theorem degRate_material {c : SPM N} {d : DegRate N} (h : c.degRate = .ok d) (hp : SpmPhysical c.par)
    (hl : SpmPhysicalLam c.par) (hdel : 0 ≤ c.st.delta) (hdt : 0 ≤ c.stress.dt) (hap : 0 ≤ c.st.ap)
    (han : 0 ≤ c.st.an) (htn : 0 ≤ c.st.thickn) (hpor : c.deg.SEIpor = 0 ∨ 0 ≤ c.st.I) :
    d.thickp ≤ 0 ∧ d.thickn ≤ 0 ∧ d.ep ≤ 0 ∧ d.en ≤ 0 ∧ d.ap ≤ 0 ∧ d.an ≤ 0 := by
  obtain ⟨-, o, sei, cr, l, ipl, h1, h2, h3, h4, -, -, -, -, e5, e6, e7, e8, e9, e10, -⟩ := degRate_spec h
  have hL := lamSum_nonpos (lamModel_nonpos hp hl hdt hap han) _ _ h3
  have hs : 0 ≤ sei.1 := sumModels_nonneg (seiModel_nonneg hp hdel o) _ _ (SEI_spec h1).1
  have hden : sei.2 ≤ 0 := by
    rcases hpor with h0 | hI
    · exact ((SEI_spec h1).2.2 h0).le
    · rcases (SEI_spec h1).2.1 with e | e
      · exact e.le
      · rw [e]
        refine mul_nonpos_of_nonpos_of_nonneg (neg_nonpos.mpr hl.por) (add_nonneg (mul_nonneg ?_ hl.Vmain)
          (mul_nonneg hs hl.Vsei))
        exact div_nonneg (div_nonneg hI hp.elecSurf.le)
          (mul_nonneg (mul_nonneg (mul_nonneg han hl.n.le) faraday_pos.le) htn)
  have hp3 : 0 ≤ 3 / c.par.Rp := div_nonneg (by norm_num) hl.Rp.le
  have hn3 : 0 ≤ 3 / c.par.Rn := div_nonneg (by norm_num) hl.Rn.le
  refine ⟨e5 ▸ hL.thickp, e6 ▸ hL.thickn, e7 ▸ hL.ep, e8 ▸ add_nonpos hL.en hden, ?_, ?_⟩
  · rw [e9]; exact add_nonpos hL.ap (mul_nonpos_of_nonneg_of_nonpos hp3 hL.ep)
  · rw [e10]; exact add_nonpos hL.an (mul_nonpos_of_nonneg_of_nonpos hn3 (add_nonpos hL.en hden))

/-! ### Unknown model identifiers -/

theorem sumModels_unknown {f : ℕ → Outcome ℚ} {k : ℕ} (hu : ∀ i, k < i → f i = .throw 106) :
    ∀ ids : List ℕ, (∀ i ∈ ids, i ≤ k → ∃ x, f i = .ok x) →
      ((∃ i ∈ ids, k < i) → sumModels f ids = .throw 106) ∧ ((∀ i ∈ ids, i ≤ k) → ∃ x, sumModels f ids = .ok x)
  | [], _ => ⟨fun ⟨_, h, _⟩ => absurd h (by simp), fun _ => ⟨0, rfl⟩⟩
  | i :: is, hk => by
    have ih := sumModels_unknown hu is (fun j hj => hk j (List.mem_cons_of_mem _ hj))
    by_cases hi : k < i
    · refine ⟨fun _ => ?_, fun h => absurd (h i (List.mem_cons_self ..)) (not_le.mpr hi)⟩
      simp [sumModels, hu i hi, bind, Outcome.bind]
    · obtain ⟨x, hx⟩ := hk i (List.mem_cons_self ..) (not_lt.mp hi)
      refine ⟨fun ⟨j, hj, hjk⟩ => ?_, fun h => ?_⟩
      · rcases List.mem_cons.mp hj with e | hj
        · rw [e] at hjk; exact absurd hjk hi
        · have := ih.1 ⟨j, hj, hjk⟩
          simp [sumModels, hx, this, bind, Outcome.bind]
      · obtain ⟨y, hy⟩ := ih.2 (fun j hj => h j (List.mem_cons_of_mem _ hj))
        exact ⟨x + y, by simp [sumModels, hx, hy, bind, Outcome.bind]⟩

theorem lamSum_unknown {c : SPM N} (hu : ∀ i, 4 < i → c.lamModel i = .throw 106) :
    ∀ ids : List ℕ, (∀ i ∈ ids, i ≤ 4 → ∃ x, c.lamModel i = .ok x) →
      ((∃ i ∈ ids, 4 < i) → c.lamSum ids = .throw 106) ∧ ((∀ i ∈ ids, i ≤ 4) → ∃ x, c.lamSum ids = .ok x)
  | [], _ => ⟨fun ⟨_, h, _⟩ => absurd h (by simp), fun _ => ⟨{}, rfl⟩⟩
  | i :: is, hk => by
    have ih := lamSum_unknown hu is (fun j hj => hk j (List.mem_cons_of_mem _ hj))
    by_cases hi : 4 < i
    · refine ⟨fun _ => ?_, fun h => absurd (h i (List.mem_cons_self ..)) (not_le.mpr hi)⟩
      simp [lamSum, hu i hi, bind, Outcome.bind]
    · obtain ⟨x, hx⟩ := hk i (List.mem_cons_self ..) (not_lt.mp hi)
      refine ⟨fun ⟨j, hj, hjk⟩ => ?_, fun h => ?_⟩
      · rcases List.mem_cons.mp hj with e | hj
        · rw [e] at hjk; exact absurd hjk hi
        · have := ih.1 ⟨j, hj, hjk⟩
          simp [lamSum, hx, this, bind, Outcome.bind]
      · obtain ⟨y, hy⟩ := ih.2 (fun j hj => h j (List.mem_cons_of_mem _ hj))
        exact ⟨x.add y, by simp [lamSum, hx, hy, bind, Outcome.bind]⟩

theorem seiModel_unknown (c : SPM N) (o : ℚ) (i : ℕ) (h : 4 < i) : c.seiModel o i = .throw 106 := by
  obtain ⟨k, rfl⟩ : ∃ k, i = k + 5 := ⟨i - 5, by omega⟩
  rfl

theorem csModel_unknown (c : SPM N) (o : ℚ) (i : ℕ) (h : 5 < i) : c.csModel o i = .throw 106 := by
  obtain ⟨k, rfl⟩ : ∃ k, i = k + 6 := ⟨i - 6, by omega⟩
  rfl

theorem lamModel_unknown (c : SPM N) (i : ℕ) (h : 4 < i) : c.lamModel i = .throw 106 := by
  obtain ⟨k, rfl⟩ : ∃ k, i = k + 5 := ⟨i - 5, by omega⟩
  rfl

theorem SEI_unknown {c : SPM N} {o : ℚ} (hk : KnownModelsRun c o) :
    (((∃ i ∈ c.deg.SEI, 4 < i) ∨ 1 < c.deg.SEIpor) → c.SEI o = .throw 106) ∧
    ((∀ i ∈ c.deg.SEI, i ≤ 4) → c.deg.SEIpor ≤ 1 → ∃ x, c.SEI o = .ok x) := by
  have hs := sumModels_unknown (seiModel_unknown c o) c.deg.SEI hk.sei
  constructor
  · intro h
    by_cases hu : ∃ i ∈ c.deg.SEI, 4 < i
    · simp [SEI, hs.1 hu, bind, Outcome.bind]
    · have h1 := h.resolve_left hu
      obtain ⟨x, hx⟩ := hs.2 (fun i hi => by by_contra hc; exact hu ⟨i, hi, not_le.mp hc⟩)
      obtain ⟨k, hk⟩ : ∃ k, c.deg.SEIpor = k + 2 := ⟨c.deg.SEIpor - 2, by omega⟩
      simp [SEI, hx, hk, bind, Outcome.bind]
  · intro h1 h2
    obtain ⟨x, hx⟩ := hs.2 h1
    unfold SEI
    rw [hx]
    rcases hp : c.deg.SEIpor with _ | _ | k
    · exact ⟨_, rfl⟩
    · exact ⟨_, rfl⟩
    · omega

theorem crack_unknown {c : SPM N} {o : ℚ} (hk : KnownModelsRun c o) :
    (((∃ i ∈ c.deg.CS, 5 < i) ∨ 1 < c.deg.CSdiff) → c.crack o = .throw 106) ∧
    ((∀ i ∈ c.deg.CS, i ≤ 5) → c.deg.CSdiff ≤ 1 → ∃ x, c.crack o = .ok x) := by
  have hs := sumModels_unknown (csModel_unknown c o) c.deg.CS hk.cs
  constructor
  · intro h
    by_cases hu : ∃ i ∈ c.deg.CS, 5 < i
    · simp [crack, hs.1 hu, bind, Outcome.bind]
    · have h1 := h.resolve_left hu
      obtain ⟨x, hx⟩ := hs.2 (fun i hi => by by_contra hc; exact hu ⟨i, hi, not_le.mp hc⟩)
      obtain ⟨k, hk⟩ : ∃ k, c.deg.CSdiff = k + 2 := ⟨c.deg.CSdiff - 2, by omega⟩
      simp [crack, hx, hk, bind, Outcome.bind]
  · intro h1 h2
    obtain ⟨x, hx⟩ := hs.2 h1
    unfold crack
    rw [hx]
    rcases hp : c.deg.CSdiff with _ | _ | k
    · exact ⟨_, rfl⟩
    · refine ⟨((c.deg.CS.map c.csMult).sum, x, -(min (2 / 10000000) (c.par.cs.diffusion *
          c.par.pow (1 - c.st.CS / max c.par.cs.Amax c.st.CS) (c.par.cs.diffusion - 1) /
            max c.par.cs.Amax c.st.CS * x)) * c.st.Dn), ?_⟩
      have := hk.area
      simp only [bind, Outcome.bind, zero_add]
      rw [if_neg this]
    · omega

theorem plating_unknown (c : SPM N) (o : ℚ) :
    (1 < c.deg.pl → c.plating o = .throw 106) ∧ (c.deg.pl ≤ 1 → ∃ x, c.plating o = .ok x) := by
  unfold plating
  rcases hp : c.deg.pl with _ | _ | k
  · exact ⟨fun h => by omega, fun _ => ⟨_, rfl⟩⟩
  · exact ⟨fun h => by omega, fun _ => ⟨_, rfl⟩⟩
  · exact ⟨fun h => rfl, fun h => by omega⟩

end Slide

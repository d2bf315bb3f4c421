import Verif.Spec.AgeingLaws
import Verif.Props.SideReactions
import Verif.Props.SpmHeat

/-!
Lemmas for the laws of ageing: what a successful time step of an ageing cell consists of, and each model as a law.
-/

namespace Slide
open Spec SPM

variable {N : ℕ}

/-! ### A successful step -/

/-- What the step of `c` knows about stress when it computes the rates for `b`. -/
structure Stressed (c b : SPM N) (h : ℚ) : Prop where
  dt : b.stress.dt = h
  lares : c.stress.lares = true → b.stress.laresUpd = true ∧
    b.par.laresCurve (b.cns / b.par.Cmaxneg) = some b.stress.laresN
  dai : c.stress.dai = true → b.stress.daiUpd = true ∧ b.stress.daiP = (b.par.dai b.st).1 ∧
    b.stress.daiN = (b.par.dai b.st).2
  laresPrev : b.stress.laresNprev = c.stress.laresN
  daiPprev : b.stress.daiPprev = c.stress.daiP
  daiNprev : b.stress.daiNprev = c.stress.daiN

theorem upd_stressed (a : SPM N) (h : a.updDai.updLares.1 = .ok ()) :
    (a.updDai.updLares.2.par = a.par ∧ a.updDai.updLares.2.st = a.st ∧ a.updDai.updLares.2.block = a.block) ∧
      (a.updDai.updLares.2.stress.dt = a.stress.dt ∧ a.updDai.updLares.2.stress.laresNprev = a.stress.laresNprev ∧
        a.updDai.updLares.2.stress.daiPprev = a.stress.daiPprev ∧
        a.updDai.updLares.2.stress.daiNprev = a.stress.daiNprev) ∧
      (a.stress.lares = true → a.updDai.updLares.2.stress.laresUpd = true ∧
        a.par.laresCurve (a.cns / a.par.Cmaxneg) = some a.updDai.updLares.2.stress.laresN) ∧
      (a.stress.dai = true → a.updDai.updLares.2.stress.daiUpd = true ∧
        a.updDai.updLares.2.stress.daiP = (a.par.dai a.st).1 ∧
        a.updDai.updLares.2.stress.daiN = (a.par.dai a.st).2) := by
  have key : ∀ b : SPM N, b.updLares.1 = .ok () →
      (b.updLares.2.par = b.par ∧ b.updLares.2.st = b.st ∧ b.updLares.2.block = b.block) ∧
      (b.updLares.2.stress.dt = b.stress.dt ∧ b.updLares.2.stress.laresNprev = b.stress.laresNprev ∧
        b.updLares.2.stress.daiPprev = b.stress.daiPprev ∧ b.updLares.2.stress.daiNprev = b.stress.daiNprev) ∧
      (b.stress.lares = true → b.updLares.2.stress.laresUpd = true ∧
        b.par.laresCurve (b.cns / b.par.Cmaxneg) = some b.updLares.2.stress.laresN) ∧
      b.updLares.2.stress.daiUpd = b.stress.daiUpd ∧ b.updLares.2.stress.daiP = b.stress.daiP ∧
      b.updLares.2.stress.daiN = b.stress.daiN := by
    intro b hb
    unfold updLares at hb ⊢
    by_cases h1 : b.stress.lares = true
    · rw [if_pos h1] at hb ⊢
      by_cases h2 : (!b.finite) = true
      · rw [if_pos h2] at hb; cases hb
      rw [if_neg h2] at hb ⊢
      by_cases h3 : b.cps < 0 ∨ b.cns < 0 ∨ b.cps > b.par.Cmaxpos ∨ b.cns > b.par.Cmaxneg
      · rw [if_pos h3] at hb; cases hb
      rw [if_neg h3] at hb ⊢
      unfold look at hb ⊢
      rcases hl : b.par.laresCurve (b.cns / b.par.Cmaxneg) with _ | s
      · rw [hl] at hb; cases hb
      · exact ⟨⟨rfl, rfl, rfl⟩, ⟨rfl, rfl, rfl, rfl⟩, fun _ => ⟨rfl, rfl⟩, rfl, rfl, rfl⟩
    · rw [if_neg h1]
      exact ⟨⟨rfl, rfl, rfl⟩, ⟨rfl, rfl, rfl, rfl⟩, fun h => absurd h h1, rfl, rfl, rfl⟩
  have kd : (a.updDai.par = a.par ∧ a.updDai.st = a.st ∧ a.updDai.block = a.block) ∧
      (a.updDai.stress.dt = a.stress.dt ∧ a.updDai.stress.laresNprev = a.stress.laresNprev ∧
        a.updDai.stress.daiPprev = a.stress.daiPprev ∧ a.updDai.stress.daiNprev = a.stress.daiNprev) ∧
      a.updDai.stress.lares = a.stress.lares ∧ a.updDai.cns = a.cns ∧
      (a.stress.dai = true → a.updDai.stress.daiUpd = true ∧ a.updDai.stress.daiP = (a.par.dai a.st).1 ∧
        a.updDai.stress.daiN = (a.par.dai a.st).2) := by
    unfold updDai
    by_cases h1 : a.stress.dai = true
    · rw [if_pos h1]
      exact ⟨⟨rfl, rfl, rfl⟩, ⟨rfl, rfl, rfl, rfl⟩, rfl, rfl, fun _ => ⟨rfl, rfl, rfl⟩⟩
    · rw [if_neg h1]
      exact ⟨⟨rfl, rfl, rfl⟩, ⟨rfl, rfl, rfl, rfl⟩, rfl, rfl, fun h => absurd h h1⟩
  obtain ⟨⟨k1, k2, k3⟩, ⟨k4, k5, k6, k7⟩, k8, k9, k10⟩ := kd
  obtain ⟨⟨m1, m2, m3⟩, ⟨m4, m5, m6, m7⟩, m8, m9, m10, m11⟩ := key a.updDai h
  refine ⟨⟨m1.trans k1, m2.trans k2, m3.trans k3⟩, ⟨m4.trans k4, m5.trans k5, m6.trans k6, m7.trans k7⟩, ?_, ?_⟩
  · intro hl
    have := m8 (k8.trans hl)
    rw [k1, k9] at this
    exact this
  · intro hd
    obtain ⟨q1, q2, q3⟩ := k10 hd
    exact ⟨m9.trans q1, m10.trans q2, m11.trans q3⟩

theorem diffStep_memory (a : SPM N) (dt : ℚ) : (a.diffStep dt).2.stress.dt = a.stress.dt ∧
    (a.diffStep dt).2.stress.laresNprev = a.stress.laresNprev ∧ (a.diffStep dt).2.stress.daiPprev = a.stress.daiPprev ∧
    (a.diffStep dt).2.stress.daiNprev = a.stress.daiNprev ∧ (a.diffStep dt).2.stress.lares = a.stress.lares ∧
    (a.diffStep dt).2.stress.dai = a.stress.dai ∧ (a.diffStep dt).2.block = a.block ∧ (a.diffStep dt).2.st.T = a.st.T := by
  unfold diffStep
  split
  · exact ⟨rfl, rfl, rfl, rfl, rfl, rfl, rfl, rfl⟩
  · have h2 := SPM.V_rest (a.diffState dt)
    rcases hk : (a.diffState dt).V with ⟨v | e | w, c2⟩ <;>
    · rw [hk] at h2; simp only at h2 ⊢; rw [h2]; exact ⟨rfl, rfl, rfl, rfl, rfl, rfl, rfl, rfl⟩

theorem thermStep_memory (a : SPM N) (x : ℚ) : (a.thermStep x).2.par = a.par ∧
    (a.thermStep x).2.st = { a.st with T := (a.thermStep x).2.st.T } ∧ (a.thermStep x).2.block = a.block ∧
    (a.thermStep x).2.stress.dt = a.stress.dt ∧
    (a.thermStep x).2.stress.laresNprev = a.stress.laresNprev ∧ (a.thermStep x).2.stress.daiPprev = a.stress.daiPprev ∧
    (a.thermStep x).2.stress.daiNprev = a.stress.daiNprev ∧ (a.thermStep x).2.stress.lares = a.stress.lares ∧
    (a.thermStep x).2.stress.dai = a.stress.dai := by
  unfold thermStep
  rcases a.heat with q | e | w
  · dsimp only
    unfold thermPass
    dsimp only
    split
    · exact ⟨rfl, rfl, rfl, rfl, rfl, rfl, rfl, rfl, rfl⟩
    · have h := thermAlone_snd ({ a with Qgen := a.Qgen + q * x, thermTime := a.thermTime + x } : SPM N)
      rcases hk : ({ a with Qgen := a.Qgen + q * x, thermTime := a.thermTime + x } : SPM N).thermAlone with ⟨t | e | w, c2⟩ <;>
      · rw [hk] at h
        dsimp only at h ⊢
        rcases h with h | h <;> rw [h] <;> exact ⟨rfl, rfl, rfl, rfl, rfl, rfl, rfl, rfl, rfl⟩
  · exact ⟨rfl, rfl, rfl, rfl, rfl, rfl, rfl, rfl, rfl⟩
  · exact ⟨rfl, rfl, rfl, rfl, rfl, rfl, rfl, rfl, rfl⟩

/-- A successful step of a cell which ages adds rates computed for the cell after diffusion and heating. -/
theorem timeStep_ages {c : SPM N} {dt : ℚ} {n : ℤ} (h : (c.timeStep dt n).1 = .ok ()) (hb : c.block = false) :
    ∃ b d, b.par = c.par ∧ b.deg = c.deg ∧ b.st = (beforeAgeing c dt n).st ∧ (beforeAgeing c dt n).par = c.par ∧
      SameAge c b ∧ Stressed c b (dt * n) ∧ b.degRate = .ok d ∧ (c.timeStep dt n).2 = b.addRate d (dt * n) ∧
      b.st.I = c.st.I ∧ b.block = false := by
  obtain ⟨hdt, hl, -⟩ := timeStep_ok h
  have et := blockedTwin_eq c hdt hl
  have h0 := diffLoop_keeps (P := fun a => SameAge c a ∧ (a.stress.dt = n * dt ∧ a.stress.laresNprev = c.stress.laresN ∧
      a.stress.daiPprev = c.stress.daiP ∧ a.stress.daiNprev = c.stress.daiN ∧ a.stress.lares = c.stress.lares ∧
      a.stress.dai = c.stress.dai ∧ a.block = false) ∧ a.st.I = c.st.I) dt
    (fun a k => ⟨k.1.trans (sameAge_diffStep a dt), by
      obtain ⟨m1, m2, m3, m4, m5, m6, m7, -⟩ := diffStep_memory a dt
      obtain ⟨k1, k2, k3, k4, k5, k6, k7⟩ := k.2.1
      exact ⟨m1.trans k1, m2.trans k2, m3.trans k3, m4.trans k4, m5.trans k5, m6.trans k6, m7.trans k7⟩, by
      rw [← k.2.2]
      unfold diffStep
      split
      · rfl
      · have h2 := SPM.V_rest (a.diffState dt)
        rcases hk : (a.diffState dt).V with ⟨v | e | w, c2⟩ <;>
        · rw [hk] at h2; simp only at h2 ⊢; rw [h2]; rfl⟩) n.toNat (c.rotate (n * dt))
    ⟨⟨rfl, rfl, rfl, rfl, rfl, rfl, rfl, rfl, rfl, rfl, rfl, rfl, rfl⟩, ⟨rfl, rfl, rfl, rfl, rfl, rfl, hb⟩, rfl⟩
  have es : (c.timeStep dt n) = SPM.andThen ((SPM.diffLoop dt n.toNat (c.rotate (n * dt))).2.thermStep (dt * n))
      fun c2 => c2.ageStep (dt * n) := by
    unfold timeStep
    rw [if_neg (not_lt.mpr hdt)]
    unfold SPM.andThen
    rw [hl]
    dsimp only
    rw [if_neg (by rw [h0.2.1.2.2.2.2.2.2]; simp)]
  obtain ⟨a, ha⟩ : ∃ a, a = (SPM.diffLoop dt n.toNat (c.rotate (n * dt))).2 := ⟨_, rfl⟩
  rw [← ha] at es h0 et
  obtain ⟨h1, ⟨m1, m2, m3, m4, m5, m6, m7⟩, hI⟩ := h0
  obtain ⟨t1, t2, t3, t4, t5, t6, t7, t8, t9⟩ := thermStep_memory a (dt * n)
  have ht := (sameAge_thermStep a (dt * n)).1
  have htI := (sameAge_thermStep a (dt * n)).2.1
  unfold SPM.andThen at es
  rcases hk : a.thermStep (dt * n) with ⟨_ | e | w, b⟩
  · rw [hk] at es t1 t2 t3 t4 t5 t6 t7 t8 t9 ht htI
    dsimp only at es t1 t2 t3 t4 t5 t6 t7 t8 t9 ht htI
    have hT : (c.timeStep dt n).2.st.T = b.st.T := by rw [es]; exact (ageStep_heat b (dt * n)).2.2.2
    unfold ageStep SPM.andThen at es
    have hu := upd_stressed b
    have hu' := (sameAge_upd b).1
    rcases hk2 : b.updDai.updLares with ⟨_ | e | w, b1⟩
    · rw [hk2] at es hu hu'
      dsimp only at es hu hu'
      obtain ⟨⟨u1, u2, u3⟩, ⟨u4, u5, u6, u7⟩, u8, u9⟩ := hu rfl
      rcases hd : b1.degRate with d | x | x
      · rw [hd] at es
        have eb : b1.st = (beforeAgeing c dt n).st := by
          unfold beforeAgeing
          rw [hT, et, u2, t2]
        have ep : (beforeAgeing c dt n).par = c.par := by
          show (blockedTwin c dt n).par = c.par
          rw [et]; exact h1.par
        have esa := (h1.trans ht).trans hu'
        refine ⟨b1, d, esa.par, esa.deg, eb, ep, esa, ?_, hd, congrArg Prod.snd es, by rw [u2, htI, hI], by rw [u3, t3, m7]⟩
        have ecn : b1.cns = b.cns := by unfold cns Dnt arrh jn iApp; rw [u1, u2]
        refine ⟨by rw [u4, t4, m1]; ring, fun hl => ?_, fun hd' => ?_, by rw [u5, t5, m2], by rw [u6, t6, m3],
          by rw [u7, t7, m4]⟩
        · obtain ⟨q1, q2⟩ := u8 (by rw [t8, m5, hl])
          exact ⟨q1, by rw [u1, ecn]; exact q2⟩
        · obtain ⟨q1, q2, q3⟩ := u9 (by rw [t9, m6, hd'])
          exact ⟨q1, by rw [u1, u2]; exact q2, by rw [u1, u2]; exact q3⟩
      · rw [hd] at es; rw [es] at h; cases h
      · rw [hd] at es; rw [es] at h; cases h
    · rw [hk2] at es; rw [es] at h; cases h
    · rw [hk2] at es; rw [es] at h; cases h
  · rw [hk] at es; rw [es] at h; cases h
  · rw [hk] at es; rw [es] at h; cases h

/-! ### The laws depend on states and parameters only -/

theorem seiLaw_congr {a b : SPM N} (hp : a.par = b.par) (hs : a.st = b.st) : SeiLaw a = SeiLaw b := by
  cases a; cases b; dsimp only at hp hs; subst hp hs; rfl

theorem crackLaw_congr {a b : SPM N} (hp : a.par = b.par) (hs : a.st = b.st) : CrackLaw a = CrackLaw b := by
  cases a; cases b; dsimp only at hp hs; subst hp hs; rfl

theorem lamLaw_congr {a b : SPM N} (hp : a.par = b.par) (hs : a.st = b.st) : LamLaw a = LamLaw b := by
  cases a; cases b; dsimp only at hp hs; subst hp hs; rfl

theorem platingLaw_congr {a b : SPM N} (hp : a.par = b.par) (hs : a.st = b.st) : PlatingLaw a = PlatingLaw b := by
  cases a; cases b; dsimp only at hp hs; subst hp hs; rfl

theorem porosityLaw_congr {a b : SPM N} (hp : a.par = b.par) (hs : a.st = b.st) : PorosityLaw a = PorosityLaw b := by
  cases a; cases b; dsimp only at hp hs; subst hp hs; rfl

theorem diffusionLaw_congr {a b : SPM N} (hp : a.par = b.par) (hs : a.st = b.st) : DiffusionLaw a = DiffusionLaw b := by
  cases a; cases b; dsimp only at hp hs; subst hp hs; rfl

theorem anodePotential_congr {a b : SPM N} (hp : a.par = b.par) (hs : a.st = b.st) :
    AnodePotential a = AnodePotential b := by
  cases a; cases b; dsimp only at hp hs; subst hp hs; rfl

theorem surface_congr {a b : SPM N} (hp : a.par = b.par) (hs : a.st = b.st) : a.cns = b.cns ∧ a.cps = b.cps := by
  cases a; cases b; dsimp only at hp hs; subst hp hs; exact ⟨rfl, rfl⟩

/-! ### Each model obeys its law -/

theorem sumOf_iff {f : ℕ → Outcome ℚ} {law : ℕ → ℚ → Prop} {l : List ℕ} (h : ∀ i ∈ l, ∀ x, f i = .ok x → law i x) :
    ∀ x, sumModels f l = .ok x → SumOf law l x := by
  induction l with
  | nil => intro x hx; rw [← Outcome.ok.inj hx]; exact .nil
  | cons i is ih =>
    intro x hx
    unfold sumModels at hx
    obtain ⟨a, ha, hx⟩ := Outcome.bind_eq_ok.mp hx
    obtain ⟨r, hr, hx⟩ := Outcome.bind_eq_ok.mp hx
    rw [← Outcome.ok.inj hx]
    exact .cons (h i (List.mem_cons_self ..) a ha) (ih (fun j hj => h j (List.mem_cons_of_mem _ hj)) r hr)

theorem lamSumOf {c : SPM N} {law : ℕ → LamOut → Prop} {l : List ℕ} (h : ∀ i ∈ l, ∀ x, c.lamModel i = .ok x → law i x) :
    ∀ x, c.lamSum l = .ok x → LamSumOf law l x := by
  induction l with
  | nil => intro x hx; rw [← Outcome.ok.inj hx]; exact .nil
  | cons i is ih =>
    intro x hx
    unfold lamSum at hx
    obtain ⟨a, ha, hx⟩ := Outcome.bind_eq_ok.mp hx
    obtain ⟨r, hr, hx⟩ := Outcome.bind_eq_ok.mp hx
    rw [← Outcome.ok.inj hx]
    exact .cons (h i (List.mem_cons_self ..) a ha) (ih (fun j hj => h j (List.mem_cons_of_mem _ hj)) r hr)
      rfl rfl rfl rfl rfl rfl

theorem plating_law {c : SPM N} {o j : ℚ} (h : c.plating o = .ok j) : PlatingLaw c o c.deg.pl j := by
  unfold plating at h
  rcases hk : c.deg.pl with _ | _ | k
  · rw [hk] at h; exact (Outcome.ok.inj h).symm
  · rw [hk] at h
    rw [← Outcome.ok.inj h]
    show _ = _
    unfold atTemperature tafel arrh
    rw [show Rgas = 8314 / 1000 from rfl, show Faraday = 96487 from rfl]
    ring
  · rw [hk] at h; cases h

theorem crack_law {c b : SPM N} {h o : ℚ} (hs : Stressed c b h) (i : ℕ) (h1 : i = 1 → c.stress.lares = true)
    (h2 : i = 2 → c.stress.dai = true) {g : ℚ} (hg : b.csModel o i = .ok g) : CrackLaw b c.stress h o i g := by
  unfold csModel at hg
  dsimp only at hg
  rcases i with _ | _ | _ | _ | _ | _ | i
  · exact (Outcome.ok.inj hg).symm
  · obtain ⟨u, v⟩ := hs.lares (h1 rfl)
    rw [if_neg (by rw [u]; simp), hs.dt, hs.laresPrev] at hg
    by_cases hd : h = 0
    · rw [if_pos hd] at hg; cases hg
    · rw [if_neg hd] at hg
      exact ⟨_, v, (Outcome.ok.inj hg).symm⟩
  · obtain ⟨u, -, v⟩ := hs.dai (h2 rfl)
    change (if (!b.stress.daiUpd) = true then Outcome.throw 108 else if b.stress.dt = 0 then .ub "division by zero" else
      .ok (b.par.cs.a2 * b.par.sqrt (|b.stress.daiN - b.stress.daiNprev| / b.stress.dt))) = _ at hg
    rw [if_neg (by rw [u]; simp), hs.dt, hs.daiNprev, v] at hg
    by_cases hd : h = 0
    · rw [if_pos hd] at hg; cases hg
    · rw [if_neg hd] at hg
      exact (Outcome.ok.inj hg).symm
  · exact (Outcome.ok.inj hg).symm
  · rw [← Outcome.ok.inj hg]
    show _ = _
    by_cases hc : b.st.CS ≤ b.par.cs.Amax
    · rw [if_pos hc, max_eq_left hc]
    · rw [if_neg hc, max_eq_right (not_le.mp hc).le, sub_self, mul_zero, zero_mul]
  · rw [← Outcome.ok.inj hg]
    show _ = _
    have ek : b.kcr = expansion b := by
      unfold kcr expansion atTemperature
      rw [show b.par.cs.k5_T / Rgas * (1 / b.par.T_ref - 1 / b.st.T) =
        b.par.cs.k5_T * ((1 / b.par.T_ref - 1 / b.st.T) / (8314 / 1000)) by rw [show Rgas = 8314 / 1000 from rfl]; ring]
      dsimp only
      by_cases q1 : 0 < b.st.I
      · rw [if_pos q1, if_pos q1]
      · rw [if_neg q1, if_neg q1]
        by_cases q2 : b.cns / b.par.Cmaxneg < 3 / 10
        · rw [if_pos q2, if_pos q2]; ring
        · rw [if_neg q2, if_neg q2]
    rw [ek]
    unfold tafel seiOver etaSei
    rw [show Rgas = 8314 / 1000 from rfl, show Faraday = 96487 from rfl, show -b.par.alphasei * b.par.nsei * 96487 /
      (8314 / 1000 * b.st.T) = -b.par.nsei * 96487 / (8314 / 1000 * b.st.T) * b.par.alphasei by ring]
    ring
  · cases hg

theorem lam_law {c b : SPM N} {h : ℚ} (hs : Stressed c b h) (i : ℕ) (h1 : i = 1 → c.stress.dai = true) {r : LamOut}
    (hg : b.lamModel i = .ok r) : LamLaw b c.stress h i r := by
  unfold lamModel at hg
  dsimp only at hg
  rcases i with _ | _ | _ | _ | _ | i
  · exact (Outcome.ok.inj hg).symm
  · obtain ⟨u, v, w⟩ := hs.dai (h1 rfl)
    rw [if_neg (by rw [u]; simp), hs.dt, hs.daiNprev, hs.daiPprev, v, w] at hg
    by_cases hd : h = 0
    · rw [if_pos hd] at hg; cases hg
    · rw [if_neg hd] at hg
      rw [← Outcome.ok.inj hg]
      show LamOut.mk _ _ _ _ _ _ = _
      congr 1 <;> ring
  · rw [← Outcome.ok.inj hg]
    refine ⟨_, _, rfl, rfl, ?_⟩
    have e1 : |b.jp| = |b.st.I / b.par.elecSurf / (b.st.ap * b.par.n * 96487 * b.st.thickp)| := by
      unfold jp iApp
      rw [show Faraday = 96487 from rfl, neg_div, abs_neg]
    have e2 : |b.jn| = |b.st.I / b.par.elecSurf / (b.st.an * b.par.n * 96487 * b.st.thickn)| := rfl
    rw [e1, e2]
    rfl
  · obtain ⟨u, hu, hg⟩ := Outcome.bind_eq_ok.mp hg
    unfold look at hu
    rcases hl : b.par.ocvP (b.cps / b.par.Cmaxpos) with _ | y
    · rw [hl] at hu; cases hu
    · rw [hl] at hu
      have hu : y = u := Outcome.ok.inj hu
      subst hu
      refine ⟨y, hl, ?_⟩
      rw [← Outcome.ok.inj hg]
      show LamOut.mk _ _ _ _ _ _ = LamOut.mk _ _ _ _ _ _
      congr 1
      rw [show ∀ x y : ℚ, -min x y = max (-x) (-y) from fun x y => by
        rcases le_total x y with q | q
        · rw [min_eq_left q, max_eq_left (neg_le_neg q)]
        · rw [min_eq_right q, max_eq_right (neg_le_neg q)]]
      unfold atTemperature arrh
      rw [show Faraday = 96487 from rfl, show Rgas = 8314 / 1000 from rfl]
      congr 1 <;> ring
  · rw [← Outcome.ok.inj hg]
    show LamOut.mk _ _ _ _ _ _ = LamOut.mk _ _ _ _ _ _
    congr 1 <;> ring
  · cases hg

theorem porosity_law {c : SPM N} {o : ℚ} {p : ℚ × ℚ} (h : c.SEI o = .ok p) : PorosityLaw c p.1 c.deg.SEIpor p.2 := by
  unfold SEI at h
  obtain ⟨a, ha, h⟩ := Outcome.bind_eq_ok.mp h
  rcases hk : c.deg.SEIpor with _ | _ | k
  · rw [hk] at h; rw [← Outcome.ok.inj h]; rfl
  · rw [hk] at h; rw [← Outcome.ok.inj h]
    show _ = _
    rw [show Faraday = 96487 from rfl]
    ring
  · rw [hk] at h; cases h

theorem diffusion_law {c : SPM N} {o : ℚ} {p : ℚ × ℚ × ℚ} (h : c.crack o = .ok p) :
    DiffusionLaw c p.2.1 c.deg.CSdiff p.2.2 := by
  unfold crack at h
  obtain ⟨a, ha, h⟩ := Outcome.bind_eq_ok.mp h
  rcases hk : c.deg.CSdiff with _ | _ | k
  · rw [hk] at h; rw [← Outcome.ok.inj h]; rfl
  · rw [hk] at h
    dsimp only at h
    by_cases hA : max c.par.cs.Amax c.st.CS = 0
    · rw [if_pos hA] at h; cases h
    · rw [if_neg hA] at h
      rw [← Outcome.ok.inj h]
      refine ⟨_, rfl, hA, ?_⟩
      dsimp only
      ring
  · rw [hk] at h; cases h

/-- The potential of the anode used for the rates. -/
theorem degRate_anode {c : SPM N} {d : DegRate N} (h : c.degRate = .ok d) :
    ∃ o, AnodePotential c (c.cps / c.par.Cmaxpos) o ∧ ∃ sei cr l ipl, c.SEI o = .ok sei ∧ c.crack o = .ok cr ∧
      c.lamSum c.deg.LAM = .ok l ∧ c.plating o = .ok ipl ∧ d.delta = sei.1 / (c.par.nsei * 96487 * c.par.rhosei) ∧
      d.LLI = (sei.1 + sei.1 * cr.1 + ipl) * c.par.elecSurf * c.st.thickn * c.st.an ∧
      d.CS = cr.2.1 ∧ d.deltaPl = ipl / (c.par.npl * 96487 * c.par.rhopl) ∧
      d.thickp = l.thickp ∧ d.thickn = l.thickn ∧ d.ep = l.ep ∧ d.en = l.en + sei.2 ∧
      d.ap = l.ap + 3 / c.par.Rp * l.ep ∧ d.an = l.an + 3 / c.par.Rn * (l.en + sei.2) ∧ d.Dn = cr.2.2 := by
  unfold degRate at h
  simp only at h
  split at h
  · simp at h
  · split at h
    · simp at h
    · split at h
      · simp at h
      · obtain ⟨d1, hd1, h⟩ := Outcome.bind_eq_ok.mp h
        obtain ⟨o1, ho1, h⟩ := Outcome.bind_eq_ok.mp h
        obtain ⟨sei, hsei, h⟩ := Outcome.bind_eq_ok.mp h
        obtain ⟨cr, hcr, h⟩ := Outcome.bind_eq_ok.mp h
        obtain ⟨l, hl, h⟩ := Outcome.bind_eq_ok.mp h
        obtain ⟨ipl, hpl, h⟩ := Outcome.bind_eq_ok.mp h
        have h := Outcome.ok.inj h
        have hA : ∀ (f : ℚ → Option ℚ) (x y : ℚ), look f x = .ok y → f x = some y := by
          intro f x y hy
          unfold look at hy
          rcases hf : f x with _ | z
          · rw [hf] at hy; cases hy
          · rw [hf] at hy; rw [Outcome.ok.inj hy]
        refine ⟨_, ⟨o1, d1, hA _ _ _ ho1, hA _ _ _ hd1, rfl⟩, sei, cr, l, ipl, hsei, hcr, hl, hpl, ?_⟩
        subst h
        exact ⟨rfl, rfl, rfl, rfl, rfl, rfl, rfl, rfl, rfl, rfl, rfl⟩

end Slide

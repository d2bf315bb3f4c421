import Verif.Lemmas.SPMAge
import Verif.Tac

/-! Lemmas about the diffusion steps of the single-particle cell. -/

namespace Slide
open Spec SPM

variable {N : ℕ}

/-! ### What any number of diffusion steps does -/

/-- What is left alone by a diffusion step. -/
structure DiffFrame (a b : SPM N) : Prop where
  age : SameAge a b
  I : b.st.I = a.st.I
  T : b.st.T = a.st.T
  Dp : b.st.Dp = a.st.Dp
  Dn : b.st.Dn = a.st.Dn
  block : b.block = a.block
  rDC : b.st.rDCp = a.st.rDCp ∧ b.st.rDCn = a.st.rDCn ∧ b.st.rDCcc = a.st.rDCcc

theorem DiffFrame.refl (a : SPM N) : DiffFrame a a := ⟨.refl a, rfl, rfl, rfl, rfl, rfl, rfl, rfl, rfl⟩

theorem DiffFrame.trans {a b c : SPM N} (h : DiffFrame a b) (k : DiffFrame b c) : DiffFrame a c :=
  ⟨h.age.trans k.age, k.I.trans h.I, k.T.trans h.T, k.Dp.trans h.Dp, k.Dn.trans h.Dn, k.block.trans h.block,
   k.rDC.1.trans h.rDC.1, k.rDC.2.1.trans h.rDC.2.1, k.rDC.2.2.trans h.rDC.2.2⟩

/-- One diffusion step that succeeds. -/
theorem diffStep_ok {c : SPM N} {dt : ℚ} (h : (c.diffStep dt).1 = .ok ()) :
    c.par.cap ≠ 0 ∧ DiffFrame c (c.diffStep dt).2 ∧
    (c.diffStep dt).2.st.zp = (fun j => c.st.zp j + dt * c.dzp j) ∧
    (c.diffStep dt).2.st.zn = (fun j => c.st.zn j + dt * c.dzn j) ∧
    (c.diffStep dt).2.st.SOC = c.st.SOC + dt * c.dSOC ∧
    (c.diffStep dt).2.st.time = c.st.time + dt ∧
    (c.diffStep dt).2.st.Ah = c.st.Ah + |c.st.I * (dt / 3600)| := by
  have hage := sameAge_diffStep c dt
  have hb := diffStep_block c dt
  unfold diffStep at h hage hb ⊢
  split at h
  · simp at h
  · rename_i hf
    rw [if_neg hf] at hage hb ⊢
    have h2 := SPM.V_rest (c.diffState dt)
    rcases hk : (c.diffState dt).V with ⟨v | e | w, c2⟩
    · rw [hk] at h2 hage hb
      simp only at h2 hage hb ⊢
      refine ⟨fun e => hf (.inr e), ⟨hage, ?_, ?_, ?_, ?_, hb, ?_, ?_, ?_⟩, ?_, ?_, ?_, ?_, ?_⟩ <;> rw [h2] <;> rfl
    · rw [hk] at h; simp at h
    · rw [hk] at h; simp at h

theorem andThen_ok {r : Outcome Unit × SPM N} {f : SPM N → Outcome Unit × SPM N}
    (h : (SPM.andThen r f).1 = .ok ()) : r.1 = .ok () ∧ (f r.2).1 = .ok () ∧ (SPM.andThen r f).2 = (f r.2).2 := by
  unfold SPM.andThen at h ⊢
  rcases r with ⟨_ | e | w, a⟩
  · exact ⟨rfl, h, rfl⟩
  · simp at h
  · simp at h

theorem dzp_frame {a b : SPM N} (h : DiffFrame a b) (hz : b.st.zp = a.st.zp) : b.dzp = a.dzp := by
  funext j
  unfold dzp Dpt jp iApp arrh
  rw [h.age.par, h.I, h.T, h.Dp, h.age.ap, h.age.thickp, hz]

theorem dzn_frame {a b : SPM N} (h : DiffFrame a b) (hz : b.st.zn = a.st.zn) : b.dzn = a.dzn := by
  funext j
  unfold dzn Dnt jn iApp arrh
  rw [h.age.par, h.I, h.T, h.Dn, h.age.an, h.age.thickn, hz]

theorem dSOC_frame {a b : SPM N} (h : DiffFrame a b) : b.dSOC = a.dSOC := by
  unfold dSOC; rw [h.age.par, h.I]

/-- Rows of the diffusion equation without decay (`A j = 0`, the row of the uniform concentration) and all counters
after `k` steps. -/
theorem diffLoop_ok (dt : ℚ) (k : ℕ) : ∀ c : SPM N, (SPM.diffLoop dt k c).1 = .ok () →
    DiffFrame c (SPM.diffLoop dt k c).2 ∧
    (SPM.diffLoop dt k c).2.st.SOC = c.st.SOC + k * dt * c.dSOC ∧
    (SPM.diffLoop dt k c).2.st.time = c.st.time + k * dt ∧
    (0 ≤ dt → (SPM.diffLoop dt k c).2.st.Ah = c.st.Ah + |c.st.I| * (k * dt) / 3600) ∧
    (∀ j, c.par.M.Ap j = 0 → (SPM.diffLoop dt k c).2.st.zp j = c.st.zp j + k * dt * (c.par.M.Bp j * c.jp)) ∧
    (∀ j, c.par.M.An j = 0 → (SPM.diffLoop dt k c).2.st.zn j = c.st.zn j + k * dt * (c.par.M.Bn j * c.jn)) ∧
    (c.st.I = 0 → (∀ j, c.par.M.Ap j * c.st.zp j = 0) → (SPM.diffLoop dt k c).2.st.zp = c.st.zp) ∧
    (c.st.I = 0 → (∀ j, c.par.M.An j * c.st.zn j = 0) → (SPM.diffLoop dt k c).2.st.zn = c.st.zn) := by
  induction k with
  | zero =>
    intro c _
    refine ⟨.refl c, ?_, ?_, fun _ => ?_, fun j _ => ?_, fun j _ => ?_, fun _ _ => rfl, fun _ _ => rfl⟩ <;>
      simp [SPM.diffLoop]
  | succ k ih =>
    intro c h
    rw [SPM.diffLoop] at h ⊢
    obtain ⟨h1, h2, h3⟩ := andThen_ok h
    rw [h3]
    obtain ⟨-, f, ezp, ezn, eS, et, eA⟩ := diffStep_ok h1
    obtain ⟨g, gS, gt, gA, gp, gn, gzp, gzn⟩ := ih _ h2
    have hjp : (c.diffStep dt).2.jp = c.jp := by
      unfold jp iApp; rw [f.age.par, f.I, f.age.ap, f.age.thickp]
    have hjn : (c.diffStep dt).2.jn = c.jn := by
      unfold jn iApp; rw [f.age.par, f.I, f.age.an, f.age.thickn]
    refine ⟨f.trans g, ?_, ?_, ?_, ?_, ?_, ?_, ?_⟩
    · rw [gS, eS, dSOC_frame f]; push_cast; ring
    · rw [gt, et]; push_cast; ring
    · intro hdt
      rw [gA hdt, eA, f.I, abs_mul, abs_of_nonneg (show (0 : ℚ) ≤ dt / 3600 by positivity)]; push_cast; ring
    · intro j hj
      rw [gp j (by rw [f.age.par]; exact hj), f.age.par, hjp, ezp]
      simp only [dzp, hj]; push_cast; ring
    · intro j hj
      rw [gn j (by rw [f.age.par]; exact hj), f.age.par, hjn, ezn]
      simp only [dzn, hj]; push_cast; ring
    · intro hI hz
      have e : (c.diffStep dt).2.st.zp = c.st.zp := by
        rw [ezp]; funext j
        have : c.dzp j = 0 := by
          unfold dzp jp iApp; rw [hI, mul_assoc, hz j]; simp
        rw [this]; ring
      rw [gzp (f.I.trans hI) (fun j => by rw [f.age.par, e]; exact hz j), e]
    · intro hI hz
      have e : (c.diffStep dt).2.st.zn = c.st.zn := by
        rw [ezn]; funext j
        have : c.dzn j = 0 := by
          unfold dzn jn iApp; rw [hI, mul_assoc, hz j]; simp
        rw [this]; ring
      rw [gzn (f.I.trans hI) (fun j => by rw [f.age.par, e]; exact hz j), e]

theorem thermPass_st (a : SPM N) : ∃ t, a.thermPass.2.st = { a.st with T := t } := by
  unfold thermPass
  split
  · exact ⟨a.st.T, rfl⟩
  · have h2 : a.thermAlone.2.st = a.st := by
      rcases thermAlone_snd a with e | e <;> rw [e]; rfl
    rcases hk : a.thermAlone with ⟨t | e | w, c2⟩
    · rw [hk] at h2
      refine ⟨t, ?_⟩
      show ({ c2.st with T := t } : SpmState N) = _
      rw [show c2.st = a.st from h2]
    · rw [hk] at h2; exact ⟨a.st.T, h2⟩
    · rw [hk] at h2; exact ⟨a.st.T, h2⟩

theorem thermStep_st (a : SPM N) (x : ℚ) : ∃ t, (a.thermStep x).2.st = { a.st with T := t } := by
  unfold thermStep
  rcases a.heat with q | e | w
  · exact thermPass_st ({ a with Qgen := a.Qgen + q * x, thermTime := a.thermTime + x } : SPM N)
  · exact ⟨a.st.T, rfl⟩
  · exact ⟨a.st.T, rfl⟩

/-- Degradation leaves the cathode, the charge counters and the time alone; without models it also leaves the anode
alone. -/
theorem ageStep_keeps (a : SPM N) (x : ℚ) :
    (a.ageStep x).2.st.SOC = a.st.SOC ∧ (a.ageStep x).2.st.zp = a.st.zp ∧ (a.ageStep x).2.st.time = a.st.time ∧
    (a.ageStep x).2.st.Ah = a.st.Ah ∧ (a.ageStep x).2.st.I = a.st.I ∧
    (noDegradation a.deg → (a.ageStep x).2.st.zn = a.st.zn) := by
  unfold ageStep SPM.andThen
  obtain ⟨hs, hst, -⟩ := sameAge_upd a
  rcases hr : a.updDai.updLares with ⟨_ | e | w, c1⟩
  · rw [hr] at hst hs
    simp only at hst hs ⊢
    rcases hd : c1.degRate with d | e | w
    · simp only [addRate]
      rw [hst]
      refine ⟨rfl, rfl, rfl, rfl, rfl, ?_⟩
      intro hn
      rw [← hs.deg] at hn
      obtain ⟨n1, n2, n3, n4, n5, n6⟩ := hn
      obtain ⟨-, o, sei, cr, l, ipl, h1, h2, h3, h4, -, -, -, -, -, -, -, -, -, -, -, ez⟩ := degRate_spec hd
      have e1 : sei.1 = 0 := by
        have := (SEI_spec h1).1; rw [n1] at this; exact (Outcome.ok.inj this).symm
      have e2 : ipl = 0 := by
        unfold plating at h4; rw [n6] at h4; exact (Outcome.ok.inj h4).symm
      funext j
      rw [ez, e1, e2]; simp
    · simp only; rw [hst]; exact ⟨rfl, rfl, rfl, rfl, rfl, fun _ => rfl⟩
    · simp only; rw [hst]; exact ⟨rfl, rfl, rfl, rfl, rfl, fun _ => rfl⟩
  · rw [hr] at hst; simp only at hst ⊢; rw [hst]; exact ⟨rfl, rfl, rfl, rfl, rfl, fun _ => rfl⟩
  · rw [hr] at hst; simp only at hst ⊢; rw [hst]; exact ⟨rfl, rfl, rfl, rfl, rfl, fun _ => rfl⟩

/-- A successful time step: the diffusion steps, then degradation and heat unless blocked. -/
theorem timeStep_ok {c : SPM N} {dt : ℚ} {n : ℤ} (h : (c.timeStep dt n).1 = .ok ()) :
    0 ≤ dt ∧ (SPM.diffLoop dt n.toNat (c.rotate (n * dt))).1 = .ok () ∧
    (c.block = true → (c.timeStep dt n).2 = (SPM.diffLoop dt n.toNat (c.rotate (n * dt))).2) ∧
    (c.timeStep dt n).2.st.SOC = (SPM.diffLoop dt n.toNat (c.rotate (n * dt))).2.st.SOC ∧
    (c.timeStep dt n).2.st.zp = (SPM.diffLoop dt n.toNat (c.rotate (n * dt))).2.st.zp ∧
    (c.timeStep dt n).2.st.time = (SPM.diffLoop dt n.toNat (c.rotate (n * dt))).2.st.time ∧
    (c.timeStep dt n).2.st.Ah = (SPM.diffLoop dt n.toNat (c.rotate (n * dt))).2.st.Ah ∧
    (c.timeStep dt n).2.st.I = c.st.I ∧ (c.timeStep dt n).2.par = c.par ∧
    (noDegradation c.deg →
      (c.timeStep dt n).2.st.zn = (SPM.diffLoop dt n.toNat (c.rotate (n * dt))).2.st.zn) := by
  unfold timeStep at h ⊢
  by_cases hdt : dt < 0
  · rw [if_pos hdt] at h; simp at h
  · rw [if_neg hdt] at h ⊢
    obtain ⟨h1, h2, h3⟩ := andThen_ok h
    have hf := (diffLoop_ok dt n.toNat _ h1).1
    refine ⟨not_lt.mp hdt, h1, ?_⟩
    rw [h3]
    have hb : (SPM.diffLoop dt n.toNat (c.rotate (n * dt))).2.block = c.block := hf.block
    have hI : (SPM.diffLoop dt n.toNat (c.rotate (n * dt))).2.st.I = c.st.I := hf.I
    have hp : (SPM.diffLoop dt n.toNat (c.rotate (n * dt))).2.par = c.par := hf.age.par
    have hd : (SPM.diffLoop dt n.toNat (c.rotate (n * dt))).2.deg = c.deg := hf.age.deg
    rcases hcb : c.block with _ | _
    · rw [hcb] at hb
      rw [if_neg (by rw [hb]; simp)] at h2 ⊢
      generalize (SPM.diffLoop dt n.toNat (c.rotate (n * dt))).2 = a at *
      obtain ⟨k1, k2, k3⟩ := andThen_ok h2
      rw [k3]
      obtain ⟨t, ht⟩ := thermStep_st a (dt * n)
      have hsa := (sameAge_thermStep a (dt * n)).1
      obtain ⟨b1, b2, b3, b4, b5, b6⟩ := ageStep_keeps (a.thermStep (dt * n)).2 (dt * n)
      have hpar : ((a.thermStep (dt * n)).2.ageStep (dt * n)).2.par = (a.thermStep (dt * n)).2.par := by
        unfold ageStep SPM.andThen
        have hs := (sameAge_upd (a.thermStep (dt * n)).2).1.par
        rcases hr : (a.thermStep (dt * n)).2.updDai.updLares with ⟨_ | e | w, c1⟩
        · rw [hr] at hs; simp only at hs ⊢
          rcases hd : c1.degRate with d | e | w <;> exact hs
        · rw [hr] at hs; exact hs
        · rw [hr] at hs; exact hs
      refine ⟨fun h => by simp at h, b1.trans (by rw [ht]), b2.trans (by rw [ht]), b3.trans (by rw [ht]),
        b4.trans (by rw [ht]), b5.trans (by rw [ht]; exact hI), ?_, ?_⟩
      · rw [hpar, hsa.par, hp]
      · intro hn; rw [b6 (by rw [hsa.deg, hd]; exact hn), ht]
    · rw [hcb] at hb
      rw [if_pos hb]
      exact ⟨fun _ => rfl, rfl, rfl, rfl, rfl, hI, hp, fun _ => rfl⟩

end Slide

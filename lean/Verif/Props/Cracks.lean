import Verif.Props.SideReactions

/-! C121: the limits of cracks, of the loss of diffusivity and of the loss of cathode. -/

namespace Slide
open Spec SPM

variable {N : ℕ}

/-! ### The surface of the cracks -/

/-- C121: the lithium bound by the SEI layer per second: as much per area on the cracks as elsewhere, once for every crack
model that is selected. -/
theorem crack_surface (c : SPM N) (d : DegRate N) (hp : SpmPhysical c.par) (ha : c.st.an ≠ 0) (ht : c.st.thickn ≠ 0)
    (h : c.degRate = .ok d) (hpl : c.deg.pl = 0) :
    d.LLI = c.par.nsei * 96487 * c.par.rhosei * d.delta * (c.st.an * c.st.thickn * c.par.elecSurf +
      (c.deg.CS.countP (· ≠ 0)) * c.st.CS) := by
  obtain ⟨-, o, sei, cr, l, ipl, h1, h2, -, h4, e1, e2, -⟩ := degRate_spec h
  have hipl : ipl = 0 := by
    unfold plating at h4
    rw [hpl] at h4
    exact (Outcome.ok.inj h4).symm
  have hm : ∀ l : List ℕ, (l.map c.csMult).sum = (l.countP (· ≠ 0)) * (c.st.CS / c.anodeSurf) := by
    intro l
    induction l with
    | nil => simp
    | cons i l ih =>
      rw [List.map_cons, List.sum_cons, ih, List.countP_cons]
      unfold csMult
      by_cases hi : i = 0
      · simp [hi]
      · simp [hi]; ring
  have hF : (96487 : ℚ) ≠ 0 := by norm_num
  have hn := hp.nsei.ne'
  have hr := hp.rhosei.ne'
  have hs := hp.elecSurf.ne'
  rw [e2, hipl, (crack_spec h2).2, hm, e1, show Faraday = 96487 from rfl]
  unfold anodeSurf
  field_simp
  ring

/-- C121 (partial): with one crack model the layer grows on the cracks as elsewhere.  Missing: with two or more crack models
the surface of the cracks is counted once for each (`not_cracksCountOnce`). -/
theorem cracksCountOnce_partial (c : SPM N) (d : DegRate N) (hp : SpmPhysical c.par) (ha : c.st.an ≠ 0)
    (ht : c.st.thickn ≠ 0) (h : c.degRate = .ok d) (hpl : c.deg.pl = 0) (h1 : c.deg.CS.countP (· ≠ 0) = 1) :
    d.LLI = c.par.nsei * 96487 * c.par.rhosei * d.delta * (c.st.an * c.st.thickn * c.par.elecSurf + c.st.CS) := by
  rw [crack_surface c d hp ha ht h hpl, h1, Nat.cast_one, one_mul]

/-- A cell with two crack models. -/
def spmTwoCracks : SPM 1 := { spmPot with deg := { spmPot.deg with SEI := [1], CS := [3, 4], LAM := [], pl := 0 } }

def rateLLI (r : Outcome (DegRate 1)) : Option (ℚ × ℚ) :=
  match r with
  | .ok d => some (d.LLI, d.delta)
  | _ => none

/-- C121: the full statement is false: with two crack models the lithium lost on the cracks is counted twice. -/
theorem not_cracksCountOnce : ¬ CracksCountOnce 1 := by
  intro h
  have h1 : ∃ a b, rateLLI spmTwoCracks.degRate = some (a, b) ∧ a ≠ spmTwoCracks.par.nsei * 96487 *
      spmTwoCracks.par.rhosei * b * (spmTwoCracks.st.an * spmTwoCracks.st.thickn * spmTwoCracks.par.elecSurf +
        spmTwoCracks.st.CS) := by
    refine ⟨((rateLLI spmTwoCracks.degRate).getD (0, 0)).1, ((rateLLI spmTwoCracks.degRate).getD (0, 0)).2, ?_⟩
    decide +kernel
  obtain ⟨a, b, hab, hne⟩ := h1
  rcases k : spmTwoCracks.degRate with d | e | w
  · rw [k] at hab
    have e1 : (d.LLI, d.delta) = (a, b) := Option.some.inj hab
    have := h spmTwoCracks d spmPot_physical (by decide +kernel) (by decide +kernel) k rfl ⟨3, by decide, by decide⟩
    have e2 : d.LLI = a := congrArg Prod.fst e1
    have e3 : d.delta = b := congrArg Prod.snd e1
    rw [e2, e3] at this
    exact hne this
  · rw [k] at hab; exact absurd hab (by unfold rateLLI; simp)
  · rw [k] at hab; exact absurd hab (by unfold rateLLI; simp)

/-! ### Saturation -/

/-- C121 (partial): crack growth by charge throughput stops at the largest crack surface, if the calls of the time
integration are short enough for the current.  Missing: a long call overshoots it by any amount (`not_cracksSaturate`). -/
theorem cracksSaturate_partial {H : ℚ} (ops : List (SpmOp N)) : ∀ (c : SPM N) (A : ℚ), SpmPhysical c.par →
    c.par.cs.Amax ≤ A → c.st.CS ≤ A → 0 ≤ c.st.delta → c.deg.CS = [4] → (∀ o ∈ ops, ordinary o) → StepsAtMost H ops →
    throughout (fun a => H * (a.par.cs.a4 * |a.st.I|) ≤ 1) c ops → (spmRun c ops).st.CS ≤ A := by
  induction ops with
  | nil => intro c A _ _ h _ _ _ _ _; exact h
  | cons o os ih =>
    intro c A hp hA h0 hδ h4 ho hs ht
    have hoo := ho o (List.mem_cons_self ..)
    have hh := askedOp_nonneg hoo
    have hhH := hs o (List.mem_cons_self ..)
    have step : (spmAfter c o).st.CS ≤ A ∧ (spmAfter c o).par = c.par ∧ (spmAfter c o).deg = c.deg ∧
        0 ≤ (spmAfter c o).st.delta := by
      rcases ordinary_timed (c := c) o hoo with h | ⟨c1, d, s, eI, hd, e⟩
      · exact ⟨h.CS.trans_le h0, h.par, h.deg, by rw [h.delta]; exact hδ⟩
      · have hdn := degRate_nonneg hd (s.par ▸ hp) (by rw [s.delta]; exact hδ)
        obtain ⟨-, o', sei, cr, l, ipl, -, h2, -, -, -, -, e3, -⟩ := degRate_spec hd
        have hcs := (crack_spec h2).1
        rw [s.deg, h4] at hcs
        have hcs := Outcome.ok.inj (sumModels_single hcs)
        have ea : d.CS = c.par.cs.a4 * (max c.par.cs.Amax c.st.CS - c.st.CS) * |c.st.I| := by
          rw [e3, ← hcs, s.par, s.CS, eI]
        have eb : (spmAfter c o).st.CS = c.st.CS + d.CS * askedOp o := by rw [e, ← s.CS]; rfl
        have ec : (spmAfter c o).st.delta = c.st.delta + d.delta * askedOp o := by rw [e, ← s.delta]; rfl
        refine ⟨?_, by rw [e]; exact s.par, by rw [e]; exact s.deg,
          by rw [ec]; exact add_nonneg hδ (mul_nonneg hdn.1 hh)⟩
        rw [eb, ea]
        have hm : max c.par.cs.Amax c.st.CS - c.st.CS ≤ A - c.st.CS := by linarith [max_le hA h0]
        have hm0 : 0 ≤ max c.par.cs.Amax c.st.CS - c.st.CS := by linarith [le_max_right c.par.cs.Amax c.st.CS]
        have hk : (0 : ℚ) ≤ c.par.cs.a4 * |c.st.I| := mul_nonneg hp.a4 (abs_nonneg _)
        have hk1 : askedOp o * (c.par.cs.a4 * |c.st.I|) ≤ 1 :=
          (mul_le_mul_of_nonneg_right hhH hk).trans ht.1
        have : (max c.par.cs.Amax c.st.CS - c.st.CS) * (askedOp o * (c.par.cs.a4 * |c.st.I|)) ≤ A - c.st.CS := by
          calc _ ≤ (max c.par.cs.Amax c.st.CS - c.st.CS) * 1 := mul_le_mul_of_nonneg_left hk1 hm0
            _ ≤ _ := by rw [mul_one]; exact hm
        nlinarith
    obtain ⟨s1, s2, s3, s4⟩ := step
    exact ih (spmAfter c o) A (by rw [s2]; exact hp) (by rw [s2]; exact hA) s1 s4 (by rw [s3]; exact h4)
      (fun o' h' => ho o' (List.mem_cons_of_mem _ h')) (fun o' h' => hs o' (List.mem_cons_of_mem _ h')) ht.2

/-- A cell which cracks by charge throughput. -/
def spmThrough : SPM 1 := { spmPot with deg := { spmPot.deg with SEI := [1], CS := [4], LAM := [], pl := 0 } }

/-- C121: the full statement is false: one call with a step of 20 seconds at 1/10 A overshoots. -/
theorem not_cracksSaturate : ¬ CracksSaturate 1 := by
  intro h
  have := h spmThrough [.setCurrent (1 / 10) false, .step 20 1] spmPot_physical
    ⟨by decide +kernel, by decide +kernel, by decide +kernel, by decide +kernel, by decide +kernel, by decide +kernel,
     by decide +kernel, by decide +kernel, by decide +kernel, by decide +kernel, by decide +kernel⟩ rfl (by
      intro o ho
      simp only [List.mem_cons, List.not_mem_nil, or_false] at ho
      rcases ho with rfl | rfl
      · trivial
      · show (0 : ℤ) ≤ 1; norm_num)
  exact absurd this (by decide +kernel)

/-! ### Limits of the rates -/

theorem crack_Dn {c : SPM N} {o : ℚ} {p : ℚ × ℚ × ℚ} (h : c.crack o = .ok p) :
    p.2.2 = 0 ∨ ∃ m ≤ 2 / 10000000, p.2.2 = -m * c.st.Dn := by
  unfold crack at h
  obtain ⟨a, ha, h⟩ := Outcome.bind_eq_ok.mp h
  split at h
  · rw [← Outcome.ok.inj h]; exact .inl rfl
  · simp only at h
    split at h
    · simp at h
    · rw [← Outcome.ok.inj h]; exact .inr ⟨_, min_le_left _ _, rfl⟩
  · simp at h

/-- C121: cracks never cost more than a fraction of `2e-7` of the diffusion constant of the anode per second, whatever the
models and parameters: after `t` seconds of simulated time at least `1 - 2e-7 t` of it is left. -/
theorem diffusion_limit (ops : List (SpmOp N)) : ∀ (c : SPM N), 0 ≤ c.st.Dn → (∀ o ∈ ops, ordinary o) →
    2 / 10000000 * asked ops ≤ 1 → c.st.Dn * (1 - 2 / 10000000 * asked ops) ≤ (spmRun c ops).st.Dn := by
  induction ops with
  | nil =>
    intro c _ _ _
    show c.st.Dn * (1 - 2 / 10000000 * (0 : ℚ)) ≤ c.st.Dn
    rw [mul_zero, sub_zero, mul_one]
  | cons o os ih =>
    intro c h0 ho ht
    have hoo := ho o (List.mem_cons_self ..)
    have hh := askedOp_nonneg hoo
    have hos := fun o' h' => ho o' (List.mem_cons_of_mem o h')
    have h1 := asked_nonneg hos
    have ea : asked (o :: os) = askedOp o + asked os := rfl
    rw [ea] at ht ⊢
    have step : c.st.Dn * (1 - 2 / 10000000 * askedOp o) ≤ (spmAfter c o).st.Dn := by
      have easy : c.st.Dn * (1 - 2 / 10000000 * askedOp o) ≤ c.st.Dn := by nlinarith [mul_nonneg h0 hh]
      rcases ordinary_timed (c := c) o hoo with h | ⟨c1, d, s, eI, hd, e⟩
      · rw [h.Dn]; exact easy
      · obtain ⟨-, o', sei, cr, l, ipl, -, h2, -, -, -, -, -, -, -, -, -, -, -, -, e3, -⟩ := degRate_spec hd
        have eb : (spmAfter c o).st.Dn = c.st.Dn + d.Dn * askedOp o := by rw [e, ← s.Dn]; rfl
        rw [eb, e3]
        rcases crack_Dn h2 with h | ⟨m, hm, h⟩
        · rw [h, zero_mul, add_zero]; exact easy
        · rw [h, s.Dn]
          nlinarith [mul_le_mul_of_nonneg_right hm (mul_nonneg h0 hh)]
    have hx : (0 : ℚ) ≤ 1 - 2 / 10000000 * askedOp o := by linarith
    have := ih (spmAfter c o) ((mul_nonneg h0 hx).trans step) hos (by linarith)
    refine le_trans ?_ this
    have hy : (0 : ℚ) ≤ 1 - 2 / 10000000 * asked os := by linarith
    calc c.st.Dn * (1 - 2 / 10000000 * (askedOp o + asked os))
        ≤ c.st.Dn * (1 - 2 / 10000000 * askedOp o) * (1 - 2 / 10000000 * asked os) := by
          nlinarith [mul_nonneg h0 (mul_nonneg hh h1)]
      _ ≤ _ := mul_le_mul_of_nonneg_right step hy

/-- C121: the loss of cathode driven by its potential is limited to `5e-6` of the volume per second, however high the
potential and whatever the parameters. -/
theorem cathode_limit (ops : List (SpmOp N)) : ∀ (c : SPM N), c.deg.LAM = [3] → (∀ o ∈ ops, ordinary o) →
    c.st.ep - 5 / 1000000 * asked ops ≤ (spmRun c ops).st.ep := by
  induction ops with
  | nil =>
    intro c _ _
    show c.st.ep - 5 / 1000000 * (0 : ℚ) ≤ c.st.ep
    rw [mul_zero, sub_zero]
  | cons o os ih =>
    intro c h3 ho
    have hoo := ho o (List.mem_cons_self ..)
    have hh := askedOp_nonneg hoo
    have hos := fun o' h' => ho o' (List.mem_cons_of_mem o h')
    have ea : asked (o :: os) = askedOp o + asked os := rfl
    rw [ea]
    have step : c.st.ep - 5 / 1000000 * askedOp o ≤ (spmAfter c o).st.ep ∧ (spmAfter c o).deg = c.deg := by
      rcases ordinary_timed (c := c) o hoo with h | ⟨c1, d, s, eI, hd, e⟩
      · rw [h.ep]; exact ⟨by linarith, h.deg⟩
      · obtain ⟨-, o', sei, cr, l, ipl, -, -, hl, -, -, -, -, -, -, -, e3, -⟩ := degRate_spec hd
        have eb : (spmAfter c o).st.ep = c.st.ep + d.ep * askedOp o := by rw [e, ← s.ep]; rfl
        refine ⟨?_, by rw [e]; exact s.deg⟩
        rw [s.deg, h3] at hl
        have hep : -5 / 1000000 ≤ l.ep := by
          unfold lamSum at hl
          obtain ⟨a, ha, hl⟩ := Outcome.bind_eq_ok.mp hl
          unfold lamSum at hl
          rw [Outcome.ok_bind] at hl
          rw [← Outcome.ok.inj hl]
          unfold lamModel at ha
          obtain ⟨z, -, ha⟩ := Outcome.bind_eq_ok.mp ha
          rw [← Outcome.ok.inj ha]
          show -5 / 1000000 ≤ max _ _ + (0 : ℚ)
          rw [add_zero]; exact le_max_left _ _
        rw [eb, e3]
        nlinarith [mul_le_mul_of_nonneg_right hep hh]
    have := ih (spmAfter c o) (by rw [step.2]; exact h3) hos
    show _ ≤ (spmRun (spmAfter c o) os).st.ep
    linarith [step.1]

/-! ### The hypotheses are met -/

example : ∃ a b, rateLLI spmThrough.degRate = some (a, b) ∧ 0 < b ∧ spmThrough.deg.CS.countP (· ≠ 0) = 1 ∧
    spmThrough.deg.pl = 0 ∧ spmThrough.st.an ≠ 0 ∧ spmThrough.st.thickn ≠ 0 := by
  refine ⟨((rateLLI spmThrough.degRate).getD (0, 0)).1, ((rateLLI spmThrough.degRate).getD (0, 0)).2, ?_⟩
  decide +kernel

def throughOps : List (SpmOp 1) := [.setCurrent (1 / 10) true, .step (1 / 100) 2, .step (1 / 100) 3]

/-- The cracks grow, towards the largest surface of 1. -/
example : (∀ o ∈ throughOps, ordinary o) ∧ StepsAtMost (3 / 100) throughOps ∧ spmThrough.st.CS ≤ spmThrough.par.cs.Amax ∧
    throughout (fun a => 3 / 100 * (a.par.cs.a4 * |a.st.I|) ≤ 1) spmThrough throughOps ∧
    spmThrough.st.CS < (spmRun spmThrough throughOps).st.CS := by
  refine ⟨?_, by unfold StepsAtMost; decide +kernel, by decide +kernel, ?_, by decide +kernel⟩
  · intro o ho
    simp only [throughOps, List.mem_cons, List.not_mem_nil, or_false] at ho
    rcases ho with rfl | rfl | rfl
    · trivial
    · show (0 : ℤ) ≤ 2; norm_num
    · show (0 : ℤ) ≤ 3; norm_num
  · unfold throughOps throughout
    refine ⟨by decide +kernel, ?_⟩
    unfold throughout
    refine ⟨by decide +kernel, ?_⟩
    unfold throughout
    refine ⟨by decide +kernel, ?_⟩
    unfold throughout
    decide +kernel

/-- A cell in which both rates are at their limits. -/
def spmLimits : SPM 1 :=
  { spmThrough with
    par := { spmThrough.par with lam := { spmThrough.par.lam with k3 := 1000000 } },
    deg := { spmThrough.deg with CSdiff := 1, LAM := [3] } }

example : let c := spmLimits
    (spmRun c [.setCurrent (1 / 10) true, .step (1 / 100) 1]).st.Dn = c.st.Dn * (1 - 2 / 10000000 * (1 / 100)) ∧
    (spmRun c [.setCurrent (1 / 10) true, .step (1 / 100) 1]).st.ep = c.st.ep - 5 / 1000000 * (1 / 100) := by
  decide +kernel

end Slide

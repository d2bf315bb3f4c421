import Verif.Spec.Restore
import Verif.Props.SPMAge
import Verif.Props.SpmUse
import Verif.Props.DefaultCell

/-! C115: saved states of a cell that has aged can be restored. -/

namespace Slide
open Spec SPM

variable {N : ℕ}

theorem lamSum_surface {c : SPM N} {l : List ℕ} {r : LamOut} (h : c.lamSum l = .ok r) (h4 : 4 ∉ l) :
    r.ap = 0 ∧ r.an = 0 := by
  induction l generalizing r with
  | nil => rw [← Outcome.ok.inj h]; exact ⟨rfl, rfl⟩
  | cons i is ih =>
    unfold lamSum at h
    obtain ⟨a, ha, h⟩ := Outcome.bind_eq_ok.mp h
    obtain ⟨b, hb, h⟩ := Outcome.bind_eq_ok.mp h
    obtain ⟨b1, b2⟩ := ih hb fun k => h4 (List.mem_cons_of_mem _ k)
    have hi : i ≠ 4 := fun k => h4 (by rw [k]; exact List.mem_cons_self ..)
    have ha0 : a.ap = 0 ∧ a.an = 0 := by
      unfold lamModel at ha
      match i, hi, ha with
      | 0, _, ha => rw [← Outcome.ok.inj ha]; exact ⟨rfl, rfl⟩
      | 1, _, ha =>
        simp only at ha
        split at ha
        · cases ha
        · split at ha
          · cases ha
          · rw [← Outcome.ok.inj ha]; exact ⟨rfl, rfl⟩
      | 2, _, ha => rw [← Outcome.ok.inj ha]; exact ⟨rfl, rfl⟩
      | 3, _, ha =>
        obtain ⟨o, -, ha⟩ := Outcome.bind_eq_ok.mp ha
        rw [← Outcome.ok.inj ha]; exact ⟨rfl, rfl⟩
      | 4, hi, _ => exact absurd rfl hi
      | n + 5, _, ha => cases ha
    rw [← Outcome.ok.inj h]
    unfold LamOut.add
    exact ⟨by simp [ha0.1, b1], by simp [ha0.2, b2]⟩

/-- Resistances are not touched in ordinary use. -/
theorem ordinary_rDC (c : SPM N) (o : SpmOp N) (ho : ordinary o) :
    (spmAfter c o).st.rDCp = c.st.rDCp ∧ (spmAfter c o).st.rDCn = c.st.rDCn ∧ (spmAfter c o).st.rDCcc = c.st.rDCcc := by
  let P : SPM N → Prop := fun a => a.st.rDCp = c.st.rDCp ∧ a.st.rDCn = c.st.rDCn ∧ a.st.rDCcc = c.st.rDCcc
  have hV : ∀ a : SPM N, P a → P a.V.2 := by
    intro a h
    show a.V.2.st.rDCp = _ ∧ _
    rw [SPM.V_rest]; exact h
  cases o with
  | readV => exact hV c ⟨rfl, rfl, rfl⟩
  | setCurrent i b =>
    have h := (setCurrent_onlyCurrent c i b).st
    have h1 := congrArg SpmState.rDCp h
    have h2 := congrArg SpmState.rDCn h
    have h3 := congrArg SpmState.rDCcc h
    exact ⟨h1, h2, h3⟩
  | setSOC s b =>
    show P (c.setSOC s b).2
    unfold setSOC
    split
    · exact ⟨rfl, rfl, rfl⟩
    · set c1 : SPM N := { c with st := { c.st with SOC := s } }
      cases b
      · exact ⟨rfl, rfl, rfl⟩
      · have h2 : P c1.checkV.2 := by rw [checkV_snd]; exact hV c1 ⟨rfl, rfl, rfl⟩
        rcases hk : c1.checkV with ⟨r | e | w, c2⟩ <;> rw [hk] at h2 <;> simp only [if_true, hk]
        · split
          · exact h2
          · exact h2
        · exact h2
        · exact h2
  | setT t => exact ⟨rfl, rfl, rfl⟩
  | setTenv t =>
    show P (c.setTenv t).2
    unfold setTenv; split <;> exact ⟨rfl, rfl, rfl⟩
  | setC fp fn =>
    show P (c.setC fp fn).2
    unfold setC; split <;> exact ⟨rfl, rfl, rfl⟩
  | step dt n =>
    show P (c.timeStep dt n).2
    have hd : ∀ a : SPM N, P a → P (a.diffStep dt).2 := by
      intro a h
      unfold diffStep
      split
      · exact h
      · have h2 := hV (a.diffState dt) h
        rcases hk : (a.diffState dt).V with ⟨v | e | w, c2⟩ <;> rw [hk] at h2 <;> exact h2
    unfold timeStep
    split
    · exact ⟨rfl, rfl, rfl⟩
    · refine andThen_keeps (diffLoop_keeps (P := P) dt hd _ (c.rotate (n * dt)) ⟨rfl, rfl, rfl⟩) fun c1 h1 => ?_
      split
      · exact h1
      · refine andThen_keeps (P := P) ?_ fun c2 h2 => ?_
        · obtain ⟨t, ht⟩ := thermStep_st c1 (dt * n)
          show (c1.thermStep (dt * n)).2.st.rDCp = _ ∧ _
          rw [ht]; exact h1
        · unfold ageStep
          refine andThen_keeps (P := P) ?_ fun c3 h3 => ?_
          · show c2.updDai.updLares.2.st.rDCp = _ ∧ _
            rw [(sameAge_upd c2).2.1]; exact h2
          · rcases c3.degRate with d | e | w <;> exact h3
  | block b => exact ⟨rfl, rfl, rfl⟩
  | _ => exact ho.elim

/-- C115: without the model that removes surface only, the active surface stays that of spheres. -/
theorem spheres_kept (c : SPM N) (ops : List (SpmOp N)) (h : Spheres c) (h4 : 4 ∉ c.deg.LAM) (ho : ∀ o ∈ ops, ordinary o) :
    Spheres (spmRun c ops) := by
  induction ops generalizing c with
  | nil => exact h
  | cons o os ih =>
    have h1 : Spheres (spmAfter c o) ∧ (spmAfter c o).deg = c.deg := by
      rcases ordinary_cases (c := c) o (ho o (List.mem_cons_self ..)) with k | ⟨c1, d, x, s, -, -, hd, -, e⟩
      · refine ⟨?_, k.deg⟩
        unfold Spheres
        rw [k.ap, k.an, k.ep, k.en, k.par]; exact h
      · obtain ⟨-, o', sei, cr, l, ipl, h1, h2, h3, h4', f1, f2, f3, f4, f5, f6, f7, f8, f9, f10, f11, f12⟩ := degRate_spec hd
        obtain ⟨l1, l2⟩ := lamSum_surface h3 (by rw [s.deg]; exact h4)
        rw [e]
        refine ⟨⟨?_, ?_⟩, s.deg⟩
        · show c1.st.ap + d.ap * x = 3 * (c1.st.ep + d.ep * x) / c1.par.Rp
          rw [f9, f7, l1, s.ap, s.ep, s.par, h.1]; ring
        · show c1.st.an + d.an * x = 3 * (c1.st.en + d.en * x) / c1.par.Rn
          rw [f10, f8, l2, s.an, s.en, s.par, h.2]; ring
    exact ih _ h1.1 (by rw [h1.2]; exact h4) fun p hp => ho p (List.mem_cons_of_mem _ hp)

theorem run_rDC (c : SPM N) (ops : List (SpmOp N)) (ho : ∀ o ∈ ops, ordinary o) :
    (spmRun c ops).st.rDCp = c.st.rDCp ∧ (spmRun c ops).st.rDCn = c.st.rDCn ∧ (spmRun c ops).st.rDCcc = c.st.rDCcc := by
  induction ops generalizing c with
  | nil => exact ⟨rfl, rfl, rfl⟩
  | cons o os ih =>
    obtain ⟨a1, a2, a3⟩ := ordinary_rDC c o (ho o (List.mem_cons_self ..))
    obtain ⟨b1, b2, b3⟩ := ih (spmAfter c o) fun p hp => ho p (List.mem_cons_of_mem _ hp)
    exact ⟨b1.trans a1, b2.trans a2, b3.trans a3⟩

/-- C115 (partial): what the cell has become can be given back to it, or to any other cell of the same kind, and is then
restored exactly.  Missing: the model of ageing which removes active surface only (`not_restoresOwnStates`), and cells whose
anode is used up. -/
theorem restores_partial (c : SPM N) (ops : List (SpmOp N)) (d : SPM N) (hp : SpmPhysical c.par) (hv : Spec.SpmValid c)
    (hs : Spheres c) (h4 : 4 ∉ c.deg.LAM) (ho : ∀ o ∈ ops, ordinary o)
    (ha : throughout (fun a => 0 ≤ a.st.thickn * a.st.an) c ops) (hr : InRange (spmRun c ops)) (hd : d.par = c.par) :
    (d.setStates (spmRun c ops).getStates false).1 = .ok (.Success, []) ∧
    (d.setStates (spmRun c ops).getStates false).2.st = (spmRun c ops).st := by
  obtain ⟨k1, k2, k3, k4, -⟩ := spm_ages c ops hp hv.delta.le ho
  have hL := (spm_agesOneWay_partial c ops hp hv.delta.le hv.CS ho ha).LLI
  have hsp := spheres_kept c ops hs h4 ho
  obtain ⟨r1, r2, r3⟩ := run_rDC c ops ho
  generalize spmRun c ops = c' at *
  have hval : ({ d with st := c'.st, valid := false } : SPM N).validStates = .ok true := by
    have e : ({ d with st := c'.st, valid := false } : SPM N).validStates = c'.validStates := by
      have hp' : d.par = c'.par := hd.trans k4.symm
      unfold validStates SPM.finite concOk cps cns jp jn iApp SPM.Dpt SPM.Dnt SPM.arrh
      simp only [hp']
    rw [e]
    unfold validStates
    rw [if_neg (by rw [hr.left]; simp), if_neg (not_lt.mpr (hv.LLI.trans hL))]
    have off : ∀ x : ℚ, relOff x x = false := by
      intro x
      unfold relOff
      by_cases hx : x = 0
      · simp [hx]
      · rw [if_neg hx]; simp
    have q1 : checkSOC c'.st.SOC = true := by
      unfold checkSOC
      have := hr.soc
      simp
      tauto
    have q2 : c'.concOk = true := by
      unfold concOk
      have := hr.concP; have := hr.concN
      simp only [Bool.not_eq_true', Bool.or_eq_false_iff, decide_eq_false_iff_not, not_le]
      tauto
    rw [← hsp.1, ← hsp.2, off, off, q1, q2]
    have t := hr.temp
    have := hv.delta.trans_le k1
    have := hv.CS.trans k2
    have := hv.deltaPl.trans k3
    obtain ⟨z1, z2, z3⟩ := hv.rDC
    rw [← r1] at z1; rw [← r2] at z2; rw [← r3] at z3
    simp only [Outcome.ok.injEq, Bool.and_eq_true, Bool.not_eq_true', Bool.or_eq_false_iff, decide_eq_false_iff_not, not_lt,
      not_le]
    tauto
  unfold setStates
  have hdec := spm_decode_getStates c' []
  rw [List.append_nil] at hdec
  rw [hdec]
  simp only
  unfold checkStates
  rw [hval]
  have hlen : c'.getStates.drop (22 + 2 * N) = [] := by
    apply List.drop_eq_nil_of_le
    unfold getStates
    simp
    omega
  rw [hlen]
  exact ⟨rfl, rfl⟩

/-- C115: setting the geometry makes the active surface that of spheres, and stores the other parameters. -/
theorem setGeometric_spheres (c : SPM N) (cap surf ep en thickp thickn : ℚ) :
    Spheres (c.setGeometric cap surf ep en thickp thickn) ∧
    let c' := c.setGeometric cap surf ep en thickp thickn
    c'.par.cap = cap ∧ c'.par.elecSurf = surf ∧ c'.st.ep = ep ∧ c'.st.en = en ∧ c'.st.thickp = thickp ∧
      c'.st.thickn = thickn ∧ c'.valid = false ∧ c'.st.zp = c.st.zp ∧ c'.st.zn = c.st.zn ∧ c'.par.Rp = c.par.Rp ∧
      c'.par.Rn = c.par.Rn :=
  ⟨⟨rfl, rfl⟩, rfl, rfl, rfl, rfl, rfl, rfl, rfl, rfl, rfl, rfl, rfl⟩

/-- C115: the delivered cell is made of spheres. -/
theorem default_spheres (e : Default.Env) : Spheres (Default.cell e) := by
  have h : SameAge (Default.raw e) ((Default.raw e).setC Default.fp0 Default.fn0).2 :=
    sameAge_ordinary (.setC Default.fp0 Default.fn0) trivial fun _ _ => by simp
  unfold Spheres Default.cell
  simp only
  rw [h.ap, h.an, h.ep, h.en, h.par]
  exact ⟨rfl, rfl⟩

/-- **C115 in full is false of the code**: after ageing with the model which removes active surface only (model 4), the states
of the cell are refused as not valid. -/
theorem not_restoresOwnStates : ¬ RestoresOwnStates 1 := by
  intro h
  have h1 := (h spmLam [.step (1 / 10) 2] spmLam spmLam_physical spmLam_physicalLam spmLam_valid ⟨by decide +kernel, by decide +kernel⟩
    (by intro o ho; rw [List.mem_singleton.mp ho]; exact (by decide : (0 : ℤ) ≤ 2))
    ⟨by decide +kernel, by decide +kernel, by decide +kernel, by decide +kernel, by decide +kernel⟩ rfl).1
  revert h1
  decide +kernel

/-- A cell with SEI growth and loss of active material by current. -/
def spmLam2 : SPM 1 :=
  { spm1 with par := { spm1.par with sei := { spm1.par.sei with k1 := 1 / 100 } }, deg := { spm1.deg with LAM := [2] } }

/-- Hypotheses of `restores_partial` on a concrete run, in which the cell ages. -/
example : let ops : List (SpmOp 1) := [.setCurrent (1 / 10) true, .step (1 / 10) 2]
    SpmPhysical spmLam2.par ∧ Spec.SpmValid spmLam2 ∧ Spheres spmLam2 ∧ 4 ∉ spmLam2.deg.LAM ∧ (∀ o ∈ ops, ordinary o) ∧
    throughout (fun a => 0 ≤ a.st.thickn * a.st.an) spmLam2 ops ∧ InRange (spmRun spmLam2 ops) ∧
    (spmRun spmLam2 ops).st.ep ≠ spmLam2.st.ep ∧ (spmRun spmLam2 ops).st.delta ≠ spmLam2.st.delta := by
  refine ⟨{ spm1_physical with k1 := by decide +kernel }, ⟨spm1_valid.1, spm1_valid.2, spm1_valid.3, spm1_valid.4, spm1_valid.5,
    spm1_valid.6, spm1_valid.7, spm1_valid.8, spm1_valid.9, spm1_valid.10, spm1_valid.11⟩, ⟨by decide +kernel, by decide +kernel⟩,
    by decide, ?_, ?_, ⟨by decide +kernel, by decide +kernel, by decide +kernel, by decide +kernel, by decide +kernel⟩,
    by decide +kernel, by decide +kernel⟩
  · intro o ho
    simp only [List.mem_cons, List.not_mem_nil, or_false] at ho
    rcases ho with rfl | rfl
    · trivial
    · exact (by decide : (0 : ℤ) ≤ 2)
  · refine ⟨by decide +kernel, by decide +kernel, ?_⟩
    show (0 : ℚ) ≤ _
    decide +kernel

end Slide

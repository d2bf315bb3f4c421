import Verif.Spec.WeakestCell
import Verif.Lemmas.CyclerLoops
import Verif.Props.Tree
import Verif.Props.ECM
import Verif.Props.Series

/-!
C154: the weakest cell limits a string.
-/

namespace Slide
open StorageUnit Spec Cyc

variable {n : ℕ}

/-- What is known of a cell `k` of the string that was `k0` at the start, when the charge for `q` seconds has been reported:
it carries the current, has passed its last check unless nothing was reported, and its state of charge has moved by what
was reported. -/
structure Along (I q : ℚ) (k0 k : Kid (ECM n)) : Prop where
  par : k.su.par = k0.su.par
  cur : k.su.st.I = I
  good : k.su.checkV.isBad = false
  soc : k.su.st.SOC = k0.su.st.SOC - I * q / 3600 / k0.su.par.cap
  up : 0 ≤ I → ∀ i, 0 ≤ k.su.st.Ir i
  down : I ≤ 0 → ∀ i, k.su.st.Ir i ≤ 0
  checked : q = 0 ∨ k.su.checkV = .Success

/-- Setting the current a cell already carries changes nothing, if the voltage is not critical. -/
theorem set_same (u : ECM n) {I : ℚ} (hI : u.st.I = I) (hg : u.checkV.isBad = false) :
    ∃ st, StorageUnit.setCurrent u I true = (.ok st, u) ∧ st.isBad = false := by
  have e : u.withI I = u := by
    unfold ECM.withI
    rw [← hI]
  refine ⟨u.checkV, ?_, hg⟩
  show (Outcome.ok (u.setCurrent I true).1, (u.setCurrent I true).2) = _
  unfold ECM.setCurrent
  dsimp only
  rw [e]
  have e2 : u.checkCurrent true = u.checkV := rfl
  rw [e2, if_neg (by rw [hg]; decide)]

/-- A string all of whose cells accept the current takes it. -/
theorem setLoop_carried {I : ℚ} (ks : List (Kid (ECM n))) (done : List (ℚ × Kid (ECM n)))
    (h : ∀ k ∈ ks, k.su.st.I = I ∧ k.su.checkV.isBad = false) :
    (∃ w, ModuleS.setLoop I true done ks = (.ub w, done.map Prod.snd ++ ks)) ∨
      ModuleS.setLoop I true done ks = (.ok .Success, done.map Prod.snd ++ ks) := by
  induction ks generalizing done with
  | nil => right; simp [ModuleS.setLoop]
  | cons k ks ih =>
    unfold ModuleS.setLoop
    by_cases hl : NSUs_MAX ≤ done.length
    · rw [if_pos hl]; left; exact ⟨_, rfl⟩
    · rw [if_neg hl]
      obtain ⟨st, e, hst⟩ := set_same k.su (h k List.mem_cons_self).1 (h k List.mem_cons_self).2
      dsimp only
      rw [e]
      dsimp only
      rw [if_neg (by rw [hst]; decide)]
      have := ih (done ++ [(StorageUnit.I k.su, k)]) fun j hj => h j (List.mem_cons_of_mem _ hj)
      simpa using this

/-- What the loop of the string leaves when no cell refuses the current. -/
theorem setLoop_takes {I : ℚ} (ks : List (Kid (ECM n))) (done : List (ℚ × Kid (ECM n)))
    (h : (ModuleS.setLoop I true done ks).1 = .ok .Success) :
    (ModuleS.setLoop I true done ks).2 = done.map Prod.snd ++ ks.map (fun k => { k with su := k.su.withI I }) ∧
      ∀ k ∈ ks, (k.su.withI I).checkV.isBad = false := by
  induction ks generalizing done with
  | nil => simp [ModuleS.setLoop]
  | cons k ks ih =>
    unfold ModuleS.setLoop at h ⊢
    by_cases hl : NSUs_MAX ≤ done.length
    · rw [if_pos hl] at h; cases h
    · rw [if_neg hl] at h ⊢
      dsimp only at h ⊢
      have e : StorageUnit.setCurrent k.su I true = (.ok (k.su.setCurrent I true).1, (k.su.setCurrent I true).2) := rfl
      rw [e] at h ⊢
      have e1 : (k.su.setCurrent I true).1 = (k.su.withI I).checkV := by
        unfold ECM.setCurrent
        dsimp only
        split <;> rfl
      dsimp only at h ⊢
      by_cases hb : (k.su.setCurrent I true).1.isBad = true
      · rw [if_pos hb] at h
        injection h with h
        rw [h] at hb
        exact absurd hb (by decide)
      · rw [if_neg hb] at h ⊢
        have e2 : (k.su.setCurrent I true).2 = k.su.withI I := by
          unfold ECM.setCurrent
          dsimp only
          rw [e1] at hb
          exact congrArg Prod.snd (if_neg hb)
        rw [e2] at h ⊢
        obtain ⟨h1, h2⟩ := ih _ h
        refine ⟨by rw [h1]; simp, ?_⟩
        intro j hj
        rcases List.mem_cons.mp hj with rfl | hj
        · rw [← e1]; simpa using hb
        · exact h2 j hj

/-- The two lists element by element, with membership. -/
theorem forall2_mem {α β : Type} {R : α → β → Prop} {a : List α} {b : List β} (h : List.Forall₂ R a b) :
    List.Forall₂ (fun x y => x ∈ a ∧ y ∈ b ∧ R x y) a b := by
  induction h with
  | nil => exact .nil
  | cons h _ ih =>
    refine .cons ⟨List.mem_cons_self, List.mem_cons_self, h⟩ (ih.imp fun x y hx => ?_)
    exact ⟨List.mem_cons_of_mem _ hx.1, List.mem_cons_of_mem _ hx.2.1, hx.2.2⟩

theorem forall2_right {α β : Type} {R : α → β → Prop} {a : List α} {b : List β} (h : List.Forall₂ R a b) :
    ∀ y ∈ b, ∃ x ∈ a, R x y := by
  induction h with
  | nil => intro y hy; cases hy
  | cons h _ ih =>
    intro y hy
    rcases List.mem_cons.mp hy with rfl | hy
    · exact ⟨_, List.mem_cons_self, h⟩
    · obtain ⟨x, hx, hr⟩ := ih y hy
      exact ⟨x, List.mem_cons_of_mem _ hx, hr⟩

theorem forall2_left {α β : Type} {R : α → β → Prop} {a : List α} {b : List β} (h : List.Forall₂ R a b) :
    ∀ x ∈ a, ∃ y ∈ b, R x y := by
  induction h with
  | nil => intro y hy; cases hy
  | cons h _ ih =>
    intro y hy
    rcases List.mem_cons.mp hy with rfl | hy
    · exact ⟨_, List.mem_cons_self, h⟩
    · obtain ⟨x, hx, hr⟩ := ih y hy
      exact ⟨x, List.mem_cons_of_mem _ hx, hr⟩

/-- Steps with a current keep the currents of the RC pairs on its side. -/
theorem steps_side {u : ECM n} {dt : ℚ} (k : ℕ) (h0 : ∀ i, 0 ≤ dt * u.par.invTau i) (h1 : ∀ i, dt * u.par.invTau i ≤ 1) (i : Fin n) :
    (0 ≤ u.st.I → 0 ≤ u.st.Ir i → 0 ≤ (u.steps dt k).st.Ir i) ∧ (u.st.I ≤ 0 → u.st.Ir i ≤ 0 → (u.steps dt k).st.Ir i ≤ 0) := by
  have e := ECM.steps_Ir u dt k i
  have p0 : 0 ≤ (1 - dt * u.par.invTau i) ^ k := pow_nonneg (by linarith [h1 i]) k
  have p1 : (1 - dt * u.par.invTau i) ^ k ≤ 1 := pow_le_one₀ (by linarith [h1 i]) (by linarith [h0 i])
  constructor <;> intro a b <;> nlinarith

/-- One more batch of steps that passes the check. -/
theorem along_step {I q dt : ℚ} {k0 k : Kid (ECM n)} {m : ℕ} (hr : RatedCell k0.su.par dt) (hdt : 0 ≤ dt)
    (h : Along I q k0 k) (hc : (k.su.steps dt m).checkV = .Success) :
    Along I (q + dt * m) k0 { k with su := k.su.steps dt m } where
  par := by rw [← h.par]; exact ECM.steps_par _ _ _
  cur := by rw [← h.cur]; exact ECM.steps_I _ _ _
  good := by show (k.su.steps dt m).checkV.isBad = false; rw [hc]; decide
  soc := by
    show (k.su.steps dt m).st.SOC = _
    rw [ECM.steps_SOC, h.soc, h.cur, h.par]
    ring
  up hI i := by
    refine (steps_side m (fun j => ?_) (fun j => ?_) i).1 (by rw [h.cur]; exact hI) (h.up hI i)
    · rw [h.par]; exact mul_nonneg hdt (hr.tau0 j)
    · rw [h.par]; exact hr.tau1 j
  down hI i := by
    refine (steps_side m (fun j => ?_) (fun j => ?_) i).2 (by rw [h.cur]; exact hI) (h.down hI i)
    · rw [h.par]; exact mul_nonneg hdt (hr.tau0 j)
    · rw [h.par]; exact hr.tau1 j
  checked := .inr hc

theorem ratedCell_shorter {p : ECMPar n} {dt dti : ℚ} (h : RatedCell p dt) (hl : dti ≤ dt) : RatedCell p dti :=
  { h with tau1 := fun i => le_trans (mul_le_mul_of_nonneg_right hl (h.tau0 i)) (h.tau1 i) }

/-- The time step of a string of cells is that of each cell. -/
theorem string_steps {dt : ℚ} (hdt : 0 ≤ dt) (m : ℕ) (ks : List (Kid (ECM n))) :
    stepKids dt m ks = (.ok (), ks.map fun k => { k with su := k.su.steps dt m }) := by
  induction ks with
  | nil => rfl
  | cons k ks ih =>
    unfold stepKids
    have e : timeStep k.su dt m = (.ok (), k.su.steps dt m) := by
      show k.su.timeStep dt m = _
      unfold ECM.timeStep
      exact if_neg (not_lt.mpr hdt)
    rw [e, ih]
    rfl

/-- The string at some moment of the phase. -/
structure StringAlong (I : ℚ) (ks0 : List (Kid (ECM n))) (th0 : Thr) (c : Cyc (ModuleS (ECM n))) (th : Thr) : Prop where
  diag : c.diagnostic = true
  state : ∃ q, 0 ≤ q ∧ th.Ah = th0.Ah + |I| * q / 3600 ∧ List.Forall₂ (Along I q) ks0 c.su.kids

/-- The claim about a report. -/
def Covering (I : ℚ) (ks0 : List (Kid (ECM n))) (th0 th : Thr) : Prop :=
  ∃ c, StringAlong I ks0 th0 c th

/-- The current is set again without effect. -/
theorem string_reset {I vlim : ℚ} {ks0 : List (Kid (ECM n))} {th0 th : Thr} {c : Cyc (ModuleS (ECM n))}
    (h : StringAlong I ks0 th0 c th) :
    (∃ w c1, c.setCurrent I vlim = (.ub w, c1)) ∨ ∃ st, c.setCurrent I vlim = (.ok st, c) := by
  obtain ⟨q, _, _, hk⟩ := h.state
  have hs : ∀ k ∈ c.su.kids, k.su.st.I = I ∧ k.su.checkV.isBad = false := by
    intro k hk1
    obtain ⟨k0, _, hk2⟩ := forall2_right hk k hk1
    exact ⟨hk2.cur, hk2.good⟩
  have hset : StorageUnit.setCurrent c.su I c.diagnostic =
      ((ModuleS.setLoop I true [] c.su.kids).1, { c.su with kids := (ModuleS.setLoop I true [] c.su.kids).2 }) := by
    rw [h.diag]; rfl
  unfold Cyc.setCurrent
  dsimp only
  rw [hset]
  rcases setLoop_carried c.su.kids [] hs with ⟨w, e⟩ | e
  · left
    rw [e]
    exact ⟨w, _, rfl⟩
  · right
    rw [e]
    dsimp only
    rw [if_neg (by decide)]
    split
    · exact ⟨_, rfl⟩
    · split <;> exact ⟨_, rfl⟩

/-- One iteration: it either reports nothing more and ends, or the string is a batch further along. -/
theorem string_body {I vlim tlim dt : ℚ} {ndt : ℤ} {nMax : ℕ} {ks0 : List (Kid (ECM n))} {th0 th : Thr}
    {c : Cyc (ModuleS (ECM n))} {v : CCVars} (hr : ∀ k ∈ ks0, RatedCell k.su.par dt) (hl : v.dti ≤ dt)
    (h : StringAlong I ks0 th0 c th) :
    let r := ccBody I vlim tlim ndt nMax v c th
    Covering I ks0 th0 r.2.2 ∧ ∀ v', r.1 = .ok (.cont v') → StringAlong I ks0 th0 r.2.1 r.2.2 ∧ v'.dti ≤ dt := by
  have stay : Covering I ks0 th0 th := ⟨c, h⟩
  unfold ccBody
  dsimp only
  rcases string_reset (vlim := vlim) h with ⟨w, c1, e⟩ | ⟨st, e⟩
  · rw [e]
    exact ⟨stay, fun v' hv => by cases hv⟩
  · rw [e]
    dsimp only
    generalize (if (v.nOnce : ℚ) * v.dti > tlim - v.ttot then 1 else v.nOnce) = m
    have hdl : (if v.dti > tlim - v.ttot then tlim - v.ttot else v.dti) ≤ dt := by
      split
      · linarith
      · exact hl
    generalize (if v.dti > tlim - v.ttot then tlim - v.ttot else v.dti) = d at hdl ⊢
    have et : timeStep c.su d m = c.su.timeStep d m := rfl
    rw [et]
    unfold ModuleS.timeStep
    by_cases hd : d < 0
    · rw [if_pos hd]
      exact ⟨stay, fun v' hv => by cases hv⟩
    · rw [if_neg hd, string_steps (not_lt.mp hd)]
      dsimp only
      unfold ccVoltage
      have hdg : (c.withSU { c.su with kids := c.su.kids.map fun k => { k with su := k.su.steps d m } }).diagnostic = true := h.diag
      rw [if_pos hdg]
      dsimp only
      by_cases hs : (StorageUnit.checkVoltage
          (c.withSU { c.su with kids := c.su.kids.map fun k => { k with su := k.su.steps d m } }).su).isSuccessful = true
      · rw [if_pos hs]
        dsimp only
        have hck : ∀ k ∈ c.su.kids, (k.su.steps d m).checkV = .Success := by
          intro k hk
          have hsp := (modCheckVoltage_spec (c.su.kids.map fun k => ({ k with su := k.su.steps d m } : Kid (ECM n)))).2.2
            _ (List.mem_map.mpr ⟨k, hk, rfl⟩)
          have e1 : (modCheckVoltage (c.su.kids.map fun k => ({ k with su := k.su.steps d m } : Kid (ECM n)))).code = 0 := by
            have hs' : (modCheckVoltage (c.su.kids.map fun k => ({ k with su := k.su.steps d m } : Kid (ECM n)))).isSuccessful = true := hs
            simpa [Status.isSuccessful, Status.code] using hs'
          rw [e1] at hsp
          have hsp' : (k.su.steps d m).checkV.code ≤ 0 := hsp
          unfold ECM.checkV Slide.checkVoltage at hsp' ⊢
          dsimp only at hsp' ⊢
          split_ifs at hsp' ⊢ <;> first | rfl | exact absurd hsp' (by decide)
        obtain ⟨q, hq, hA, hk⟩ := h.state
        have hnew : ∀ c3 : Cyc (ModuleS (ECM n)), c3.diagnostic = true →
            c3.su.kids = c.su.kids.map (fun k => ({ k with su := k.su.steps d m } : Kid (ECM n))) →
            ∀ th3 : Thr, th3.Ah = th.Ah + |I| * (d * m) / 3600 → StringAlong I ks0 th0 c3 th3 := by
          intro c3 hc3 hk3 th3 hth3
          refine ⟨hc3, q + d * m, add_nonneg hq (mul_nonneg (not_lt.mp hd) (Nat.cast_nonneg _)), ?_, ?_⟩
          · rw [hth3, hA]; ring
          · rw [hk3, List.forall₂_map_right_iff]
            exact (forall2_mem hk).imp fun k0 k hx =>
              along_step (ratedCell_shorter (hr k0 hx.1) hdl) (not_lt.mp hd) hx.2.2 (hck k hx.2.1)
        have hsd : ∀ b : Bool, (storeIf b (c.withSU { c.su with kids := c.su.kids.map fun k => { k with su := k.su.steps d m } })).diagnostic = true :=
          fun b => by rw [storeIf_diag]; exact h.diag
        have hsk : ∀ b : Bool, (storeIf b (c.withSU { c.su with kids := c.su.kids.map fun k => { k with su := k.su.steps d m } })).su.kids =
            c.su.kids.map (fun k => ({ k with su := k.su.steps d m } : Kid (ECM n))) :=
          fun b => by rw [storeIf_su]; rfl
        generalize (decide (0 < ndt) && decide (ndt ≤ ((v.idat + m : ℕ) : ℤ))) = save
        have fin : ∀ th3 : Thr, th3.Ah = th.Ah + |I| * (d * m) / 3600 → _ := hnew _ (hsd save) (hsk save)
        split_ifs
        all_goals
          refine ⟨⟨_, fin _ rfl⟩, fun v' hv => ?_⟩
          first
          | (cases hv; done)
          | (refine ⟨fin _ rfl, ?_⟩; cases hv; exact hdl)
      · rw [if_neg hs]
        exact ⟨stay, fun v' hv => by cases hv⟩

/-- The whole loop. -/
theorem string_loop {I vlim tlim dt : ℚ} {ndt : ℤ} {nMax : ℕ} {ks0 : List (Kid (ECM n))} {th0 : Thr}
    (hr : ∀ k ∈ ks0, RatedCell k.su.par dt) (fuel : ℕ) : ∀ {th : Thr} {c : Cyc (ModuleS (ECM n))} {v : CCVars},
    v.dti ≤ dt → StringAlong I ks0 th0 c th → Covering I ks0 th0 (ccLoop I vlim tlim ndt nMax fuel v c th).2.2 := by
  induction fuel with
  | zero =>
    intro th c v hl h
    unfold ccLoop
    split <;> exact ⟨c, h⟩
  | succ fuel ih =>
    intro th c v hl h
    unfold ccLoop
    by_cases hlt : v.ttot < tlim
    · rw [if_pos hlt]
      obtain ⟨h1, h2⟩ := string_body (vlim := vlim) (tlim := tlim) (ndt := ndt) (nMax := nMax) hr hl h
      generalize ccBody I vlim tlim ndt nMax v c th = r at h1 h2
      obtain ⟨o, c1, th1⟩ := r
      match o, h1, h2 with
      | .ok (.ret st), h1, _ => exact h1
      | .ok (.brk v'), h1, _ => exact h1
      | .ok (.cont v'), _, h2 => exact ih (h2 v' rfl).2 (h2 v' rfl).1
      | .throw e, h1, _ => exact h1
      | .ub w, h1, _ => exact h1
    · rw [if_neg hlt]; exact ⟨c, h⟩

/-- A string answers with success, with `V_not_calculated` or with a violation of the voltage limits. -/
theorem setLoop_answers {I : ℚ} (ks : List (Kid (ECM n))) (done : List (ℚ × Kid (ECM n))) {st : Status}
    (h : (ModuleS.setLoop I true done ks).1 = .ok st) (hn : Outcome.ok st ≠ .ok .V_not_calculated)
    (hv : ¬ st.isVoltageLimitsViolated = true) : st = .Success := by
  induction ks generalizing done with
  | nil => unfold ModuleS.setLoop at h; injection h with h; exact h.symm
  | cons k ks ih =>
    unfold ModuleS.setLoop at h
    by_cases hl : NSUs_MAX ≤ done.length
    · rw [if_pos hl] at h; cases h
    · rw [if_neg hl] at h
      dsimp only at h
      have e : StorageUnit.setCurrent k.su I true = (.ok (k.su.setCurrent I true).1, (k.su.setCurrent I true).2) := rfl
      have e1 : (k.su.setCurrent I true).1 = (k.su.withI I).checkV := by
        unfold ECM.setCurrent
        dsimp only
        split <;> rfl
      rw [e] at h
      dsimp only at h
      by_cases hb : (k.su.setCurrent I true).1.isBad = true
      · rw [if_pos hb] at h
        injection h with h
        rw [← h, e1] at hn hv ⊢
        unfold ECM.checkV Slide.checkVoltage at hn hv ⊢
        dsimp only at hn hv ⊢
        split_ifs at hn hv ⊢ <;> first | rfl | exact absurd rfl hn | exact absurd (by decide) hv
      · rw [if_neg hb] at h
        exact ih _ h

/-- What a phase reports about the string. -/
theorem string_phase {fuel : ℕ} {c : Cyc (ModuleS (ECM n))} {I vlim tlim dt : ℚ} {ndt : ℤ} {th : Thr}
    (hd : c.diagnostic = true) (hr : RestedString c.su dt)
    (hV : (StorageUnit.setCurrent c.su I true).1 ≠ .ok .V_not_calculated) :
    (c.CC fuel I vlim tlim dt ndt th).2.2 = th ∨
      Covering I c.su.kids th (c.CC fuel I vlim tlim dt ndt th).2.2 := by
  have hset : StorageUnit.setCurrent c.su I true =
      ((ModuleS.setLoop I true [] c.su.kids).1, { c.su with kids := (ModuleS.setLoop I true [] c.su.kids).2 }) := rfl
  have hstart : ∀ c1 : Cyc (ModuleS (ECM n)), c1.diagnostic = true → (ModuleS.setLoop I true [] c.su.kids).1 = .ok .Success →
      c1.su.kids = (ModuleS.setLoop I true [] c.su.kids).2 → StringAlong I c.su.kids th c1 th := by
    intro c1 hd1 hok hk1
    obtain ⟨e, hg⟩ := setLoop_takes c.su.kids [] hok
    refine ⟨hd1, 0, le_refl _, by simp, ?_⟩
    rw [hk1, e, List.map_nil, List.nil_append, List.forall₂_map_right_iff]
    refine List.forall₂_same.mpr fun k hk => ?_
    exact { par := rfl, cur := rfl, good := hg k hk, soc := by show k.su.st.SOC = _; ring,
            up := fun _ i => le_of_eq ((hr k hk).2 i).symm, down := fun _ i => le_of_eq ((hr k hk).2 i), checked := .inl rfl }
  unfold CC
  dsimp only
  have hd0 : (storeIf (decide (0 < ndt)) c).diagnostic = true := by rw [storeIf_diag]; exact hd
  have hsu0 : (storeIf (decide (0 < ndt)) c).su = c.su := storeIf_su _ _
  generalize storeIf (decide (0 < ndt)) c = c0 at hd0 hsu0
  -- setting the current
  have hcs : (∃ w c1, c0.setCurrent I vlim = (.ub w, c1)) ∨ (∃ e c1, c0.setCurrent I vlim = (.throw e, c1)) ∨
      (∃ st c1, c0.setCurrent I vlim = (.ok st, c1) ∧ st.isSuccessful = false) ∨
      ∃ st c1, c0.setCurrent I vlim = (.ok st, c1) ∧ StringAlong I c.su.kids th c1 th := by
    unfold Cyc.setCurrent
    dsimp only
    rw [hsu0, hd0, hset]
    rw [hset] at hV
    dsimp only at hV
    rcases ho : (ModuleS.setLoop I true [] c.su.kids).1 with st | e | w
    · dsimp only
      by_cases hv : st.isVoltageLimitsViolated = true
      · rw [if_pos hv]
        have hns : st.isSuccessful = false := by
          cases st <;> first | rfl | exact absurd hv (by decide)
        generalize StorageUnit.setCurrent (U := ModuleS (ECM n)) _ _ false = r
        obtain ⟨o | e | w, u2⟩ := r
        · exact .inr (.inr (.inl ⟨_, _, rfl, hns⟩))
        · exact .inr (.inl ⟨_, _, rfl⟩)
        · exact .inl ⟨_, _, rfl⟩
      · rw [if_neg hv]
        rw [ho] at hV
        have hS : st = .Success := setLoop_answers c.su.kids [] ho hV hv
        subst hS
        have hgo : ∀ st' : Status, StringAlong I c.su.kids th
            (c0.withSU { c.su with kids := (ModuleS.setLoop I true [] c.su.kids).2 }) th :=
          fun _ => hstart _ hd0 ho rfl
        right; right; right
        split
        · exact ⟨_, _, rfl, hgo .Success⟩
        · split <;> exact ⟨_, _, rfl, hgo .Success⟩
    · exact .inr (.inl ⟨_, _, rfl⟩)
    · exact .inl ⟨_, _, rfl⟩
  rcases hcs with ⟨w, c1, e⟩ | ⟨x, c1, e⟩ | ⟨st, c1, e, hns⟩ | ⟨st, c1, e, hal⟩
  · rw [e]; exact .inl rfl
  · rw [e]; exact .inl rfl
  · rw [e]
    dsimp only
    rw [hns]
    exact .inl rfl
  · rw [e]
    dsimp only
    by_cases hs : (!st.isSuccessful) = true
    · rw [if_pos hs]; exact .inl rfl
    · rw [if_neg hs]
      by_cases hl : (I < 0 ∧ V c1.su > vlim) ∨ (I > 0 ∧ V c1.su < vlim)
      · rw [if_pos hl]; exact .inl rfl
      · rw [if_neg hl]
        right
        generalize (if decide (0 < ndt) = true then min 2 ndt.toNat else 2) = nMax
        have key := string_loop (I := I) (vlim := vlim) (tlim := tlim) (ndt := ndt) (nMax := nMax) (fun k hk => (hr k hk).1) fuel
          (v := { dti := dt, ttot := 0, idat := 0, nOnce := 1, vo := V c1.su, vi := V c1.su, allowUp := true }) (le_refl _) hal
        generalize ccLoop I vlim tlim ndt nMax fuel _ c1 th = r at key
        obtain ⟨o, c2, th2⟩ := r
        match o, key with
        | .ok (.inl st), key => exact key
        | .ok (.inr (v, vtot)), key =>
          dsimp only
          split_ifs <;> exact key
        | .throw e, key => exact key
        | .ub w, key => exact key

/-- A cell that passes its check while it is discharged is at 2.69 V or above, and while it is charged at 4.21 V or below. -/
theorem check_window {u : ECM n} (h : u.checkV = .Success) :
    0 < u.V ∧ (0 < u.st.I → 27 / 10 - 1 / 100 ≤ u.V) ∧ (u.st.I < 0 → u.V ≤ 42 / 10 + 1 / 100) := by
  have hmin : cellLimits.Vmin = 27 / 10 := rfl
  have hmax : cellLimits.Vmax = 42 / 10 := rfl
  have htol : P_V_ABSTOL = 1 / 100 := rfl
  unfold ECM.checkV Slide.checkVoltage at h
  dsimp only at h
  rw [hmin, hmax, htol] at h
  split_ifs at h with h1 h2 h3 h4 h5 h6
  · exact ⟨not_le.mp h1, fun _ => le_of_lt h2.1, fun _ => le_of_lt h2.2⟩
  · refine ⟨not_le.mp h1, fun hI => ?_, fun hI => ?_⟩
    · by_contra hlt
      exact h5 ⟨not_le.mp hlt, hI⟩
    · by_contra hlt
      exact h6 ⟨not_le.mp hlt, hI⟩

/-- The report does not exceed what the cell can give or take. -/
theorem along_limit {I q dt : ℚ} {k0 k : Kid (ECM n)} (hr : RatedCell k0.su.par dt) (h : Along I q k0 k) (hq : 0 ≤ q) (x : ℚ) :
    (0 < I → EmptyAfter k0.su x → |I| * q / 3600 ≤ x) ∧ (I < 0 → FullAfter k0.su x → |I| * q / 3600 ≤ x) := by
  have hcap := hr.cap
  rcases h.checked with h0 | hc
  · subst h0
    exact ⟨fun _ hx => by simpa using hx.1, fun _ hx => by simpa using hx.1⟩
  · obtain ⟨hpos, hlow, hhigh⟩ := check_window hc
    rw [h.cur] at hlow hhigh
    unfold ECM.V at hpos hlow hhigh
    rw [h.par] at hpos hlow hhigh
    rcases ho : k0.su.par.ocv k.su.st.SOC with _ | o
    · rw [ho] at hpos
      exact absurd hpos (lt_irrefl _)
    · rw [ho] at hlow hhigh
      dsimp only at hlow hhigh
      rw [h.cur] at hlow hhigh
      constructor
      · intro hI hx
        obtain ⟨hx0, v, hv, hlt⟩ := hx
        have hsum : 0 ≤ ∑ i, k0.su.par.Rp i * k.su.st.Ir i :=
          Finset.sum_nonneg fun i _ => mul_nonneg (hr.Rp i) (h.up hI.le i)
        have hRI : 0 ≤ k0.su.par.Rdc * I := mul_nonneg hr.Rdc hI.le
        have ho2 := hlow hI
        by_contra hcon
        rw [not_le, abs_of_pos hI] at hcon
        have hle : k.su.st.SOC ≤ k0.su.st.SOC - x / k0.su.par.cap := by
          rw [h.soc]
          have : x / k0.su.par.cap ≤ I * q / 3600 / k0.su.par.cap := by gcongr
          linarith
        have := hr.rising _ _ _ _ hle ho hv
        linarith
      · intro hI hx
        obtain ⟨hx0, v, hv, hlt⟩ := hx
        have hsum : ∑ i, k0.su.par.Rp i * k.su.st.Ir i ≤ 0 :=
          Finset.sum_nonpos fun i _ => mul_nonpos_of_nonneg_of_nonpos (hr.Rp i) (h.down hI.le i)
        have hRI : k0.su.par.Rdc * I ≤ 0 := mul_nonpos_of_nonneg_of_nonpos hr.Rdc hI.le
        have ho2 := hhigh hI
        by_contra hcon
        rw [not_le, abs_of_neg hI] at hcon
        have hle : k0.su.st.SOC + x / k0.su.par.cap ≤ k.su.st.SOC := by
          rw [h.soc]
          have : x / k0.su.par.cap ≤ (-I) * q / 3600 / k0.su.par.cap := by gcongr
          have e : (-I) * q / 3600 / k0.su.par.cap = -(I * q / 3600 / k0.su.par.cap) := by ring
          linarith
        have := hr.rising _ _ _ _ hle hv ho
        linarith

/-- **The weakest cell limits a string.**  With individual checks, a constant-current phase on a string of any cells, which
does not answer the request with `V_not_calculated`, reports no more charge than any one of its cells can give (on discharge)
or take (on charge), whatever the outcome of the phase. -/
theorem weakest_limits_partial {fuel : ℕ} {c : Cyc (ModuleS (ECM n))} {I vlim tlim dt : ℚ} {ndt : ℤ} {th : Thr}
    (hd : c.diagnostic = true) (hr : RestedString c.su dt)
    (hV : (StorageUnit.setCurrent c.su I true).1 ≠ .ok .V_not_calculated) {k : Kid (ECM n)} (hk : k ∈ c.su.kids) (q : ℚ) :
    (0 < I → EmptyAfter k.su q → (c.CC fuel I vlim tlim dt ndt th).2.2.Ah ≤ th.Ah + q) ∧
      (I < 0 → FullAfter k.su q → (c.CC fuel I vlim tlim dt ndt th).2.2.Ah ≤ th.Ah + q) := by
  rcases string_phase (fuel := fuel) (vlim := vlim) (tlim := tlim) (ndt := ndt) (th := th) hd hr hV with e | ⟨c1, h⟩
  · rw [e]
    exact ⟨fun _ hx => by linarith [hx.1], fun _ hx => by linarith [hx.1]⟩
  · obtain ⟨t, ht, hA, hall⟩ := h.state
    obtain ⟨k', _, hal⟩ := forall2_left hall k hk
    obtain ⟨l1, l2⟩ := along_limit (hr k hk).1 hal ht q
    rw [hA]
    exact ⟨fun hI hx => by linarith [l1 hI hx], fun hI hx => by linarith [l2 hI hx]⟩

/-! ### Against the full statement -/

theorem bucket_rated (z i dt : ℚ) : RatedCell (bucket z i).par dt where
  cap := by norm_num [bucket]
  rising y z v w hyz hy hz := by
    have e : ∀ x, (bucket z i).par.ocv x = ECM.defaultOCV x := fun _ => rfl
    simp only [bucket, ECM.defaultOCV_eq] at hy hz
    split_ifs at hy hz with h1 h2
    injection hy with hy
    injection hz with hz
    rw [← hy, ← hz]
    linarith
  Rdc := by norm_num [bucket]
  Rp i := i.elim0
  tau0 i := i.elim0
  tau1 i := i.elim0

/-- A string of buckets on a cycler. -/
def bucketString (diag : Bool) (zs : List ℚ) : Cyc (ModuleS (ECM 0)) :=
  { su := { T := 288, kids := zs.map fun z => { rc := 1 / 1000, su := bucket z 0 } }, diagnostic := diag }

theorem bucketString_rested (diag : Bool) (zs : List ℚ) (dt : ℚ) : RestedString (bucketString diag zs).su dt := by
  intro k hk
  obtain ⟨z, _, rfl⟩ := List.mem_map.mp hk
  exact ⟨bucket_rated _ _ _, fun i => i.elim0⟩

theorem bucket_empty {z q : ℚ} (h0 : 0 ≤ q) (h1 : 0 ≤ z - q / 16) (h2 : z - q / 16 < 3 / 10) : EmptyAfter (bucket z 0) q := by
  refine ⟨h0, 2 + 23 / 10 * (z - q / 16), ?_, by linarith⟩
  show ECM.defaultOCV (z - q / 16) = _
  rw [ECM.defaultOCV_eq, if_pos ⟨h1, by linarith⟩]

/-- It fails when the voltage of a cell carrying the current would not be positive: the string refuses the current with
`V_not_calculated`, which the cycler does not take for a refusal, and the cycler reports charge that never flowed (C144): 2000 A
for eight seconds, more than is in the cell. -/
theorem not_weakestLimits : ¬ WeakestLimits := by
  intro hall
  have h := (hall 0 10 (bucketString true [1 / 2]) 2000 (27 / 10) 8 2 0 Thr.zero rfl (bucketString_rested _ _ _)
    ⟨1 / 1000, bucket (1 / 2) 0⟩ List.mem_cons_self (7 / 2)).1 (by norm_num) (bucket_empty (by norm_num) (by norm_num) (by norm_num))
  revert h
  decide +kernel

/-- Without individual checks the claim fails as well: a string of a full and a nearly empty cell, discharged with 16 A to
5.4 V, gives 4.8 Ah, although its second cell is empty after 1 Ah. -/
theorem unchecked_overdrives :
    EmptyAfter (bucket (35 / 100) 0) 1 ∧
      4 < ((bucketString false [9 / 10, 35 / 100]).CC 20 16 (54 / 10) 7200 360 0 Thr.zero).2.2.Ah :=
  ⟨bucket_empty (by norm_num) (by norm_num) (by norm_num), by decide +kernel⟩

/-- The hypotheses of `weakest_limits_partial` are met, and the limit is nearly reached: with individual checks the same string
gives more than half an Ah. -/
example :
    (bucketString true [9 / 10, 35 / 100]).diagnostic = true ∧ RestedString (bucketString true [9 / 10, 35 / 100]).su 60 ∧
    (StorageUnit.setCurrent (bucketString true [9 / 10, 35 / 100]).su 16 true).1 ≠ .ok .V_not_calculated ∧
    (⟨1 / 1000, bucket (35 / 100) 0⟩ : Kid (ECM 0)) ∈ (bucketString true [9 / 10, 35 / 100]).su.kids ∧
    EmptyAfter (bucket (35 / 100) 0) 1 ∧
    1 / 2 < ((bucketString true [9 / 10, 35 / 100]).CC 20 16 (54 / 10) 7200 60 0 Thr.zero).2.2.Ah :=
  ⟨rfl, bucketString_rested _ _ _, by decide +kernel, List.mem_cons_of_mem _ List.mem_cons_self,
    bucket_empty (by norm_num) (by norm_num) (by norm_num), by decide +kernel⟩

/-- The same for a charge: the first cell is full after 1 Ah. -/
example : FullAfter (bucket (9 / 10) 0) 1 ∧
    (StorageUnit.setCurrent (bucketString true [9 / 10, 35 / 100]).su (-16) true).1 ≠ .ok .V_not_calculated ∧
    1 / 4 < ((bucketString true [9 / 10, 35 / 100]).CC 20 (-16) (84 / 10) 7200 60 0 Thr.zero).2.2.Ah := by
  refine ⟨⟨by norm_num, 2 + 23 / 10 * (9 / 10 + 1 / 16), ?_, by norm_num⟩, by decide +kernel, by decide +kernel⟩
  show ECM.defaultOCV (9 / 10 + 1 / 16) = _
  rw [ECM.defaultOCV_eq, if_pos ⟨by norm_num, by norm_num⟩]

end Slide

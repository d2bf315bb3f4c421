import Verif.Spec.LargerAged
import Verif.Lemmas.SPMScale
import Verif.Lemmas.LargerSpm

/-!
# Helper lemmas for C152: single-particle cells of another size, with ageing and heat
-/

namespace Slide
open Spec SPM

variable {N : ℕ} {k A : ℚ}

/-- A cell and the larger one, seen without what differs in ageing. -/
theorem la_scaled (k A : ℚ) (c : SPM N) : ScaledBy k { c with block := true }
    { largerAged k A c with
      block := true
      st := { (largerAged k A c).st with LLI := c.st.LLI }
      par := { (largerAged k A c).par with Acell := c.par.Acell, dai := c.par.dai } } := ⟨rfl, rfl, rfl, rfl, rfl⟩

section
variable (hk : 0 < k) (c : SPM N)
include hk

theorem la_iApp : (largerAged k A c).iApp = c.iApp := by
  have h := scaled_iApp hk (la_scaled k A c)
  exact h
theorem la_jp : (largerAged k A c).jp = c.jp := by
  have h := scaled_jp hk (la_scaled k A c)
  exact h
theorem la_jn : (largerAged k A c).jn = c.jn := by
  have h := scaled_jn hk (la_scaled k A c)
  exact h
theorem la_cps : (largerAged k A c).cps = c.cps := by
  have h := scaled_cps hk (la_scaled k A c)
  exact h
theorem la_cns : (largerAged k A c).cns = c.cns := by
  have h := scaled_cns hk (la_scaled k A c)
  exact h
theorem la_finite : (largerAged k A c).finite = c.finite := by
  have h := scaled_finite hk (la_scaled k A c)
  exact h
theorem la_concOk : (largerAged k A c).concOk = c.concOk := by
  have h := scaled_concOk hk (la_scaled k A c)
  exact h
theorem la_i0p : (largerAged k A c).i0p = c.i0p := by
  have h := scaled_i0p hk (la_scaled k A c)
  exact h
theorem la_i0n : (largerAged k A c).i0n = c.i0n := by
  have h := scaled_i0n hk (la_scaled k A c)
  exact h
theorem la_etap : (largerAged k A c).etap = c.etap := by
  have h := scaled_etap hk (la_scaled k A c)
  exact h
theorem la_etan : (largerAged k A c).etan = c.etan := by
  have h := scaled_etan hk (la_scaled k A c)
  exact h
theorem la_Rdc : (largerAged k A c).Rdc * (largerAged k A c).st.I = c.Rdc * c.st.I := by
  have h := scaled_Rdc hk (la_scaled k A c)
  exact h
theorem la_calcV : (largerAged k A c).calcV = c.calcV := by
  have h := scaled_calcV hk (la_scaled k A c)
  exact h

theorem la_nodeN (i : Fin (N + 1)) : (largerAged k A c).nodeN i = c.nodeN i := by
  unfold nodeN; rw [la_jn hk]; rfl

theorem la_nodeP (i : Fin (N + 1)) : (largerAged k A c).nodeP i = c.nodeP i := by
  unfold nodeP; rw [la_jp hk]; rfl

theorem la_centreN : (largerAged k A c).centreN = c.centreN := by
  unfold centreN; rw [la_jn hk]; simp only [la_nodeN hk]; rfl

theorem la_centreP : (largerAged k A c).centreP = c.centreP := by
  unfold centreP; rw [la_jp hk]; simp only [la_nodeP hk]; rfl

theorem la_V : (largerAged k A c).V = (c.V.1, largerAged k A c.V.2) := by
  unfold SPM.V
  rw [la_calcV hk]
  by_cases hv : c.valid = true
  · rw [if_pos (show (largerAged k A c).valid = true from hv), if_pos hv]; rfl
  · rw [if_neg (show ¬ (largerAged k A c).valid = true from hv), if_neg hv]
    rcases c.calcV with (_ | v) | e | w <;> rfl

theorem la_checkV : (largerAged k A c).checkV = (c.checkV.1, largerAged k A c.checkV.2) := by
  unfold SPM.checkV
  rw [la_V hk]
  have hI : (largerAged k A c).st.I = k * c.st.I := rfl
  rw [hI]
  generalize c.V = r
  obtain ⟨v | e | w, c'⟩ := r
  · simp only [checkVoltage_scale _ hk]
  · simp only [checkVoltage_scale _ hk]
  · rfl

theorem la_setCurrent (i : ℚ) (b : Bool) :
    (largerAged k A c).setCurrent (k * i) b = ((c.setCurrent i b).1, largerAged k A (c.setCurrent i b).2) := by
  unfold SPM.setCurrent
  simp only
  have h : SPM.checkCurrent ({ largerAged k A c with st := { (largerAged k A c).st with I := k * i }, valid := false } : SPM N) b =
      ((SPM.checkCurrent ({ c with st := { c.st with I := i }, valid := false } : SPM N) b).1,
       largerAged k A (SPM.checkCurrent ({ c with st := { c.st with I := i }, valid := false } : SPM N) b).2) := by
    cases b
    · rfl
    · exact la_checkV hk ({ c with st := { c.st with I := i }, valid := false } : SPM N)
  rw [h]
  generalize SPM.checkCurrent ({ c with st := { c.st with I := i }, valid := false } : SPM N) b = r
  obtain ⟨s | e | w, c2⟩ := r
  · simp only
    by_cases hb : s.isBad = true
    · rw [if_pos hb, if_pos hb]; rfl
    · rw [if_neg hb, if_neg hb]
  · rfl
  · rfl

theorem la_setSOC (s : ℚ) (b : Bool) :
    (largerAged k A c).setSOC s b = ((c.setSOC s b).1, largerAged k A (c.setSOC s b).2) := by
  unfold SPM.setSOC
  by_cases hs : (!checkSOC s) = true
  · rw [if_pos hs, if_pos hs]
  · rw [if_neg hs, if_neg hs]
    cases b
    · rfl
    · simp only [if_true]
      have h := la_checkV (A := A) hk ({ c with st := { c.st with SOC := s } } : SPM N)
      have h' : SPM.checkV ({ largerAged k A c with st := { (largerAged k A c).st with SOC := s } } : SPM N) = _ := h
      rw [h']
      generalize SPM.checkV ({ c with st := { c.st with SOC := s } } : SPM N) = r
      obtain ⟨s | e | w, c2⟩ := r
      · simp only
        by_cases hb : s.isBad = true
        · rw [if_pos hb, if_pos hb]; rfl
        · rw [if_neg hb, if_neg hb]
      · rfl
      · rfl

theorem la_diffState (dt : ℚ) : (largerAged k A c).diffState dt = largerAged k A (c.diffState dt) := by
  have e1 : (largerAged k A c).dzp = c.dzp := by funext j; unfold dzp; rw [la_jp hk]; rfl
  have e2 : (largerAged k A c).dzn = c.dzn := by funext j; unfold dzn; rw [la_jn hk]; rfl
  have e3 : (largerAged k A c).dSOC = c.dSOC := by
    show -(k * c.st.I) / (k * c.par.cap * 3600) = -c.st.I / (c.par.cap * 3600)
    rw [show -(k * c.st.I) = k * (-c.st.I) by ring, mul_assoc]
    exact mul_div_mul_left _ _ hk.ne'
  unfold diffState
  rw [e1, e2, e3]
  unfold largerAged largerSt
  simp only
  congr 2
  rw [mul_assoc, abs_mul, abs_of_pos hk, mul_add]

theorem la_diffStep (dt : ℚ) : (largerAged k A c).diffStep dt = ((c.diffStep dt).1, largerAged k A (c.diffStep dt).2) := by
  unfold diffStep
  have hcap : ((largerAged k A c).par.cap = 0) ↔ (c.par.cap = 0) := by
    show k * c.par.cap = 0 ↔ _
    simp [hk.ne']
  by_cases hz : (!c.finite) = true ∨ c.par.cap = 0
  · rw [if_pos hz, if_pos (by rw [la_finite hk, hcap]; exact hz)]
  · rw [if_neg hz, if_neg (by rw [la_finite hk, hcap]; exact hz), la_diffState hk, la_V hk]
    have hI : (largerAged k A c).st.I = k * c.st.I := rfl
    rw [hI]
    generalize (c.diffState dt).V = r
    obtain ⟨v | e | w, c2⟩ := r
    · unfold largerAged largerSt
      simp only
      congr 3
      rw [mul_assoc, mul_assoc, abs_mul k, abs_of_pos hk, mul_add]
      ring_nf
    · rfl
    · rfl

omit hk in
theorem la_andThen (r : Outcome Unit × SPM N) {f g : SPM N → Outcome Unit × SPM N}
    (h : r.1 = .ok () → f (largerAged k A r.2) = ((g r.2).1, largerAged k A (g r.2).2)) :
    andThen (r.1, largerAged k A r.2) f = ((andThen r g).1, largerAged k A (andThen r g).2) := by
  obtain ⟨_ | e | w, c2⟩ := r
  · exact h rfl
  · rfl
  · rfl

theorem la_diffLoop (dt : ℚ) (j : ℕ) : ∀ c : SPM N, diffLoop dt j (largerAged k A c) =
    ((diffLoop dt j c).1, largerAged k A (diffLoop dt j c).2) := by
  induction j with
  | zero => intro c; rfl
  | succ j ih =>
    intro c
    rw [diffLoop, diffLoop, la_diffStep hk]
    exact la_andThen _ (fun _ => ih _)

/-- The heat of the larger cell. -/
theorem la_heat : (largerAged k A c).heat = (do let q ← c.heat; .ok (k * q)) := by
  unfold heat
  rw [la_finite hk, la_concOk hk, la_i0p hk, la_i0n hk, la_etan hk, la_etap hk, la_cps hk]
  have hq : ∀ d : ℚ, -(largerAged k A c).st.I * (largerAged k A c).st.T * d + (largerAged k A c).st.I * (c.etan - c.etap) +
      (largerAged k A c).st.I * (largerAged k A c).st.I * (largerAged k A c).Rdc =
      k * (-c.st.I * c.st.T * d + c.st.I * (c.etan - c.etap) + c.st.I * c.st.I * c.Rdc) := by
    intro d
    rw [mul_assoc (largerAged k A c).st.I (largerAged k A c).st.I, mul_comm (largerAged k A c).st.I (largerAged k A c).Rdc, la_Rdc hk]
    show -(k * c.st.I) * c.st.T * d + k * c.st.I * (c.etan - c.etap) + k * c.st.I * (c.Rdc * c.st.I) = _
    ring
  by_cases h1 : (!c.finite) = true
  · rw [if_pos h1, if_pos h1]; rfl
  · rw [if_neg h1, if_neg h1]
    by_cases h2 : (!c.concOk) = true
    · rw [if_pos h2, if_pos h2]; rfl
    · rw [if_neg h2, if_neg h2]
      by_cases h3 : (decide (c.i0p = 0) || decide (c.i0n = 0)) = true
      · rw [if_pos h3, if_pos h3]; rfl
      · rw [if_neg h3, if_neg h3]
        show (do let d ← look c.par.dTot (c.cps / c.par.Cmaxpos); _) = _
        rcases look c.par.dTot (c.cps / c.par.Cmaxpos) with d | e | w
        · exact congrArg Outcome.ok (hq d)
        · rfl
        · rfl

theorem la_thermAlone (hA : CoolsAlike k A c) (hp : c.parent = false) :
    (largerAged k A c).thermAlone = (c.thermAlone.1, largerAged k A c.thermAlone.2) := by
  have hd : (largerAged k A c).thermDone = largerAged k A c.thermDone := by
    unfold thermDone largerAged
    simp only
    rw [mul_add, mul_zero]
  unfold thermAlone
  by_cases h0 : c.par.tModel = 0
  · rw [if_pos h0, if_pos (show (largerAged k A c).par.tModel = 0 from h0), hd]; rfl
  · rw [if_neg h0, if_neg (show ¬ (largerAged k A c).par.tModel = 0 from h0)]
    have hA : A = k * c.par.Acell := by
      rcases hA with h | h | h
      · rw [hp] at h; cases h
      · exact absurd h h0
      · exact h
    have hz : ((largerAged k A c).par.rho * (largerAged k A c).par.Cp * (largerAged k A c).par.L * (largerAged k A c).par.elecSurf = 0) ↔
        (c.par.rho * c.par.Cp * c.par.L * c.par.elecSurf = 0) := by
      show c.par.rho * c.par.Cp * c.par.L * (k * c.par.elecSurf) = 0 ↔ _
      rw [show c.par.rho * c.par.Cp * c.par.L * (k * c.par.elecSurf) = k * (c.par.rho * c.par.Cp * c.par.L * c.par.elecSurf) by ring]
      simp only [mul_eq_zero, hk.ne', false_or]
    by_cases h1 : c.par.rho * c.par.Cp * c.par.L * c.par.elecSurf = 0
    · rw [if_pos h1, if_pos (hz.mpr h1)]
    · rw [if_neg h1, if_neg (fun h => h1 (hz.mp h))]
      have ht : (largerAged k A c).st.T + ((largerAged k A c).Qgen + (largerAged k A c).par.Qch * (largerAged k A c).par.Acell *
            ((largerAged k A c).T_env - (largerAged k A c).st.T) * (largerAged k A c).thermTime) /
          ((largerAged k A c).par.rho * (largerAged k A c).par.Cp * (largerAged k A c).par.L * (largerAged k A c).par.elecSurf) =
          c.st.T + (c.Qgen + c.par.Qch * c.par.Acell * (c.T_env - c.st.T) * c.thermTime) /
            (c.par.rho * c.par.Cp * c.par.L * c.par.elecSurf) := by
        show c.st.T + (k * c.Qgen + c.par.Qch * A * (c.T_env - c.st.T) * c.thermTime) /
          (c.par.rho * c.par.Cp * c.par.L * (k * c.par.elecSurf)) = _
        rw [hA, show k * c.Qgen + c.par.Qch * (k * c.par.Acell) * (c.T_env - c.st.T) * c.thermTime =
            k * (c.Qgen + c.par.Qch * c.par.Acell * (c.T_env - c.st.T) * c.thermTime) by ring,
          show c.par.rho * c.par.Cp * c.par.L * (k * c.par.elecSurf) = k * (c.par.rho * c.par.Cp * c.par.L * c.par.elecSurf) by ring,
          mul_div_mul_left _ _ hk.ne']
      simp only [ht, hd]
      split <;> rfl

theorem la_thermPass (hA : CoolsAlike k A c) :
    (largerAged k A c).thermPass = (c.thermPass.1, largerAged k A c.thermPass.2) := by
  unfold thermPass
  by_cases hp : c.parent = true
  · rw [if_pos hp, if_pos (show (largerAged k A c).parent = true from hp)]
  · rw [if_neg hp, if_neg (show ¬ (largerAged k A c).parent = true from hp), la_thermAlone hk c hA (by simpa using hp)]
    generalize c.thermAlone = r
    obtain ⟨t | e | w, c2⟩ := r <;> rfl

theorem la_thermStep (hA : CoolsAlike k A c) (h : ℚ) :
    (largerAged k A c).thermStep h = ((c.thermStep h).1, largerAged k A (c.thermStep h).2) := by
  unfold thermStep
  rw [la_heat hk]
  rcases c.heat with q | e | w
  · have := la_thermPass (A := A) hk ({ c with Qgen := c.Qgen + q * h, thermTime := c.thermTime + h } : SPM N) hA
    show thermPass ({ largerAged k A c with Qgen := k * c.Qgen + k * q * h, thermTime := c.thermTime + h } : SPM N) = _
    rw [show k * c.Qgen + k * q * h = k * (c.Qgen + q * h) by ring]
    exact this
  · rfl
  · rfl

end

/-! ### The ageing models -/

theorem sumModels_alike {f g : ℕ → Outcome ℚ} : ∀ (l : List ℕ), (∀ i ∈ l, f i = g i) → sumModels f l = sumModels g l := by
  intro l
  induction l with
  | nil => intro _; rfl
  | cons i is ih =>
    intro h
    rw [sumModels, sumModels, h i (List.mem_cons_self ..), ih (fun j hj => h j (List.mem_cons_of_mem _ hj))]

section
variable (hk : 0 < k) (c : SPM N)
include hk

theorem la_etaSei (hr : c.par.rsei = 0) (o : ℚ) : (largerAged k A c).etaSei o = c.etaSei o := by
  unfold etaSei
  rw [la_etan hk]
  show o + c.etan - c.par.OCVsei + c.par.rsei * c.st.delta * (k * c.st.I) = _
  rw [hr]; ring

omit hk in
theorem la_arrh : (largerAged k A c).arrh = c.arrh := by unfold arrh; rfl

theorem la_seiModel (o : ℚ) {i : ℕ} (hi : c.par.rsei = 0 ∨ (i ≠ 1 ∧ i ≠ 2 ∧ i ≠ 3)) :
    (largerAged k A c).seiModel o i = c.seiModel o i := by
  match i, hi with
  | 0, _ => simp only [seiModel]
  | 1, .inl hr =>
    simp only [seiModel, la_etaSei hk c hr, la_arrh]
    simp only [largerAged, largerSt]
  | 2, .inl hr =>
    simp only [seiModel, la_etaSei hk c hr, la_arrh]
    simp only [largerAged, largerSt]
  | 3, .inl hr =>
    simp only [seiModel, la_etan hk, la_arrh]
    simp only [largerAged, largerSt, hr, zero_mul]
  | 1, .inr h => exact absurd rfl h.1
  | 2, .inr h => exact absurd rfl h.2.1
  | 3, .inr h => exact absurd rfl h.2.2
  | 4, _ =>
    simp only [seiModel, la_etan hk, la_arrh]
    simp only [largerAged, largerSt]
  | _ + 5, _ => simp only [seiModel]

theorem la_SEI (hs : SizeFree c.par c.deg) (o : ℚ) : (largerAged k A c).SEI o = c.SEI o := by
  have e : sumModels ((largerAged k A c).seiModel o) (largerAged k A c).deg.SEI = sumModels (c.seiModel o) c.deg.SEI :=
    sumModels_alike _ (fun i hi => la_seiModel hk c o (hs.1.imp id (fun h => h.1 i hi)))
  unfold SEI
  rw [e]
  have hj : (largerAged k A c).st.I / (largerAged k A c).par.elecSurf = c.st.I / c.par.elecSurf := la_iApp hk c
  rw [hj]
  simp only [largerAged, largerSt]

omit hk in
theorem la_crack (hs : SizeFree c.par c.deg) (o : ℚ) : (largerAged k A c).crack o = c.crack o := by
  have e : sumModels ((largerAged k A c).csModel o) (largerAged k A c).deg.CS = sumModels (c.csModel o) c.deg.CS := by
    refine sumModels_alike _ (fun i hi => ?_)
    rcases hs.2 i hi with h | h
    · subst h; simp only [csModel]
    · obtain ⟨j, rfl⟩ : ∃ j, i = j + 6 := ⟨i - 6, by omega⟩
      simp only [csModel]
  unfold crack
  rw [e]
  cases hc : sumModels (c.csModel o) c.deg.CS with
  | throw e => rfl
  | ub w => rfl
  | ok dcs =>
    have hm : ((largerAged k A c).deg.CS.map (largerAged k A c).csMult) = c.deg.CS.map c.csMult := by
      refine List.map_congr_left (fun i hi => ?_)
      rcases hs.2 i hi with h | h
      · subst h; simp only [csMult, if_true]
      · exfalso
        obtain ⟨j, rfl⟩ : ∃ j, i = j + 6 := ⟨i - 6, by omega⟩
        have : ∀ l : List ℕ, (j + 6) ∈ l → ∀ x, sumModels (c.csModel o) l ≠ .ok x := by
          intro l
          induction l with
          | nil => intro h; cases h
          | cons a as ih =>
            intro h x hx
            rw [sumModels] at hx
            rcases List.mem_cons.mp h with h | h
            · rw [← h] at hx
              simp only [csModel] at hx
              cases hx
            · rcases ha : c.csModel o a with y | e | w
              · rw [ha] at hx
                rcases hb : sumModels (c.csModel o) as with z | e | w
                · exact ih h z hb
                · rw [hb] at hx; cases hx
                · rw [hb] at hx; cases hx
              · rw [ha] at hx; cases hx
              · rw [ha] at hx; cases hx
        exact this _ hi _ hc
    rw [hm]
    simp only [largerAged, largerSt]
    rfl

theorem la_lamModel (i : ℕ) : (largerAged k A c).lamModel i = c.lamModel i := by
  match i with
  | 0 => simp only [lamModel]
  | 1 =>
    simp only [lamModel]
    simp only [largerAged, largerSt]
    rfl
  | 2 =>
    simp only [lamModel, la_jp hk, la_jn hk, la_arrh]
    simp only [largerAged, largerSt]
  | 3 =>
    simp only [lamModel, la_cps hk, la_etap hk, la_arrh]
    simp only [largerAged, largerSt]
  | 4 =>
    simp only [lamModel]
    simp only [largerAged, largerSt]
  | _ + 5 => simp only [lamModel]

theorem la_lamSum (l : List ℕ) : (largerAged k A c).lamSum l = c.lamSum l := by
  induction l with
  | nil => rfl
  | cons i is ih => rw [lamSum, lamSum, la_lamModel hk, ih]

theorem la_plating (hs : SizeFree c.par c.deg) (o : ℚ) : (largerAged k A c).plating o = c.plating o := by
  unfold plating
  simp only [la_etan hk, la_arrh]
  rcases hs.1 with h | h
  · simp only [largerAged, largerSt, h, zero_mul]
  · simp only [largerAged, largerSt]
    rcases hp : c.deg.pl with _ | _ | j
    · rfl
    · exact absurd hp h.2
    · rfl

/-- The rates of ageing. -/
theorem la_degRate (hs : SizeFree c.par c.deg) :
    (largerAged k A c).degRate = (do let d ← c.degRate; .ok { d with LLI := k * d.LLI }) := by
  unfold degRate
  simp only
  rw [la_finite hk, la_concOk hk, la_i0p hk, la_i0n hk, la_cps hk, la_cns hk]
  by_cases h1 : (!c.finite) = true
  · rw [if_pos h1, if_pos h1]; rfl
  · rw [if_neg h1, if_neg h1]
    by_cases h2 : (!c.concOk) = true
    · rw [if_pos h2, if_pos h2]; rfl
    · rw [if_neg h2, if_neg h2]
      have hp : (largerAged k A c).par.nsei = c.par.nsei ∧ (largerAged k A c).par.npl = c.par.npl ∧
        (largerAged k A c).par.rhosei = c.par.rhosei ∧ (largerAged k A c).par.rhopl = c.par.rhopl ∧
        (largerAged k A c).par.Rp = c.par.Rp ∧ (largerAged k A c).par.Rn = c.par.Rn := ⟨rfl, rfl, rfl, rfl, rfl, rfl⟩
      obtain ⟨p1, p2, p3, p4, p5, p6⟩ := hp
      rw [p1, p2, p3, p4, p5, p6]
      split
      · rfl
      · show (do let dOCVn ← look c.par.dNeg (c.cps / c.par.Cmaxpos); _) = _
        rcases look c.par.dNeg (c.cps / c.par.Cmaxpos) with d | e | w
        · show (do let OCVn ← look c.par.ocvN (c.cns / c.par.Cmaxneg); _) = _
          rcases look c.par.ocvN (c.cns / c.par.Cmaxneg) with o | e | w
          · show (do let x ← (largerAged k A c).SEI (o + (c.st.T - c.par.T_ref) * d); _) =
              (do let r ← (do let x ← c.SEI (o + (c.st.T - c.par.T_ref) * d); _); _)
            rw [la_SEI hk c hs]
            rcases c.SEI (o + (c.st.T - c.par.T_ref) * d) with ⟨isei, den⟩ | e | w
            · show (do let x ← (largerAged k A c).crack (o + (c.st.T - c.par.T_ref) * d); _) =
                (do let r ← (do let x ← c.crack (o + (c.st.T - c.par.T_ref) * d); _); _)
              rw [la_crack c hs]
              rcases c.crack (o + (c.st.T - c.par.T_ref) * d) with ⟨ism, dcs, ddn⟩ | e | w
              · show (do let x ← (largerAged k A c).lamSum c.deg.LAM; _) =
                  (do let r ← (do let x ← c.lamSum c.deg.LAM; _); _)
                rw [la_lamSum hk]
                rcases c.lamSum c.deg.LAM with l | e | w
                · show (do let x ← (largerAged k A c).plating (o + (c.st.T - c.par.T_ref) * d); _) =
                    (do let r ← (do let x ← c.plating (o + (c.st.T - c.par.T_ref) * d); _); _)
                  rw [la_plating hk c hs]
                  rcases c.plating (o + (c.st.T - c.par.T_ref) * d) with ipl | e | w
                  · refine congrArg Outcome.ok ?_
                    refine DegRate.ext rfl rfl ?_ rfl rfl rfl rfl rfl rfl rfl rfl rfl
                    show (isei + isei * ism + ipl) * (k * c.par.elecSurf) * c.st.thickn * c.st.an =
                      k * ((isei + isei * ism + ipl) * c.par.elecSurf * c.st.thickn * c.st.an)
                    ring
                  · rfl
                  · rfl
                · rfl
                · rfl
              · rfl
              · rfl
            · rfl
            · rfl
          · rfl
          · rfl
        · rfl
        · rfl

theorem largerSt_inv (s : SpmState N) : largerSt k⁻¹ (largerSt k s) = s := by
  unfold largerSt
  simp only
  have e : ∀ x : ℚ, k⁻¹ * (k * x) = x := fun x => inv_mul_cancel_left₀ hk.ne' x
  simp only [e]

theorem la_updDai : (largerAged k A c).updDai = largerAged k A c.updDai := by
  unfold updDai
  by_cases h : c.stress.dai = true
  · rw [if_pos h, if_pos (show (largerAged k A c).stress.dai = true from h)]
    have e : (largerAged k A c).par.dai (largerAged k A c).st = c.par.dai c.st := by
      show c.par.dai (largerSt k⁻¹ (largerSt k c.st)) = _
      rw [largerSt_inv hk]
    rw [e]
    rfl
  · rw [if_neg h, if_neg (show ¬ (largerAged k A c).stress.dai = true from h)]

theorem la_updLares : (largerAged k A c).updLares = (c.updLares.1, largerAged k A c.updLares.2) := by
  unfold updLares
  rw [la_finite hk, la_cps hk, la_cns hk]
  by_cases h : c.stress.lares = true
  · rw [if_pos h, if_pos (show (largerAged k A c).stress.lares = true from h)]
    by_cases h1 : (!c.finite) = true
    · rw [if_pos h1, if_pos h1]
    · rw [if_neg h1, if_neg h1]
      by_cases h2 : c.cps < 0 ∨ c.cns < 0 ∨ c.cps > c.par.Cmaxpos ∨ c.cns > c.par.Cmaxneg
      · rw [if_pos h2, if_pos (show c.cps < 0 ∨ c.cns < 0 ∨ c.cps > (largerAged k A c).par.Cmaxpos ∨ c.cns > (largerAged k A c).par.Cmaxneg from h2)]
      · rw [if_neg h2, if_neg (show ¬ (c.cps < 0 ∨ c.cns < 0 ∨ c.cps > (largerAged k A c).par.Cmaxpos ∨ c.cns > (largerAged k A c).par.Cmaxneg) from h2)]
        have e : look (largerAged k A c).par.laresCurve (c.cns / (largerAged k A c).par.Cmaxneg) = look c.par.laresCurve (c.cns / c.par.Cmaxneg) := rfl
        rw [e]
        rcases look c.par.laresCurve (c.cns / c.par.Cmaxneg) with s | e | w <;> rfl
  · rw [if_neg h, if_neg (show ¬ (largerAged k A c).stress.lares = true from h)]

omit hk in
theorem updDai_keeps (a : SPM N) : a.updDai.fixed = a.fixed := by
  unfold updDai
  split <;> rfl

omit hk in
theorem updLares_keeps (a : SPM N) : a.updLares.2.fixed = a.fixed := by
  unfold updLares
  split
  · split
    · rfl
    · split
      · rfl
      · split <;> rfl
  · rfl

theorem la_ageStep (hs : SizeFree c.par c.deg) (h : ℚ) :
    (largerAged k A c).ageStep h = ((c.ageStep h).1, largerAged k A (c.ageStep h).2) := by
  unfold ageStep
  rw [la_updDai hk, la_updLares hk]
  have hf : c.updDai.updLares.2.fixed = c.fixed := (updLares_keeps _).trans (updDai_keeps _)
  refine la_andThen _ (fun _ => ?_)
  have hs' : SizeFree c.updDai.updLares.2.par c.updDai.updLares.2.deg := by
    have e1 : c.updDai.updLares.2.par = c.par := congrArg Prod.fst hf
    have e2 : c.updDai.updLares.2.deg = c.deg := congrArg (fun x => x.2.1) hf
    rw [e1, e2]; exact hs
  generalize c.updDai.updLares.2 = d at hs'
  rw [la_degRate hk d hs']
  rcases d.degRate with r | e | w
  · show (Outcome.ok (), (largerAged k A d).addRate { r with LLI := k * r.LLI } h) = (Outcome.ok (), largerAged k A (d.addRate r h))
    unfold addRate largerAged largerSt
    simp only
    congr 3
    ring
  · rfl
  · rfl

/-- A larger cell takes time steps alike, ageing and warming. -/
theorem la_timeStep (hs : SizeFree c.par c.deg) (hA : CoolsAlike k A c) (dt : ℚ) (n : ℤ) :
    (largerAged k A c).timeStep dt n = ((c.timeStep dt n).1, largerAged k A (c.timeStep dt n).2) := by
  unfold timeStep
  by_cases hdt : dt < 0
  · rw [if_pos hdt, if_pos hdt]
  · rw [if_neg hdt, if_neg hdt]
    have h0 : (largerAged k A c).rotate (n * dt) = largerAged k A (c.rotate (n * dt)) := rfl
    rw [h0, la_diffLoop hk]
    refine la_andThen _ (fun _ => ?_)
    have hf : (diffLoop dt n.toNat (c.rotate (n * dt))).2.fixed = c.fixed := diffLoop_fixed dt n.toNat _
    have ha : (diffLoop dt n.toNat (c.rotate (n * dt))).2.aside = c.aside := (aside_diffLoop dt n.toNat _).trans rfl
    generalize (diffLoop dt n.toNat (c.rotate (n * dt))).2 = d at hf ha
    have hp : d.par = c.par := congrArg Prod.fst hf
    have hd : d.deg = c.deg := congrArg (fun x => x.2.1) hf
    have hr : d.parent = c.parent := congrArg (fun x => x.2.2.2.2.2.2) ha
    have hA' : CoolsAlike k A d := by unfold CoolsAlike; rw [hp, hr]; exact hA
    by_cases hb : d.block = true
    · rw [if_pos (show (largerAged k A d).block = true from hb), if_pos hb]
    · rw [if_neg (show ¬ (largerAged k A d).block = true from hb), if_neg hb, la_thermStep hk d hA']
      refine la_andThen _ (fun _ => ?_)
      have hf2 := thermStep_fixed d (dt * n)
      refine la_ageStep hk _ ?_ _
      have e1 : (d.thermStep (dt * n)).2.par = c.par := (congrArg Prod.fst hf2).trans hp
      have e2 : (d.thermStep (dt * n)).2.deg = c.deg := (congrArg (fun x => x.2.1) hf2).trans hd
      rw [e1, e2]; exact hs

end

end Slide

import Verif.Model.ECM
import Verif.Props.Interp
import Mathlib.Tactic.Ring
import Mathlib.Tactic.Linarith
import Mathlib.Tactic.FieldSimp

namespace Slide.ECM

variable {n : ℕ}

@[simp] theorem withI_self (c : ECM n) : c.withI c.st.I = c := rfl
@[simp] theorem withI_withI (c : ECM n) (a b : ℚ) : (c.withI a).withI b = c.withI b := rfl
@[simp] theorem withI_I (c : ECM n) (a : ℚ) : (c.withI a).st.I = a := rfl
@[simp] theorem withI_par (c : ECM n) (a : ℚ) : (c.withI a).par = c.par := rfl

theorem setCurrent_eq (c : ECM n) (i : ℚ) (b : Bool) :
    c.setCurrent i b = if ((c.withI i).checkCurrent b).isBad then ((c.withI i).checkCurrent b, c)
      else ((c.withI i).checkCurrent b, c.withI i) := by
  simp [setCurrent]

theorem setCurrent_snd (c : ECM n) (i : ℚ) (b : Bool) :
    (c.setCurrent i b).2 = c ∨ (c.setCurrent i b).2 = c.withI i := by
  rw [setCurrent_eq]; split <;> simp

theorem setCurrent_unchecked (c : ECM n) (i : ℚ) : c.setCurrent i false = (.Success, c.withI i) := by
  simp [setCurrent_eq, checkCurrent, Status.isBad, Status.isOK, Status.code, Status.Critical]

theorem setVoltage_snd (c : ECM n) (v : ℚ) (b : Bool) :
    ∃ i, (c.setVoltage v b).2 = c.withI i := by
  unfold setVoltage
  cases c.par.ocv c.st.SOC with
  | none => exact ⟨c.st.I, rfl⟩
  | some o =>
    dsimp only
    split_ifs
    · exact ⟨c.st.I, rfl⟩
    · exact ⟨c.st.I, rfl⟩
    · exact ⟨_, rfl⟩

@[simp] theorem step1_par (c : ECM n) (dt : ℚ) : (c.step1 dt).par = c.par := rfl
@[simp] theorem step1_I (c : ECM n) (dt : ℚ) : (c.step1 dt).st.I = c.st.I := rfl
@[simp] theorem step1_T (c : ECM n) (dt : ℚ) : (c.step1 dt).st.T = c.st.T := rfl
theorem step1_SOC (c : ECM n) (dt : ℚ) :
    (c.step1 dt).st.SOC = c.st.SOC - c.st.I * (dt / 3600) / c.par.cap := rfl
theorem step1_time (c : ECM n) (dt : ℚ) : (c.step1 dt).st.time = c.st.time + dt := rfl
theorem step1_Ah (c : ECM n) (dt : ℚ) : (c.step1 dt).st.Ah = c.st.Ah + |c.st.I * (dt / 3600)| := rfl
theorem step1_Ir (c : ECM n) (dt : ℚ) (i : Fin n) :
    (c.step1 dt).st.Ir i = c.st.Ir i + dt * c.par.invTau i * (c.st.I - c.st.Ir i) := rfl
theorem step1_Wh_ge (c : ECM n) (dt : ℚ) : c.st.Wh ≤ (c.step1 dt).st.Wh := by
  unfold step1; dsimp only; linarith [abs_nonneg
    (c.st.I * (dt / 3600) * V { c with st := { c.st with
    SOC := c.st.SOC - c.st.I * (dt / 3600) / c.par.cap,
    Ir := fun i => c.st.Ir i + dt * c.par.invTau i * (c.st.I - c.st.Ir i) } })]

@[simp] theorem steps_par (c : ECM n) (dt : ℚ) (k : ℕ) : (c.steps dt k).par = c.par := by
  induction k generalizing c with
  | zero => rfl
  | succ k ih => simp [steps, ih]

@[simp] theorem steps_I (c : ECM n) (dt : ℚ) (k : ℕ) : (c.steps dt k).st.I = c.st.I := by
  induction k generalizing c with
  | zero => rfl
  | succ k ih => simp [steps, ih]

@[simp] theorem steps_T (c : ECM n) (dt : ℚ) (k : ℕ) : (c.steps dt k).st.T = c.st.T := by
  induction k generalizing c with
  | zero => rfl
  | succ k ih => simp [steps, ih]

theorem steps_add (c : ECM n) (dt : ℚ) (a b : ℕ) : c.steps dt (a + b) = (c.steps dt a).steps dt b := by
  induction a generalizing c with
  | zero => simp [steps]
  | succ a ih => rw [Nat.succ_add]; simp [steps, ih]

theorem steps_SOC (c : ECM n) (dt : ℚ) (k : ℕ) :
    (c.steps dt k).st.SOC = c.st.SOC - k * (c.st.I * (dt / 3600) / c.par.cap) := by
  induction k generalizing c with
  | zero => simp [steps]
  | succ k ih => simp only [steps, ih, step1_SOC, step1_I, step1_par]; push_cast; ring

theorem steps_time (c : ECM n) (dt : ℚ) (k : ℕ) : (c.steps dt k).st.time = c.st.time + k * dt := by
  induction k generalizing c with
  | zero => simp [steps]
  | succ k ih => simp only [steps, ih, step1_time]; push_cast; ring

theorem steps_Ah (c : ECM n) (dt : ℚ) (k : ℕ) :
    (c.steps dt k).st.Ah = c.st.Ah + k * |c.st.I * (dt / 3600)| := by
  induction k generalizing c with
  | zero => simp [steps]
  | succ k ih => simp only [steps, ih, step1_Ah, step1_I]; push_cast; ring

theorem steps_Wh_ge (c : ECM n) (dt : ℚ) (k : ℕ) : c.st.Wh ≤ (c.steps dt k).st.Wh := by
  induction k generalizing c with
  | zero => exact le_refl _
  | succ k ih => exact le_trans (step1_Wh_ge c dt) (ih _)

theorem steps_Ir (c : ECM n) (dt : ℚ) (k : ℕ) (i : Fin n) :
    (c.steps dt k).st.Ir i - c.st.I = (1 - dt * c.par.invTau i) ^ k * (c.st.Ir i - c.st.I) := by
  induction k generalizing c with
  | zero => simp [steps]
  | succ k ih =>
    have h := ih (c.step1 dt)
    simp only [step1_I, step1_par, step1_Ir] at h
    simp only [steps]
    rw [h]; ring

/-- Length of the state vector. -/
theorem getStates_length (c : ECM n) : c.getStates.length = 6 + n := by
  simp [getStates]; omega

/-- Decoding the encoded states followed by anything gives the states back. -/
theorem decode_getStates (c : ECM n) (rest : List ℚ) : decode n (c.getStates ++ rest) = some c.st := by
  have hlen : 6 + n ≤ (c.getStates ++ rest).length := by
    rw [List.length_append, getStates_length]; omega
  unfold decode
  rw [dif_pos hlen]
  congr 1
  have hof : (List.ofFn c.st.Ir).length = n := List.length_ofFn
  have key : ∀ (k : ℕ) (hk : 3 + k < (c.getStates ++ rest).length) (hk2 : k < n + 3),
      (c.getStates ++ rest)[3 + k] =
        (List.ofFn c.st.Ir ++ [c.st.time, c.st.Ah, c.st.Wh])[k]'(by simp; omega) := by
    intro k hk hk2
    rw [List.getElem_append_left (by rw [getStates_length]; omega)]
    unfold getStates
    rw [List.getElem_append_right (by simp)]
    congr 1
    simp
  ext
  · simp [getStates]
  · simp [getStates]
  · simp [getStates]
  · rename_i i
    dsimp only
    rw [key i.val (by omega) (by omega)]
    rw [List.getElem_append_left (by rw [hof]; exact i.isLt)]
    simp
  · dsimp only
    rw [key n (by omega) (by omega), List.getElem_append_right (by rw [hof])]
    simp
  · dsimp only
    have e : 4 + n = 3 + (n + 1) := by omega
    simp only [e]
    rw [key (n+1) (by omega) (by omega), List.getElem_append_right (by rw [hof]; omega)]
    simp
  · dsimp only
    have e : 5 + n = 3 + (n + 2) := by omega
    simp only [e]
    rw [key (n+2) (by omega) (by omega), List.getElem_append_right (by rw [hof]; omega)]
    simp

/-- The default OCV curve: three equidistant points from VMIN = 2.0 V to VMAX = 4.3 V over SOC 0..1
(`Cell_ECM.hpp:104-107`, `slide::linspace_fix`), evaluated by the interpolation model. -/
def defaultOCV (s : ℚ) : Option ℚ :=
  match Interp.tableInterp [0, 1/2, 1] [2, 63/20, 43/10] s with
  | .ok v => some v
  | _ => none

theorem defaultOCV_fixed : Interp.checkIsFixed [0, 1/2, 1] = .ok true := by
  have he : Spec.Equidistant [0, 1/2, 1] 0 (1/2) := by
    intro i h
    simp at h
    interval_cases i <;> norm_num
  exact (fixed_shortcut_correct_partial true [0, 1/2, 1] [2, 63/20, 43/10] 0 0 (1/2) rfl (by norm_num)
    (by norm_num) he).1

/-- The default curve is `2 + 2.3·SOC` inside [0,1] and an error outside; it never has undefined behaviour. -/
theorem defaultOCV_eq (s : ℚ) : defaultOCV s = if 0 ≤ s ∧ s ≤ 1 then some (2 + 23/10 * s) else none := by
  have he : Spec.Equidistant [0, 1/2, 1] 0 (1/2) := by
    intro i h
    simp at h
    interval_cases i <;> norm_num
  have hs : ([0, 1/2, 1] : List ℚ).Pairwise (· < ·) := by norm_num
  have h2 := (fixed_shortcut_correct_partial true [0, 1/2, 1] [2, 63/20, 43/10] s 0 (1/2) rfl (by norm_num)
    (by norm_num) he).2
  unfold defaultOCV Interp.tableInterp
  rw [defaultOCV_fixed]
  simp only [Outcome.ok_bind]
  rw [h2]
  split_ifs with h
  · obtain ⟨y, hy, hp⟩ := linInt_search_onPolygon true [0, 1/2, 1] [2, 63/20, 43/10] s rfl (by norm_num) hs
      (by simpa using h.1) (by simpa using h.2)
    rw [hy]
    dsimp only
    congr 1
    rcases hp with ⟨i, hi, hi', h1, h3⟩ | ⟨i, hi, hi', h1, h3, h4⟩
    · simp at hi
      interval_cases i <;> norm_num at h1 h3 <;> subst h1 <;> subst h3 <;> norm_num
    · simp at hi
      have : i < 2 := by omega
      interval_cases i <;> norm_num at h4 <;> linarith
  · have ho := linInt_outside [0, 1/2, 1] [2, 63/20, 43/10] false s (by norm_num) (by norm_num)
    rw [not_and_or] at h
    rcases h with h | h
    · rw [(ho.1 (by simpa using h)).1]
    · rw [(ho.2 (by simpa using h)).1]

end Slide.ECM

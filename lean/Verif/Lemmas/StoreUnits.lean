import Verif.Lemmas.ReportedEnergy
import Verif.Lemmas.CellLaws
import Verif.Props.ECM

/-! Cells with a circuit model, and strings of anything that stores energy, for C153. -/

namespace Slide
open StorageUnit Spec

variable {n : ℕ}

/-- A rising curve through the open-circuit voltages. -/
noncomputable def curveOf (p : ECMPar n) : ℝ → ℝ :=
  open Classical in if h : PassiveCell p then Classical.choose (ocvThrough_exists h) else 0

theorem curveOf_through {p : ECMPar n} (h : PassiveCell p) : OcvThrough p (curveOf p) := by
  unfold curveOf
  rw [dif_pos h]
  exact Classical.choose_spec (ocvThrough_exists h)

theorem curve_V {c : ECM n} (h : 0 < c.V) : ∃ o, c.par.ocv c.st.SOC = some o := by
  unfold ECM.V at h
  rcases ho : c.par.ocv c.st.SOC with _ | o
  · rw [ho] at h; exact absurd h (lt_irrefl _)
  · exact ⟨o, rfl⟩

/-- A relaxing current: `q` of the distance to `i` remains after a time `N`. -/
theorem rc_core {i x q N : ℚ} (hq0 : 0 ≤ q) (hq1 : q ≤ 1) (h1 : 1 - q ≤ N) (h2 : q * N ≤ 1 - q) :
    (i + q * (x - i)) ^ 2 - x ^ 2 ≤ 2 * i * (i + q * (x - i)) * N := by
  obtain ⟨d, rfl⟩ : ∃ d, x = i + d := ⟨x - i, by ring⟩
  have ed : i + d - i = d := by ring
  rw [ed]
  have hp : 0 ≤ 1 - q := by linarith
  rcases le_total 0 (i * (i + q * d)) with h | h
  · have h3 : 2 * i * (i + q * d) * (1 - q) ≤ 2 * i * (i + q * d) * N := by
      have := mul_le_mul_of_nonneg_left h1 h
      linarith
    have h4 : 0 ≤ (1 - q) * (2 * i ^ 2 + 2 * (1 + q) * i * d + (1 + q) * d ^ 2) := by
      refine mul_nonneg hp ?_
      have e : 2 * i ^ 2 + 2 * (1 + q) * i * d + (1 + q) * d ^ 2 = (1 + q) * (i + d) ^ 2 + (1 - q) * i ^ 2 := by ring
      rw [e]
      positivity
    nlinarith
  · rcases hq0.lt_or_eq with hq | h'
    swap
    · rw [← h'] at h ⊢
      have : i = 0 := by nlinarith
      rw [this]
      nlinarith [sq_nonneg d]
    have h3 : 2 * i * (i + q * d) * (1 - q) ≤ q * (2 * i * (i + q * d) * N) := by
      have := mul_le_mul_of_nonpos_left h2 h
      linarith
    have h4 : 0 ≤ (1 - q) * (2 * i ^ 2 + 4 * q * i * d + q * (1 + q) * d ^ 2) := by
      refine mul_nonneg hp ?_
      have e : 2 * i ^ 2 + 4 * q * i * d + q * (1 + q) * d ^ 2 = 2 * (i + q * d) ^ 2 + q * (1 - q) * d ^ 2 := by ring
      rw [e]
      have := hq0
      positivity
    have h5 : q * ((i + q * d) ^ 2 - (i + d) ^ 2) ≤ q * (2 * i * (i + q * d) * N) := by nlinarith
    exact le_of_mul_le_mul_left h5 hq

/-- Bernoulli's inequality from both sides. -/
theorem pow_batch {y : ℚ} (h0 : 0 ≤ y) (h1 : y ≤ 1) (k : ℕ) :
    0 ≤ (1 - y) ^ k ∧ (1 - y) ^ k ≤ 1 ∧ 1 - (1 - y) ^ k ≤ k * y ∧ (1 - y) ^ k * (k * y) ≤ 1 - (1 - y) ^ k := by
  have hy : 0 ≤ 1 - y := by linarith
  induction k with
  | zero => simp
  | succ k ih =>
    obtain ⟨a, b, c, d⟩ := ih
    rw [pow_succ]
    push_cast
    have e := mul_nonneg a h0
    have hk : (0 : ℚ) ≤ k := k.cast_nonneg
    refine ⟨by positivity, by nlinarith, by nlinarith, ?_⟩
    have : 0 ≤ (1 - y) ^ k * y * (k * y + y) := by positivity
    nlinarith

/-- One RC pair over a batch of steps: what is taken up at the voltage after the batch covers the gain of the capacitor. -/
theorem rc_batch {R w x i dt : ℚ} (hR : 0 ≤ R) (hw : 0 < w) (hdt : 0 ≤ dt) (h1 : dt * w ≤ 1) (k : ℕ) :
    let y := i + (1 - dt * w) ^ k * (x - i)
    R * y ^ 2 / (2 * w) / 3600 - R * x ^ 2 / (2 * w) / 3600 ≤ R * y * i * (dt * k) / 3600 := by
  intro y
  obtain ⟨a, b, c, d⟩ := pow_batch (mul_nonneg hdt hw.le) h1 k
  have h := rc_core (i := i) (x := x) a b c d
  have h : y ^ 2 - x ^ 2 ≤ 2 * i * y * (k * (dt * w)) := h
  have hc : 0 ≤ R / (2 * w) / 3600 := by positivity
  have h2 := mul_le_mul_of_nonneg_left h hc
  have e : R / (2 * w) / 3600 * (2 * i * y * (k * (dt * w))) = R * y * i * (dt * k) / 3600 := by
    have := hw.ne'
    field_simp
  rw [e] at h2
  calc _ = R / (2 * w) / 3600 * (y ^ 2 - x ^ 2) := by ring
    _ ≤ _ := h2

/-- The energy in a cell falls by at least what a batch of steps gives, at the voltage after the batch. -/
theorem curve_batch {c : ECM n} (hp : CurveCell c.par) {dt : ℚ} (hdt : 0 ≤ dt) (hτ : ∀ j, dt * c.par.invTau j ≤ 1) (k : ℕ)
    {o : ℚ} (ho : c.par.ocv (c.steps dt k).st.SOC = some o) :
    ((c.st.I * (c.steps dt k).V * (dt * k) / 3600 : ℚ) : ℝ) ≤
      cellEnergy (curveOf c.par) c - cellEnergy (curveOf c.par) (c.steps dt k) := by
  have hf := curveOf_through hp.passive
  obtain ⟨hz0, hz1⟩ := hp.tight _ _ ho
  have hc := hp.passive.cap
  have hv : (c.steps dt k).V = o - c.par.Rdc * c.st.I - ∑ j, c.par.Rp j * (c.steps dt k).st.Ir j := by
    unfold ECM.V
    rw [ECM.steps_par, ho, ECM.steps_I]
  have e1 : c.st.I * (dt * k) / 3600 = c.par.cap * (c.st.SOC - (c.steps dt k).st.SOC) := by
    rw [ECM.steps_SOC]
    have := hc.ne'
    field_simp; ring
  have h4 : (c.par.cap : ℝ) * (curveOf c.par (c.steps dt k).st.SOC * (c.st.SOC - (c.steps dt k).st.SOC)) ≤
      c.par.cap * ((∫ z in (0 : ℝ)..c.st.SOC, curveOf c.par z) - ∫ z in (0 : ℝ)..(c.steps dt k).st.SOC, curveOf c.par z) := by
    rw [area_diff hf.mono]
    exact mul_le_mul_of_nonneg_left (area_ge hf.mono _ _) (by exact_mod_cast hc.le)
  rw [hf.through _ o hz0 hz1 ho] at h4
  have e2 : c.st.I * (c.steps dt k).V * (dt * k) / 3600 ≤ c.par.cap * (o * (c.st.SOC - (c.steps dt k).st.SOC)) -
      ∑ j, c.par.Rp j * (c.steps dt k).st.Ir j * c.st.I * (dt * k) / 3600 := by
    have hR := hp.passive.Rdc
    have h0 : 0 ≤ c.par.Rdc * c.st.I ^ 2 * (dt * k) / 3600 := by positivity
    have h1 : c.par.cap * (o * (c.st.SOC - (c.steps dt k).st.SOC)) = o * (c.st.I * (dt * k) / 3600) := by rw [e1]; ring
    have h2 : ∑ j, c.par.Rp j * (c.steps dt k).st.Ir j * c.st.I * (dt * k) / 3600 =
        c.st.I * (dt * k) / 3600 * ∑ j, c.par.Rp j * (c.steps dt k).st.Ir j := by
      rw [Finset.mul_sum]; exact Finset.sum_congr rfl (fun j _ => by ring)
    rw [h1, h2, hv]
    nlinarith
  have h3 : ∑ j, (c.par.Rp j * (c.steps dt k).st.Ir j ^ 2 / (2 * c.par.invTau j) / 3600 -
      c.par.Rp j * c.st.Ir j ^ 2 / (2 * c.par.invTau j) / 3600) ≤
      ∑ j, c.par.Rp j * (c.steps dt k).st.Ir j * c.st.I * (dt * k) / 3600 := by
    refine Finset.sum_le_sum (fun j _ => ?_)
    have := rc_batch (x := c.st.Ir j) (i := c.st.I) (hp.passive.Rp j) (hp.passive.tau j) hdt (hτ j) k
    have e : (c.steps dt k).st.Ir j = c.st.I + (1 - dt * c.par.invTau j) ^ k * (c.st.Ir j - c.st.I) := by
      linarith [ECM.steps_Ir c dt k j]
    rw [e]
    exact this
  rw [Finset.sum_sub_distrib] at h3
  have e3 := (Rat.cast_le (K := ℝ)).mpr e2
  have h5 := (Rat.cast_le (K := ℝ)).mpr h3
  unfold cellEnergy
  rw [ECM.steps_par]
  push_cast at e3 h4 h5 ⊢
  linarith

theorem curve_ok {c : ECM n} {dt : ℚ} {k : ℕ} (h : (timeStep c dt k).1 = .ok ()) :
    0 ≤ dt ∧ (timeStep c dt k).2 = c.steps dt k := by
  have e : timeStep c dt k = c.timeStep dt k := rfl
  rw [e] at h ⊢
  unfold ECM.timeStep at h ⊢
  by_cases hd : dt < 0
  · rw [if_pos hd] at h; cases h
  · rw [if_neg hd]; exact ⟨not_lt.mp hd, rfl⟩

/-- Cells with a circuit model. -/
noncomputable def cellHold (n : ℕ) (top : ℚ) : HoldUnit (ECM n) where
  top := top
  E c := cellEnergy (curveOf c.par) c
  Fit c := CurveCell c.par ∧ ∀ j, top * c.par.invTau j ≤ 1
  In c := 0 ≤ c.st.SOC ∧ c.st.SOC ≤ 1
  At i c := c.st.I = i
  I_at _ h := h
  set_ok _ := LawfulCurrent.unchecked _ _
  set_at {u i st} hf _ := by
    have e : (setCurrent u i false).2 = { u with st := { u.st with I := i } } := by
      rcases ecm_setCurrent_atomic u i false with ⟨_, h⟩ | ⟨h, _⟩
      · exact h
      · have := LawfulCurrent.unchecked u i
        have h2 : (u.setCurrent i false).1 = .Success := Outcome.ok.inj this
        rw [h2] at h
        cases h
    rw [e]
    exact ⟨hf, rfl, rfl, id⟩
  V_in {u} hf h := by
    obtain ⟨o, ho⟩ := curve_V h
    exact hf.1.tight _ _ ho
  step {u i dt n} h htop hf ha := by
    obtain ⟨hdt, e⟩ := curve_ok h
    have hτ : ∀ j, dt * u.par.invTau j ≤ 1 := fun j =>
      (mul_le_mul_of_nonneg_right htop (hf.1.passive.tau j).le).trans (hf.2 j)
    rw [e]
    refine ⟨hdt, by rw [ECM.steps_par]; exact hf, by rw [ECM.steps_I]; exact ha, fun hV => ?_, fun h0 => ?_⟩
    · obtain ⟨o, ho⟩ := curve_V hV
      rw [ECM.steps_par] at ho ⊢
      rw [← ha]
      exact curve_batch hf.1 hdt hτ n ho
    · have hz : (u.steps dt n).st.SOC = u.st.SOC := by
        rw [ECM.steps_SOC, ha, h0]; simp
      refine ⟨?_, fun hi => by rw [hz]; exact hi⟩
      unfold cellEnergy
      rw [ECM.steps_par, hz]
      refine add_le_add le_rfl (Rat.cast_le.mpr (Finset.sum_le_sum (fun j _ => ?_)))
      have := rc_batch (x := u.st.Ir j) (i := 0) (hf.1.passive.Rp j) (hf.1.passive.tau j) hdt (hτ j) n
      have e : (u.steps dt n).st.Ir j = 0 + (1 - dt * u.par.invTau j) ^ n * (u.st.Ir j - 0) := by
        have := ECM.steps_Ir u dt n j
        rw [ha, h0] at this
        linarith
      rw [e]
      have h2 := this
      simp only [mul_zero, zero_mul, zero_div] at h2
      linarith
  hold {u v st} hf h := by
    have e : VoltageUnit.setVoltage u v = u.setVoltage v true := rfl
    rw [e] at h ⊢
    have hin : ∃ o, u.par.ocv u.st.SOC = some o := by
      unfold ECM.setVoltage at h
      rcases ho : u.par.ocv u.st.SOC with _ | o
      · rw [ho] at h; cases h
      · exact ⟨o, rfl⟩
    have hR : u.par.Rdc ≠ 0 := by
      intro hR
      obtain ⟨o, ho⟩ := hin
      unfold ECM.setVoltage at h
      rw [ho] at h
      dsimp only at h
      rw [if_pos hR] at h
      cases h
    obtain ⟨o, ho⟩ := hin
    refine ⟨hf.1.tight _ _ ho, ?_⟩
    rcases ecm_setVoltage_spec u v true hR with ⟨_, _, _, _, i, h2⟩ | ⟨_, _, _, h2⟩ | ⟨h2, _⟩
    · rw [h2]; exact ⟨hf, ⟨i, rfl⟩, rfl⟩
    · rw [h2]; exact ⟨hf, ⟨_, rfl⟩, rfl⟩
    · rw [h2] at h; cases h
  dark {u i dt n} h htop hf ha h0 hV hi := by
    obtain ⟨hdt, e⟩ := curve_ok h
    have hτ : ∀ j, dt * u.par.invTau j ≤ 1 := fun j =>
      (mul_le_mul_of_nonneg_right htop (hf.1.passive.tau j).le).trans (hf.2 j)
    rw [e] at hV hi ⊢
    obtain ⟨o, ho⟩ := hf.1.passive.known _ hi.1 hi.2
    have h1 := curve_batch (c := u) hf.1 hdt hτ n ho
    have hV : (u.steps dt n).V ≤ 0 := hV
    have h2 : (0 : ℝ) ≤ ((u.st.I * (u.steps dt n).V * (dt * n) / 3600 : ℚ) : ℝ) := by
      refine Rat.cast_nonneg.mpr ?_
      have := mul_nonneg_of_nonpos_of_nonpos (ha ▸ h0 : u.st.I ≤ 0) hV
      positivity
    rw [ECM.steps_par]
    linarith
  stuck {u dt n er} h hf := by
    have e : timeStep u dt n = u.timeStep dt n := rfl
    rw [e] at h ⊢
    unfold ECM.timeStep at h ⊢
    by_cases hd : dt < 0
    · rw [if_pos hd]; exact ⟨hf, rfl⟩
    · rw [if_neg hd] at h; cases h
  low u := by show (0 : ℚ) < cellLimits.VMIN; decide +kernel
  vmin u := by show (1 : ℚ) ≤ cellLimits.Vmin; decide +kernel

/-! ### strings -/

variable {U : Type} [StorageUnit U]

theorem series_set_false (S : StoreUnit U) (m : ModuleS U) (i : ℚ) (hl : m.kids.length ≤ 100) (hf : ∀ k ∈ m.kids, S.Fit k.su) :
    setCurrent m i false = (.ok .Success, { m with kids := m.kids.map fun k => { k with su := (setCurrent k.su i false).2 } }) := by
  have e : setCurrent m i false = ModuleS.setCurrent m i false := rfl
  rw [e]
  unfold ModuleS.setCurrent
  rw [setLoop_unchecked i m.kids [] (by simpa using hl) (fun k hk => S.set_ok (hf k hk))]
  simp

theorem series_step_kids (S : StoreUnit U) (i dt : ℚ) (n : ℕ) (ks ks' : List (Kid U))
    (h : KidsRel (fun u v => (timeStep u dt n).1 = .ok () ∧ v = (timeStep u dt n).2) ks ks')
    (htop : dt ≤ S.top) (hf : ∀ k ∈ ks, 0 ≤ k.rc ∧ S.Fit k.su) (ha : ∀ k ∈ ks, S.At i k.su) :
    (∀ k ∈ ks', 0 ≤ k.rc ∧ S.Fit k.su) ∧ (∀ k ∈ ks', S.At i k.su) ∧
      (0 ≤ dt → (∀ k ∈ ks', 0 < V k.su) →
        ((i * (ks'.map fun k => V k.su - k.rc * I k.su).sum * (dt * n) / 3600 : ℚ) : ℝ) ≤
          (ks.map fun k => S.E k.su).sum - (ks'.map fun k => S.E k.su).sum) ∧
      (i = 0 → (ks'.map fun k => S.E k.su).sum ≤ (ks.map fun k => S.E k.su).sum ∧
        ((∀ k ∈ ks, S.In k.su) → ∀ k ∈ ks', S.In k.su)) := by
  induction h with
  | nil => simp
  | @cons a b l l' hab _ ih =>
    obtain ⟨hrc, hok, hb⟩ := hab
    have hfa := hf a List.mem_cons_self
    have haa := ha a List.mem_cons_self
    obtain ⟨_, s1, s2, s3, s4⟩ := S.step hok htop hfa.2 haa
    rw [← hb] at s1 s2 s3 s4
    obtain ⟨r1, r2, r3, r4⟩ := ih (fun k hk => hf k (List.mem_cons_of_mem _ hk)) (fun k hk => ha k (List.mem_cons_of_mem _ hk))
    refine ⟨?_, ?_, fun hdt hV => ?_, fun h0 => ⟨?_, fun hi => ?_⟩⟩
    · intro k hk
      rcases List.mem_cons.mp hk with rfl | hk
      · exact ⟨by rw [← hrc]; exact hfa.1, s1⟩
      · exact r1 k hk
    · intro k hk
      rcases List.mem_cons.mp hk with rfl | hk
      · exact s2
      · exact r2 k hk
    · have h1 := s3 (hV b List.mem_cons_self)
      have h2 := r3 hdt (fun k hk => hV k (List.mem_cons_of_mem _ hk))
      simp only [List.map_cons, List.sum_cons]
      rw [S.I_at s1 s2, ← hrc]
      have h3 : i * (V b.su - a.rc * i + (l'.map fun k => V k.su - k.rc * I k.su).sum) * (dt * n) / 3600 ≤
          i * V b.su * (dt * n) / 3600 + i * (l'.map fun k => V k.su - k.rc * I k.su).sum * (dt * n) / 3600 := by
        have := hfa.1
        have : 0 ≤ a.rc * i ^ 2 * (dt * n) / 3600 := by positivity
        linarith
      have h4 := (Rat.cast_le (K := ℝ)).mpr h3
      push_cast at h1 h2 h4 ⊢
      linarith
    · simp only [List.map_cons, List.sum_cons]
      exact add_le_add (s4 h0).1 (r4 h0).1
    · intro k hk
      rcases List.mem_cons.mp hk with rfl | hk
      · exact (s4 h0).2 (hi a List.mem_cons_self)
      · exact (r4 h0).2 (fun j hj => hi j (List.mem_cons_of_mem _ hj)) k hk

theorem series_V_pos {m : ModuleS U} (h : 0 < V m) : ∀ k ∈ m.kids, 0 < V k.su := by
  intro k hk
  by_contra hn
  have : V m = 0 := vLoop_nonpos m.kids 0 ⟨k, hk, not_lt.mp hn⟩
  rw [this] at h
  exact lt_irrefl _ h

/-- Strings of units that store energy. -/
def seriesStore (S : StoreUnit U) : StoreUnit (ModuleS U) where
  top := S.top
  E m := (m.kids.map fun k => S.E k.su).sum
  Fit m := m.kids ≠ [] ∧ m.kids.length ≤ 100 ∧ ∀ k ∈ m.kids, 0 ≤ k.rc ∧ S.Fit k.su
  In m := ∀ k ∈ m.kids, S.In k.su
  At i m := ∀ k ∈ m.kids, S.At i k.su
  I_at {m i} hf ha := by
    show ModuleS.I m = i
    unfold ModuleS.I
    rcases hk : m.kids with _ | ⟨k, ks⟩
    · exact absurd hk hf.1
    · have : k ∈ m.kids := by rw [hk]; exact List.mem_cons_self
      exact S.I_at (hf.2.2 k this).2 (ha k this)
  set_ok {m i} hf := by rw [series_set_false S m i hf.2.1 (fun k hk => (hf.2.2 k hk).2)]
  set_at {m i st} hf _ := by
    rw [series_set_false S m i hf.2.1 (fun k hk => (hf.2.2 k hk).2)]
    have key : ∀ k ∈ m.kids, _ := fun k hk => S.set_at (i := i) (hf.2.2 k hk).2 (S.set_ok (hf.2.2 k hk).2)
    refine ⟨⟨?_, ?_, ?_⟩, ?_, ?_, ?_⟩
    · simpa using hf.1
    · simpa using hf.2.1
    · intro k hk
      obtain ⟨j, hj, rfl⟩ := List.mem_map.mp hk
      exact ⟨(hf.2.2 j hj).1, (key j hj).1⟩
    · intro k hk
      obtain ⟨j, hj, rfl⟩ := List.mem_map.mp hk
      exact (key j hj).2.1
    · dsimp only
      rw [List.map_map]
      exact congrArg List.sum (List.map_congr_left (fun k hk => (key k hk).2.2.1))
    · intro hi k hk
      obtain ⟨j, hj, rfl⟩ := List.mem_map.mp hk
      exact (key j hj).2.2.2 (hi j hj)
  V_in {m} hf h k hk := S.V_in (hf.2.2 k hk).2 (series_V_pos h k hk)
  step {m i dt n} h htop hf ha := by
    have e : timeStep m dt n = m.timeStep dt n := rfl
    rw [e] at h ⊢
    unfold ModuleS.timeStep at h ⊢
    by_cases hd : dt < 0
    · rw [if_pos hd] at h; cases h
    · rw [if_neg hd] at h ⊢
      have hr := stepKids_ok (R := fun u v => (timeStep u dt n).1 = .ok () ∧ v = (timeStep u dt n).2) dt n
        (fun u hu => ⟨hu, rfl⟩) m.kids h
      have hlen := hr.length_eq
      obtain ⟨r1, r2, r3, r4⟩ := series_step_kids S i dt n _ _ hr htop hf.2.2 ha
      dsimp only
      generalize (stepKids dt n m.kids).2 = ks' at *
      refine ⟨not_lt.mp hd, ⟨?_, by rw [← hlen]; exact hf.2.1, r1⟩, r2, fun hV => ?_, r4⟩
      · intro h0
        rw [h0] at hlen
        exact hf.1 (List.length_eq_zero_iff.mp hlen)
      · have hp := series_V_pos hV
        have ev : V ({ m with kids := ks' } : ModuleS U) = (ks'.map fun k => V k.su - k.rc * I k.su).sum := by
          show ModuleS.vLoop 0 ks' = _
          rw [vLoop_pos ks' 0 hp, zero_add]
        rw [ev]
        exact r3 (not_lt.mp hd) hp

end Slide

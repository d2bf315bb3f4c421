import Verif.Spec.ScaledCell
import Verif.Lemmas.Cycler
import Verif.Lemmas.ECM

/-!
# Helper lemmas for C150 and C151: maps between units that commute with every call
-/

namespace Slide
open StorageUnit Spec Cyc


/-! ## Helper lemmas: units that correspond to one another -/

/-- `φ` takes a unit to one of `k` times its size. -/
structure SizeMap {U W : Type} [StorageUnit U] [StorageUnit W] (k : ℚ) (φ : U → W) : Prop where
  V : ∀ u, StorageUnit.V (φ u) = StorageUnit.V u
  I : ∀ u, StorageUnit.I (φ u) = k * StorageUnit.I u
  Cap : ∀ u, StorageUnit.Cap (φ u) = k * StorageUnit.Cap u
  lim : ∀ u, StorageUnit.lim (φ u) = StorageUnit.lim u
  OCV : ∀ u, StorageUnit.OCV (φ u) = StorageUnit.OCV u
  Rtot : ∀ u, StorageUnit.Rtot (φ u) = StorageUnit.Rtot u / k
  Vlow : ∀ u, StorageUnit.Vlow (φ u) = StorageUnit.Vlow u
  Vhigh : ∀ u, StorageUnit.Vhigh (φ u) = StorageUnit.Vhigh u
  check : ∀ u, StorageUnit.checkVoltage (φ u) = StorageUnit.checkVoltage u
  set : ∀ u i b, StorageUnit.setCurrent (φ u) (k * i) b =
    ((StorageUnit.setCurrent u i b).1, φ (StorageUnit.setCurrent u i b).2)
  step : ∀ u dt n, StorageUnit.timeStep (φ u) dt n = ((StorageUnit.timeStep u dt n).1, φ (StorageUnit.timeStep u dt n).2)

/-- In addition, voltages are held alike. -/
structure HoldMap {U W : Type} [StorageUnit U] [StorageUnit W] [VoltageUnit U] [VoltageUnit W] (k : ℚ) (φ : U → W) : Prop
    extends SizeMap k φ where
  hold : ∀ u v, VoltageUnit.setVoltage (φ u) v = ((VoltageUnit.setVoltage u v).1, φ (VoltageUnit.setVoltage u v).2)

/-- In addition, states are restored alike. -/
structure Scales {U W : Type} [StorageUnit U] [StorageUnit W] [VoltageUnit U] [VoltageUnit W] (k : ℚ) (φ : U → W) : Prop
    extends HoldMap k φ where
  restore : ∀ u w, StorageUnit.setStates (φ u) (StorageUnit.getStates (φ w)) false =
    ((StorageUnit.setStates u (StorageUnit.getStates w) false).1, φ (StorageUnit.setStates u (StorageUnit.getStates w) false).2)

section
variable {U W : Type} (φ : U → W)

theorem cycMap_withSU (c : Cyc U) (u : U) : (cycMap φ c).withSU (φ u) = cycMap φ (c.withSU u) := rfl

theorem cycMap_storeData (c : Cyc U) : (cycMap φ c).storeData = cycMap φ c.storeData := by
  unfold storeData writeData cycMap
  dsimp only
  by_cases h : CELL_NDATA_MAX ≤ c.index
  · simp only [if_pos h, List.map_append]
    rfl
  · simp only [if_neg h, List.map_append]
    rfl

theorem cycMap_storeIf (b : Bool) (c : Cyc U) : storeIf b (cycMap φ c) = cycMap φ (storeIf b c) := by
  cases b
  · rfl
  · exact cycMap_storeData φ c

end

section
variable {U W : Type} [StorageUnit U] [StorageUnit W] {k : ℚ} {φ : U → W}

theorem size_neg (hk : 0 < k) (i : ℚ) : k * i < 0 ↔ i < 0 := by
  constructor
  · intro h
    by_contra hn
    exact absurd (mul_nonneg hk.le (not_lt.mp hn)) (not_le.mpr h)
  · exact fun h => mul_neg_of_pos_of_neg hk h

theorem size_pos (hk : 0 < k) (i : ℚ) : k * i > 0 ↔ i > 0 := by
  show 0 < k * i ↔ 0 < i
  exact mul_pos_iff_of_pos_left hk

theorem size_abs (hk : 0 < k) (i : ℚ) : |k * i| = k * |i| := by rw [abs_mul, abs_of_pos hk]

theorem scale_abs_lt (hk : 0 < k) (i l : ℚ) : |k * i| < k * l ↔ |i| < l := by
  rw [size_abs hk]; exact mul_lt_mul_iff_right₀ hk

theorem cycMap_set (hs : SizeMap k φ) (hk : 0 < k) (c : Cyc U) (I vlim : ℚ) :
    (cycMap φ c).setCurrent (k * I) vlim = ((c.setCurrent I vlim).1, cycMap φ (c.setCurrent I vlim).2) := by
  unfold Cyc.setCurrent
  dsimp only
  rw [show (cycMap φ c).su = φ c.su from rfl, show (cycMap φ c).diagnostic = c.diagnostic from rfl, hs.set, hs.V, hs.I]
  rcases StorageUnit.setCurrent c.su I c.diagnostic with ⟨st | e | w, u1⟩
  · dsimp only
    by_cases h : st.isVoltageLimitsViolated = true
    · rw [if_pos h, if_pos h, hs.set]
      rcases StorageUnit.setCurrent u1 (StorageUnit.I c.su) false with ⟨st2 | e | w, u2⟩ <;> rfl
    · rw [if_neg h, if_neg h, hs.V]
      have e1 : (k * I < 0 ∧ V c.su ≤ vlim ∧ V u1 > vlim) ↔ (I < 0 ∧ V c.su ≤ vlim ∧ V u1 > vlim) := by rw [size_neg hk]
      by_cases h1 : I < 0 ∧ V c.su ≤ vlim ∧ V u1 > vlim
      · rw [if_pos h1, if_pos (e1.mpr h1)]; rfl
      · rw [if_neg h1, if_neg (fun h => h1 (e1.mp h))]
        by_cases h2 : V c.su ≥ vlim ∧ V u1 < vlim
        · rw [if_pos h2, if_pos h2]; rfl
        · rw [if_neg h2, if_neg h2]; rfl
  · rfl
  · rfl

theorem cycMap_ccVoltage (hs : SizeMap k φ) (c : Cyc U) : ccVoltage (cycMap φ c) = ccVoltage c := by
  unfold ccVoltage
  rw [show (cycMap φ c).su = φ c.su from rfl, show (cycMap φ c).diagnostic = c.diagnostic from rfl, hs.check, hs.V]

theorem ccAdapt_larger (hk : 0 < k) (I vlim vo vi vl : ℚ) (nMax nOnce : ℕ) (up : Bool) :
    ccAdapt (k * I) vlim vo vi vl nMax nOnce up = ccAdapt I vlim vo vi vl nMax nOnce up := by
  unfold ccAdapt
  simp only [size_neg hk]

theorem cycMap_ccBody (hs : SizeMap k φ) (hk : 0 < k) (I vlim tlim : ℚ) (ndt : ℤ) (nMax : ℕ) (v : CCVars) (c : Cyc U) (th : Thr) :
    ccBody (k * I) vlim tlim ndt nMax v (cycMap φ c) (thrTimes k th) =
      let r := ccBody I vlim tlim ndt nMax v c th
      (r.1, cycMap φ r.2.1, thrTimes k r.2.2) := by
  unfold ccBody
  rw [cycMap_set hs hk c I vlim]
  rcases c.setCurrent I vlim with ⟨o | e | w, c1⟩
  · dsimp only
    rw [show (cycMap φ c1).su = φ c1.su from rfl, hs.step]
    generalize (if v.nOnce * v.dti > tlim - v.ttot then 1 else v.nOnce) = n1
    generalize (if v.dti > tlim - v.ttot then tlim - v.ttot else v.dti) = d1
    rcases timeStep c1.su d1 n1 with ⟨o2 | e | w, u2⟩
    · dsimp only
      rw [cycMap_withSU, cycMap_ccVoltage hs]
      rcases ccVoltage (c1.withSU u2) with st | vi
      · rfl
      · dsimp only
        rw [cycMap_storeIf]
        generalize (decide (0 < ndt) && decide (ndt ≤ ((v.idat + n1 : ℕ) : ℤ))) = b
        have hth : (⟨(thrTimes k th).time + d1 * n1, (thrTimes k th).Ah + |k * I| * (d1 * n1) / 3600,
            (thrTimes k th).Wh + |k * I| * (d1 * n1) / 3600 * vi⟩ : Thr) =
          thrTimes k ⟨th.time + d1 * n1, th.Ah + |I| * (d1 * n1) / 3600, th.Wh + |I| * (d1 * n1) / 3600 * vi⟩ := by
          unfold thrTimes
          dsimp only
          rw [Thr.mk.injEq, size_abs hk]
          exact ⟨rfl, by ring, by ring⟩
        have e1 : ((k * I < 0 ∧ vi > vlim) ∨ (k * I > 0 ∧ vi < vlim)) ↔ ((I < 0 ∧ vi > vlim) ∨ (I > 0 ∧ vi < vlim)) := by
          rw [size_neg hk, size_pos hk]
        rw [ccAdapt_larger hk,
          show Vlow (cycMap φ (storeIf b (c1.withSU u2))).su = Vlow (storeIf b (c1.withSU u2)).su from hs.Vlow _]
        by_cases hc : (I < 0 ∧ vi > vlim) ∨ (I > 0 ∧ vi < vlim)
        · rw [if_pos hc, if_pos (e1.mpr hc)]
          exact Prod.ext rfl (Prod.ext rfl hth)
        · rw [if_neg hc, if_neg (fun h => hc (e1.mp h))]
          exact Prod.ext rfl (Prod.ext rfl hth)
    · rfl
    · rfl
  · rfl
  · rfl

theorem cycMap_ccLoop (hs : SizeMap k φ) (hk : 0 < k) (I vlim tlim : ℚ) (ndt : ℤ) (nMax : ℕ) (fuel : ℕ) :
    ∀ (v : CCVars) (c : Cyc U) (th : Thr),
    ccLoop (k * I) vlim tlim ndt nMax fuel v (cycMap φ c) (thrTimes k th) =
      let r := ccLoop I vlim tlim ndt nMax fuel v c th
      (r.1, cycMap φ r.2.1, thrTimes k r.2.2) := by
  induction fuel with
  | zero =>
    intro v c th
    unfold ccLoop
    by_cases h : v.ttot < tlim
    · rw [if_pos h, if_pos h]
    · rw [if_neg h, if_neg h]
  | succ f ih =>
    intro v c th
    unfold ccLoop
    by_cases h : v.ttot < tlim
    · rw [if_pos h, if_pos h, cycMap_ccBody hs hk]
      rcases ccBody I vlim tlim ndt nMax v c th with ⟨(st | v' | v') | e | w, c', th'⟩
      · rfl
      · rfl
      · exact ih v' c' th'
      · rfl
      · rfl
    · rw [if_neg h, if_neg h]

theorem scaled_cc (hs : SizeMap k φ) (hk : 0 < k) (fuel : ℕ) (c : Cyc U) (I vlim tlim dt : ℚ) (ndt : ℤ) (th : Thr) :
    CC fuel (cycMap φ c) (k * I) vlim tlim dt ndt (thrTimes k th) =
      let r := CC fuel c I vlim tlim dt ndt th
      (r.1, cycMap φ r.2.1, thrTimes k r.2.2) := by
  unfold CC
  dsimp only
  rw [cycMap_storeIf, cycMap_set hs hk]
  rcases (storeIf (decide (0 < ndt)) c).setCurrent I vlim with ⟨st | e | w, c1⟩
  · dsimp only
    by_cases h : (!st.isSuccessful) = true
    · rw [if_pos h, if_pos h]
    · rw [if_neg h, if_neg h, show V (cycMap φ c1).su = V c1.su from hs.V _]
      have e1 : ((k * I < 0 ∧ V c1.su > vlim) ∨ (k * I > 0 ∧ V c1.su < vlim)) ↔
          ((I < 0 ∧ V c1.su > vlim) ∨ (I > 0 ∧ V c1.su < vlim)) := by rw [size_neg hk, size_pos hk]
      by_cases hc : (I < 0 ∧ V c1.su > vlim) ∨ (I > 0 ∧ V c1.su < vlim)
      · rw [if_pos hc, if_pos (e1.mpr hc)]
      · rw [if_neg hc, if_neg (fun h => hc (e1.mp h)), cycMap_ccLoop hs hk]
        rcases ccLoop I vlim tlim ndt (if decide (0 < ndt) = true then min 2 ndt.toNat else 2) fuel
            ⟨dt, 0, 0, 1, V c1.su, V c1.su, true⟩ c1 th with ⟨(st | ⟨v', b⟩) | e | w, c', th'⟩
        · rfl
        · dsimp only
          rw [cycMap_storeIf]
          by_cases g1 : v'.ttot ≥ tlim
          · rw [if_pos g1, if_pos g1]
          · rw [if_neg g1, if_neg g1]
            by_cases g2 : b = true
            · rw [if_pos g2, if_pos g2]
            · rw [if_neg g2, if_neg g2]
        · rfl
        · rfl
  · rfl
  · rfl

theorem cycMap_restBody (hs : SizeMap k φ) (tlim : ℚ) (ndt : ℤ) (nMax : ℕ) (v : RestVars) (c : Cyc U) :
    restBody tlim ndt nMax v (cycMap φ c) =
      ((restBody tlim ndt nMax v c).1, cycMap φ (restBody tlim ndt nMax v c).2) := by
  have h0 := hs.set c.su 0 false
  rw [mul_zero] at h0
  unfold restBody
  rw [show (cycMap φ c).su = φ c.su from rfl, h0]
  rcases StorageUnit.setCurrent c.su 0 false with ⟨st | e | w, u1⟩
  · dsimp only
    by_cases h : st.isBad = true
    · rw [if_pos h, if_pos h]; rfl
    · rw [if_neg h, if_neg h, hs.step]
      generalize (if v.nOnce * v.dti > tlim - v.ttot then 1 else v.nOnce) = n1
      generalize (if v.dti > tlim - v.ttot then tlim - v.ttot else v.dti) = d1
      rcases timeStep u1 d1 n1 with ⟨o2 | e | w, u2⟩
      · dsimp only
        rw [cycMap_withSU, cycMap_storeIf]
      · rfl
      · rfl
  · rfl
  · rfl

theorem cycMap_restLoop (hs : SizeMap k φ) (tlim : ℚ) (ndt : ℤ) (nMax : ℕ) (fuel : ℕ) : ∀ (v : RestVars) (c : Cyc U),
    restLoop tlim ndt nMax fuel v (cycMap φ c) =
      ((restLoop tlim ndt nMax fuel v c).1, cycMap φ (restLoop tlim ndt nMax fuel v c).2) := by
  induction fuel with
  | zero =>
    intro v c
    unfold restLoop
    by_cases h : v.ttot < tlim
    · rw [if_pos h, if_pos h]
    · rw [if_neg h, if_neg h]
  | succ f ih =>
    intro v c
    unfold restLoop
    by_cases h : v.ttot < tlim
    · rw [if_pos h, if_pos h, cycMap_restBody hs]
      rcases restBody tlim ndt nMax v c with ⟨(st | v') | e | w, c'⟩
      · rfl
      · exact ih v' c'
      · rfl
      · rfl
    · rw [if_neg h, if_neg h]

theorem scaled_rest (hs : SizeMap k φ) (fuel : ℕ) (c : Cyc U) (tlim dt : ℚ) (ndt : ℤ) (th : Thr) :
    rest fuel (cycMap φ c) tlim dt ndt (thrTimes k th) =
      let r := rest fuel c tlim dt ndt th
      (r.1, cycMap φ r.2.1, thrTimes k r.2.2) := by
  unfold rest
  dsimp only
  rw [cycMap_storeIf, cycMap_restLoop hs]
  generalize (if decide (0 < ndt) = true then min 10 ndt.toNat else 10) = nMax
  rcases restLoop tlim ndt nMax fuel { dti := dt, ttot := 0, idat := 0, nOnce := 1, ninc := true }
    (storeIf (decide (0 < ndt)) c) with ⟨(st | v') | e | w, c'⟩
  · rfl
  · dsimp only
    by_cases g1 : v'.ttot ≥ tlim ∧ |v'.ttot - tlim| < 1
    · rw [if_pos g1, if_pos g1]
      have h0 := hs.set c'.su 0 false
      rw [mul_zero] at h0
      rw [show (cycMap φ c').su = φ c'.su from rfl, h0]
      rcases StorageUnit.setCurrent c'.su 0 false with ⟨st | e | w, u1⟩
      · dsimp only
        rw [cycMap_withSU, cycMap_storeIf]
        rfl
      · rfl
      · rfl
    · rw [if_neg g1, if_neg g1]
  · rfl
  · rfl

variable [VoltageUnit U] [VoltageUnit W]

/-- The test for a small current, which contains an absolute value, when the limits are above it. -/
theorem small_current (hk : 0 < k) {Ilim i : ℚ} (h1 : AboveSmallest Ilim) (h2 : AboveSmallest (k * Ilim)) :
    (|k * i| < k * Ilim / 10 ∨ |k * i| < 1/1000000) ↔ (|i| < Ilim / 10 ∨ |i| < 1/1000000) := by
  unfold AboveSmallest at h1 h2
  have e : |k * i| < k * Ilim / 10 ↔ |i| < Ilim / 10 := by
    rw [show k * Ilim / 10 = k * (Ilim / 10) by ring]; exact scale_abs_lt hk i _
  constructor
  · rintro (h | h)
    · exact .inl (e.mp h)
    · exact .inl (e.mp (by linarith))
  · rintro (h | h)
    · exact .inl (e.mpr h)
    · exact .inl (e.mpr (by linarith))

theorem cycMap_cvBody (hs : HoldMap k φ) (hk : 0 < k) (Vset : ℚ) {Ilim : ℚ} (h1 : AboveSmallest Ilim)
    (h2 : AboveSmallest (k * Ilim)) (tlim dt : ℚ) (nt : ℕ) (ndt : ℤ) (i : ℕ) (c : Cyc U) (ttot : ℚ) (th : Thr) :
    cvBody Vset (k * Ilim) tlim dt nt ndt i (cycMap φ c) ttot (thrTimes k th) =
      let r := cvBody Vset Ilim tlim dt nt ndt i c ttot th
      (r.1, cycMap φ r.2.1, r.2.2.1, thrTimes k r.2.2.2) := by
  unfold cvBody
  rw [show (cycMap φ c).su = φ c.su from rfl, hs.hold]
  rcases VoltageUnit.setVoltage c.su Vset with ⟨st | e | w, u1⟩
  · dsimp only
    rw [hs.step]
    generalize (if i + 1 = nt then tlim - dt * ((nt : ℚ) - 1) else dt) = d1
    rcases timeStep u1 d1 1 with ⟨o2 | e | w, u2⟩
    · dsimp only
      rw [cycMap_withSU, cycMap_storeIf, hs.V, hs.I, hs.lim]
      have hdA : |k * StorageUnit.I u2 * d1 / 3600| = k * |StorageUnit.I u2 * d1 / 3600| := by
        rw [← size_abs hk]; congr 1; ring
      have hth : ({ thrTimes k th with
            Ah := (thrTimes k th).Ah + |k * StorageUnit.I u2 * d1 / 3600|,
            Wh := (thrTimes k th).Wh + |k * StorageUnit.I u2 * d1 / 3600| * V u2 } : Thr) =
          thrTimes k { th with
            Ah := th.Ah + |StorageUnit.I u2 * d1 / 3600|,
            Wh := th.Wh + |StorageUnit.I u2 * d1 / 3600| * V u2 } := by
        unfold thrTimes
        dsimp only
        rw [Thr.mk.injEq, hdA]
        exact ⟨rfl, by ring, by ring⟩
      rw [hth]
      generalize (decide (0 < ndt) && decide (((i : ℤ) + 1) % ndt = 0)) = b
      by_cases g : checkSafety ((StorageUnit.lim u2).VMIN * (99/100)) ((StorageUnit.lim u2).VMAX * (101/100)) (V u2) ≠ .SafeVoltage
      · rw [if_pos g, if_pos g]
      · rw [if_neg g, if_neg g]
        have ea : (|k * StorageUnit.I u2| < k * Ilim ∧ vLimit (V u2) Vset = true) ↔
            (|StorageUnit.I u2| < Ilim ∧ vLimit (V u2) Vset = true) := by rw [scale_abs_lt hk]
        have eb := small_current (i := StorageUnit.I u2) hk h1 h2
        by_cases ga : |StorageUnit.I u2| < Ilim ∧ vLimit (V u2) Vset = true
        · rw [if_pos ga, if_pos (ea.mpr ga)]
        · rw [if_neg ga, if_neg (fun h => ga (ea.mp h))]
          by_cases gb : |StorageUnit.I u2| < Ilim / 10 ∨ |StorageUnit.I u2| < 1/1000000
          · rw [if_pos gb, if_pos (eb.mpr gb)]
          · rw [if_neg gb, if_neg (fun h => gb (eb.mp h))]
    · rfl
    · rfl
  · rfl
  · rfl

theorem cycMap_cvLoop (hs : HoldMap k φ) (hk : 0 < k) (Vset : ℚ) {Ilim : ℚ} (h1 : AboveSmallest Ilim)
    (h2 : AboveSmallest (k * Ilim)) (tlim dt : ℚ) (nt : ℕ) (ndt : ℤ) (left : ℕ) : ∀ (i : ℕ) (c : Cyc U) (ttot : ℚ) (th : Thr),
    cvLoop Vset (k * Ilim) tlim dt nt ndt left i (cycMap φ c) ttot (thrTimes k th) =
      let r := cvLoop Vset Ilim tlim dt nt ndt left i c ttot th
      (r.1, cycMap φ r.2.1, r.2.2.1, thrTimes k r.2.2.2) := by
  induction left with
  | zero => intro i c ttot th; rfl
  | succ l ih =>
    intro i c ttot th
    unfold cvLoop
    rw [cycMap_cvBody hs hk Vset h1 h2]
    rcases cvBody Vset Ilim tlim dt nt ndt i c ttot th with ⟨(st | (_ | b)) | e | w, c', t', th'⟩
    · rfl
    · exact ih (i + 1) c' t' th'
    · rfl
    · rfl
    · rfl

theorem scaled_cv (hs : HoldMap k φ) (hk : 0 < k) (c : Cyc U) (Vset : ℚ) {Ilim : ℚ} (h1 : AboveSmallest Ilim)
    (h2 : AboveSmallest (k * Ilim)) (tlim dt : ℚ) (ndt : ℤ) (th : Thr) :
    CV (cycMap φ c) Vset (k * Ilim) tlim dt ndt (thrTimes k th) =
      let r := CV c Vset Ilim tlim dt ndt th
      (r.1, cycMap φ r.2.1, thrTimes k r.2.2) := by
  unfold CV
  dsimp only
  rw [cycMap_storeIf]
  generalize storeIf (decide (0 < ndt)) c = c0
  rw [show StorageUnit.I (cycMap φ c0).su = k * StorageUnit.I c0.su from hs.I _,
    show V (cycMap φ c0).su = V c0.su from hs.V _]
  have ea : (|k * StorageUnit.I c0.su| < k * Ilim ∧ vLimit (V c0.su) Vset = true) ↔
      (|StorageUnit.I c0.su| < Ilim ∧ vLimit (V c0.su) Vset = true) := by rw [scale_abs_lt hk]
  by_cases ga : |StorageUnit.I c0.su| < Ilim ∧ vLimit (V c0.su) Vset = true
  · rw [if_pos ga, if_pos (ea.mpr ga)]
  · rw [if_neg ga, if_neg (fun h => ga (ea.mp h))]
    by_cases gb : dt = 0 ∨ ⌈tlim / dt⌉ < 0
    · rw [if_pos gb, if_pos gb]
    · rw [if_neg gb, if_neg gb, cycMap_cvLoop hs hk Vset h1 h2]
      rcases cvLoop Vset Ilim tlim dt ⌈tlim / dt⌉.toNat ndt ⌈tlim / dt⌉.toNat 0 c0 0 th with ⟨(st | o) | e | w, c', t', th'⟩
      · rfl
      · dsimp only
        rw [cycMap_storeIf]
        by_cases gt : t' ≥ tlim
        · rw [if_pos gt, if_pos gt]
        · rw [if_neg gt, if_neg gt]
          rcases o with _ | _ | _ <;> rfl
      · rfl
      · rfl

theorem scaled_cccv (hs : HoldMap k φ) (hk : 0 < k) (fuel : ℕ) (c : Cyc U) (I Vset : ℚ) {Ilim : ℚ} (h1 : AboveSmallest |Ilim|)
    (h2 : AboveSmallest (k * |Ilim|)) (tlim dt : ℚ) (ndt : ℤ) (th : Thr) :
    CCCVt fuel (cycMap φ c) (k * I) Vset (k * Ilim) tlim dt ndt (thrTimes k th) =
      let r := CCCVt fuel c I Vset Ilim tlim dt ndt th
      (r.1, cycMap φ r.2.1, thrTimes k r.2.2) := by
  have h0 := hs.set c.su 0 false
  rw [mul_zero] at h0
  have z : Thr.zero = thrTimes k Thr.zero := by unfold thrTimes Thr.zero; simp
  unfold CCCVt
  rw [show (cycMap φ c).su = φ c.su from rfl, hs.lim, h0]
  by_cases g : Vset < (StorageUnit.lim c.su).Vmin ∨ Vset > (StorageUnit.lim c.su).Vmax
  · rw [if_pos g, if_pos g]
  · rw [if_neg g, if_neg g]
    rcases StorageUnit.setCurrent c.su 0 false with ⟨st | e | w, u1⟩
    · dsimp only
      by_cases gf : st.isFailed = true
      · rw [if_pos gf, if_pos gf]; rfl
      · rw [if_neg gf, if_neg gf, hs.V]
        have ei : (if V u1 > Vset then |k * I| else -|k * I|) = k * (if V u1 > Vset then |I| else -|I|) := by
          rw [size_abs hk]
          split
          · rfl
          · ring
        rw [ei, cycMap_withSU]
        have hcc := scaled_cc hs.toSizeMap hk fuel (c.withSU u1) (if V u1 > Vset then |I| else -|I|) Vset tlim dt ndt Thr.zero
        rw [← z] at hcc
        rw [hcc]
        rcases CC fuel (c.withSU u1) (if V u1 > Vset then |I| else -|I|) Vset tlim dt ndt Thr.zero with ⟨st | e | w, c1, th1⟩
        · dsimp only
          rw [size_abs hk]
          have hcv := scaled_cv hs hk c1 Vset h1 h2 (tlim - th1.time) dt ndt Thr.zero
          rw [← z] at hcv
          rw [show (thrTimes k th1).time = th1.time from rfl, hcv]
          rcases CV c1 Vset |Ilim| (tlim - th1.time) dt ndt Thr.zero with ⟨st | e | w, c2, th2⟩
          · refine Prod.ext rfl (Prod.ext rfl ?_)
            unfold thrTimes
            dsimp only
            rw [Thr.mk.injEq]
            exact ⟨rfl, by ring, by ring⟩
          · rfl
          · rfl
        · rfl
        · rfl
    · rfl
    · rfl

/-- The iterative way of setting a voltage scales. -/
theorem scaled_iterLoop {U W : Type} [StorageUnit U] [StorageUnit W] {k : ℚ} {φ : U → W} (hs : SizeMap k φ) (v : ℚ)
    (fuel : ℕ) : ∀ (i : ℚ) (u : U), iterLoop v fuel (k * i) (φ u) = ((iterLoop v fuel i u).1, φ (iterLoop v fuel i u).2) := by
  induction fuel with
  | zero => intro i u; rfl
  | succ fuel ih =>
    intro i u
    rw [iterLoop, iterLoop]
    dsimp only
    rw [hs.V, hs.Cap]
    by_cases h : |v - StorageUnit.V u| < 1/1000000
    · rw [if_pos h, if_pos h]
    · rw [if_neg h, if_neg h]
      have e : (if v > StorageUnit.V u then k * i - 1/100 * (k * StorageUnit.Cap u) else k * i + 1/100 * (k * StorageUnit.Cap u)) =
          k * (if v > StorageUnit.V u then i - 1/100 * StorageUnit.Cap u else i + 1/100 * StorageUnit.Cap u) := by
        by_cases g : v > StorageUnit.V u
        · rw [if_pos g, if_pos g]; ring
        · rw [if_neg g, if_neg g]; ring
      rw [e]
      generalize (if v > StorageUnit.V u then i - 1/100 * StorageUnit.Cap u else i + 1/100 * StorageUnit.Cap u) = ib
      rw [hs.set]
      rcases StorageUnit.setCurrent u ib true with ⟨st | e | w, u1⟩
      · dsimp only
        rw [hs.V]
        by_cases g : StorageUnit.V u - StorageUnit.V u1 = 0
        · rw [if_pos g, if_pos g]
        · rw [if_neg g, if_neg g, show k * ib - (StorageUnit.V u1 - v) * ((k * i - k * ib) / (StorageUnit.V u - StorageUnit.V u1)) =
            k * (ib - (StorageUnit.V u1 - v) * ((i - ib) / (StorageUnit.V u - StorageUnit.V u1))) by ring, hs.set]
          rcases StorageUnit.setCurrent u1 (ib - (StorageUnit.V u1 - v) * ((i - ib) / (StorageUnit.V u - StorageUnit.V u1))) true
            with ⟨st | e | w, u2⟩
          · dsimp only
            rw [ih]
          · rfl
          · rfl
      · rfl
      · rfl

theorem scaled_iterative {U W : Type} [StorageUnit U] [StorageUnit W] {k : ℚ} {φ : U → W} (hs : SizeMap k φ) (u : U)
    (v : ℚ) : setVoltageIterative (φ u) v = ((setVoltageIterative u v).1, φ (setVoltageIterative u v).2) := by
  unfold setVoltageIterative
  rw [hs.I, scaled_iterLoop hs]

theorem scaled_capacityTest (hs : Scales k φ) (hk : 0 < k) (fuel : ℕ) (c : Cyc U) (Ah ttot : ℚ) :
    testCapacity fuel (cycMap φ c) (k * Ah) ttot =
      let r := testCapacity fuel c Ah ttot
      ((match r.1 with | .ok x => .ok (k * x) | .throw e => .throw e | .ub w => .ub w), cycMap φ r.2.1, k * r.2.2.1, r.2.2.2) := by
  have z : Thr.zero = thrTimes k Thr.zero := by unfold thrTimes Thr.zero; simp
  unfold testCapacity
  dsimp only
  rw [show (cycMap φ c).su = φ c.su from rfl, hs.lim, hs.Cap]
  have h1 := scaled_cc hs.toSizeMap hk fuel c (-(1/25) * StorageUnit.Cap c.su) (StorageUnit.lim c.su).Vmax TIME_INF 1 0 Thr.zero
  rw [← z, show k * (-(1/25) * StorageUnit.Cap c.su) = -(1/25) * (k * StorageUnit.Cap c.su) by ring] at h1
  rw [h1]
  rcases CC fuel c (-(1/25) * StorageUnit.Cap c.su) (StorageUnit.lim c.su).Vmax TIME_INF 1 0 Thr.zero with ⟨st | e | w, c1, th1⟩
  · dsimp only
    by_cases g : st ≠ .ReachedVoltageLimit
    · rw [if_pos g, if_pos g, show (cycMap φ c1).su = φ c1.su from rfl, hs.restore]
      rcases StorageUnit.setStates c1.su (StorageUnit.getStates c.su) false with ⟨st | e | w, u⟩
      · dsimp only
        rw [mul_zero]; rfl
      · rfl
      · rfl
    · rw [if_neg g, if_neg g]
      have h2 := scaled_cc hs.toSizeMap hk fuel c1 (1/25 * StorageUnit.Cap c.su) (StorageUnit.lim c1.su).Vmin TIME_INF 1 0 Thr.zero
      rw [← z, show k * (1/25 * StorageUnit.Cap c.su) = 1/25 * (k * StorageUnit.Cap c.su) by ring] at h2
      rw [show StorageUnit.lim (cycMap φ c1).su = StorageUnit.lim c1.su from hs.lim _, h2]
      rcases CC fuel c1 (1/25 * StorageUnit.Cap c.su) (StorageUnit.lim c1.su).Vmin TIME_INF 1 0 Thr.zero with ⟨st | e | w, c2, th2⟩
      · dsimp only
        by_cases g2 : st ≠ .ReachedVoltageLimit
        · rw [if_pos g2, if_pos g2, show (cycMap φ c2).su = φ c2.su from rfl, hs.restore]
          rcases StorageUnit.setStates c2.su (StorageUnit.getStates c.su) false with ⟨st | e | w, u⟩
          · dsimp only
            rw [mul_zero]; rfl
          · rfl
          · rfl
        · rw [if_neg g2, if_neg g2]
          refine Prod.ext rfl (Prod.ext rfl (Prod.ext ?_ rfl))
          show k * th1.Ah + k * th2.Ah = k * (th1.Ah + th2.Ah)
          ring
      · rfl
      · rfl
  · rfl
  · rfl

end

end Slide

import Verif.Props.RateCapability
import Verif.Spec.WeakerCell

/-!
# C148: a weaker cell never lasts longer
-/

namespace Slide
open StorageUnit Spec Cyc

variable {n : ℕ}

/-! ## Helper lemmas -/

/-- With the direction `s`: the weaker cell, after no fewer steps at the same current, is at a voltage no better. -/
theorem nobetter_worse {u w : ECM n} (hr : CircuitAtRest u) (hrw : CircuitAtRest w) {s i dt : ℚ} (hs : s = 1 ∨ s = -1)
    (hdt : 0 ≤ dt) (hp : RatedCell u.par dt) (hpw : RatedCell w.par dt) (hi : 0 < i) (hw : NoBetter (s * i) u w) {a b : ℕ}
    (hab : a ≤ b) {o1 o2 : ℚ} (ho1 : u.par.ocv ((u.withI (s * i)).steps dt a).st.SOC = some o1)
    (ho2 : w.par.ocv ((w.withI (s * i)).steps dt b).st.SOC = some o2) :
    s * ((w.withI (s * i)).steps dt b).V ≤ s * ((u.withI (s * i)).steps dt a).V := by
  have hss : s * s = 1 := by rcases hs with rfl | rfl <;> norm_num
  have hz : ∀ (x : ECM n) (k : ℕ), ((x.withI (s * i)).steps dt k).st.SOC = x.st.SOC - s * (i * k * (dt / 3600 / x.par.cap)) := by
    intro x k
    rw [ECM.steps_SOC]
    show x.st.SOC - k * (s * i * (dt / 3600) / x.par.cap) = _
    ring
  have hab' : (a : ℚ) ≤ b := by exact_mod_cast hab
  have hm : i * a * (dt / 3600 / u.par.cap) ≤ i * b * (dt / 3600 / w.par.cap) := by
    have h1 : dt / 3600 / u.par.cap ≤ dt / 3600 / w.par.cap :=
      div_le_div_of_nonneg_left (by positivity) hpw.cap hw.cap
    have h0 : 0 ≤ dt / 3600 / u.par.cap := by have := hp.cap; positivity
    exact mul_le_mul (mul_le_mul_of_nonneg_left hab' hi.le) h1 h0 (by positivity)
  have ho : s * o2 ≤ s * o1 := by
    rw [hz] at ho1 ho2
    rw [hw.curve] at ho2
    rcases hs with rfl | rfl
    · have h := hw.discharge (by linarith)
      have := hp.rising _ _ _ _ (by linarith) ho2 ho1; linarith
    · have h := hw.charge (by linarith)
      have := hp.rising _ _ _ _ (by linarith) ho1 ho2; linarith
  rw [V_from_rest hr ho1, V_from_rest hrw ho2]
  have hR := mul_le_mul_of_nonneg_right hw.Rdc hi.le
  have hS : ∑ j, u.par.Rp j * (i * (1 - (1 - dt * u.par.invTau j) ^ a)) ≤
      ∑ j, w.par.Rp j * (i * (1 - (1 - dt * w.par.invTau j) ^ b)) := by
    refine Finset.sum_le_sum fun j _ => ?_
    have t1 := hp.tau1 j
    have t1w := hpw.tau1 j
    have t0 := mul_nonneg hdt (hp.tau0 j)
    have tt := mul_le_mul_of_nonneg_left (hw.invTau j) hdt
    have hpow : (1 - dt * w.par.invTau j) ^ b ≤ (1 - dt * u.par.invTau j) ^ a :=
      (pow_le_pow_left₀ (by linarith) (by linarith) b).trans (pow_le_pow_of_le_one (by linarith) (by linarith) hab)
    have hle : (1 - dt * u.par.invTau j) ^ a ≤ 1 := pow_le_one₀ (by linarith) (by linarith)
    exact mul_le_mul (hw.Rp j) (mul_le_mul_of_nonneg_left (by linarith) hi.le)
      (mul_nonneg hi.le (by linarith)) (hpw.Rp j)
  have hsum : ∀ (x : ECM n) (k : ℕ), ∑ j, x.par.Rp j * (s * i * (1 - (1 - dt * x.par.invTau j) ^ k)) =
      s * ∑ j, x.par.Rp j * (i * (1 - (1 - dt * x.par.invTau j) ^ k)) := by
    intro x k
    rw [Finset.mul_sum]
    exact Finset.sum_congr rfl fun j _ => by ring
  rw [hsum, hsum]
  have e : ∀ o R S : ℚ, s * (o - R * (s * i) - s * S) = s * o - s * s * (R * i) - s * s * S := by
    intro o R S; ring
  rw [e, e, hss]
  linarith

/-! ## C148 -/

/-- **C148, the cell.**  From rest, at the same current and after no fewer steps, the weaker cell's voltage is no higher on
discharge and no lower on charge. -/
theorem weaker_cell_voltage {u w : ECM n} {i dt : ℚ} {a b : ℕ} {o1 o2 : ℚ} (hr : CircuitAtRest u) (hrw : CircuitAtRest w)
    (hdt : 0 < dt) (hp : RatedCell u.par dt) (hpw : RatedCell w.par dt) (hw : NoBetter i u w) (hi : i ≠ 0) (hab : a ≤ b)
    (ho1 : u.par.ocv ((u.withI i).timeStep dt a).2.st.SOC = some o1)
    (ho2 : w.par.ocv ((w.withI i).timeStep dt b).2.st.SOC = some o2) :
    FurtherAlong i ((w.withI i).timeStep dt b).2.V ((u.withI i).timeStep dt a).2.V := by
  obtain ⟨s, j, -, hs, rfl, -, hj, -⟩ := direction (i1 := i) (i2 := i)
    (by rcases lt_or_gt_of_ne hi with h | h; exacts [.inr ⟨h, le_rfl⟩, .inl ⟨h, le_rfl⟩])
  have e : ∀ (x : ECM n) (k : ℕ), ((x.withI (s * j)).timeStep dt k).2 = (x.withI (s * j)).steps dt k := by
    intro x k; unfold ECM.timeStep; rw [if_neg hdt.le.not_gt]
  rw [e] at ho1 ho2
  rw [e, e]
  exact further hs hj (nobetter_worse hr hrw hs hdt.le hp hpw hj hw hab ho1 ho2)

/-- **C148, the cycler.**  The same constant-current phase to the same voltage limit on two rested cells: the weaker one moves no
more charge, up to its last two time steps. -/
theorem weaker_cell_lasts {fuel1 fuel2 : ℕ} {c d c1 d1 : Cyc (ECM n)} {th1 th2 : Thr} {i vlim t1 t2 dt : ℚ}
    (hd : c.diagnostic = false) (hd2 : d.diagnostic = false) (hr : CircuitAtRest c.su) (hrw : CircuitAtRest d.su)
    (hdt : 0 < dt) (hp : RatedCell c.su.par dt) (hpw : RatedCell d.su.par dt) (hw : NoBetter i c.su d.su) (hi : i ≠ 0)
    (h1 : CC fuel1 c i vlim t1 dt 0 Thr.zero = (.ok .ReachedVoltageLimit, c1, th1))
    (h2 : CC fuel2 d i vlim t2 dt 0 Thr.zero = (.ok .ReachedVoltageLimit, d1, th2)) :
    th2.Ah ≤ th1.Ah + |i| * (2 * dt) / 3600 := by
  obtain ⟨s, j, -, hs, rfl, -, hj, -⟩ := direction (i1 := i) (i2 := i)
    (by rcases lt_or_gt_of_ne hi with h | h; exacts [.inr ⟨h, le_rfl⟩, .inl ⟨h, le_rfl⟩])
  obtain ⟨K1, k1, E1⟩ := cc_exact hdt hd hr hp.Rdc h1
  obtain ⟨K2, k2, E2⟩ := cc_exact hdt hd2 hrw hpw.Rdc h2
  have q1 := E1.charge
  have q2 := E2.charge
  have z : Thr.zero.Ah = 0 := rfl
  rw [z, sub_zero, abs_sI hs hj] at q1 q2
  rw [abs_sI hs hj]
  have key : K2 ≤ K1 + k1 := by
    rcases E2.before with h0 | ⟨hn, hv⟩
    · omega
    · by_contra hc
      obtain ⟨o1, ho1⟩ := E1.known
      obtain ⟨o2, ho2⟩ := ocv_of_V hv
      have e1 : c1.su.par = c.su.par := by rw [E1.steps, ECM.steps_par]; rfl
      have e2 : ((d.su.withI (s * j)).steps dt K2).par = d.su.par := by rw [ECM.steps_par]; rfl
      rw [e1, E1.steps] at ho1
      rw [e2] at ho2
      have hq := nobetter_worse hr hrw hs hdt.le hp hpw hj hw (not_le.mp hc).le ho1 ho2
      rw [beyond_iff hs hj] at hn
      have hb := (beyond_iff hs hj).mp E1.beyond
      rw [E1.steps] at hb
      rw [mul_sub] at hn hb
      linarith
  have hk : (k2 : ℚ) ≤ 2 := by exact_mod_cast E2.two
  have key' : (K2 : ℚ) ≤ (K1 : ℚ) + k1 := by exact_mod_cast key
  rw [q1, q2]
  push_cast
  have : j * (dt * (K2 + k2)) ≤ j * (dt * (K1 + k1)) + j * (2 * dt) := by
    have := mul_le_mul_of_nonneg_left (add_le_add key' hk) (mul_pos hj hdt).le
    linarith
  linarith

/-- `ratedCell` aged: less capacity and more resistance. -/
def agedRated : ECM 1 where
  par := { cap := 9 / 10, Rdc := 15 / 100, Rp := ![12 / 100], invTau := ![1 / 80],
           ocv := ratedCell.par.ocv }
  st := { T := 288, SOC := 1 / 2, I := 0, Ir := ![0], time := 0, Ah := 0, Wh := 0 }

theorem agedRated_rated : RatedCell agedRated.par 30 where
  cap := by decide +kernel
  rising := ratedCell_rated.rising
  Rdc := by decide +kernel
  Rp := by decide +kernel
  tau0 := by decide +kernel
  tau1 := by decide +kernel

theorem agedRated_noBetter (i : ℚ) : NoBetter i ratedCell agedRated where
  curve := rfl
  cap := by decide +kernel
  Rdc := by decide +kernel
  Rp := by decide +kernel
  invTau := by decide +kernel
  discharge := fun _ => le_refl _
  charge := fun _ => le_refl _

/-- The hypotheses of `weaker_cell_lasts` are met: discharging both to 3.2 V. -/
example : CircuitAtRest ratedCell ∧ CircuitAtRest agedRated ∧ RatedCell agedRated.par 30 ∧ NoBetter 1 ratedCell agedRated ∧
    (CC 100 { su := ratedCell } 1 (32 / 10) 10000 30 0 Thr.zero).1 = .ok .ReachedVoltageLimit ∧
    (CC 100 { su := agedRated } 1 (32 / 10) 10000 30 0 Thr.zero).1 = .ok .ReachedVoltageLimit ∧
    (CC 100 { su := agedRated } 1 (32 / 10) 10000 30 0 Thr.zero).2.2.Ah <
      (CC 100 { su := ratedCell } 1 (32 / 10) 10000 30 0 Thr.zero).2.2.Ah :=
  ⟨⟨⟨35 / 10, by decide +kernel⟩, by decide +kernel, by decide +kernel⟩,
    ⟨⟨35 / 10, by decide +kernel⟩, by decide +kernel, by decide +kernel⟩, agedRated_rated, agedRated_noBetter 1,
    by decide +kernel, by decide +kernel, by decide +kernel⟩

/-- And those of `weaker_cell_voltage`. -/
example : (ratedCell.par.ocv ((ratedCell.withI 1).timeStep 30 10).2.st.SOC).isSome ∧
    (agedRated.par.ocv ((agedRated.withI 1).timeStep 30 12).2.st.SOC).isSome ∧
    ((agedRated.withI 1).timeStep 30 12).2.V < ((ratedCell.withI 1).timeStep 30 10).2.V := by decide +kernel

end Slide

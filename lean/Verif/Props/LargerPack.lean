import Verif.Lemmas.LargerPack
import Verif.Lemmas.LargerSpm
import Verif.Lemmas.SpmUnit
import Verif.Lemmas.States
import Verif.Lemmas.CyclerLoops
import Verif.Props.ScaledCell
import Verif.Props.UniformPack

/-!
# C151: a pack of larger cells behaves alike
-/

namespace Slide
open StorageUnit Spec Cyc

/-! ## Helper lemmas -/

theorem scaled_capacityTest_states {U W : Type} [StorageUnit U] [StorageUnit W] [LawfulStates U] [LawfulStates W] {k : ℚ}
    {φ : U → W} (hs : SizeMap k φ) (hk : 0 < k) (fuel : ℕ) (c : Cyc U) (hv : Valid c.su) (hw : Valid (φ c.su)) (Ah ttot : ℚ) :
    testCapacity fuel (cycMap φ c) (k * Ah) ttot =
      let r := testCapacity fuel c Ah ttot
      ((match r.1 with | .ok x => .ok (k * x) | .throw e => .throw e | .ub w => .ub w), cycMap φ r.2.1, k * r.2.2.1, r.2.2.2) := by
  have z : thrTimes k Thr.zero = Thr.zero := by
    show (⟨0, k * 0, k * 0⟩ : Thr) = ⟨0, 0, 0⟩
    rw [mul_zero]
  have keep : ∀ {X : Type} [StorageUnit X] [LawfulStates X] (c c' : Cyc X) (I vlim tlim dt : ℚ) (ndt : ℤ) (th : Thr), Same c'.su c.su →
      Same c'.su (CC fuel c I vlim tlim dt ndt th).2.1.su := fun c c' I vlim tlim dt ndt th h =>
    (CC_keeps (P := Same c'.su) (fun u i b hu => LawfulStates.trans hu (LawfulStates.setCurrent_same u i b))
      (fun u dt j hu => LawfulStates.trans hu (LawfulStates.timeStep_same u dt j)) fuel c I vlim tlim dt ndt th h).1
  have back : ∀ {X : Type} [StorageUnit X] [LawfulStates X] (a b : X), Same a b → Valid a →
      StorageUnit.setStates b (StorageUnit.getStates a) false = (.ok (.Success, []), a) := fun a b h hv => by
    have := LawfulStates.roundtrip a b [] h hv
    rwa [List.append_nil] at this
  unfold testCapacity
  dsimp only
  rw [show StorageUnit.Cap (cycMap φ c).su = k * StorageUnit.Cap c.su from hs.Cap _,
    show StorageUnit.lim (cycMap φ c).su = StorageUnit.lim c.su from hs.lim _]
  have h1 := scaled_cc hs hk fuel c (-(1/25) * StorageUnit.Cap c.su) (StorageUnit.lim c.su).Vmax TIME_INF 1 0 Thr.zero
  rw [z, show k * (-(1/25) * StorageUnit.Cap c.su) = -(1/25) * (k * StorageUnit.Cap c.su) by ring] at h1
  have s1 := keep c c (-(1/25) * StorageUnit.Cap c.su) (StorageUnit.lim c.su).Vmax TIME_INF 1 0 Thr.zero (LawfulStates.refl _)
  have t1 := keep (cycMap φ c) (cycMap φ c) (-(1/25) * (k * StorageUnit.Cap c.su)) (StorageUnit.lim c.su).Vmax TIME_INF 1 0 Thr.zero
    (LawfulStates.refl _)
  rw [h1] at t1 ⊢
  generalize CC fuel c (-(1/25) * StorageUnit.Cap c.su) (StorageUnit.lim c.su).Vmax TIME_INF 1 0 Thr.zero = r1 at s1 t1 ⊢
  obtain ⟨st | e | w, c1, th1⟩ := r1
  · dsimp only at s1 t1 ⊢
    by_cases g : st ≠ .ReachedVoltageLimit
    · rw [if_pos g, if_pos g, back _ _ t1 hw, back _ _ s1 hv]
      dsimp only
      rw [mul_zero]; rfl
    · rw [if_neg g, if_neg g]
      have h2 := scaled_cc hs hk fuel c1 (1/25 * StorageUnit.Cap c.su) (StorageUnit.lim c1.su).Vmin TIME_INF 1 0 Thr.zero
      rw [z, show k * (1/25 * StorageUnit.Cap c.su) = 1/25 * (k * StorageUnit.Cap c.su) by ring] at h2
      have s2 := keep c1 c (1/25 * StorageUnit.Cap c.su) (StorageUnit.lim c1.su).Vmin TIME_INF 1 0 Thr.zero s1
      have t2 := keep (cycMap φ c1) (cycMap φ c) (1/25 * (k * StorageUnit.Cap c.su)) (StorageUnit.lim c1.su).Vmin TIME_INF 1 0 Thr.zero t1
      rw [show StorageUnit.lim (cycMap φ c1).su = StorageUnit.lim c1.su from hs.lim _]
      rw [h2] at t2 ⊢
      generalize CC fuel c1 (1/25 * StorageUnit.Cap c.su) (StorageUnit.lim c1.su).Vmin TIME_INF 1 0 Thr.zero = r2 at s2 t2 ⊢
      obtain ⟨st | e | w, c2, th2⟩ := r2
      · dsimp only at s2 t2 ⊢
        by_cases g2 : st ≠ .ReachedVoltageLimit
        · rw [if_pos g2, if_pos g2, back _ _ t2 hw, back _ _ s2 hv]
          dsimp only
          rw [mul_zero]; rfl
        · rw [if_neg g2, if_neg g2]
          refine Prod.ext rfl (Prod.ext rfl (Prod.ext ?_ rfl))
          show k * th1.Ah + k * th2.Ah = k * (th1.Ah + th2.Ah)
          ring
      · rfl
      · rfl
  · rfl
  · rfl

theorem largerPack_valid {n : ℕ} {k : ℚ} : ∀ (d : ℕ) (m : Tree (ECM n) d), Valid m → Valid (largerPack k (largerCell k) d m)
  | 0, _, h => h
  | _ + 1, .cell _, h => h
  | d + 1, .series m, h => by
    obtain ⟨hT, hc⟩ := h
    refine ⟨hT, fun c hm => ?_⟩
    obtain ⟨c', hm', rfl⟩ := List.mem_map.mp hm
    exact largerPack_valid d c'.su (hc c' hm')
  | d + 1, .parallel m, h => by
    obtain ⟨hT, hc⟩ := h
    refine ⟨hT, fun c hm => ?_⟩
    obtain ⟨c', hm', rfl⟩ := List.mem_map.mp hm
    exact largerPack_valid d c'.su (hc c' hm')

theorem larger_string_hold {U W : Type} [StorageUnit U] [StorageUnit W] {k : ℚ} (hk : 0 < k) {φ : U → W} (hs : SizeMap k φ) :
    HoldMap k (largerSeries k φ) where
  toSizeMap := larger_series hk hs
  hold m v := scaled_iterative (larger_series hk hs) m v

theorem larger_spm_hold {N : ℕ} {k : ℚ} (hk : 0 < k) : HoldMap k (largerSpm (N := N) hk) where
  toSizeMap := largerSpm_size hk
  hold u v := scaled_iterative (largerSpm_size hk) u v

/-! ## C151 -/

section
variable {n : ℕ} {k : ℚ} {d : ℕ}

/-- A pack of equivalent-circuit cells with every cell `k` times as large. -/
abbrev bigger (k : ℚ) {n : ℕ} (d : ℕ) : Tree (ECM n) d → Tree (ECM n) d := largerPack k (largerCell k) d

/-- **C151, what can be read off the pack**: voltages, limits, warnings and the open-circuit voltage are the same, current and capacity `k`
times as large, the resistance is the `k`-th part. -/
theorem larger_pack_reads (hk : 0 < k) (m : Tree (ECM n) d) :
    StorageUnit.V (bigger k d m) = StorageUnit.V m ∧ StorageUnit.I (bigger k d m) = k * StorageUnit.I m ∧
      StorageUnit.Cap (bigger k d m) = k * StorageUnit.Cap m ∧ StorageUnit.Rtot (bigger k d m) = StorageUnit.Rtot m / k ∧
      StorageUnit.OCV (bigger k d m) = StorageUnit.OCV m ∧ StorageUnit.lim (bigger k d m) = StorageUnit.lim m ∧
      StorageUnit.checkVoltage (bigger k d m) = StorageUnit.checkVoltage m ∧
      StorageUnit.Vlow (bigger k d m) = StorageUnit.Vlow m ∧ StorageUnit.Vhigh (bigger k d m) = StorageUnit.Vhigh m := by
  have h := larger_pack hk (larger_scales (n := n) hk).toSizeMap d
  exact ⟨h.V m, h.I m, h.Cap m, h.Rtot m, h.OCV m, h.lim m, h.check m, h.Vlow m, h.Vhigh m⟩

/-- **C151, what can be asked of the pack**: setting `k` times the current ends the same way, also when it is refused, and leaves the same pack of larger cells,
and so does simulating time. -/
theorem larger_pack_acts (hk : 0 < k) (m : Tree (ECM n) d) :
    (∀ i b, StorageUnit.setCurrent (bigger k d m) (k * i) b =
      ((StorageUnit.setCurrent m i b).1, bigger k d (StorageUnit.setCurrent m i b).2)) ∧
    (∀ dt j, StorageUnit.timeStep (bigger k d m) dt j =
      ((StorageUnit.timeStep m dt j).1, bigger k d (StorageUnit.timeStep m dt j).2)) := by
  have h := larger_pack hk (larger_scales (n := n) hk).toSizeMap d
  exact ⟨h.set m, h.step m⟩

/-- **C151, constant current.** -/
theorem larger_pack_cc (hk : 0 < k) (fuel : ℕ) (c : Cyc (Tree (ECM n) d)) (I vlim tlim dt : ℚ) (ndt : ℤ) (th : Thr) :
    CC fuel (cycMap (bigger k d) c) (k * I) vlim tlim dt ndt (thrTimes k th) =
      let r := CC fuel c I vlim tlim dt ndt th
      (r.1, cycMap (bigger k d) r.2.1, thrTimes k r.2.2) :=
  scaled_cc (larger_pack hk (larger_scales (n := n) hk).toSizeMap d) hk fuel c I vlim tlim dt ndt th

/-- **C151, rest.** -/
theorem larger_pack_rest (hk : 0 < k) (fuel : ℕ) (c : Cyc (Tree (ECM n) d)) (tlim dt : ℚ) (ndt : ℤ) (th : Thr) :
    rest fuel (cycMap (bigger k d) c) tlim dt ndt (thrTimes k th) =
      let r := rest fuel c tlim dt ndt th
      (r.1, cycMap (bigger k d) r.2.1, thrTimes k r.2.2) :=
  scaled_rest (larger_pack hk (larger_scales (n := n) hk).toSizeMap d) fuel c tlim dt ndt th

/-- **C151, capacity test** of a pack in valid states. -/
theorem larger_pack_capacityTest (hk : 0 < k) (fuel : ℕ) (c : Cyc (Tree (ECM n) d)) (hv : Valid c.su) (Ah ttot : ℚ) :
    testCapacity fuel (cycMap (bigger k d) c) (k * Ah) ttot =
      let r := testCapacity fuel c Ah ttot
      ((match r.1 with | .ok x => .ok (k * x) | .throw e => .throw e | .ub w => .ub w), cycMap (bigger k d) r.2.1,
        k * r.2.2.1, r.2.2.2) :=
  scaled_capacityTest_states (larger_pack hk (larger_scales (n := n) hk).toSizeMap d) hk fuel c hv (largerPack_valid d c.su hv) Ah ttot

/-- **C151, setting the voltage** of a cell or a series module (of modules) of larger cells, and constant-voltage phases with it when both current
limits are at least 10 microampere. -/
theorem larger_string_cv_partial (hk : 0 < k) (c : Cyc (ModuleS (Tree (ECM n) d))) (Vset : ℚ) {Ilim : ℚ} (h1 : AboveSmallest Ilim)
    (h2 : AboveSmallest (k * Ilim)) (tlim dt : ℚ) (ndt : ℤ) (th : Thr) :
    CV (cycMap (largerSeries k (bigger k d)) c) Vset (k * Ilim) tlim dt ndt (thrTimes k th) =
      let r := CV c Vset Ilim tlim dt ndt th
      (r.1, cycMap (largerSeries k (bigger k d)) r.2.1, thrTimes k r.2.2) :=
  scaled_cv (larger_string_hold hk (larger_pack hk (larger_scales (n := n) hk).toSizeMap d)) hk c Vset h1 h2 tlim dt ndt th

/-- **C151, constant current and constant voltage** on a series module. -/
theorem larger_string_cccv_partial (hk : 0 < k) (fuel : ℕ) (c : Cyc (ModuleS (Tree (ECM n) d))) (I Vset : ℚ) {Ilim : ℚ}
    (h1 : AboveSmallest |Ilim|) (h2 : AboveSmallest (k * |Ilim|)) (tlim dt : ℚ) (ndt : ℤ) (th : Thr) :
    CCCVt fuel (cycMap (largerSeries k (bigger k d)) c) (k * I) Vset (k * Ilim) tlim dt ndt (thrTimes k th) =
      let r := CCCVt fuel c I Vset Ilim tlim dt ndt th
      (r.1, cycMap (largerSeries k (bigger k d)) r.2.1, thrTimes k r.2.2) :=
  scaled_cccv (larger_string_hold hk (larger_pack hk (larger_scales (n := n) hk).toSizeMap d)) hk fuel c I Vset h1 h2 tlim dt ndt th

end

/-! ## C151: cells in parallel are one larger cell -/

theorem larger_perform {n : ℕ} {k : ℚ} (hk : 0 < k) (o : UseOp) (u : ECM n) :
    o.perform k (largerCell k u) = ((o.perform 1 u).1, largerCell k (o.perform 1 u).2) := by
  have h := (larger_scales (n := n) hk).toSizeMap
  cases o with
  | ask i =>
    unfold UseOp.perform
    dsimp only
    rw [h.set, one_mul]
    rcases StorageUnit.setCurrent u i true with ⟨st | e | w, u'⟩ <;> rfl
  | simulate dt j =>
    unfold UseOp.perform
    dsimp only
    rw [h.step]
    rcases StorageUnit.timeStep u dt j with ⟨st | e | w, u'⟩ <;> rfl

theorem larger_useAll {n : ℕ} {k : ℚ} (hk : 0 < k) (ops : List UseOp) : ∀ u : ECM n,
    useAll k ops (largerCell k u) = ((useAll 1 ops u).1, largerCell k (useAll 1 ops u).2) := by
  induction ops with
  | nil => intro u; rfl
  | cons o os ih =>
    intro u
    rw [useAll, useAll]
    dsimp only
    rw [larger_perform hk, ih]

/-- **C151, cells in parallel.**  `p` copies of a cell in parallel (also in several levels of parallel modules) and one cell `p` times as
large: over any history of currents and simulated times they accept and refuse the same, and then show the same current, capacity, resistance,
open-circuit voltage and (unless it is unusable) voltage. -/
theorem parallel_is_larger_cell {n : ℕ} (ops : List UseOp) (c : ECM n) (d p : ℕ) (t : Tree (ECM n) d) (h : UniformPack c d 1 p t)
    (hok : ∀ o ∈ (useAll 1 ops c).1, ∃ b, o = .ok b) :
    let r := useAll (p : ℚ) ops t
    let l := useAll (p : ℚ) ops (largerCell p c)
    r.1 = l.1 ∧ StorageUnit.I r.2 = StorageUnit.I l.2 ∧ StorageUnit.Cap r.2 = StorageUnit.Cap l.2 ∧
      StorageUnit.Rtot r.2 = StorageUnit.Rtot l.2 ∧ StorageUnit.OCV r.2 = StorageUnit.OCV l.2 ∧
      (0 < StorageUnit.V l.2 → StorageUnit.V r.2 = StorageUnit.V l.2) := by
  have hp : (0 : ℚ) < p := by exact_mod_cast (uniform_pos _ _ _ _ _ h).2
  obtain ⟨h1, h2⟩ := uniform_history ops c d 1 p t h hok
  have hl := larger_useAll hp ops c
  have hs := (larger_scales (n := n) hp).toSizeMap
  have hr := uniform_readings _ _ _ _ _ h2
  dsimp only
  rw [hl]
  refine ⟨h1, hr.current.trans (hs.I _).symm, hr.capacity.trans (hs.Cap _).symm, hr.resistance.trans ?_, hr.openCircuit.trans ?_, ?_⟩
  · rw [hs.Rtot, Nat.cast_one, one_mul]
  · rw [hs.OCV]
    cases StorageUnit.OCV (useAll 1 ops c).2 <;> simp
  · intro hv
    rw [hs.V] at hv ⊢
    rw [hr.voltage hv, Nat.cast_one, one_mul]

/-- Four cells in two levels of parallel modules. -/
example : UniformPack smallCell 2 1 4 (.parallel ⟨293, List.replicate 2 ⟨0, .parallel ⟨293, List.replicate 2 ⟨0, smallCell⟩⟩⟩⟩) ∧
    ∀ o ∈ (useAll 1 [.ask 1, .simulate 10 3, .ask (-2), .simulate 5 1] smallCell).1, ∃ b, o = .ok b := by
  refine ⟨⟨2, 2, _, by decide, by decide, rfl, rfl, 2, 1, _, by decide, by decide, rfl, rfl, rfl, rfl, rfl⟩, ?_⟩
  have : (useAll 1 [.ask 1, .simulate 10 3, .ask (-2), .simulate 5 1] smallCell).1 = [.ok true, .ok true, .ok true, .ok true] := by
    decide +kernel
  rw [this]
  intro o ho
  simp only [List.mem_cons, List.not_mem_nil, or_false] at ho
  rcases ho with rfl | rfl | rfl | rfl <;> exact ⟨_, rfl⟩

/-! ## C151 for single-particle cells -/

section
variable {N : ℕ} {k : ℚ} {d : ℕ}

/-- **C151, packs of single-particle cells** (without ageing and heat): what can be read off and asked of the pack. -/
theorem larger_spm_pack (hk : 0 < k) (m : Tree (SpmUnit N) d) :
    (StorageUnit.V (largerPack k (largerSpm hk) d m) = StorageUnit.V m ∧
      StorageUnit.I (largerPack k (largerSpm hk) d m) = k * StorageUnit.I m ∧
      StorageUnit.Cap (largerPack k (largerSpm hk) d m) = k * StorageUnit.Cap m ∧
      StorageUnit.Rtot (largerPack k (largerSpm hk) d m) = StorageUnit.Rtot m / k ∧
      StorageUnit.OCV (largerPack k (largerSpm hk) d m) = StorageUnit.OCV m ∧
      StorageUnit.checkVoltage (largerPack k (largerSpm hk) d m) = StorageUnit.checkVoltage m) ∧
    (∀ i b, StorageUnit.setCurrent (largerPack k (largerSpm hk) d m) (k * i) b =
      ((StorageUnit.setCurrent m i b).1, largerPack k (largerSpm hk) d (StorageUnit.setCurrent m i b).2)) ∧
    (∀ dt j, StorageUnit.timeStep (largerPack k (largerSpm hk) d m) dt j =
      ((StorageUnit.timeStep m dt j).1, largerPack k (largerSpm hk) d (StorageUnit.timeStep m dt j).2)) := by
  have h := larger_pack hk (largerSpm_size (N := N) hk) d
  exact ⟨⟨h.V m, h.I m, h.Cap m, h.Rtot m, h.OCV m, h.check m⟩, h.set m, h.step m⟩

/-- **C151, constant current** on packs of single-particle cells. -/
theorem larger_spm_pack_cc (hk : 0 < k) (fuel : ℕ) (c : Cyc (Tree (SpmUnit N) d)) (I vlim tlim dt : ℚ) (ndt : ℤ) (th : Thr) :
    CC fuel (cycMap (largerPack k (largerSpm hk) d) c) (k * I) vlim tlim dt ndt (thrTimes k th) =
      let r := CC fuel c I vlim tlim dt ndt th
      (r.1, cycMap (largerPack k (largerSpm hk) d) r.2.1, thrTimes k r.2.2) :=
  scaled_cc (larger_pack hk (largerSpm_size hk) d) hk fuel c I vlim tlim dt ndt th

/-- **C151, rest** of packs of single-particle cells. -/
theorem larger_spm_pack_rest (hk : 0 < k) (fuel : ℕ) (c : Cyc (Tree (SpmUnit N) d)) (tlim dt : ℚ) (ndt : ℤ) (th : Thr) :
    rest fuel (cycMap (largerPack k (largerSpm hk) d) c) tlim dt ndt (thrTimes k th) =
      let r := rest fuel c tlim dt ndt th
      (r.1, cycMap (largerPack k (largerSpm hk) d) r.2.1, thrTimes k r.2.2) :=
  scaled_rest (larger_pack hk (largerSpm_size hk) d) fuel c tlim dt ndt th

/-- **C151, constant current and constant voltage** on a single-particle cell. -/
theorem larger_spm_cccv_partial (hk : 0 < k) (fuel : ℕ) (c : Cyc (SpmUnit N)) (I Vset : ℚ) {Ilim : ℚ}
    (h1 : AboveSmallest |Ilim|) (h2 : AboveSmallest (k * |Ilim|)) (tlim dt : ℚ) (ndt : ℤ) (th : Thr) :
    CCCVt fuel (cycMap (largerSpm hk) c) (k * I) Vset (k * Ilim) tlim dt ndt (thrTimes k th) =
      let r := CCCVt fuel c I Vset Ilim tlim dt ndt th
      (r.1, cycMap (largerSpm hk) r.2.1, thrTimes k r.2.2) :=
  scaled_cccv (larger_spm_hold hk) hk fuel c I Vset h1 h2 tlim dt ndt th

/-- **C151, constant current and constant voltage** on a series module (of modules) of single-particle cells. -/
theorem larger_spm_string_cccv_partial (hk : 0 < k) (fuel : ℕ) (c : Cyc (ModuleS (Tree (SpmUnit N) d))) (I Vset : ℚ) {Ilim : ℚ}
    (h1 : AboveSmallest |Ilim|) (h2 : AboveSmallest (k * |Ilim|)) (tlim dt : ℚ) (ndt : ℤ) (th : Thr) :
    CCCVt fuel (cycMap (largerSeries k (largerPack k (largerSpm hk) d)) c) (k * I) Vset (k * Ilim) tlim dt ndt (thrTimes k th) =
      let r := CCCVt fuel c I Vset Ilim tlim dt ndt th
      (r.1, cycMap (largerSeries k (largerPack k (largerSpm hk) d)) r.2.1, thrTimes k r.2.2) :=
  scaled_cccv (larger_string_hold hk (larger_pack hk (largerSpm_size hk) d)) hk fuel c I Vset h1 h2 tlim dt ndt th

end

/-! ## Non-vacuity and the full statement for voltages -/

/-- A parallel module of one cell with 5 milliohm. -/
def stiffModule : Tree (ECM 0) 1 :=
  .parallel ⟨293, [⟨0, (⟨⟨1, 1/200, fun _ => 0, fun _ => 0, ECM.defaultOCV⟩, ⟨293, 1/2, 0, fun _ => 0, 0, 0, 0⟩⟩ : ECM 0)⟩]⟩

/-- **C151: setting the voltage of a parallel module is false of the code.**  `Module_p::setVoltage` corrects the currents by a fixed 200 A
per volt.  With 5 milliohm this hits the voltage at once; the same module of a tenth of the size diverges. -/
theorem not_largerPackHoldsAlike : ¬ LargerPackHoldsAlike := by
  intro h
  have := h 1 stiffModule (1/10) (63/20 - 1/1000) (by norm_num)
  revert this
  decide +kernel

/-- Two cells in parallel, in series with a third. -/
def mixedPack : Tree (ECM 0) 2 :=
  .series ⟨293, [⟨1/1000, .parallel ⟨293, [⟨0, smallCell⟩, ⟨0, smallCell⟩]⟩⟩, ⟨1/500, .cell smallCell⟩]⟩

example : Valid mixedPack := by
  refine ⟨by norm_num [mixedPack], fun c hc => ?_⟩
  simp only [List.mem_cons, List.not_mem_nil, or_false] at hc
  have hs : Valid smallCell := by
    show (0 : ℚ) ≤ 1/2 ∧ (1/2 : ℚ) ≤ 1 ∧ (273 : ℚ) ≤ 293 ∧ (293 : ℚ) ≤ 333
    norm_num
  rcases hc with rfl | rfl
  · refine ⟨by norm_num, fun c hc => ?_⟩
    simp only [List.mem_cons, List.not_mem_nil, or_false] at hc
    rcases hc with rfl | rfl <;> exact hs
  · exact hs

example : (CC 20 (⟨mixedPack, 0, false, []⟩ : Cyc (Tree (ECM 0) 2)) 1 6 100 20 0 Thr.zero).1 = .ok .ReachedTimeLimit ∧
    (CC 20 (⟨bigger 7 2 mixedPack, 0, false, []⟩ : Cyc (Tree (ECM 0) 2)) 7 6 100 20 0 Thr.zero).1 = .ok .ReachedTimeLimit := by
  decide +kernel

end Slide

import Verif.Spec.PackCycle
import Verif.Lemmas.Guarded
import Verif.Props.UniformPack
import Verif.Props.StringOfCopies

/-!
Lemmas for C143.
-/

namespace Slide
open StorageUnit Spec Cyc

/-- Cells for which a checked request that reports success leaves a voltage that passes the check, and succeeds again as
long as the voltage passes it. -/
class CheckedSet (C : Type) [StorageUnit C] : Prop where
  passes : ∀ (c : C) i, (setCurrent c i true).1 = .ok .Success →
    Slide.checkVoltage cellLimits (some (V (setCurrent c i true).2)) i = .Success
  self : ∀ (c : C) b, (setCurrent c (StorageUnit.I c) b).2 = c
  again : ∀ c : C, StorageUnit.checkVoltage c = .Success → (setCurrent c (StorageUnit.I c) true).1 = .ok .Success

theorem check_success {v : Option ℚ} {I : ℚ} (h : (checkVoltage cellLimits v I).isSuccessful = true) :
    checkVoltage cellLimits v I = .Success ∧ ∃ x, v = some x ∧ 0 < x := by
  unfold checkVoltage at h ⊢
  cases v with
  | none => exact absurd (show Status.V_not_calculated.isSuccessful = true from h) (by decide)
  | some x =>
    dsimp only at h ⊢
    by_cases h0 : x ≤ 0
    · rw [if_pos h0] at h; exact absurd h (by decide)
    · refine ⟨?_, x, rfl, not_le.mp h0⟩
      rw [if_neg h0] at h ⊢
      split_ifs at h ⊢ <;> first | rfl | exact absurd h (by decide)

instance {n : ℕ} : CheckedSet (ECM n) where
  passes c i h := by
    have h' : (ECM.setCurrent c i true).1 = .Success := by
      have : Outcome.ok (ECM.setCurrent c i true).1 = Outcome.ok Status.Success := h
      injection this
    show Slide.checkVoltage cellLimits (some (ECM.V (ECM.setCurrent c i true).2)) i = .Success
    unfold ECM.setCurrent at h' ⊢
    dsimp only at h' ⊢
    by_cases hb : ((c.withI i).checkCurrent true).isBad = true
    · rw [if_pos hb] at h'
      have h2 : (c.withI i).checkCurrent true = .Success := h'
      rw [h2] at hb
      exact absurd hb (by decide)
    · rw [if_neg hb] at h' ⊢
      exact h'
  self c b := by
    show (ECM.setCurrent c c.st.I b).2 = c
    have e : c.withI c.st.I = c := rfl
    unfold ECM.setCurrent
    dsimp only
    rw [e]
    split <;> rfl
  again c h := by
    show Outcome.ok (ECM.setCurrent c c.st.I true).1 = _
    have e : c.withI c.st.I = c := rfl
    have h' : c.checkV = .Success := h
    unfold ECM.setCurrent
    dsimp only
    rw [e, show c.checkCurrent true = c.checkV from rfl, h']
    rfl

theorem spm_V_fst {x y : SPM N} (h : x.calcV = y.calcV) (hx : x.valid = false) (hy : y.valid = false) : x.V.1 = y.V.1 := by
  unfold SPM.V
  rw [if_neg (by rw [hx]; decide), if_neg (by rw [hy]; decide), h]
  rcases y.calcV with (_ | v) | e | w <;> rfl

theorem spm_V_calcV (x : SPM N) : x.V.2.calcV = x.calcV := by
  unfold SPM.V
  by_cases h : x.valid = true
  · rw [if_pos h]
  · rw [if_neg h]
    rcases hc : x.calcV with (_ | v) | e | w
    · exact hc
    · exact hc
    · exact hc
    · exact hc

theorem plain_calcV (x : SPM N) : x.plain.calcV = x.calcV := rfl

theorem checkCurrent_true_snd (x : SPM N) : (x.checkCurrent true).2 = x.V.2 := by
  show x.checkV.2 = _
  unfold SPM.checkV
  rcases x.V with ⟨v | e | w, c'⟩ <;> rfl

theorem spm_set_success_snd {c : SPM N} {i : ℚ} (h : (c.setCurrent i true).1 = .ok .Success) :
    (c.setCurrent i true).2 = (withCurrent c i).V.2 := by
  rw [spm_setCurrent_eq] at h ⊢
  rw [← checkCurrent_true_snd]
  generalize (withCurrent c i).checkCurrent true = q at h ⊢
  obtain ⟨r | e | w, c2⟩ := q
  · dsimp only at h ⊢
    by_cases hb : r.isBad = true
    · rw [if_pos hb] at h
      have : r = .Success := by injection h
      rw [this] at hb
      exact absurd hb (by decide)
    · rw [if_neg hb]
  · rfl
  · rfl

theorem spmUnit_set_self (u : SpmUnit N) : (setCurrent u (StorageUnit.I u) false).2 = u := SpmUnit.ext' (by
  show (withCurrent u.cell u.cell.st.I).plain = u.cell
  rw [← u.isPlain]
  rfl)

instance {N : ℕ} : CheckedSet (SpmUnit N) where
  passes u i h := by
    have h' : (u.cell.setCurrent i true).1 = .ok .Success := h
    obtain ⟨-, -, h3, h4⟩ := spm_setCurrent_accepted u.cell i true .Success h' (by decide)
    obtain ⟨v, hv, hs⟩ := h4 rfl
    have hcalc : ((u.cell.setCurrent i true).2).plain.calcV = (withCurrent u.cell i).calcV := by
      rw [plain_calcV, spm_set_success_snd h', spm_V_calcV]
    show Slide.checkVoltage cellLimits
      (some (match ((u.cell.setCurrent i true).2).plain.V.1 with | .ok v => v | _ => 0 : ℚ)) i = .Success
    rw [spm_V_fst hcalc rfl rfl, ← h3, hv]
    exact hs.symm
  self u b := by
    obtain ⟨st, hst⟩ := LawfulCurrent.returns u (StorageUnit.I u) b
    by_cases hb : st.isBad = true
    · exact LawfulCurrent.rejects u _ b st hst hb
    · have hI := LawfulCurrent.sets u (StorageUnit.I u) b st hst (by simpa using hb)
      have hu := LawfulCurrent.undo u (StorageUnit.I u) b
      generalize (setCurrent u (StorageUnit.I u) b).2 = x at hI hu ⊢
      rw [← hI, spmUnit_set_self] at hu
      exact hu
  again u h := by
    obtain ⟨s, hs⟩ := good_checkV u.good
    have h1 : (match u.cell.checkV.1 with | .ok s => s | _ => .V_not_calculated : Status) = .Success := h
    rw [hs] at h1
    have h1 : s = .Success := h1
    show (u.cell.setCurrent u.cell.st.I true).1 = _
    have e : withCurrent u.cell u.cell.st.I = u.cell := by
      rw [← u.isPlain]
      rfl
    rw [spm_setCurrent_eq, e, show u.cell.checkCurrent true = u.cell.checkV from rfl]
    rcases hq : u.cell.checkV with ⟨r | e | w, c2⟩ <;> rw [hq] at hs
    · have hr : r = s := by injection hs
      dsimp only
      rw [hr, h1]
      rfl
    · cases hs
    · cases hs

section
variable {C : Type} [StorageUnit C]

theorem uniform_set_success {c c' : C} {d s p : ℕ} {t : Tree C d} (h : UniformPack c d s p t) {i : ℚ}
    (hc : setCurrent c i true = (.ok .Success, c')) :
    ∃ t', setCurrent t (p * i) true = (.ok .Success, t') ∧ UniformPack c' d s p t' := by
  induction d generalizing s p with
  | zero =>
    obtain ⟨rfl, rfl, rfl⟩ := h
    refine ⟨c', ?_, ⟨rfl, rfl, rfl⟩⟩
    rw [Nat.cast_one, one_mul]
    exact hc
  | succ d ih =>
    cases t with
    | cell x =>
      obtain ⟨rfl, rfl, rfl⟩ := h
      refine ⟨Node.cell c', ?_, ⟨rfl, rfl, rfl⟩⟩
      rw [Nat.cast_one, one_mul]
      show ((setCurrent x i true).1, Node.cell (setCurrent x i true).2) = _
      rw [hc]
      rfl
    | series m =>
      obtain ⟨N, s', t, h1, h2, rfl, h4, h5⟩ := h
      obtain ⟨t', k1, k3⟩ := ih h5
      refine ⟨Node.series { m with kids := List.replicate N ⟨0, t'⟩ }, ?_, ⟨N, s', t', h1, h2, rfl, rfl, k3⟩⟩
      show ((ModuleS.setCurrent m (p * i) true).1, Node.series (ModuleS.setCurrent m (p * i) true).2) = _
      rw [repS_set m h2 h4 k1 (by decide)]
      rfl
    | parallel m =>
      obtain ⟨N, p', t, h1, h2, rfl, h4, h5⟩ := h
      obtain ⟨t', k1, k3⟩ := ih h5
      have e : ((N * p' : ℕ) : ℚ) * i = N * (p' * i) := by push_cast; ring
      rw [e]
      refine ⟨Node.parallel { m with kids := List.replicate N ⟨0, t'⟩ }, ?_, ⟨N, p', t', h1, h2, rfl, rfl, k3⟩⟩
      show ((ModuleP.setCurrent m (N * (p' * i)) true).1, Node.parallel (ModuleP.setCurrent m (N * (p' * i)) true).2) = _
      rw [repP_set m h1 h2 h4 k1 (by decide)]
      rfl

theorem uniform_neg [LawfulStep C] {c : C} {d s p : ℕ} {t : Tree C d} (h : UniformPack c d s p t) {dt : ℚ} {n : ℕ}
    (hdt : dt < 0) : timeStep t dt n = (.throw 10, t) := by
  cases d with
  | zero => exact LawfulStep.negative (U := C) t dt n hdt
  | succ d =>
    cases t with
    | cell x =>
      show ((timeStep x dt n).1, Node.cell (timeStep x dt n).2) = _
      rw [LawfulStep.negative x dt n hdt]
      rfl
    | series m =>
      show ((ModuleS.timeStep m dt n).1, Node.series (ModuleS.timeStep m dt n).2) = _
      unfold ModuleS.timeStep
      rw [if_pos hdt]
      rfl
    | parallel m =>
      show ((ModuleP.timeStep m dt n).1, Node.parallel (ModuleP.timeStep m dt n).2) = _
      unfold ModuleP.timeStep
      rw [if_pos hdt]
      rfl

theorem uniform_V_nonpos {c : C} {d s p : ℕ} {t : Tree C d} (h : UniformPack c d s p t) (hv : V c ≤ 0) : V t ≤ 0 := by
  induction d generalizing s p with
  | zero => obtain ⟨rfl, rfl, rfl⟩ := h; exact hv
  | succ d ih =>
    cases t with
    | cell x => obtain ⟨rfl, rfl, rfl⟩ := h; exact hv
    | series m =>
      obtain ⟨N, s', t, h1, h2, rfl, h4, h5⟩ := h
      obtain ⟨k, rfl⟩ : ∃ k, N = k + 1 := ⟨N - 1, by omega⟩
      show ModuleS.vLoop 0 m.kids ≤ 0
      rw [h4, List.replicate_succ]
      unfold ModuleS.vLoop
      rw [if_pos (ih h5)]
    | parallel m =>
      obtain ⟨N, p', t, h1, h2, rfl, h4, h5⟩ := h
      obtain ⟨k, rfl⟩ : ∃ k, N = k + 1 := ⟨N - 1, by omega⟩
      show ModuleP.V m ≤ 0
      unfold ModuleP.V
      rw [h4, List.replicate_succ]
      dsimp only
      rw [mul_zero, sub_zero]
      exact ih h5

theorem uniform_V_compare {c : C} {d s p : ℕ} {t : Tree C d} (h : UniformPack c d s p t) {x : ℚ} (hx : 0 < x) :
    (V t ≤ s * x ↔ V c ≤ x) ∧ (V t > s * x ↔ V c > x) ∧ (V t ≥ s * x ↔ V c ≥ x) ∧ (V t < s * x ↔ V c < x) := by
  have hp : (0 : ℚ) < s := by exact_mod_cast (uniform_pos c d s p t h).1
  have hpx : 0 < s * x := mul_pos hp hx
  rcases le_or_gt (V c) 0 with hv | hv
  · have h0 := uniform_V_nonpos h hv
    refine ⟨⟨fun _ => by linarith, fun _ => by linarith⟩, ⟨fun h1 => by linarith, fun h1 => by linarith⟩,
      ⟨fun h1 => by linarith, fun h1 => by linarith⟩, ⟨fun _ => by linarith, fun _ => by linarith⟩⟩
  · rw [(uniform_readings c d s p t h).voltage hv]
    exact ⟨mul_le_mul_iff_right₀ hp, mul_lt_mul_iff_right₀ hp, mul_le_mul_iff_right₀ hp, mul_lt_mul_iff_right₀ hp⟩

theorem uniform_Vlow {c : C} {d s p : ℕ} {t : Tree C d} (h : UniformPack c d s p t) {x : ℚ} (hx : x ≤ (lim c).Vmax)
    (h0 : 0 ≤ (lim c).Vmax) : Vlow t < x ↔ Vlow c < x := by
  induction d generalizing s p with
  | zero => obtain ⟨rfl, rfl, rfl⟩ := h; exact Iff.rfl
  | succ d ih =>
    have hs := (uniform_pos c (d + 1) s p t h).1
    have hl := (uniform_readings c (d + 1) s p t h).Vmax
    have hbig : x ≤ (lim t).Vmax := by
      rw [hl]
      have : (1 : ℚ) ≤ s := by exact_mod_cast hs
      nlinarith
    cases t with
    | cell x => obtain ⟨rfl, rfl, rfl⟩ := h; exact Iff.rfl
    | series m =>
      obtain ⟨N, s', t, h1, h2, rfl, h4, h5⟩ := h
      obtain ⟨k, rfl⟩ : ∃ k, N = k + 1 := ⟨N - 1, by omega⟩
      show modVlow m.lim.Vmax m.kids < x ↔ _
      unfold modVlow
      rw [h4, List.replicate_succ, List.foldl_cons, rep_foldl _ _ _ _ (by rw [min_assoc, min_self]), min_lt_iff, ← ih h5]
      exact ⟨fun h => h.resolve_left (not_lt.mpr hbig), .inr⟩
    | parallel m =>
      obtain ⟨N, p', t, h1, h2, rfl, h4, h5⟩ := h
      obtain ⟨k, rfl⟩ : ∃ k, N = k + 1 := ⟨N - 1, by omega⟩
      show modVlow m.lim.Vmax m.kids < x ↔ _
      unfold modVlow
      rw [h4, List.replicate_succ, List.foldl_cons, rep_foldl _ _ _ _ (by rw [min_assoc, min_self]), min_lt_iff, ← ih h5]
      exact ⟨fun h => h.resolve_left (not_lt.mpr hbig), .inr⟩

/-- A pack that is asked for the current it has. -/
theorem uniform_set_self [LawfulCurrent C] [CheckedSet C] {c : C} {d s p : ℕ} {t : Tree C d} (h : UniformPack c d s p t) (b : Bool) :
    ∃ st t', setCurrent t (p * StorageUnit.I c) b = (.ok st, t') ∧ UniformPack c d s p t' ∧ (st.isBad = true → t' = t) := by
  induction d generalizing s p b with
  | zero =>
    obtain ⟨rfl, rfl, rfl⟩ := h
    obtain ⟨st, hst⟩ := LawfulCurrent.returns (U := C) t (StorageUnit.I (U := C) t) b
    refine ⟨st, t, ?_, ⟨rfl, rfl, rfl⟩, fun _ => rfl⟩
    rw [Nat.cast_one, one_mul]
    exact Prod.ext hst (CheckedSet.self (C := C) t b)
  | succ d ih =>
    cases t with
    | cell x =>
      obtain ⟨rfl, rfl, rfl⟩ := h
      obtain ⟨st, hst⟩ := LawfulCurrent.returns x (StorageUnit.I x) b
      refine ⟨st, Node.cell x, ?_, ⟨rfl, rfl, rfl⟩, fun _ => rfl⟩
      rw [Nat.cast_one, one_mul]
      show ((setCurrent x (StorageUnit.I x) b).1, Node.cell (setCurrent x (StorageUnit.I x) b).2) = _
      rw [hst, CheckedSet.self x b]
      rfl
    | series m =>
      obtain ⟨N, s', t, h1, h2, rfl, h4, h5⟩ := h
      obtain ⟨st, t', k1, k2, k3⟩ := ih h5 b
      by_cases hb : st.isBad = true
      · rw [k3 hb] at k1
        refine ⟨st, Node.series m, ?_, ⟨N, s', t, h1, h2, rfl, h4, h5⟩, fun _ => rfl⟩
        show ((ModuleS.setCurrent m _ b).1, Node.series (ModuleS.setCurrent m _ b).2) = _
        rw [repS_reject m h1 h4 k1 hb]
        rfl
      · refine ⟨.Success, Node.series { m with kids := List.replicate N ⟨0, t'⟩ }, ?_, ⟨N, s', t', h1, h2, rfl, rfl, k2⟩,
          fun h => by cases h⟩
        show ((ModuleS.setCurrent m _ b).1, Node.series (ModuleS.setCurrent m _ b).2) = _
        rw [repS_set m h2 h4 k1 (by simpa using hb)]
        rfl
    | parallel m =>
      obtain ⟨N, p', t, h1, h2, rfl, h4, h5⟩ := h
      obtain ⟨st, t', k1, k2, k3⟩ := ih h5 true
      have e : ((N * p' : ℕ) : ℚ) * StorageUnit.I c = N * (p' * StorageUnit.I c) := by push_cast; ring
      rw [e]
      by_cases hb : st.isBad = true
      · rw [k3 hb] at k1
        refine ⟨st, Node.parallel m, ?_, ⟨N, p', t, h1, h2, rfl, h4, h5⟩, fun _ => rfl⟩
        show ((ModuleP.setCurrent m _ b).1, Node.parallel (ModuleP.setCurrent m _ b).2) = _
        rw [repP_reject m h1 h2 h4 k1 hb]
        rfl
      · refine ⟨.Success, Node.parallel { m with kids := List.replicate N ⟨0, t'⟩ }, ?_, ⟨N, p', t', h1, h2, rfl, rfl, k2⟩,
          fun h => by cases h⟩
        show ((ModuleP.setCurrent m _ b).1, Node.parallel (ModuleP.setCurrent m _ b).2) = _
        rw [repP_set m h1 h2 h4 k1 (by simpa using hb)]
        rfl

end

end Slide

import Verif.Lemmas.UniformPack
import Verif.Props.Series

/-!
C139: a pack of identical cells without contact resistances is a scaled cell.
-/

namespace Slide
open StorageUnit Spec

theorem uniform_pos {C : Type} (c : C) (d s p : ℕ) (t : Tree C d) (h : UniformPack c d s p t) : 1 ≤ s ∧ 1 ≤ p := by
  induction d generalizing s p with
  | zero => obtain ⟨-, rfl, rfl⟩ := h; exact ⟨le_refl _, le_refl _⟩
  | succ d ih =>
    cases t with
    | cell x => obtain ⟨-, rfl, rfl⟩ := h; exact ⟨le_refl _, le_refl _⟩
    | series m =>
      obtain ⟨N, s', t, h1, -, rfl, -, h5⟩ := h
      obtain ⟨i1, i2⟩ := ih s' p t h5
      exact ⟨Nat.mul_pos h1 i1, i2⟩
    | parallel m =>
      obtain ⟨N, p', t, h1, -, rfl, -, h5⟩ := h
      obtain ⟨i1, i2⟩ := ih s p' t h5
      exact ⟨i1, Nat.mul_pos h1 i2⟩

variable {C : Type} [StorageUnit C]

theorem cell_readings (c : C) (d : ℕ) (t : Tree C d) (hV : V t = V c) (hI : StorageUnit.I t = StorageUnit.I c) (hC : Cap t = Cap c)
    (hO : OCV t = OCV c) (hR : Rtot t = Rtot c) (hn : nCells t = nCells c) (hl : lim t = lim c)
    (hs : StorageUnit.checkVoltage t = StorageUnit.checkVoltage c) : ScaledReadings c d 1 1 t := by
  constructor
  · intro _; rw [hV]; simp
  · rw [hI]; simp
  · rw [hC]; simp
  · rw [hO]; cases OCV c <;> simp
  · rw [hR]; simp
  · rw [hn]; simp
  · rw [hl]; simp
  · rw [hl]; simp
  · rw [hl]; simp
  · rw [hl]; simp
  · intro _; exact hs

/-- C139: the readings at the terminals are those of the cell, voltages times the number of cells in series, currents and
capacity times the number in parallel. -/
theorem uniform_readings (c : C) (d s p : ℕ) (t : Tree C d) (h : UniformPack c d s p t) : ScaledReadings c d s p t := by
  induction d generalizing s p with
  | zero =>
    obtain ⟨rfl, rfl, rfl⟩ := h
    exact cell_readings t 0 t rfl rfl rfl rfl rfl rfl rfl rfl
  | succ d ih =>
    cases t with
    | cell x =>
      obtain ⟨rfl, rfl, rfl⟩ := h
      exact cell_readings x (d + 1) (Node.cell x) rfl rfl rfl rfl rfl rfl rfl rfl
    | series m =>
      have hp := (uniform_pos c (d + 1) s p (Node.series m) h).2
      obtain ⟨N, s', t, h1, h2, rfl, h4, h5⟩ := h
      have r := ih s' p t h5
      have hs' := (uniform_pos c d s' p t h5).1
      constructor
      · intro hv
        have hvt : 0 < V t := by
          rw [r.voltage hv]
          exact mul_pos (by exact_mod_cast hs') hv
        show ModuleS.V m = _
        unfold ModuleS.V
        rw [h4, rep_vLoop hvt, r.voltage hv]
        push_cast; ring
      · show ModuleS.I m = _
        unfold ModuleS.I
        obtain ⟨k, rfl⟩ : ∃ k, N = k + 1 := ⟨N - 1, by omega⟩
        rw [h4, List.replicate_succ]
        exact r.current
      · show ModuleS.Cap m = _
        unfold ModuleS.Cap
        rw [h4, tmin_replicate _ _ h1, r.capacity]
      · show ModuleS.OCV m = _
        unfold ModuleS.OCV
        rw [h4, tsumOpt_replicate _ _ h1, r.openCircuit, Option.map_map]
        congr 1
        funext v
        simp only [Function.comp]
        push_cast; ring
      · show ModuleS.Rtot m = _
        unfold ModuleS.Rtot
        rw [h4, rep_rtotS, r.resistance]
        push_cast; ring
      · show (m.kids.map fun k => nCells k.su).sum = _
        rw [h4, List.map_replicate, List.sum_replicate, r.number]
        simp only [smul_eq_mul]; ring
      · show tsum (fun u => (lim u).Vmin) m.kids = _
        rw [h4, tsum_replicate, r.Vmin]; push_cast; ring
      · show tsum (fun u => (lim u).Vmax) m.kids = _
        rw [h4, tsum_replicate, r.Vmax]; push_cast; ring
      · show tsum (fun u => (lim u).VMIN) m.kids = _
        rw [h4, tsum_replicate, r.VMIN]; push_cast; ring
      · show tsum (fun u => (lim u).VMAX) m.kids = _
        rw [h4, tsum_replicate, r.VMAX]; push_cast; ring
      · intro hc
        show modCheckVoltage m.kids = _
        rw [h4, rep_check t h1 (by rw [r.status hc]; exact hc), r.status hc]
    | parallel m =>
      obtain ⟨N, p', t, h1, h2, rfl, h4, h5⟩ := h
      have r := ih s p' t h5
      have hp' := (uniform_pos c d s p' t h5).2
      have hN0 : (N : ℚ) ≠ 0 := by positivity
      have hp0 : (p' : ℚ) ≠ 0 := by positivity
      constructor
      · intro hv
        show ModuleP.V m = _
        unfold ModuleP.V
        obtain ⟨k, rfl⟩ : ∃ k, N = k + 1 := ⟨N - 1, by omega⟩
        rw [h4, List.replicate_succ]
        dsimp only
        rw [mul_zero, sub_zero]
        exact r.voltage hv
      · show tsum StorageUnit.I m.kids = _
        rw [h4, tsum_replicate, r.current]; push_cast; ring
      · show tsum Cap m.kids = _
        rw [h4, tsum_replicate, r.capacity]; push_cast; ring
      · show ModuleP.OCV m = _
        unfold ModuleP.OCV
        have hne : m.kids ≠ [] := by
          rw [h4]; intro e; simp at e; omega
        rw [if_neg hne, h4, tsumOpt_replicate _ _ h1, r.openCircuit, Option.map_map, Option.map_map, List.length_replicate]
        congr 1
        funext v
        simp only [Function.comp]
        field_simp
      · show ModuleP.rtotLoop m.kids = _
        rw [h4, rep_rtotP _ h1, r.resistance]
        push_cast
        field_simp
      · show (m.kids.map fun k => nCells k.su).sum = _
        rw [h4, List.map_replicate, List.sum_replicate, r.number]
        simp only [smul_eq_mul]; ring
      · show tmax (fun u => (lim u).Vmin) m.kids = _
        rw [h4, tmax_replicate _ _ h1, r.Vmin]
      · show tmin (fun u => (lim u).Vmax) m.kids = _
        rw [h4, tmin_replicate _ _ h1, r.Vmax]
      · show tmax (fun u => (lim u).VMIN) m.kids = _
        rw [h4, tmax_replicate _ _ h1, r.VMIN]
      · show tmin (fun u => (lim u).VMAX) m.kids = _
        rw [h4, tmin_replicate _ _ h1, r.VMAX]
      · intro hc
        show modCheckVoltage m.kids = _
        rw [h4, rep_check t h1 (by rw [r.status hc]; exact hc), r.status hc]

/-- C139: a current that the cell refuses is refused by the pack with the same status and without effect; a current the
cell accepts is accepted by the pack, and all its cells do what the cell does. -/
theorem uniform_set [Replicable C] (c : C) (d s p : ℕ) (t : Tree C d) (h : UniformPack c d s p t) (i : ℚ) :
    ∃ st c' st' t', setCurrent c i true = (.ok st, c') ∧ setCurrent t (p * i) true = (.ok st', t') ∧
      st'.isBad = st.isBad ∧ UniformPack c' d s p t' ∧ (st.isBad = true → st' = st ∧ c' = c ∧ t' = t) := by
  obtain ⟨st, hst⟩ := Replicable.returns c i
  have hrej := Replicable.rejects c i st hst
  rcases hc : setCurrent c i true with ⟨o, c'⟩
  rw [hc] at hst hrej
  dsimp only at hst
  subst hst
  suffices key : ∃ st' t', setCurrent t (p * i) true = (.ok st', t') ∧ st'.isBad = st.isBad ∧
      UniformPack c' d s p t' ∧ (st.isBad = true → st' = st ∧ t' = t) by
    obtain ⟨st', t', k1, k2, k3, k4⟩ := key
    exact ⟨st, c', st', t', rfl, k1, k2, k3, fun hb => ⟨(k4 hb).1, hrej hb, (k4 hb).2⟩⟩
  induction d generalizing s p with
  | zero =>
    obtain ⟨rfl, rfl, rfl⟩ := h
    refine ⟨st, c', ?_, rfl, ⟨rfl, rfl, rfl⟩, fun hb => ⟨rfl, hrej hb⟩⟩
    rw [Nat.cast_one, one_mul]
    exact hc
  | succ d ih =>
    cases t with
    | cell x =>
      obtain ⟨rfl, rfl, rfl⟩ := h
      refine ⟨st, Node.cell c', ?_, rfl, ⟨rfl, rfl, rfl⟩, fun hb => ⟨rfl, congrArg Node.cell (hrej hb)⟩⟩
      rw [Nat.cast_one, one_mul]
      show ((setCurrent x i true).1, Node.cell (setCurrent x i true).2) = _
      rw [hc]
      rfl
    | series m =>
      obtain ⟨N, s', t, h1, h2, rfl, h4, h5⟩ := h
      obtain ⟨st', t', k1, k2, k3, k4⟩ := ih s' p t h5
      by_cases hb : st.isBad = true
      · obtain ⟨e1, e2⟩ := k4 hb
        subst e1 e2
        refine ⟨st', Node.series m, ?_, rfl, ⟨N, s', t', h1, h2, rfl, h4, k3⟩, fun _ => ⟨rfl, rfl⟩⟩
        show ((ModuleS.setCurrent m (p * i) true).1, Node.series (ModuleS.setCurrent m (p * i) true).2) = _
        rw [repS_reject m h1 h4 k1 hb]
        rfl
      · have hb : st.isBad = false := by simpa using hb
        refine ⟨.Success, Node.series { m with kids := List.replicate N ⟨0, t'⟩ }, ?_, by rw [hb]; rfl,
          ⟨N, s', t', h1, h2, rfl, rfl, k3⟩, fun hb' => (by rw [hb] at hb'; cases hb')⟩
        show ((ModuleS.setCurrent m (p * i) true).1, Node.series (ModuleS.setCurrent m (p * i) true).2) = _
        rw [repS_set m h2 h4 k1 (k2.trans hb)]
        rfl
    | parallel m =>
      obtain ⟨N, p', t, h1, h2, rfl, h4, h5⟩ := h
      obtain ⟨st', t', k1, k2, k3, k4⟩ := ih s p' t h5
      have e : ((N * p' : ℕ) : ℚ) * i = N * (p' * i) := by push_cast; ring
      rw [e]
      by_cases hb : st.isBad = true
      · obtain ⟨e1, e2⟩ := k4 hb
        subst e1 e2
        refine ⟨st', Node.parallel m, ?_, rfl, ⟨N, p', t', h1, h2, rfl, h4, k3⟩, fun _ => ⟨rfl, rfl⟩⟩
        show ((ModuleP.setCurrent m (N * (p' * i)) true).1, Node.parallel (ModuleP.setCurrent m (N * (p' * i)) true).2) = _
        rw [repP_reject m h1 h2 h4 k1 hb]
        rfl
      · have hb : st.isBad = false := by simpa using hb
        refine ⟨.Success, Node.parallel { m with kids := List.replicate N ⟨0, t'⟩ }, ?_, by rw [hb]; rfl,
          ⟨N, p', t', h1, h2, rfl, rfl, k3⟩, fun hb' => (by rw [hb] at hb'; cases hb')⟩
        show ((ModuleP.setCurrent m (N * (p' * i)) true).1, Node.parallel (ModuleP.setCurrent m (N * (p' * i)) true).2) = _
        rw [repP_set m h1 h2 h4 k1 (k2.trans hb)]
        rfl

/-- C139: a time step that succeeds for the cell succeeds for the pack, and takes every cell of the pack to the same state. -/
theorem uniform_step [Replicable C] (c : C) (d s p : ℕ) (t : Tree C d) (h : UniformPack c d s p t) (dt : ℚ) (n : ℕ)
    (hok : (timeStep c dt n).1 = .ok ()) :
    (timeStep t dt n).1 = .ok () ∧ UniformPack (timeStep c dt n).2 d s p (timeStep t dt n).2 := by
  have hdt : 0 ≤ dt := by
    by_contra hneg
    rw [Replicable.negative c dt n (not_le.mp hneg)] at hok
    cases hok
  rcases hc : timeStep c dt n with ⟨o, c'⟩
  rw [hc] at hok
  dsimp only at hok
  subst hok
  dsimp only
  induction d generalizing s p with
  | zero =>
    obtain ⟨rfl, rfl, rfl⟩ := h
    refine ⟨congrArg Prod.fst hc, congrArg Prod.snd hc, rfl, rfl⟩
  | succ d ih =>
    cases t with
    | cell x =>
      obtain ⟨rfl, rfl, rfl⟩ := h
      exact ⟨congrArg Prod.fst hc, congrArg Prod.snd hc, rfl, rfl⟩
    | series m =>
      obtain ⟨N, s', t, h1, h2, rfl, h4, h5⟩ := h
      obtain ⟨k1, k2⟩ := ih s' p t h5
      have k : timeStep t dt n = (.ok (), (timeStep t dt n).2) := by rw [← k1]
      have e := repS_step m hdt h4 k
      refine ⟨congrArg Prod.fst e, ?_⟩
      show UniformPack c' (d + 1) (N * s') p (Node.series (ModuleS.timeStep m dt n).2)
      rw [e]
      exact ⟨N, s', _, h1, h2, rfl, rfl, k2⟩
    | parallel m =>
      obtain ⟨N, p', t, h1, h2, rfl, h4, h5⟩ := h
      obtain ⟨k1, k2⟩ := ih s p' t h5
      have k : timeStep t dt n = (.ok (), (timeStep t dt n).2) := by rw [← k1]
      have e := repP_step m hdt h2 h4 k
      refine ⟨congrArg Prod.fst e, ?_⟩
      show UniformPack c' (d + 1) s (N * p') (Node.parallel (ModuleP.timeStep m dt n).2)
      rw [e]
      exact ⟨N, p', _, h1, h2, rfl, rfl, k2⟩

/-- C139: over any history in which the time steps of the cell succeed, the pack - asked for `p` times the current - gives
the same answers as the cell, and in the end consists of copies of the cell. -/
theorem uniform_history [Replicable C] (ops : List UseOp) (c : C) (d s p : ℕ) (t : Tree C d) (h : UniformPack c d s p t)
    (hok : ∀ o ∈ (useAll 1 ops c).1, ∃ b, o = .ok b) :
    (useAll (p : ℚ) ops t).1 = (useAll 1 ops c).1 ∧ UniformPack (useAll 1 ops c).2 d s p (useAll (p : ℚ) ops t).2 := by
  induction ops generalizing c t with
  | nil => exact ⟨rfl, h⟩
  | cons o os ih =>
    have h1 : ∃ b, (o.perform 1 c).1 = .ok b := hok _ (by simp [useAll])
    have h2 : ∀ q ∈ (useAll 1 os (o.perform 1 c).2).1, ∃ b, q = .ok b := fun q hq => hok q (by simp [useAll, hq])
    have key : (o.perform (p : ℚ) t).1 = (o.perform 1 c).1 ∧ UniformPack (o.perform 1 c).2 d s p (o.perform (p : ℚ) t).2 := by
      cases o with
      | ask i =>
        obtain ⟨st, c', st', t', k1, k2, k3, k4, -⟩ := uniform_set c d s p t h i
        unfold UseOp.perform
        dsimp only
        rw [one_mul, k1, k2]
        exact ⟨by dsimp only; rw [k3], k4⟩
      | simulate dt n =>
        have hc : (timeStep c dt n).1 = .ok () := by
          obtain ⟨b, hb⟩ := h1
          unfold UseOp.perform at hb
          dsimp only at hb
          rcases hk : timeStep c dt n with ⟨a | e | w, c'⟩
          · rfl
          · rw [hk] at hb; cases hb
          · rw [hk] at hb; cases hb
        obtain ⟨k1, k2⟩ := uniform_step c d s p t h dt n hc
        unfold UseOp.perform
        dsimp only
        rcases hk : timeStep c dt n with ⟨a, c'⟩
        rcases hk' : timeStep t dt n with ⟨a', t'⟩
        rw [hk] at hc k2
        rw [hk'] at k1 k2
        dsimp only at hc k1
        subst hc k1
        exact ⟨rfl, k2⟩
    obtain ⟨i1, i2⟩ := ih _ _ key.2 h2
    refine ⟨?_, i2⟩
    show (o.perform (p : ℚ) t).1 :: (useAll (p : ℚ) os (o.perform (p : ℚ) t).2).1 = _
    rw [key.1, i1]
    rfl

/-! ### Examples -/

/-- Two blocks in series, each of three cells in parallel. -/
def pack23 (c : ECM 0) : Tree (ECM 0) 2 :=
  Node.series { T := 288, kids := List.replicate 2 ⟨0, Node.parallel { T := 288, kids := List.replicate 3 ⟨0, c⟩ }⟩ }

example : UniformPack (bucket half 0) 2 2 3 (pack23 (bucket half 0)) :=
  ⟨2, 1, _, by decide, by decide, rfl, rfl, 3, 1, _, by decide, by decide, rfl, rfl, rfl, rfl, rfl⟩

/-- A history with an accepted current, a refused one (to 1.15 V) and time steps. -/
def history23 : List UseOp := [.ask 5, .simulate 10 6, .ask 1000, .simulate 10 1]

example : (∀ o ∈ (useAll 1 history23 (bucket half 0)).1, ∃ b, o = .ok b) ∧
    (useAll 3 history23 (pack23 (bucket half 0))).1 = [.ok true, .ok true, .ok false, .ok true] ∧
    V (useAll 3 history23 (pack23 (bucket half 0))).2 = 2 * V (useAll 1 history23 (bucket half 0)).2 ∧
    StorageUnit.I (useAll 3 history23 (pack23 (bucket half 0))).2 = 15 := by
  refine ⟨?_, ?_, ?_, ?_⟩
  · have h : (useAll 1 history23 (bucket half 0)).1 = [.ok true, .ok true, .ok false, .ok true] := by decide +kernel
    rw [h]
    intro o ho
    simp at ho
    rcases ho with rfl | rfl | rfl <;> exact ⟨_, rfl⟩
  · decide +kernel
  · decide +kernel
  · decide +kernel

end Slide

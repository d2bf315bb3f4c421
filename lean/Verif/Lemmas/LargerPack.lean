import Verif.Spec.LargerPack
import Verif.Lemmas.SizeMap

/-!
# Helper lemmas for C151: modules of larger units
-/

namespace Slide
open StorageUnit Spec

section
variable {U W : Type} [StorageUnit U] [StorageUnit W] {k : ℚ} {φ : U → W}

theorem largerKids_nil : largerKids k φ [] = [] := rfl

theorem largerKids_cons (c : Kid U) (cs : List (Kid U)) :
    largerKids k φ (c :: cs) = ⟨c.rc / k, φ c.su⟩ :: largerKids k φ cs := rfl

theorem largerKids_length (cs : List (Kid U)) : (largerKids k φ cs).length = cs.length := List.length_map _

theorem larger_tsum {f : U → ℚ} {g : W → ℚ} {a : ℚ} (h : ∀ u, g (φ u) = a * f u) (cs : List (Kid U)) :
    tsum g (largerKids k φ cs) = a * tsum f cs := by
  induction cs with
  | nil => show (0 : ℚ) = a * 0; ring
  | cons c cs ih =>
    show g (φ c.su) + tsum g (largerKids k φ cs) = a * (f c.su + tsum f cs)
    rw [ih, h]; ring

theorem larger_tsum_eq {f : U → ℚ} {g : W → ℚ} (h : ∀ u, g (φ u) = f u) (cs : List (Kid U)) :
    tsum g (largerKids k φ cs) = tsum f cs := by
  have := larger_tsum (k := k) (a := 1) (fun u => (h u).trans (one_mul _).symm) cs
  rwa [one_mul] at this

theorem larger_tsumOpt {f : U → Option ℚ} {g : W → Option ℚ} (h : ∀ u, g (φ u) = f u) (cs : List (Kid U)) :
    tsumOpt g (largerKids k φ cs) = tsumOpt f cs := by
  induction cs with
  | nil => rfl
  | cons c cs ih => rw [largerKids_cons, tsumOpt, tsumOpt, ih, h]

theorem larger_fold {β : Type} (f : β → U → β) (g : β → W → β) (h : ∀ b u, g b (φ u) = f b u) (cs : List (Kid U)) :
    ∀ b, (largerKids k φ cs).foldl (fun m j => g m j.su) b = cs.foldl (fun m j => f m j.su) b := by
  induction cs with
  | nil => intro b; rfl
  | cons c cs ih =>
    intro b
    rw [largerKids_cons, List.foldl_cons, List.foldl_cons]
    dsimp only
    rw [h, ih]

theorem larger_tmax {f : U → ℚ} {g : W → ℚ} (h : ∀ u, g (φ u) = f u) (cs : List (Kid U)) :
    tmax g (largerKids k φ cs) = tmax f cs := by
  cases cs with
  | nil => rfl
  | cons c cs =>
    rw [largerKids_cons, tmax, tmax, larger_fold (fun b u => max b (f u)) (fun b u => max b (g u)) (fun b u => by rw [h])]
    dsimp only
    rw [h]

theorem larger_tmin {f : U → ℚ} {g : W → ℚ} (h : ∀ u, g (φ u) = f u) (cs : List (Kid U)) :
    tmin g (largerKids k φ cs) = tmin f cs := by
  cases cs with
  | nil => rfl
  | cons c cs =>
    rw [largerKids_cons, tmin, tmin, larger_fold (fun b u => min b (f u)) (fun b u => min b (g u)) (fun b u => by rw [h])]
    dsimp only
    rw [h]

theorem larger_tmin_mul (hk : 0 < k) {f : U → ℚ} {g : W → ℚ} (h : ∀ u, g (φ u) = k * f u) (cs : List (Kid U)) :
    tmin g (largerKids k φ cs) = k * tmin f cs := by
  cases cs with
  | nil => show (0 : ℚ) = k * 0; ring
  | cons c cs =>
    have key : ∀ (cs : List (Kid U)) (b : ℚ),
        (largerKids k φ cs).foldl (fun m j => min m (g j.su)) (k * b) = k * cs.foldl (fun m j => min m (f j.su)) b := by
      intro cs
      induction cs with
      | nil => intro b; rfl
      | cons c cs ih =>
        intro b
        rw [largerKids_cons, List.foldl_cons, List.foldl_cons]
        dsimp only
        rw [h, ← mul_min_of_nonneg _ _ hk.le, ih]
    rw [largerKids_cons, tmin, tmin]
    dsimp only
    rw [h, key]

theorem larger_stepKids (hs : SizeMap k φ) (dt : ℚ) (n : ℕ) (cs : List (Kid U)) :
    stepKids dt n (largerKids k φ cs) = ((stepKids dt n cs).1, largerKids k φ (stepKids dt n cs).2) := by
  induction cs with
  | nil => rfl
  | cons c cs ih =>
    rw [largerKids_cons, stepKids, stepKids]
    dsimp only
    rw [hs.step, ih]
    rcases StorageUnit.timeStep c.su dt n with ⟨st | e | w, u⟩ <;> rfl

/-! ### Series -/

theorem largerSeries_I (hs : SizeMap k φ) (m : ModuleS U) : (largerSeries k φ m).I = k * m.I := by
  obtain ⟨T, cs⟩ := m
  cases cs with
  | nil => show (0 : ℚ) = k * 0; ring
  | cons c cs => exact hs.I c.su

theorem larger_vLoop (hs : SizeMap k φ) (h0 : k ≠ 0) (cs : List (Kid U)) :
    ∀ a, ModuleS.vLoop a (largerKids k φ cs) = ModuleS.vLoop a cs := by
  induction cs with
  | nil => intro a; rfl
  | cons c cs ih =>
    intro a
    rw [largerKids_cons, ModuleS.vLoop, ModuleS.vLoop]
    dsimp only
    rw [hs.V, hs.I, ih, show c.rc / k * (k * StorageUnit.I c.su) = c.rc * StorageUnit.I c.su by field_simp]

theorem largerSeries_lim (hs : SizeMap k φ) (m : ModuleS U) : (largerSeries k φ m).lim = m.lim := by
  unfold ModuleS.lim
  have h := hs.lim
  rw [show (largerSeries k φ m).kids = largerKids k φ m.kids from rfl,
    larger_tsum_eq (fun u => by rw [h]), larger_tsum_eq (fun u => by rw [h]),
    larger_tsum_eq (fun u => by rw [h]), larger_tsum_eq (fun u => by rw [h])]

theorem largerSeries_Rtot (hs : SizeMap k φ) (m : ModuleS U) : (largerSeries k φ m).Rtot = m.Rtot / k := by
  unfold ModuleS.Rtot
  have key : ∀ (cs : List (Kid U)) (r : ℚ),
      (largerKids k φ cs).foldl (fun r c => r + (StorageUnit.Rtot c.su + c.rc)) (r / k) =
        cs.foldl (fun r c => r + (StorageUnit.Rtot c.su + c.rc)) r / k := by
    intro cs
    induction cs with
    | nil => intro r; rfl
    | cons c cs ih =>
      intro r
      rw [largerKids_cons, List.foldl_cons, List.foldl_cons]
      dsimp only
      rw [hs.Rtot, show r / k + (StorageUnit.Rtot c.su / k + c.rc / k) = (r + (StorageUnit.Rtot c.su + c.rc)) / k by ring, ih]
  have := key m.kids 0
  rwa [zero_div] at this

/-- The children already treated, with their old currents. -/
def largerDone (k : ℚ) (φ : U → W) (ps : List (ℚ × Kid U)) : List (ℚ × Kid W) :=
  ps.map fun p => (k * p.1, ⟨p.2.rc / k, φ p.2.su⟩)

theorem largerDone_snd (ps : List (ℚ × Kid U)) : (largerDone k φ ps).map Prod.snd = largerKids k φ (ps.map Prod.snd) := by
  unfold largerDone largerKids
  rw [List.map_map, List.map_map]; rfl

theorem larger_restoreS (hs : SizeMap k φ) (ps : List (ℚ × Kid U)) :
    ModuleS.restore (largerDone k φ ps) = largerKids k φ (ModuleS.restore ps) := by
  cases ps with
  | nil => rfl
  | cons p ps =>
    show _ :: List.map _ (largerDone k φ ps) = _ :: largerKids k φ (List.map _ ps)
    congr 1
    unfold largerDone largerKids
    rw [List.map_map, List.map_map]
    refine List.map_congr_left fun q _ => ?_
    dsimp only [Function.comp]
    rw [hs.set]

theorem larger_setLoop (hs : SizeMap k φ) (Inew : ℚ) (check : Bool) (cs : List (Kid U)) :
    ∀ ps : List (ℚ × Kid U), ModuleS.setLoop (k * Inew) check (largerDone k φ ps) (largerKids k φ cs) =
      ((ModuleS.setLoop Inew check ps cs).1, largerKids k φ (ModuleS.setLoop Inew check ps cs).2) := by
  induction cs with
  | nil =>
    intro ps
    show (_, (largerDone k φ ps).map Prod.snd) = _
    rw [largerDone_snd]; rfl
  | cons c cs ih =>
    intro ps
    have hap : ∀ a b : List (Kid U), largerKids k φ (a ++ b) = largerKids k φ a ++ largerKids k φ b :=
      fun a b => List.map_append
    rw [largerKids_cons, ModuleS.setLoop, ModuleS.setLoop]
    have hl : (largerDone k φ ps).length = ps.length := List.length_map _
    by_cases h : NSUs_MAX ≤ ps.length
    · rw [if_pos h, if_pos (hl ▸ h), largerDone_snd, hap]; rfl
    · rw [if_neg h, if_neg (hl ▸ h)]
      dsimp only
      rw [hs.set, hs.I]
      rcases hc : StorageUnit.setCurrent c.su Inew check with ⟨st | e | w, u⟩
      · dsimp only
        have hd : largerDone k φ ps ++ [(k * StorageUnit.I c.su, (⟨c.rc / k, φ u⟩ : Kid W))] =
            largerDone k φ (ps ++ [(StorageUnit.I c.su, { c with su := u })]) := by
          unfold largerDone; rw [List.map_append]; rfl
        rw [hd]
        by_cases hb : st.isBad = true
        · rw [if_pos hb, if_pos hb, larger_restoreS hs, hap]
        · rw [if_neg hb, if_neg hb, ih]
      · dsimp only
        rw [largerDone_snd, hap]; rfl
      · dsimp only
        rw [largerDone_snd, hap]; rfl

/-- A series module of larger units is a larger unit. -/
theorem larger_series (hk : 0 < k) (hs : SizeMap k φ) : SizeMap k (largerSeries k φ) where
  V m := larger_vLoop hs hk.ne' m.kids 0
  I := largerSeries_I hs
  Cap m := larger_tmin_mul hk hs.Cap m.kids
  lim := largerSeries_lim hs
  OCV m := larger_tsumOpt hs.OCV m.kids
  Rtot := largerSeries_Rtot hs
  Vlow m := by
    show modVlow (largerSeries k φ m).lim.Vmax (largerKids k φ m.kids) = modVlow m.lim.Vmax m.kids
    rw [largerSeries_lim hs]
    exact larger_fold (fun b u => min b (StorageUnit.Vlow u)) (fun b u => min b (StorageUnit.Vlow u)) (fun b u => by rw [hs.Vlow]) m.kids _
  Vhigh m := by
    show modVhigh (largerSeries k φ m).lim.Vmin (largerKids k φ m.kids) = modVhigh m.lim.Vmin m.kids
    rw [largerSeries_lim hs]
    exact larger_fold (fun b u => max b (StorageUnit.Vhigh u)) (fun b u => max b (StorageUnit.Vhigh u)) (fun b u => by rw [hs.Vhigh]) m.kids _
  check m := larger_fold (fun b u => Status.worst b (StorageUnit.checkVoltage u))
    (fun b u => Status.worst b (StorageUnit.checkVoltage u)) (fun b u => by rw [hs.check]) m.kids _
  set m i b := by
    show (largerSeries k φ m).setCurrent (k * i) b = ((m.setCurrent i b).1, largerSeries k φ (m.setCurrent i b).2)
    have := larger_setLoop hs i b m.kids []
    unfold ModuleS.setCurrent
    dsimp only
    rw [show ModuleS.setLoop (k * i) b [] (largerSeries k φ m).kids =
      ModuleS.setLoop (k * i) b (largerDone k φ []) (largerKids k φ m.kids) from rfl, this]
    rfl
  step m dt n := by
    show (largerSeries k φ m).timeStep dt n = ((m.timeStep dt n).1, largerSeries k φ (m.timeStep dt n).2)
    unfold ModuleS.timeStep
    by_cases h : dt < 0
    · rw [if_pos h, if_pos h]
    · rw [if_neg h, if_neg h, show (largerSeries k φ m).kids = largerKids k φ m.kids from rfl, larger_stepKids hs]
      rfl

/-! ### Parallel -/

theorem largerParallel_I (hs : SizeMap k φ) (m : ModuleP U) : (largerParallel k φ m).I = k * m.I := larger_tsum hs.I m.kids

theorem largerParallel_lim (hs : SizeMap k φ) (m : ModuleP U) : (largerParallel k φ m).lim = m.lim := by
  unfold ModuleP.lim
  have h := hs.lim
  rw [show (largerParallel k φ m).kids = largerKids k φ m.kids from rfl,
    larger_tmax (fun u => by rw [h]), larger_tmin (fun u => by rw [h]),
    larger_tmax (fun u => by rw [h]), larger_tmin (fun u => by rw [h])]

theorem largerParallel_V (hs : SizeMap k φ) (h0 : k ≠ 0) (m : ModuleP U) : (largerParallel k φ m).V = m.V := by
  unfold ModuleP.V
  rw [largerParallel_I hs]
  obtain ⟨T, cs⟩ := m
  cases cs with
  | nil => rfl
  | cons c cs =>
    show StorageUnit.V (φ c.su) - k * _ * (c.rc / k) = _
    rw [hs.V]
    show StorageUnit.V c.su - k * (ModuleP.I ⟨T, c :: cs⟩) * (c.rc / k) = StorageUnit.V c.su - ModuleP.I ⟨T, c :: cs⟩ * c.rc
    field_simp

theorem larger_rtotLoop (hs : SizeMap k φ) (h0 : k ≠ 0) (cs : List (Kid U)) :
    ModuleP.rtotLoop (largerKids k φ cs) = ModuleP.rtotLoop cs / k := by
  induction cs with
  | nil => show (0 : ℚ) = 0 / k; rw [zero_div]
  | cons c cs ih =>
    cases cs with
    | nil =>
      show c.rc / k + StorageUnit.Rtot (φ c.su) = (c.rc + StorageUnit.Rtot c.su) / k
      rw [hs.Rtot]; ring
    | cons d ds =>
      rw [largerKids_cons, largerKids_cons, ModuleP.rtotLoop, ← largerKids_cons, ih, ModuleP.rtotLoop]
      dsimp only
      rw [hs.Rtot]
      generalize ModuleP.rtotLoop (d :: ds) = r
      generalize StorageUnit.Rtot c.su = a
      rw [show a / k + r / k = (a + r) / k by ring]
      by_cases h : a + r = 0
      · rw [h]; simp
      · field_simp

theorem larger_vallLoop (hs : SizeMap k φ) (h0 : k ≠ 0) (cs : List (Kid U)) :
    ModuleP.vallLoop (largerKids k φ cs) = ((ModuleP.vallLoop cs).1, k * (ModuleP.vallLoop cs).2) := by
  induction cs with
  | nil => show (([], 0) : List ℚ × ℚ) = ([], k * 0); rw [mul_zero]
  | cons c cs ih =>
    rw [largerKids_cons, ModuleP.vallLoop, ModuleP.vallLoop, ih]
    dsimp only
    rw [hs.V, hs.I, ← mul_add]
    have e : ∀ x : ℚ, k * x * (c.rc / k) = x * c.rc := fun x => by field_simp
    simp only [e]

/-- Branches of the larger module. -/
def largerBranches (k : ℚ) (φ : U → W) (bs : List (ModuleP.Branch U)) : List (ModuleP.Branch W) :=
  bs.map fun b => { kid := ⟨b.kid.rc / k, φ b.kid.su⟩, ia := k * b.ia }

theorem largerBranches_kids (bs : List (ModuleP.Branch U)) :
    ModuleP.kidsOf (largerBranches k φ bs) = largerKids k φ (ModuleP.kidsOf bs) := by
  unfold ModuleP.kidsOf largerBranches largerKids
  rw [List.map_map, List.map_map]; rfl

theorem largerBranches_cons (b : ModuleP.Branch U) (bs : List (ModuleP.Branch U)) : largerBranches k φ (b :: bs) =
    { kid := ⟨b.kid.rc / k, φ b.kid.su⟩, ia := k * b.ia } :: largerBranches k φ bs := rfl

theorem larger_initLoop (hs : SizeMap k φ) (dI : ℚ) (bs : List (ModuleP.Branch U)) :
    ∀ last, ModuleP.initLoop (k * dI) last (largerBranches k φ bs) =
      ((ModuleP.initLoop dI last bs).1, largerBranches k φ (ModuleP.initLoop dI last bs).2) := by
  induction bs with
  | nil => intro last; rfl
  | cons b bs ih =>
    intro last
    rw [largerBranches_cons, ModuleP.initLoop, ModuleP.initLoop]
    dsimp only
    rw [← mul_add, hs.set]
    rcases StorageUnit.setCurrent b.kid.su (b.ia + dI) true with ⟨st | e | w, u⟩
    · dsimp only
      by_cases h : (!st.isOK) = true
      · rw [if_pos h, if_pos h]; rfl
      · rw [if_neg h, if_neg h, ih]; rfl
    · rfl
    · rfl

theorem larger_sweep (hs : SizeMap k φ) (vm : ℚ) (bs : List (ModuleP.Branch U)) :
    ∀ vs, ModuleP.sweep vm (largerBranches k φ bs) vs =
      ((ModuleP.sweep vm bs vs).1, largerBranches k φ (ModuleP.sweep vm bs vs).2) := by
  induction bs with
  | nil => intro vs; rfl
  | cons b bs ih =>
    intro vs
    cases vs with
    | nil => rfl
    | cons v vs =>
      rw [largerBranches_cons, ModuleP.sweep, ModuleP.sweep]
      dsimp only
      rw [hs.Cap, show k * b.ia - (vm - v) * (k * StorageUnit.Cap b.kid.su) =
        k * (b.ia - (vm - v) * StorageUnit.Cap b.kid.su) by ring, hs.set]
      rcases StorageUnit.setCurrent b.kid.su (b.ia - (vm - v) * StorageUnit.Cap b.kid.su) true with ⟨st | e | w, u⟩
      · dsimp only
        rw [ih]; rfl
      · rfl
      · rfl

theorem larger_eqLoop (hs : SizeMap k φ) (h0 : k ≠ 0) (tol : ℚ) (fuel : ℕ) : ∀ bs : List (ModuleP.Branch U),
    ModuleP.eqLoop tol fuel (largerBranches k φ bs) =
      ((ModuleP.eqLoop tol fuel bs).1, largerBranches k φ (ModuleP.eqLoop tol fuel bs).2) := by
  induction fuel with
  | zero => intro bs; rfl
  | succ fuel ih =>
    intro bs
    rw [ModuleP.eqLoop, ModuleP.eqLoop]
    rw [largerBranches_kids, larger_vallLoop hs h0]
    dsimp only
    by_cases h : ModuleP.spread (ModuleP.vallLoop (ModuleP.kidsOf bs)).1 < tol
    · rw [if_pos h, if_pos h]
    · rw [if_neg h, if_neg h, larger_sweep hs]
      rcases ModuleP.sweep (ModuleP.mean (ModuleP.vallLoop (ModuleP.kidsOf bs)).1) bs
        (ModuleP.vallLoop (ModuleP.kidsOf bs)).1 with ⟨st | e | w, bs'⟩
      · dsimp only
        rw [ih]
      · rfl
      · rfl

theorem larger_start (hs : SizeMap k φ) (cs : List (Kid U)) :
    (largerKids k φ cs).map (fun c => ({ kid := c, ia := StorageUnit.I c.su } : ModuleP.Branch W)) =
      largerBranches k φ (cs.map fun c => ({ kid := c, ia := StorageUnit.I c.su } : ModuleP.Branch U)) := by
  unfold largerKids largerBranches
  rw [List.map_map, List.map_map]
  refine List.map_congr_left fun c _ => ?_
  dsimp only [Function.comp]
  rw [hs.I]

theorem largerParallel_set (hs : SizeMap k φ) (h0 : k ≠ 0) (m : ModuleP U) (i : ℚ) (b : Bool) :
    (largerParallel k φ m).setCurrent (k * i) b = ((m.setCurrent i b).1, largerParallel k φ (m.setCurrent i b).2) := by
  unfold ModuleP.setCurrent
  rw [show (largerParallel k φ m).kids = largerKids k φ m.kids from rfl]
  have e1 : largerKids k φ m.kids = [] ↔ m.kids = [] := List.map_eq_nil_iff
  have e2 : (largerKids k φ m.kids).length = m.kids.length := largerKids_length _
  by_cases h1 : m.kids = []
  · rw [if_pos h1, if_pos (e1.mpr h1)]
  · rw [if_neg h1, if_neg (fun h => h1 (e1.mp h)), e2]
    by_cases h2 : NSUs_MAX < m.kids.length
    · rw [if_pos h2, if_pos h2]
    · rw [if_neg h2, if_neg h2]
      dsimp only
      rw [larger_start hs, larger_tsum hs.I,
        show (k * i - k * tsum StorageUnit.I m.kids) / (m.kids.length : ℚ) =
          k * ((i - tsum StorageUnit.I m.kids) / m.kids.length) by ring, larger_initLoop hs]
      rcases ModuleP.initLoop ((i - tsum StorageUnit.I m.kids) / m.kids.length) .Success
        (m.kids.map fun c => ({ kid := c, ia := StorageUnit.I c.su } : ModuleP.Branch U)) with ⟨⟨st, _ | _⟩ | e | w, bs'⟩
      · dsimp only
        rw [larger_eqLoop hs h0]
        rcases ModuleP.eqLoop (1/1000000000) 10550 bs' with ⟨cv | e | w, bs''⟩ <;> dsimp only <;>
          rw [largerBranches_kids] <;> rfl
      · dsimp only
        rw [largerBranches_kids]; rfl
      · dsimp only
        rw [largerBranches_kids]; rfl
      · dsimp only
        rw [largerBranches_kids]; rfl

theorem largerParallel_redistribute (hs : SizeMap k φ) (h0 : k ≠ 0) (m : ModuleP U) :
    (largerParallel k φ m).redistribute = (m.redistribute.1, largerParallel k φ m.redistribute.2) := by
  unfold ModuleP.redistribute
  rw [show (largerParallel k φ m).kids = largerKids k φ m.kids from rfl, largerKids_length]
  by_cases h1 : m.kids.length ≤ 1
  · rw [if_pos h1, if_pos h1]
  · rw [if_neg h1, if_neg h1]
    by_cases h2 : NSUs_MAX < m.kids.length
    · rw [if_pos h2, if_pos h2]
    · rw [if_neg h2, if_neg h2]
      dsimp only
      rw [larger_start hs, larger_eqLoop hs h0]
      rcases ModuleP.eqLoop (1/10000000000) 2500
        (m.kids.map fun c => ({ kid := c, ia := StorageUnit.I c.su } : ModuleP.Branch U)) with ⟨cv | e | w, bs''⟩ <;>
        dsimp only <;> rw [largerBranches_kids] <;> rfl

theorem largerParallel_step (hs : SizeMap k φ) (h0 : k ≠ 0) (m : ModuleP U) (dt : ℚ) (n : ℕ) :
    (largerParallel k φ m).timeStep dt n = ((m.timeStep dt n).1, largerParallel k φ (m.timeStep dt n).2) := by
  unfold ModuleP.timeStep
  by_cases h : dt < 0
  · rw [if_pos h, if_pos h]
  · rw [if_neg h, if_neg h, show (largerParallel k φ m).kids = largerKids k φ m.kids from rfl, larger_stepKids hs]
    rcases stepKids dt n m.kids with ⟨st | e | w, cs⟩
    · dsimp only
      have e1 : ({ largerParallel k φ m with kids := largerKids k φ cs } : ModuleP W) =
        largerParallel k φ { m with kids := cs } := rfl
      rw [e1, largerParallel_redistribute hs h0]
      rcases ModuleP.redistribute ({ m with kids := cs } : ModuleP U) with ⟨st | e | w, m'⟩
      · dsimp only
        by_cases h2 : st ≠ .Success
        · rw [if_pos h2, if_pos h2, largerParallel_redistribute hs h0]
          rcases m'.redistribute with ⟨st | e | w, m''⟩ <;> rfl
        · rw [if_neg h2, if_neg h2]
      · rfl
      · rfl
    · rfl
    · rfl

/-- A parallel module of larger units is a larger unit. -/
theorem larger_parallel (hk : 0 < k) (hs : SizeMap k φ) : SizeMap k (largerParallel k φ) where
  V := largerParallel_V hs hk.ne'
  I := largerParallel_I hs
  Cap m := larger_tsum hs.Cap m.kids
  lim := largerParallel_lim hs
  OCV m := by
    show (largerParallel k φ m).OCV = m.OCV
    unfold ModuleP.OCV
    rw [show (largerParallel k φ m).kids = largerKids k φ m.kids from rfl, larger_tsumOpt hs.OCV, largerKids_length]
    have e1 : largerKids k φ m.kids = [] ↔ m.kids = [] := List.map_eq_nil_iff
    by_cases h1 : m.kids = []
    · rw [if_pos h1, if_pos (e1.mpr h1)]
    · rw [if_neg h1, if_neg (fun h => h1 (e1.mp h))]
  Rtot m := larger_rtotLoop hs hk.ne' m.kids
  Vlow m := by
    show modVlow (largerParallel k φ m).lim.Vmax (largerKids k φ m.kids) = modVlow m.lim.Vmax m.kids
    rw [largerParallel_lim hs]
    exact larger_fold (fun b u => min b (StorageUnit.Vlow u)) (fun b u => min b (StorageUnit.Vlow u)) (fun b u => by rw [hs.Vlow]) m.kids _
  Vhigh m := by
    show modVhigh (largerParallel k φ m).lim.Vmin (largerKids k φ m.kids) = modVhigh m.lim.Vmin m.kids
    rw [largerParallel_lim hs]
    exact larger_fold (fun b u => max b (StorageUnit.Vhigh u)) (fun b u => max b (StorageUnit.Vhigh u)) (fun b u => by rw [hs.Vhigh]) m.kids _
  check m := larger_fold (fun b u => Status.worst b (StorageUnit.checkVoltage u))
    (fun b u => Status.worst b (StorageUnit.checkVoltage u)) (fun b u => by rw [hs.check]) m.kids _
  set := largerParallel_set hs hk.ne'
  step := largerParallel_step hs hk.ne'

end

/-! ### Packs -/

theorem larger_node {C D U W : Type} [StorageUnit C] [StorageUnit D] [StorageUnit U] [StorageUnit W] {k : ℚ} (hk : 0 < k)
    {ψ : C → D} (hψ : SizeMap k ψ) {φ : U → W} (hφ : SizeMap k φ) {χ : Node C U → Node D W}
    (h1 : ∀ c, χ (.cell c) = .cell (ψ c)) (h2 : ∀ m, χ (.series m) = .series (largerSeries k φ m))
    (h3 : ∀ m, χ (.parallel m) = .parallel (largerParallel k φ m)) : SizeMap k χ := by
  have hS := larger_series hk hφ
  have hP := larger_parallel hk hφ
  constructor
  · rintro (c | m | m)
    · rw [h1]; exact hψ.V c
    · rw [h2]; exact hS.V m
    · rw [h3]; exact hP.V m
  · rintro (c | m | m)
    · rw [h1]; exact hψ.I c
    · rw [h2]; exact hS.I m
    · rw [h3]; exact hP.I m
  · rintro (c | m | m)
    · rw [h1]; exact hψ.Cap c
    · rw [h2]; exact hS.Cap m
    · rw [h3]; exact hP.Cap m
  · rintro (c | m | m)
    · rw [h1]; exact hψ.lim c
    · rw [h2]; exact hS.lim m
    · rw [h3]; exact hP.lim m
  · rintro (c | m | m)
    · rw [h1]; exact hψ.OCV c
    · rw [h2]; exact hS.OCV m
    · rw [h3]; exact hP.OCV m
  · rintro (c | m | m)
    · rw [h1]; exact hψ.Rtot c
    · rw [h2]; exact hS.Rtot m
    · rw [h3]; exact hP.Rtot m
  · rintro (c | m | m)
    · rw [h1]; exact hψ.Vlow c
    · rw [h2]; exact hS.Vlow m
    · rw [h3]; exact hP.Vlow m
  · rintro (c | m | m)
    · rw [h1]; exact hψ.Vhigh c
    · rw [h2]; exact hS.Vhigh m
    · rw [h3]; exact hP.Vhigh m
  · rintro (c | m | m)
    · rw [h1]; exact hψ.check c
    · rw [h2]; exact hS.check m
    · rw [h3]; exact hP.check m
  · rintro (c | m | m) i b
    · rw [h1]
      show ((StorageUnit.setCurrent (ψ c) (k * i) b).1, Node.cell (StorageUnit.setCurrent (ψ c) (k * i) b).2) = _
      rw [hψ.set]; exact Prod.ext rfl (h1 _).symm
    · rw [h2]
      show ((StorageUnit.setCurrent (largerSeries k φ m) (k * i) b).1,
        Node.series (StorageUnit.setCurrent (largerSeries k φ m) (k * i) b).2) = _
      rw [hS.set]; exact Prod.ext rfl (h2 _).symm
    · rw [h3]
      show ((StorageUnit.setCurrent (largerParallel k φ m) (k * i) b).1,
        Node.parallel (StorageUnit.setCurrent (largerParallel k φ m) (k * i) b).2) = _
      rw [hP.set]; exact Prod.ext rfl (h3 _).symm
  · rintro (c | m | m) dt n
    · rw [h1]
      show ((StorageUnit.timeStep (ψ c) dt n).1, Node.cell (StorageUnit.timeStep (ψ c) dt n).2) = _
      rw [hψ.step]; exact Prod.ext rfl (h1 _).symm
    · rw [h2]
      show ((StorageUnit.timeStep (largerSeries k φ m) dt n).1,
        Node.series (StorageUnit.timeStep (largerSeries k φ m) dt n).2) = _
      rw [hS.step]; exact Prod.ext rfl (h2 _).symm
    · rw [h3]
      show ((StorageUnit.timeStep (largerParallel k φ m) dt n).1,
        Node.parallel (StorageUnit.timeStep (largerParallel k φ m) dt n).2) = _
      rw [hP.step]; exact Prod.ext rfl (h3 _).symm

/-- A pack of larger cells is a larger unit. -/
theorem larger_pack {C D : Type} [StorageUnit C] [StorageUnit D] {k : ℚ} (hk : 0 < k) {φ : C → D} (hs : SizeMap k φ) :
    ∀ d, SizeMap k (largerPack k φ d)
  | 0 => hs
  | d + 1 => larger_node hk hs (larger_pack hk hs d) (fun _ => rfl) (fun _ => rfl) (fun _ => rfl)

end Slide

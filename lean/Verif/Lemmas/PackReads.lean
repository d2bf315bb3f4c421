import Verif.Lemmas.Pack

namespace Slide
open StorageUnit Spec Obj
namespace Pack

variable {G C U : Type}

section levels
variable [StorageUnit U] {v clo chi rlo rhi rc : ℚ} {n k : ℕ} {L : VLimits}

omit [StorageUnit U] in
theorem tsum_const (f : U → ℚ) (x : ℚ) (ks : List (Kid U)) (h : ∀ k ∈ ks, f k.su = x) : tsum f ks = ks.length * x := by
  unfold tsum
  rw [List.map_congr_left h, List.map_const', List.sum_replicate, nsmul_eq_mul]

omit [StorageUnit U] in
theorem tsum_bounds (f : U → ℚ) (a b : ℚ) (ks : List (Kid U)) (h : ∀ k ∈ ks, a ≤ f k.su ∧ f k.su ≤ b) :
    ks.length * a ≤ tsum f ks ∧ tsum f ks ≤ ks.length * b := by
  unfold tsum
  induction ks with
  | nil => simp
  | cons k ks ih =>
    have h1 := h k List.mem_cons_self
    have h2 := ih fun x hx => h x (List.mem_cons_of_mem _ hx)
    rw [List.map_cons, List.sum_cons, List.length_cons, Nat.cast_succ]
    constructor <;> linarith [h1.1, h1.2, h2.1, h2.2]

omit [StorageUnit U] in
theorem tsumOpt_const (f : U → Option ℚ) (x : ℚ) (ks : List (Kid U)) (h : ∀ k ∈ ks, f k.su = some x) :
    tsumOpt f ks = some (ks.length * x) := by
  induction ks with
  | nil => simp [tsumOpt]
  | cons k ks ih =>
    rw [tsumOpt, h k List.mem_cons_self, ih fun y hy => h y (List.mem_cons_of_mem _ hy)]
    simp only [List.length_cons, Nat.cast_succ, Option.some.injEq]
    ring

omit [StorageUnit U] in
theorem tmin_bounds (f : U → ℚ) (a b : ℚ) (ks : List (Kid U)) (hne : ks ≠ []) (h : ∀ k ∈ ks, a ≤ f k.su ∧ f k.su ≤ b) :
    a ≤ tmin f ks ∧ tmin f ks ≤ b := by
  cases ks with
  | nil => exact absurd rfl hne
  | cons k ks =>
    have hk := h k List.mem_cons_self
    have hks : ∀ x ∈ ks, a ≤ f x.su ∧ f x.su ≤ b := fun x hx => h x (List.mem_cons_of_mem _ hx)
    clear h hne
    unfold tmin
    dsimp only
    generalize f k.su = y at hk
    induction ks generalizing y with
    | nil => exact hk
    | cons j ks ih =>
      rw [List.foldl_cons]
      have hj := hks j List.mem_cons_self
      exact ih (fun x hx => hks x (List.mem_cons_of_mem _ hx)) (min y (f j.su))
        ⟨le_min hk.1 hj.1, le_trans (min_le_left _ _) hk.2⟩

omit [StorageUnit U] in
theorem tmax_bounds (f : U → ℚ) (a b : ℚ) (ks : List (Kid U)) (hne : ks ≠ []) (h : ∀ k ∈ ks, a ≤ f k.su ∧ f k.su ≤ b) :
    a ≤ tmax f ks ∧ tmax f ks ≤ b := by
  cases ks with
  | nil => exact absurd rfl hne
  | cons k ks =>
    have hk := h k List.mem_cons_self
    have hks : ∀ x ∈ ks, a ≤ f x.su ∧ f x.su ≤ b := fun x hx => h x (List.mem_cons_of_mem _ hx)
    clear h hne
    unfold tmax
    dsimp only
    generalize f k.su = y at hk
    induction ks generalizing y with
    | nil => exact hk
    | cons j ks ih =>
      rw [List.foldl_cons]
      have hj := hks j List.mem_cons_self
      exact ih (fun x hx => hks x (List.mem_cons_of_mem _ hx)) (max y (f j.su))
        ⟨le_trans hk.1 (le_max_left _ _), max_le hk.2 hj.2⟩

theorem checkVoltage_const (ks : List (Kid U)) (h : ∀ k ∈ ks, StorageUnit.checkVoltage k.su = .Success) :
    modCheckVoltage ks = .Success := by
  unfold modCheckVoltage
  induction ks with
  | nil => rfl
  | cons k ks ih =>
    rw [List.foldl_cons, h k List.mem_cons_self]
    exact ih fun x hx => h x (List.mem_cons_of_mem _ hx)

theorem nCells_const (ks : List (Kid U)) (m : ℕ) (h : ∀ k ∈ ks, nCells k.su = m) :
    (ks.map fun k => nCells k.su).sum = ks.length * m := by
  rw [List.map_congr_left h, List.map_const', List.sum_replicate, smul_eq_mul]

theorem vLoop_const (acc x : ℚ) (hx : 0 < x) (ks : List (Kid U)) (h : ∀ k ∈ ks, V k.su = x ∧ I k.su = 0) :
    ModuleS.vLoop acc ks = acc + ks.length * x := by
  induction ks generalizing acc with
  | nil => simp [ModuleS.vLoop]
  | cons k ks ih =>
    have hk := h k List.mem_cons_self
    rw [ModuleS.vLoop, hk.1, hk.2, if_neg (not_le.mpr hx), ih _ fun y hy => h y (List.mem_cons_of_mem _ hy),
      List.length_cons, Nat.cast_succ]
    ring

theorem rtotS_bounds (a b rc acc : ℚ) (ks : List (Kid U)) (h : ∀ k ∈ ks, k.rc = rc ∧ a ≤ Rtot k.su ∧ Rtot k.su ≤ b) :
    acc + ks.length * (a + rc) ≤ ks.foldl (fun r k => r + (Rtot k.su + k.rc)) acc ∧
      ks.foldl (fun r k => r + (Rtot k.su + k.rc)) acc ≤ acc + ks.length * (b + rc) := by
  induction ks generalizing acc with
  | nil => simp
  | cons k ks ih =>
    have hk := h k List.mem_cons_self
    rw [List.foldl_cons, List.length_cons, Nat.cast_succ]
    have := ih (acc + (Rtot k.su + k.rc)) fun y hy => h y (List.mem_cons_of_mem _ hy)
    rw [hk.1] at this ⊢
    constructor <;> nlinarith [this.1, this.2, hk.2.1, hk.2.2]

/-- A string of `n` equal units at rest. -/
theorem reads_series (hn : 0 < n) (hv : 0 < v) (m : ModuleS U)
    (h : StringOf n rc (fun u => Reads u v clo chi rlo rhi k L) m) :
    Reads m (n * v) clo chi (n * (rlo + rc)) (n * (rhi + rc)) (n * k) (timesLimits n L) := by
  obtain ⟨hT, hl, hk⟩ := h
  have hne : m.kids ≠ [] := by intro h; rw [h] at hl; simp at hl; omega
  have hr := rtotS_bounds rlo rhi rc 0 m.kids fun k hk' => ⟨(hk k hk').1, (hk k hk').2.r_lo, (hk k hk').2.r_hi⟩
  have hcp := tmin_bounds Cap clo chi m.kids hne fun k hk' => ⟨(hk k hk').2.cap_lo, (hk k hk').2.cap_hi⟩
  rw [zero_add, zero_add, hl] at hr
  refine ⟨?_, ?_, ?_, hT, hcp.1, hcp.2, hr.1, hr.2, ?_, ?_, checkVoltage_const _ fun k hk' => (hk k hk').2.ok⟩
  · show ModuleS.vLoop 0 m.kids = _
    rw [vLoop_const 0 v hv m.kids fun k hk' => ⟨(hk k hk').2.volt, (hk k hk').2.curr⟩, hl, zero_add]
  · show tsumOpt _ m.kids = _
    rw [tsumOpt_const _ v m.kids fun k hk' => (hk k hk').2.ocv, hl]
  · show ModuleS.I m = 0
    unfold ModuleS.I
    cases hks : m.kids with
    | nil => rfl
    | cons x xs => exact (hk x (by rw [hks]; exact List.mem_cons_self)).2.curr
  · show (m.kids.map _).sum = _
    rw [nCells_const m.kids k fun x hx => (hk x hx).2.cells, hl]
  · show ModuleS.lim m = _
    unfold ModuleS.lim timesLimits
    rw [tsum_const _ L.Vmin m.kids fun x hx => by rw [(hk x hx).2.limits],
      tsum_const _ L.Vmax m.kids fun x hx => by rw [(hk x hx).2.limits],
      tsum_const _ L.VMIN m.kids fun x hx => by rw [(hk x hx).2.limits],
      tsum_const _ L.VMAX m.kids fun x hx => by rw [(hk x hx).2.limits], hl]

theorem par_mono {a b c d : ℚ} (ha : 0 < a) (hb : 0 < b) (hac : a ≤ c) (hbd : b ≤ d) :
    a * b / (a + b) ≤ c * d / (c + d) := by
  have hc : 0 < c := lt_of_lt_of_le ha hac
  have hd : 0 < d := lt_of_lt_of_le hb hbd
  rw [div_le_div_iff₀ (by linarith) (by linarith)]
  have h1 : a * b * c ≤ a * d * c := by gcongr
  have h2 : a * b * d ≤ c * b * d := by gcongr
  nlinarith

theorem ladder_pos {rc r : ℚ} (hc : 0 ≤ rc) (hr : 0 < r) (n : ℕ) : 0 < ladder rc r n := by
  induction n with
  | zero => rw [ladder]; linarith
  | succ n ih => rw [ladder]; positivity

theorem rtotP_bounds (hc : 0 ≤ rc) (hr : 0 < rlo) (j : Kid U) (ks : List (Kid U))
    (h : ∀ k ∈ j :: ks, k.rc = rc ∧ rlo ≤ Rtot k.su ∧ Rtot k.su ≤ rhi) :
    ladder rc rlo ks.length ≤ ModuleP.rtotLoop (j :: ks) ∧ ModuleP.rtotLoop (j :: ks) ≤ ladder rc rhi ks.length := by
  induction ks generalizing j with
  | nil =>
    have hj := h j List.mem_cons_self
    rw [ModuleP.rtotLoop, List.length_nil, ladder, ladder, hj.1]
    constructor <;> linarith [hj.2.1, hj.2.2]
  | cons x xs ih =>
    have hj := h j List.mem_cons_self
    have hx := ih x fun y hy => h y (List.mem_cons_of_mem _ hy)
    rw [ModuleP.rtotLoop, List.length_cons, ladder, ladder, hj.1]
    have hpos := ladder_pos hc hr xs.length
    have h1 := par_mono hr hpos hj.2.1 hx.1
    have h2 := par_mono (lt_of_lt_of_le hr hj.2.1) (lt_of_lt_of_le hpos hx.1) hj.2.2 hx.2
    constructor <;> linarith

/-- A block of `n` equal units at rest. -/
theorem reads_parallel (hn : 0 < n) (hc : 0 ≤ rc) (hr : 0 < rlo) (m : ModuleP U)
    (h : BlockOf n rc (fun u => Reads u v clo chi rlo rhi k L) m) :
    Reads m v (n * clo) (n * chi) (ladder rc rlo (n - 1)) (ladder rc rhi (n - 1)) (n * k) L := by
  obtain ⟨hT, hl, hk⟩ := h
  obtain ⟨j, js, hks⟩ : ∃ j js, m.kids = j :: js := by
    cases hks : m.kids with
    | nil => rw [hks] at hl; simp at hl; omega
    | cons j js => exact ⟨j, js, rfl⟩
  have hne : m.kids ≠ [] := by rw [hks]; simp
  have hj : j ∈ m.kids := by rw [hks]; exact List.mem_cons_self
  have hlen : js.length = n - 1 := by rw [hks, List.length_cons] at hl; omega
  have hr2 := rtotP_bounds hc hr j js fun k hk' => by
    have hk'' : k ∈ m.kids := by rw [hks]; exact hk'
    exact ⟨(hk k hk'').1, (hk k hk'').2.r_lo, (hk k hk'').2.r_hi⟩
  rw [hlen] at hr2
  have hcp := tsum_bounds Cap clo chi m.kids fun k hk' => ⟨(hk k hk').2.cap_lo, (hk k hk').2.cap_hi⟩
  have hI : ModuleP.I m = 0 := by
    unfold ModuleP.I
    rw [tsum_const _ 0 m.kids fun x hx => (hk x hx).2.curr, mul_zero]
  rw [hl] at hcp
  have hlim : ∀ (f : VLimits → ℚ), tmin (fun u : U => f (lim u)) m.kids = f L ∧ tmax (fun u : U => f (lim u)) m.kids = f L := by
    intro f
    have h1 := tmin_bounds (fun u : U => f (lim u)) (f L) (f L) m.kids hne fun x hx => by
      rw [(hk x hx).2.limits]; exact ⟨le_refl _, le_refl _⟩
    have h2 := tmax_bounds (fun u : U => f (lim u)) (f L) (f L) m.kids hne fun x hx => by
      rw [(hk x hx).2.limits]; exact ⟨le_refl _, le_refl _⟩
    exact ⟨le_antisymm h1.2 h1.1, le_antisymm h2.2 h2.1⟩
  refine ⟨?_, ?_, hI, hT, hcp.1, hcp.2, ?_, ?_, ?_, ?_, checkVoltage_const _ fun k hk' => (hk k hk').2.ok⟩
  · show ModuleP.V m = v
    unfold ModuleP.V
    rw [hI, hks]
    dsimp only
    rw [(hk j hj).2.volt]; ring
  · show ModuleP.OCV m = some v
    unfold ModuleP.OCV
    rw [if_neg hne, tsumOpt_const _ v m.kids fun k hk' => (hk k hk').2.ocv, hl]
    have : (n : ℚ) ≠ 0 := by exact_mod_cast hn.ne'
    simp only [Option.map_some, Option.some.injEq]
    field_simp
  · show _ ≤ ModuleP.rtotLoop m.kids; rw [hks]; exact hr2.1
  · show ModuleP.rtotLoop m.kids ≤ _; rw [hks]; exact hr2.2
  · show (m.kids.map _).sum = _
    rw [nCells_const m.kids k fun x hx => (hk x hx).2.cells, hl]
  · show ModuleP.lim m = L
    unfold ModuleP.lim
    rw [(hlim VLimits.Vmin).2, (hlim VLimits.Vmax).1, (hlim VLimits.VMIN).2, (hlim VLimits.VMAX).1]

end levels

end Pack
end Slide

import Verif.Spec.Dai
import Verif.Tac

/-! C76: the stress in the particles. -/

namespace Slide.Dai
open Spec

variable {N : ℕ}

theorem spread_one (c : Fin (N + 2) → ℚ) (j : Fin (2 * N + 3)) : spread 1 c j = onDiameter c j := by
  unfold spread onDiameter
  split_ifs with h1 h2
  · rw [one_mul]; congr 1; ext; simp only; omega
  · congr 1; ext; simp only; omega
  · congr 1; ext; simp only; omega

theorem xp_eq (xch : Fin N → ℚ) (k : Fin (N + 2)) : xp xch k = radius xch k := by
  unfold xp radius
  split_ifs <;> first | rfl | (exfalso; omega)

theorem spread_sq (xch : Fin N → ℚ) (j : Fin (2 * N + 3)) :
    spread (-1) (xp xch) j * spread (-1) (xp xch) j = onDiameter (radius xch) j ^ 2 := by
  have h : spread (-1) (xp xch) j = spread 1 (xp xch) j ∨ spread (-1) (xp xch) j = -spread 1 (xp xch) j := by
    unfold spread
    split_ifs
    · right; ring
    · left; rfl
    · left; rfl
  have e : spread 1 (xp xch) j = onDiameter (radius xch) j := by
    rw [spread_one]; unfold onDiameter; exact xp_eq _ _
  rcases h with h | h <;> rw [h, e] <;> ring

theorem spread_pos (a : Fin (N + 2) → ℚ) (s : ℚ) (i : Fin (N + 2)) : spread s a (pos i) = a i.rev := by
  unfold spread pos
  rw [dif_neg (by simp)]
  split_ifs with h
  · congr 1; ext; simp only [Fin.val_rev]; simp only at h; omega
  · congr 1; ext; simp only [Fin.val_rev]; simp only at h; omega

theorem integral_diff (xch : Fin N → ℚ) (Q : Fin (2 * N + 3) → Fin (2 * N + 3) → ℚ) (c : Fin (N + 2) → ℚ)
    (i : Fin (N + 2)) :
    integral Q (spread (-1) (xp xch)) (spread 1 c) (pos i) -
      integral Q (spread (-1) (xp xch)) (spread 1 c) ⟨N + 1, by omega⟩ = content xch Q c i.rev := by
  unfold integral content
  rw [← Finset.sum_sub_distrib]
  refine Finset.sum_congr rfl fun j _ => ?_
  rw [spread_sq, spread_one]
  have : (⟨2 * N + 2 - (i.rev : Fin (N + 2)).val, by omega⟩ : Fin (2 * N + 3)) = pos i := by
    ext; simp only [pos, Fin.val_rev]; omega
  rw [this]
  ring

theorem total_eq (xch : Fin N → ℚ) (Q : Fin (2 * N + 3) → Fin (2 * N + 3) → ℚ) (c : Fin (N + 2) → ℚ) :
    total (integral Q (spread (-1) (xp xch)) (spread 1 c)) = content xch Q c 0 := by
  have h := integral_diff xch Q c (Fin.last (N + 1))
  have e1 : (pos (Fin.last (N + 1)) : Fin (2 * N + 3)) = ⟨2 * N + 2, by omega⟩ := by ext; simp [pos]; omega
  have e2 : (Fin.last (N + 1)).rev = 0 := by simp
  rw [e1, e2] at h
  exact h

theorem inner_eq (xch : Fin N → ℚ) (Q : Fin (2 * N + 3) → Fin (2 * N + 3) → ℚ) (c : Fin (N + 2) → ℚ) (i : Fin (N + 2)) :
    inner (integral Q (spread (-1) (xp xch)) (spread 1 c)) (spread (-1) (xp xch)) i =
      content xch Q c i.rev / radius xch i.rev ^ 3 := by
  unfold inner
  rw [integral_diff, spread_pos, xp_eq]
  ring

theorem sigmaH_eq (m : Material) (hnu : m.nu ≠ 1) (xch : Fin N → ℚ) (Q : Fin (2 * N + 3) → Fin (2 * N + 3) → ℚ)
    (c : Fin (N + 2) → ℚ) (i : Fin (N + 2)) :
    sigmaH m (integral Q (spread (-1) (xp xch)) (spread 1 c)) (spread (-1) (xp xch)) (spread 1 c) c i =
      hydrostatic m (mean xch Q c) (c (if i.val = 0 then Fin.last (N + 1) else i)) := by
  have h1 : (1 : ℚ) - m.nu ≠ 0 := fun h => hnu (by linarith)
  unfold sigmaH sigmaR sigmaT hydrostatic mean
  rw [total_eq]
  split_ifs with h
  · have e : spread 1 c ⟨N + 1, by omega⟩ = c (Fin.last (N + 1)) := by
      rw [spread_one]; unfold onDiameter; congr 1; ext; simp
    rw [e]; ring
  · field_simp
    ring

theorem particle_ok (m : Material) (xch : Fin N → ℚ) (Q : Fin (2 * N + 3) → Fin (2 * N + 3) → ℚ) (c : Fin (N + 2) → ℚ)
    (s : Stress N) (h : particle m xch Q c = .ok s) : m.nu ≠ 1 ∧ (∀ j, xch j ≠ 0) ∧
    s = { max := largest (List.ofFn (sigmaH m (integral Q (spread (-1) (xp xch)) (spread 1 c))
            (spread (-1) (xp xch)) (spread 1 c) c))
          r := fun k => sigmaR m (integral Q (spread (-1) (xp xch)) (spread 1 c)) (spread (-1) (xp xch)) (spread 1 c) k.rev
          t := fun k => sigmaT m (integral Q (spread (-1) (xp xch)) (spread 1 c)) (spread (-1) (xp xch)) (spread 1 c) c k.rev
          h := fun k => sigmaH m (integral Q (spread (-1) (xp xch)) (spread 1 c)) (spread (-1) (xp xch)) (spread 1 c) c
            k.rev } := by
  unfold particle at h
  by_cases hd : m.nu = 1 ∨ (∃ j, xch j = 0)
  · simp only [if_pos hd] at h; cases h
  · simp only [if_neg hd, Outcome.ok.injEq] at h
    push Not at hd
    exact ⟨hd.1, hd.2, h.symm⟩

/-- `largest` is one of the values (or 0 for none) and no value is larger in modulus. -/
theorem largest_spec (l : List ℚ) : (largest l = 0 ∨ largest l ∈ l) ∧ ∀ h ∈ l, |h| ≤ |largest l| := by
  have key : ∀ (l : List ℚ) (s : ℚ),
      (l.foldl (fun s h => if |h| > |s| then h else s) s = s ∨ l.foldl (fun s h => if |h| > |s| then h else s) s ∈ l) ∧
      |s| ≤ |l.foldl (fun s h => if |h| > |s| then h else s) s| ∧
      ∀ h ∈ l, |h| ≤ |l.foldl (fun s h => if |h| > |s| then h else s) s| := by
    intro l
    induction l with
    | nil => intro s; simp
    | cons a l ih =>
      intro s
      obtain ⟨i1, i2, i3⟩ := ih (if |a| > |s| then a else s)
      simp only [List.foldl_cons]
      refine ⟨?_, ?_, ?_⟩
      · rcases i1 with i1 | i1
        · rw [i1]; split_ifs <;> simp
        · right; exact List.mem_cons_of_mem _ i1
      · refine le_trans ?_ i2
        split_ifs with h
        · exact h.le
        · exact le_rfl
      · intro h hh
        rcases List.mem_cons.mp hh with rfl | hh
        · refine le_trans ?_ i2
          split_ifs with h'
          · exact le_rfl
          · exact not_lt.mp h'
        · exact i3 h hh
  exact ⟨(key l 0).1, (key l 0).2.2⟩

/-- C76, full statement, first part: the hydrostatic stress at every node belongs to the concentration at this node. -/
def StressAtNode (N : ℕ) : Prop :=
  ∀ (m : Material) (xch : Fin N → ℚ) (Q : Fin (2 * N + 3) → Fin (2 * N + 3) → ℚ) (c : Fin (N + 2) → ℚ) (s : Stress N),
    Exact xch Q → particle m xch Q c = .ok s → ∀ k, s.h k = hydrostatic m (mean xch Q c) (c k)

/-- C76, full statement, second part: the reported stress is the largest one in the particle. -/
def ReportsLargest (N : ℕ) : Prop :=
  ∀ (m : Material) (xch : Fin N → ℚ) (Q : Fin (2 * N + 3) → Fin (2 * N + 3) → ℚ) (c : Fin (N + 2) → ℚ) (s : Stress N),
    Exact xch Q → particle m xch Q c = .ok s → ∀ k, |hydrostatic m (mean xch Q c) (c k)| ≤ |s.max|

/-- **C76 (part that holds), nodes.** The centre has the stress of its concentration; every other node has the stress
that belongs to its mirror image in the list of nodes. -/
theorem dai_stress_partial (m : Material) (xch : Fin N → ℚ) (Q : Fin (2 * N + 3) → Fin (2 * N + 3) → ℚ)
    (c : Fin (N + 2) → ℚ) (s : Stress N) (h : particle m xch Q c = .ok s) (k : Fin (N + 2)) :
    s.h k = hydrostatic m (mean xch Q c) (c (if k = Fin.last (N + 1) then k else k.rev)) := by
  obtain ⟨hnu, -, rfl⟩ := particle_ok m xch Q c s h
  simp only
  rw [sigmaH_eq m hnu]
  congr 2
  have : k.rev.val = 0 ↔ k = Fin.last (N + 1) := by
    rw [Fin.ext_iff, Fin.val_rev, Fin.val_last]; omega
  by_cases hk : k = Fin.last (N + 1)
  · rw [if_pos (this.mpr hk), if_pos hk, hk]
  · rw [if_neg (fun h => hk (this.mp h)), if_neg hk]

/-- **C76 (part that holds), maximum.** The reported value is the largest stress of all nodes except the surface. -/
theorem dai_max_partial (m : Material) (xch : Fin N → ℚ) (Q : Fin (2 * N + 3) → Fin (2 * N + 3) → ℚ)
    (c : Fin (N + 2) → ℚ) (s : Stress N) (h : particle m xch Q c = .ok s) :
    (∃ k, k ≠ 0 ∧ s.max = hydrostatic m (mean xch Q c) (c k)) ∧
    ∀ k, k ≠ 0 → |hydrostatic m (mean xch Q c) (c k)| ≤ |s.max| := by
  obtain ⟨hnu, -, rfl⟩ := particle_ok m xch Q c s h
  simp only
  obtain ⟨l1, l2⟩ := largest_spec (List.ofFn (sigmaH m (integral Q (spread (-1) (xp xch)) (spread 1 c))
    (spread (-1) (xp xch)) (spread 1 c) c))
  have hall : ∀ k : Fin (N + 2), k ≠ 0 → |hydrostatic m (mean xch Q c) (c k)| ≤ |largest (List.ofFn (sigmaH m
      (integral Q (spread (-1) (xp xch)) (spread 1 c)) (spread (-1) (xp xch)) (spread 1 c) c))| := by
    intro k hk
    have := l2 _ ((List.mem_ofFn' _ _).mpr ⟨k, rfl⟩)
    rw [sigmaH_eq m hnu, if_neg (fun h : k.val = 0 => hk (Fin.ext h))] at this
    exact this
  refine ⟨?_, hall⟩
  rcases l1 with l1 | l1
  · have h0 := hall (Fin.last (N + 1)) (by simp [Fin.ext_iff])
    rw [l1, abs_zero] at h0
    exact ⟨Fin.last (N + 1), by simp [Fin.ext_iff], by rw [l1]; exact (abs_nonpos_iff.mp h0).symm⟩
  · obtain ⟨i, hi⟩ := (List.mem_ofFn' _ _).mp l1
    rw [← hi, sigmaH_eq m hnu]
    refine ⟨_, ?_, rfl⟩
    split_ifs with h0
    · simp [Fin.ext_iff]
    · exact fun h => h0 (congrArg Fin.val h)

/-- The surface is free of radial stress, and the radial stress everywhere is that of equation 13. -/
theorem dai_radial (m : Material) (xch : Fin N → ℚ) (Q : Fin (2 * N + 3) → Fin (2 * N + 3) → ℚ)
    (c : Fin (N + 2) → ℚ) (s : Stress N) (h : particle m xch Q c = .ok s) :
    s.r 0 = 0 ∧ ∀ k, k ≠ Fin.last (N + 1) → s.r k = 2 * m.omega * m.E / (3 * (1 - m.nu)) *
      (content xch Q c 0 - content xch Q c k / radius xch k ^ 3) := by
  obtain ⟨hnu, -, rfl⟩ := particle_ok m xch Q c s h
  have hk : ∀ k : Fin (N + 2), k ≠ Fin.last (N + 1) → sigmaR m (integral Q (spread (-1) (xp xch)) (spread 1 c))
      (spread (-1) (xp xch)) (spread 1 c) k.rev = 2 * m.omega * m.E / (3 * (1 - m.nu)) *
      (content xch Q c 0 - content xch Q c k / radius xch k ^ 3) := by
    intro k hk
    unfold sigmaR
    rw [if_neg (fun h => hk (by rw [Fin.ext_iff, Fin.val_last]; rw [Fin.val_rev] at h; omega)), total_eq, inner_eq,
      Fin.rev_rev]
  refine ⟨?_, hk⟩
  simp only
  rw [hk 0 (by simp [Fin.ext_iff])]
  simp [radius]

theorem content_add (xch : Fin N → ℚ) (Q : Fin (2 * N + 3) → Fin (2 * N + 3) → ℚ) (c : Fin (N + 2) → ℚ) (a b : ℚ)
    (k : Fin (N + 2)) :
    content xch Q (fun i => a * c i + b) k = a * content xch Q c k + b * content xch Q (fun _ => 1) k := by
  unfold content
  rw [Finset.mul_sum, Finset.mul_sum, ← Finset.sum_add_distrib]
  refine Finset.sum_congr rfl fun j _ => ?_
  unfold onDiameter
  ring

/-- **C76 (part that holds), linearity.** Raising the concentration everywhere by the same amount changes no stress, and
stresses are proportional to the differences in concentration. -/
theorem dai_linear (m : Material) (xch : Fin N → ℚ) (Q : Fin (2 * N + 3) → Fin (2 * N + 3) → ℚ)
    (hQ : Exact xch Q) (c : Fin (N + 2) → ℚ) (a b : ℚ) (s s' : Stress N) (h : particle m xch Q c = .ok s)
    (h' : particle m xch Q (fun i => a * c i + b) = .ok s') (k : Fin (N + 2)) :
    s'.h k = a * s.h k ∧ s'.r k = a * s.r k := by
  have hm : mean xch Q (fun i => a * c i + b) = a * mean xch Q c + b := by
    unfold mean
    rw [content_add, hQ 0]
    simp only [radius, Fin.val_zero, lt_irrefl, false_and, dite_false, if_true]
    ring
  have hh : s'.h k = a * s.h k := by
    rw [dai_stress_partial m xch Q _ s' h', dai_stress_partial m xch Q _ s h, hm]
    unfold hydrostatic; ring
  refine ⟨hh, ?_⟩
  by_cases hk : k = Fin.last (N + 1)
  · subst hk
    obtain ⟨hnu, -, rfl⟩ := particle_ok m xch Q c s h
    obtain ⟨-, -, rfl⟩ := particle_ok m xch Q _ s' h'
    simp only [Fin.rev_last]
    unfold sigmaR
    rw [if_pos (by rfl), if_pos (by rfl), total_eq, total_eq, content_add, hQ 0]
    have e : ∀ c : Fin (N + 2) → ℚ, spread 1 c ⟨N + 1, by omega⟩ = c (Fin.last (N + 1)) := by
      intro c; rw [spread_one]; unfold onDiameter; congr 1; ext; simp
    rw [e, e]
    simp only [radius, Fin.val_zero, lt_irrefl, false_and, dite_false, if_true]
    ring
  · have hx : radius xch k ≠ 0 := by
      obtain ⟨-, hx, -⟩ := particle_ok m xch Q c s h
      unfold radius
      split_ifs with h1 h2
      · exact hx _
      · exact one_ne_zero
      · exact absurd (by rw [Fin.ext_iff, Fin.val_last]; omega) hk
    rw [(dai_radial m xch Q _ s' h').2 k hk, (dai_radial m xch Q _ s h).2 k hk, content_add, content_add, hQ 0, hQ k]
    simp only [radius, Fin.val_zero, lt_irrefl, false_and, dite_false, if_true]
    have hx' := hx
    unfold radius at hx'
    field_simp
    ring

/-- **C76 (part that holds), equilibrium.** A uniformly filled particle is free of stress. -/
theorem dai_uniform (m : Material) (xch : Fin N → ℚ) (Q : Fin (2 * N + 3) → Fin (2 * N + 3) → ℚ) (hQ : Exact xch Q)
    (b : ℚ) (s : Stress N) (h : particle m xch Q (fun _ => b) = .ok s) :
    s.max = 0 ∧ ∀ k, s.h k = 0 ∧ s.r k = 0 ∧ s.t k = 0 := by
  have h' : particle m xch Q (fun i => 0 * (fun _ : Fin (N + 2) => b) i + b) = .ok s := by simpa using h
  have hl := fun k => dai_linear m xch Q hQ (fun _ => b) 0 b s s h h' k
  refine ⟨?_, fun k => ?_⟩
  · obtain ⟨⟨k, -, hk⟩, -⟩ := dai_max_partial m xch Q _ s h
    have := dai_stress_partial m xch Q _ s h k
    rw [hk, ← this, (hl k).1, zero_mul]
  · have e1 : s.h k = 0 := by rw [(hl k).1, zero_mul]
    have e2 : s.r k = 0 := by rw [(hl k).2, zero_mul]
    refine ⟨e1, e2, ?_⟩
    obtain ⟨-, -, rfl⟩ := particle_ok m xch Q _ s h
    simp only [sigmaH] at e1 e2 ⊢
    linarith

/-- A particle with one inner node at 1/2 and a quadrature that is exact for `x²`. -/
def xch1 : Fin 1 → ℚ := fun _ => 1 / 2
def Q1 : Fin 5 → Fin 5 → ℚ := fun i j =>
  if i = 3 then (if j = 3 then 1 / 6 else 0) else if i = 4 then (if j = 3 then 1 else if j = 4 then 1 / 12 else 0) else 0
def mat1 : Material := ⟨1, 9 / 2, 0⟩

theorem Q1_exact : Exact xch1 Q1 := by
  unfold Exact
  decide +kernel

/-- Concentrations 3 at the surface, 1 at the inner node and at the centre. -/
def c1 : Fin 3 → ℚ := fun i => if i = 0 then 3 else 1

/-- Its stresses. -/
def stress1 : Stress 1 :=
  let x := spread (-1) (xp xch1)
  let C := spread 1 c1
  let F := integral Q1 x C
  { max := largest (List.ofFn (sigmaH mat1 F x C c1))
    r := fun k => sigmaR mat1 F x C k.rev
    t := fun k => sigmaT mat1 F x C c1 k.rev
    h := fun k => sigmaH mat1 F x C c1 k.rev }

theorem particle1 : particle mat1 xch1 Q1 c1 = .ok stress1 := by
  unfold particle
  exact if_neg (by decide +kernel)

example : stress1.max = 1 / 2 ∧ stress1.r 0 = 0 ∧ stress1.h 0 ≠ 0 ∧ mean xch1 Q1 c1 = 3 / 2 := by decide +kernel

/-- **C76 is false of the code**: the surface node has the stress of the centre. -/
theorem not_stressAtNode : ¬ StressAtNode 1 := by
  intro h
  have := h mat1 xch1 Q1 c1 _ Q1_exact particle1 0
  revert this
  decide +kernel

/-- **C76 is false of the code**: the stress at the surface, the largest one here, is not considered. -/
theorem not_reportsLargest : ¬ ReportsLargest 1 := by
  intro h
  have := h mat1 xch1 Q1 c1 _ Q1_exact particle1 0
  revert this
  decide +kernel

/-- In the cell: with uniform concentrations in both particles no stress is reported. -/
theorem dai_ofCell_uniform (mp mn : Material) (Q : Fin (2 * N + 3) → Fin (2 * N + 3) → ℚ) (c : SPM N)
    (hQ : Exact c.par.M.xch Q) (a b : ℚ) (hp : ∀ i, c.nodeP i = a) (hpc : c.centreP = a) (hn : ∀ i, c.nodeN i = b)
    (hnc : c.centreN = b) (r : ℚ × ℚ) (h : ofCell mp mn Q c = .ok r) : r = (0, 0) := by
  have hp' : ∀ i, concP c i = a := fun i => by unfold concP; split; exacts [hp _, hpc]
  have hn' : ∀ i, concN c i = b := fun i => by unfold concN; split; exacts [hn _, hnc]
  unfold ofCell at h
  obtain ⟨p, h1, h⟩ := Outcome.bind_eq_ok.mp h
  obtain ⟨n, h2, h⟩ := Outcome.bind_eq_ok.mp h
  rw [funext hp'] at h1
  rw [funext hn'] at h2
  have e1 := (dai_uniform mp _ Q hQ a p h1).1
  have e2 := (dai_uniform mn _ Q hQ b n h2).1
  have : (p.max, n.max) = r := Outcome.ok.inj h
  rw [← this, e1, e2]

end Slide.Dai

import Verif.Lemmas.Lithium

/-! C113: the lithium of a single-particle cell is accounted for. -/

namespace Slide
open Spec SPM

variable {N : ℕ}

theorem sameLithium_after (c : SPM N) (o : SpmOp N) (ho : simulating o) : SameLithium c (spmAfter c o) := by
  cases o with
  | readV =>
    refine SameUniform.same ⟨sameAge_V c, ?_, ?_⟩
    · show c.V.2.st.zp _ = _; rw [SPM.V_rest]
    · show c.V.2.st.zn _ = _; rw [SPM.V_rest]
  | setCurrent i b => exact sameLithium_only (setCurrent_onlyCurrent c i b)
  | setSOC s b =>
    have h : (c.setSOC s b).2.st.zp = c.st.zp ∧ (c.setSOC s b).2.st.zn = c.st.zn := by
      unfold setSOC
      split
      · exact ⟨rfl, rfl⟩
      · set c1 : SPM N := { c with st := { c.st with SOC := s } } with hc1
        cases b
        · exact ⟨rfl, rfl⟩
        · have hs : c1.checkV.2.st.zp = c.st.zp ∧ c1.checkV.2.st.zn = c.st.zn := by
            rw [checkV_snd, SPM.V_rest]; exact ⟨rfl, rfl⟩
          rcases hk : c1.checkV with ⟨r | e | w, c2⟩ <;> rw [hk] at hs <;> simp only [if_true, hk]
          · split <;> exact hs
          · exact hs
          · exact hs
    refine SameUniform.same ⟨sameAge_setSOC c s b, ?_, ?_⟩
    · show (c.setSOC s b).2.st.zp _ = _; rw [h.1]
    · show (c.setSOC s b).2.st.zn _ = _; rw [h.2]
  | setT t => exact SameUniform.same ⟨⟨rfl, rfl, rfl, rfl, rfl, rfl, rfl, rfl, rfl, rfl, rfl, rfl, rfl⟩, rfl, rfl⟩
  | setTenv t =>
    show SameLithium c (c.setTenv t).2
    unfold setTenv
    split
    · exact .refl c
    · exact SameUniform.same ⟨⟨rfl, rfl, rfl, rfl, rfl, rfl, rfl, rfl, rfl, rfl, rfl, rfl, rfl⟩, rfl, rfl⟩
  | step dt n => exact sameLithium_step c dt n
  | block b => exact SameUniform.same ⟨⟨rfl, rfl, rfl, rfl, rfl, rfl, rfl, rfl, rfl, rfl, rfl, rfl, rfl⟩, rfl, rfl⟩
  | _ => cases ho

theorem sameLithium_run (c : SPM N) (ops : List (SpmOp N)) (h : ∀ o ∈ ops, simulating o) :
    SameLithium c (spmRun c ops) := by
  induction ops generalizing c with
  | nil => exact .refl c
  | cons o os ih =>
    exact (sameLithium_after c o (h o (by simp))).trans (ih _ fun p hp => h p (by simp [hp]))

/-- C113: whatever is done with a cell – currents, time steps with or without ageing and heat, accepted or failing –, as long
as its ageing removes no active material, the lithium in the two particles and the lost lithium add up to the same. -/
theorem spm_lithium_conserved (c : SPM N) (ops : List (SpmOp N)) (hc : CountsLi c) (hk : KeepsMaterial c.deg)
    (h : ∀ o ∈ ops, simulating o) : allLi (spmRun c ops) = allLi c := (sameLithium_run c ops h).all hc hk

/-- C113: an accepted time step moves the charge `I t` into the cathode; the anode gives this and the newly lost lithium. -/
theorem spm_lithium_step (c : SPM N) (dt : ℚ) (n : ℕ) (hc : CountsLi c) (hk : KeepsMaterial c.deg)
    (h : (c.timeStep dt n).1 = .ok ()) :
    cathodeLi (c.timeStep dt n).2 = cathodeLi c + c.st.I * (n * dt) ∧
    anodeLi (c.timeStep dt n).2 = anodeLi c - c.st.I * (n * dt) - ((c.timeStep dt n).2.st.LLI - c.st.LLI) := by
  obtain ⟨q, h1, h2, h3⟩ := timeStep_lithium c dt n hc hk
  have := h3 h
  rw [Int.toNat_natCast] at this
  rw [← this]
  exact ⟨h1, h2⟩

/-- C113: lost lithium is found again in the SEI layer on the anode (and on its cracks) and in the plated lithium. -/
theorem spm_lost_lithium_found (c : SPM N) (dt : ℚ) (n : ℤ) :
    (c.timeStep dt n).2.st.LLI - c.st.LLI =
      Faraday * (c.par.elecSurf * c.st.thickn * c.st.an) *
        (c.par.nsei * c.par.rhosei * ((c.timeStep dt n).2.st.delta - c.st.delta) *
            (1 + (c.deg.CS.filter (· ≠ 0)).length * c.st.CS / (c.st.an * c.st.thickn * c.par.elecSurf)) +
          c.par.npl * c.par.rhopl * ((c.timeStep dt n).2.st.deltaPl - c.st.deltaPl)) := by
  rcases timeStep_age c dt n with h | ⟨-, c1, d, h, -, -, hd, e⟩
  · rw [h.LLI, h.delta, h.deltaPl]; ring
  · rw [e]
    obtain ⟨hf, o, sei, cr, l, ipl, h1, h2, h3, h4, e1, e2, e3, e4, -⟩ := degRate_spec hd
    have hcr := (crack_spec h2).2
    have hm : (c1.deg.CS.map c1.csMult).sum =
        (c.deg.CS.filter (· ≠ 0)).length * c.st.CS / (c.st.an * c.st.thickn * c.par.elecSurf) := by
      rw [h.deg]
      induction c.deg.CS with
      | nil => simp
      | cons i is ih =>
        rw [List.map_cons, List.sum_cons, ih]
        unfold csMult anodeSurf
        by_cases hi : i = 0
        · simp [hi]
        · simp only [hi, if_false, List.filter_cons, ne_eq, not_false_eq_true, decide_true, if_true, List.length_cons]
          rw [h.CS, h.an, h.thickn, h.par]
          push_cast
          ring
    have hnz : c1.par.nsei ≠ 0 ∧ c1.par.rhosei ≠ 0 ∧ c1.par.npl ≠ 0 ∧ c1.par.rhopl ≠ 0 := by
      unfold degRate at hd
      simp only at hd
      split at hd
      · cases hd
      · split at hd
        · cases hd
        · split at hd
          · cases hd
          · rename_i hz
            simp only [Bool.or_eq_true, decide_eq_true_eq, not_or] at hz
            tauto
    obtain ⟨n1, n2, n3, n4⟩ := hnz
    have hF : (Faraday : ℚ) ≠ 0 := by unfold Faraday; norm_num
    simp only [addRate]
    rw [e1, e2, e4, hcr, hm, h.LLI, h.delta, h.deltaPl, h.par, h.thickn, h.an]
    rw [h.par] at n1 n2 n3 n4
    generalize ((c.deg.CS.filter (· ≠ 0)).length * c.st.CS / (c.st.an * c.st.thickn * c.par.elecSurf) : ℚ) = m
    field_simp
    ring

/-- C113: for a uniform concentration – as `setC` makes – the counted amounts are volume × concentration × charge. -/
theorem spm_lithium_content (c : SPM N) (fp fn : ℚ) (hs : ExactSphere c) (hc : CountsLi c)
    (hp : c.st.ap = 3 * c.st.ep / c.par.Rp) (hn : c.st.an = 3 * c.st.en / c.par.Rn) (hRp : c.par.Rp ≠ 0)
    (hRn : c.par.Rn ≠ 0) (h : (c.setC fp fn).1 = .ok ()) :
    cathodeLi (c.setC fp fn).2 =
      c.par.n * Faraday * (c.par.elecSurf * c.st.thickp * c.st.ep) * (fp * c.par.Cmaxpos) ∧
    anodeLi (c.setC fp fn).2 =
      c.par.n * Faraday * (c.par.elecSurf * c.st.thickn * c.st.en) * (fn * c.par.Cmaxneg) := by
  unfold setC at h ⊢
  split at h
  · cases h
  · rename_i hr
    rw [if_neg hr]
    have hBp := hc.Bp
    have hBn := hc.Bn
    have key : ∀ (f : Fin N → ℚ) (x : Fin N → ℚ) (cc R : ℚ),
        ∑ i, f i * (cc * x i * R) = cc * R * ∑ i, f i * x i := by
      intro f x cc R
      rw [Finset.mul_sum]
      exact Finset.sum_congr rfl fun i _ => by ring
    unfold cathodeLi anodeLi uniformZp uniformZn
    simp only [if_true, key]
    rw [hp, hn]
    have e1 : ∑ i, c.par.M.Vp c.par.M.ind i * c.par.M.xch i = -(c.par.M.Bp c.par.M.ind) / 3 := by rw [hs.1]; ring
    have e2 : ∑ i, c.par.M.Vn c.par.M.ind i * c.par.M.xch i = -(c.par.M.Bn c.par.M.ind) / 3 := by rw [hs.2]; ring
    rw [e1, e2]
    constructor <;> field_simp

section
open StorageUnit Cyc

/-- C113: a whole ageing study of a pack – balancing and check-ups included, however it ends – moves no lithium from one cell
to another and loses none from the books. -/
theorem study_lithium (d : ℕ) (u : Tree (AgedUnit N) d) (fuel : ℕ) (Vbal : ℚ) :
    (∀ p mem file, CellWise (fun a b => SameLithium a.cell b.cell) d u
      (cycleAge fuel (studyChecks AgedUnit.setBlock fuel Vbal d) p u mem file).2.cyc.su) ∧
    (∀ bal ndata mem file, CellWise (fun a b => SameLithium a.cell b.cell) d u
      (useCaseAge fuel (studyChecks AgedUnit.setBlock fuel Vbal d) bal ndata u mem file).2.cyc.su) :=
  study_rel .refl (fun h g => h.trans g) sameLithium_only (fun a dt k => sameLithium_step a dt k)
    (fun a b => sameLithium_after a (.block b) trivial) d u fuel Vbal

end

/-- A cell which grows an SEI layer, cracks and is plated; its discretisation is that of the conserving sphere. -/
def spmLi : SPM 1 :=
  { spm1 with
    par := { spm1.par with
      sei := { spm1.par.sei with k1 := 1 / 10000 }, pl := { spm1.par.pl with k := 1 / 10000 }, rsei := 1 / 10000,
      M := { spm1.par.M with Bp := fun _ => -3, Bn := fun _ => -3 } },
    st := { spm1.st with rDCp := 1 / 10000, rDCn := 1 / 10000, rDCcc := 1 / 10000 },
    deg := { spm1.deg with CS := [3], pl := 1 } }

theorem spmLi_counts : CountsLi spmLi where
  noDecay := ⟨rfl, rfl⟩
  Bp := by decide +kernel
  Bn := by decide +kernel
  nsei := rfl
  npl := rfl

example : CountsLi spmLi ∧ KeepsMaterial spmLi.deg ∧ ExactSphere spmLi := by
  refine ⟨spmLi_counts, ⟨fun i h => (by cases h), rfl⟩, ?_, ?_⟩ <;> decide +kernel

/-- The time steps are accepted, move lithium and lose some of it. -/
example : let c := (spmLi.setCurrent 100 true).2
    (spmLi.setCurrent 100 true).1 = .ok .Success ∧ (c.timeStep 1 10).1 = .ok () ∧
    cathodeLi (c.timeStep 1 10).2 = cathodeLi c + 1000 ∧ c.st.LLI < (c.timeStep 1 10).2.st.LLI ∧
    c.st.delta < (c.timeStep 1 10).2.st.delta ∧ c.st.deltaPl < (c.timeStep 1 10).2.st.deltaPl ∧
    0 < c.st.CS := by decide +kernel

example : ∀ o ∈ ([.setCurrent 100 true, .step 1 10, .setCurrent (-50) true, .step 1 10] : List (SpmOp 1)), simulating o := by
  intro o ho
  simp only [List.mem_cons, List.not_mem_nil, or_false] at ho
  rcases ho with rfl | rfl | rfl | rfl <;> trivial

example : (spmLi.setC (1 / 2) (1 / 4)).1 = .ok () ∧ spmLi.st.ap = 3 * spmLi.st.ep / spmLi.par.Rp ∧
    spmLi.st.an = 3 * spmLi.st.en / spmLi.par.Rn := by decide +kernel

/-- Loss of active material takes lithium with it: then the sum is not kept. -/
example : let c : SPM 1 := { spmLi with deg := { spmLi.deg with LAM := [4] } }
    (c.timeStep (1 / 100) 1).1 = .ok () ∧ allLi (c.timeStep (1 / 100) 1).2 ≠ allLi c := by decide +kernel

example : CountsLi slowCell.cell ∧ KeepsMaterial slowCell.cell.deg :=
  ⟨⟨⟨rfl, rfl⟩, by decide +kernel, by decide +kernel, rfl, rfl⟩, fun i h => (by cases h), rfl⟩

end Slide

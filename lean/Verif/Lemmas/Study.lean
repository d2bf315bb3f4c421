import Verif.Spec.Study
import Verif.Lemmas.CyclerLoops
import Verif.Lemmas.SpmAged

/-! What the actions of the cycler and the checks preserve, a whole ageing study preserves. -/

namespace Slide
open Spec StorageUnit Cyc

section
variable {U : Type} [StorageUnit U]

theorem onUnit_keeps {P : U → Prop} (f : U → Outcome Unit × U) (hf : ∀ u, P u → P (f u).2) (a : Age U) (h : P a.cyc.su) :
    P (a.onUnit f).2.cyc.su := hf _ h

theorem ageCheckUp_keeps {P : U → Prop} (k : Checks U) (hc : ∀ u, P u → P (k.checkUp u).2) (a : Age U) (Ah : ℚ) (n : ℤ)
    (h : P a.cyc.su) : P (a.checkUp k Ah n).2.cyc.su := hc _ h

theorem balanceCheckup_keeps {P : U → Prop} (k : Checks U) (hr : ∀ u, P u → P (k.rebalance u).2)
    (hc : ∀ u, P u → P (k.checkUp u).2) (a : Age U) (b c : Bool) (Ah : ℚ) (n : ℤ) (h : P a.cyc.su) :
    P (a.balanceCheckup k b c Ah n).2.cyc.su := by
  unfold Age.balanceCheckup
  have h1 : P (if b then a.onUnit k.rebalance else (.ok (), a) : Outcome Unit × Age U).2.cyc.su := by
    by_cases hb : b = true
    · rw [if_pos hb]; exact hr _ h
    · rw [if_neg hb]; exact h
  rcases hk : (if b then a.onUnit k.rebalance else (.ok (), a) : Outcome Unit × Age U) with ⟨_ | e | w, a1⟩ <;>
    rw [hk] at h1
  · dsimp only
    by_cases hcc : c = true
    · rw [if_pos hcc]; exact hc _ h1
    · rw [if_neg hcc]; exact h1
  · exact h1
  · exact h1

theorem ageCc_keeps {P : U → Prop} (hset : ∀ u i b, P u → P (StorageUnit.setCurrent u i b).2)
    (hstep : ∀ u dt k, P u → P (timeStep u dt k).2) (fuel : ℕ) (p : AgeParams) (I v : ℚ) (a : Age U) (h : P a.cyc.su) :
    P (a.cc fuel p I v).2.cyc.su := (CC_keeps hset hstep fuel a.cyc I v TIME_INF 2 p.ndata a.th h).1

theorem useStep_keeps {P : U → Prop} (hset : ∀ u i b, P u → P (StorageUnit.setCurrent u i b).2)
    (hstep : ∀ u dt k, P u → P (timeStep u dt k).2) (fuel : ℕ) (nd : ℤ) (a : Age U) (s : UseStep) (h : P a.cyc.su) :
    P (a.useStep fuel nd s).2.cyc.su := by
  cases s with
  | rest hours =>
    simp only [Age.useStep]
    have h1 := rest_keeps hset hstep fuel a.cyc (hours * 3600) 1 nd a.th h
    rcases hk : a.cyc.rest fuel (hours * 3600) 1 nd a.th with ⟨_ | e | w, c, th⟩ <;> rw [hk] at h1 <;> exact h1
  | cc C up ch =>
    simp only [Age.useStep]
    generalize (if up then (StorageUnit.lim a.cyc.su).Vmax else (StorageUnit.lim a.cyc.su).Vmin) = vl
    have h1 := (CC_keeps hset hstep fuel a.cyc (C * StorageUnit.Cap a.cyc.su) vl TIME_INF 1 nd a.th h).1
    rcases hk : a.cyc.CC fuel (C * StorageUnit.Cap a.cyc.su) vl TIME_INF 1 nd a.th with ⟨_ | e | w, c, th⟩ <;>
      rw [hk] at h1 <;> exact h1

theorem useSteps_keeps {P : U → Prop} (hset : ∀ u i b, P u → P (StorageUnit.setCurrent u i b).2)
    (hstep : ∀ u dt k, P u → P (timeStep u dt k).2) (fuel : ℕ) (nd : ℤ) (l : List UseStep) (a : Age U) (h : P a.cyc.su) :
    P (Age.useSteps fuel nd l a).2.cyc.su := by
  induction l generalizing a with
  | nil => exact h
  | cons s l ih =>
    unfold Age.useSteps
    have h1 := useStep_keeps hset hstep fuel nd a s h
    rcases hk : a.useStep fuel nd s with ⟨b | e | w, a1⟩ <;> rw [hk] at h1
    · cases b
      · exact h1
      · exact ih _ h1
    · exact h1
    · exact h1

theorem useLoop_keeps {P : U → Prop} (hset : ∀ u i b, P u → P (StorageUnit.setCurrent u i b).2)
    (hstep : ∀ u dt k, P u → P (timeStep u dt k).2) (k : Checks U) (hr : ∀ u, P u → P (k.rebalance u).2)
    (hc : ∀ u, P u → P (k.checkUp u).2) (fuel : ℕ) (bal : Bool) (nd : ℤ) (left i : ℕ) (a : Age U) (h : P a.cyc.su) :
    P (Age.useLoop fuel k bal nd left i a).2.cyc.su := by
  induction left generalizing i a with
  | zero => exact h
  | succ left ih =>
    unfold Age.useLoop
    have h1 := balanceCheckup_keeps k hr hc a (bal && decide (i % 7 = 0)) (decide (i % 10 = 0)) a.th.Ah i h
    rcases hk : a.balanceCheckup k (bal && decide (i % 7 = 0)) (decide (i % 10 = 0)) a.th.Ah i with ⟨_ | e | w, a1⟩ <;>
      rw [hk] at h1
    · dsimp only
      have h2 := useSteps_keeps hset hstep fuel nd useDay a1 h1
      rcases hk2 : Age.useSteps fuel nd useDay a1 with ⟨b | e | w, a2⟩ <;> rw [hk2] at h2
      · cases b
        · exact h2
        · exact ih _ _ h2
      · exact h2
      · exact h2
    · exact h1
    · exact h1

theorem useCaseAge_keeps {P : U → Prop} (hset : ∀ u i b, P u → P (StorageUnit.setCurrent u i b).2)
    (hstep : ∀ u dt k, P u → P (timeStep u dt k).2) (k : Checks U) (hr : ∀ u, P u → P (k.rebalance u).2)
    (hc : ∀ u, P u → P (k.checkUp u).2) (fuel : ℕ) (bal : Bool) (nd : ℤ) (u : U) (mem file : List Thr) (h : P u) :
    P (useCaseAge fuel k bal nd u mem file).2.cyc.su := by
  unfold useCaseAge
  dsimp only
  have h1 := (CC_keeps hset hstep fuel { su := u, diagnostic := true } (StorageUnit.Cap u / 2) (StorageUnit.lim u).Vmin
    TIME_INF 1 nd Thr.zero h).1
  rcases hk : Cyc.CC fuel { su := u, diagnostic := true } (StorageUnit.Cap u / 2) (StorageUnit.lim u).Vmin
    TIME_INF 1 nd Thr.zero with ⟨_ | e | w, c1, th⟩ <;> rw [hk] at h1
  · dsimp only
    have h2 := useLoop_keeps hset hstep k hr hc fuel bal nd 20 0 { cyc := c1, th := th, mem := mem, file := file } h1
    rcases hk2 : Age.useLoop fuel k bal nd 20 0 { cyc := c1, th := th, mem := mem, file := file } with ⟨n | e | w, a1⟩ <;>
      rw [hk2] at h2
    · dsimp only
      have h3 := ageCheckUp_keeps k hc (a1.writeThroughput a1.th.Ah) a1.th.Ah 20 h2
      rcases hk3 : (a1.writeThroughput a1.th.Ah).checkUp k a1.th.Ah 20 with ⟨_ | e | w, a2⟩ <;> rw [hk3] at h3 <;> exact h3
    · exact h2
    · exact h2
  · exact h1
  · exact h1

theorem checkUpPrep_keeps {P : U → Prop} (hset : ∀ u i b, P u → P (StorageUnit.setCurrent u i b).2)
    (hstep : ∀ u dt k, P u → P (timeStep u dt k).2) (fuel : ℕ) (u : U) (h : P u) : P (checkUpPrep fuel u).2 := by
  unfold checkUpPrep
  have h1 := (CC_keeps hset hstep fuel { su := u, diagnostic := true } (-(Cap u) / 25)
    (3/4 * (lim u).Vmax + 1/4 * (lim u).Vmin) TIME_INF 2 0 Thr.zero h).1
  rcases hk : Cyc.CC fuel { su := u, diagnostic := true } (-(Cap u) / 25) (3/4 * (lim u).Vmax + 1/4 * (lim u).Vmin)
    TIME_INF 2 0 Thr.zero with ⟨_ | e | w, c1, th⟩ <;> rw [hk] at h1 <;> exact h1

variable [VoltageUnit U]

theorem ageCv_keeps {P : U → Prop} (hvol : ∀ u v, P u → P (VoltageUnit.setVoltage u v).2)
    (hstep : ∀ u dt k, P u → P (timeStep u dt k).2) (p : AgeParams) (v : ℚ) (a : Age U) (h : P a.cyc.su) :
    P (a.cv p v).2.cyc.su := by
  unfold Age.cv
  by_cases ht : p.testCV = true
  · rw [if_pos ht]
    have h1 := CV_keeps hvol hstep a.cyc v (1/10) TIME_INF 2 p.ndata a.th h
    rcases hk : a.cyc.CV v (1/10) TIME_INF 2 p.ndata a.th with ⟨st | e | w, c, th⟩ <;> rw [hk] at h1
    · dsimp only
      by_cases hs : st.isCurrentLimitReached = true
      · rw [if_pos hs]; exact h1
      · rw [if_neg hs]; exact h1
    · exact h1
    · exact h1
  · rw [if_neg ht]; exact h

theorem ageDischarge_keeps {P : U → Prop} (hset : ∀ u i b, P u → P (StorageUnit.setCurrent u i b).2)
    (hvol : ∀ u v, P u → P (VoltageUnit.setVoltage u v).2)
    (hstep : ∀ u dt k, P u → P (timeStep u dt k).2) (fuel : ℕ) (p : AgeParams) (I : ℚ) (a : Age U) (h : P a.cyc.su) :
    P (a.discharge fuel p I).2.cyc.su := by
  unfold Age.discharge
  have h1 := ageCc_keeps hset hstep fuel p I p.Vmin a h
  rcases hk : a.cc fuel p I p.Vmin with ⟨st | e | w, a1⟩ <;> rw [hk] at h1
  · dsimp only
    by_cases hs : st.isVoltageLimitReached = true
    · rw [if_pos hs]; exact ageCv_keeps hvol hstep p p.Vmin a1.storeThroughput h1
    · rw [if_neg hs]; exact h1
  · exact h1
  · exact h1

theorem ageCycle_keeps {P : U → Prop} (hset : ∀ u i b, P u → P (StorageUnit.setCurrent u i b).2)
    (hvol : ∀ u v, P u → P (VoltageUnit.setVoltage u v).2)
    (hstep : ∀ u dt k, P u → P (timeStep u dt k).2) (fuel : ℕ) (p : AgeParams) (Ic Id : ℚ) (a : Age U) (h : P a.cyc.su) :
    P (a.cycle fuel p Ic Id).2.cyc.su := by
  unfold Age.cycle
  dsimp only
  have h1 := ageCc_keeps hset hstep fuel p Ic p.Vmax a h
  rcases hk : a.cc fuel p Ic p.Vmax with ⟨st | e | w, a1⟩ <;> rw [hk] at h1
  · dsimp only
    by_cases hs : (!st.isVoltageLimitReached) = true
    · rw [if_pos hs]; exact h1
    · rw [if_neg hs]
      by_cases hl : a1.storeThroughput.th.Ah - a.th.Ah < 1/100000
      · rw [if_pos hl]; exact h1
      · rw [if_neg hl]
        have h2 := ageCv_keeps hvol hstep p p.Vmax a1.storeThroughput h1
        rcases hk2 : a1.storeThroughput.cv p p.Vmax with ⟨b | e | w, a3⟩ <;> rw [hk2] at h2
        · cases b
          · exact h2
          · exact ageDischarge_keeps hset hvol hstep fuel p Id a3 h2
        · exact h2
        · exact h2
  · exact h1
  · exact h1

theorem ageLoop_keeps {P : U → Prop} (hset : ∀ u i b, P u → P (StorageUnit.setCurrent u i b).2)
    (hvol : ∀ u v, P u → P (VoltageUnit.setVoltage u v).2)
    (hstep : ∀ u dt k, P u → P (timeStep u dt k).2) (k : Checks U) (hr : ∀ u, P u → P (k.rebalance u).2)
    (hc : ∀ u, P u → P (k.checkUp u).2) (fuel : ℕ) (p : AgeParams) (Ic Id : ℚ) (left i : ℕ) (a : Age U) (h : P a.cyc.su) :
    P (Age.loop fuel k p Ic Id left i a).2.cyc.su := by
  induction left generalizing i a with
  | zero => exact h
  | succ left ih =>
    unfold Age.loop
    rcases Age.when p i with ⟨b, c⟩ | e | w
    · dsimp only
      have h1 := balanceCheckup_keeps k hr hc a b c a.th.Ah i h
      rcases hk : a.balanceCheckup k b c a.th.Ah i with ⟨_ | e | w, a1⟩ <;> rw [hk] at h1
      · dsimp only
        have h2 := ageCycle_keeps hset hvol hstep fuel p Ic Id a1 h1
        rcases hk2 : a1.cycle fuel p Ic Id with ⟨b | e | w, a2⟩ <;> rw [hk2] at h2
        · cases b
          · exact h2
          · exact ih _ _ h2
        · exact h2
        · exact h2
      · exact h1
      · exact h1
    · exact h
    · exact h

theorem cycleAge_keeps {P : U → Prop} (hset : ∀ u i b, P u → P (StorageUnit.setCurrent u i b).2)
    (hvol : ∀ u v, P u → P (VoltageUnit.setVoltage u v).2)
    (hstep : ∀ u dt k, P u → P (timeStep u dt k).2) (k : Checks U) (hr : ∀ u, P u → P (k.rebalance u).2)
    (hc : ∀ u, P u → P (k.checkUp u).2) (fuel : ℕ) (p : AgeParams) (u : U) (mem file : List Thr) (h : P u) :
    P (cycleAge fuel k p u mem file).2.cyc.su := by
  unfold cycleAge
  dsimp only
  have h1 := ageLoop_keeps hset hvol hstep k hr hc fuel p (-p.Ccha * StorageUnit.Cap u) (p.Cdis * StorageUnit.Cap u)
    p.Ncycle.toNat 0 { cyc := { su := u, diagnostic := true }, th := Thr.zero, mem := mem, file := file } h
  rcases hk : Age.loop fuel k p (-p.Ccha * StorageUnit.Cap u) (p.Cdis * StorageUnit.Cap u)
    p.Ncycle.toNat 0 { cyc := { su := u, diagnostic := true }, th := Thr.zero, mem := mem, file := file } with
    ⟨n | e | w, a1⟩ <;> rw [hk] at h1
  · dsimp only
    have h3 := ageCheckUp_keeps k hc (a1.writeThroughput a1.th.Ah) a1.th.Ah p.Ncycle h1
    rcases hk3 : (a1.writeThroughput a1.th.Ah).checkUp k a1.th.Ah p.Ncycle with ⟨_ | e | w, a2⟩ <;> rw [hk3] at h3 <;>
      exact h3
  · exact h1
  · exact h1

theorem balanceCell_keeps {P : U → Prop} (hset : ∀ u i b, P u → P (StorageUnit.setCurrent u i b).2)
    (hvol : ∀ u v, P u → P (VoltageUnit.setVoltage u v).2)
    (hstep : ∀ u dt k, P u → P (timeStep u dt k).2) (fuel : ℕ) (Vbal : ℚ) (u : U) (h : P u) :
    P (balanceCell fuel Vbal u).2 := by
  unfold balanceCell Cyc.CCCV
  have h1 := CCCVt_keeps hset hvol hstep fuel { su := u } (StorageUnit.Cap u * (1/2)) Vbal (StorageUnit.Cap u * (1/1000))
    TIME_INF 1 0 Thr.zero h
  rcases hk : Cyc.CCCVt fuel { su := u } (StorageUnit.Cap u * (1/2)) Vbal (StorageUnit.Cap u * (1/1000))
    TIME_INF 1 0 Thr.zero with ⟨_ | e | w, c1, th⟩ <;> rw [hk] at h1
  · dsimp only
    have h2 := hset c1.su 0 true h1
    rcases hk2 : StorageUnit.setCurrent c1.su 0 true with ⟨_ | e | w, u'⟩ <;> rw [hk2] at h2 <;> exact h2
  · exact h1
  · exact h1

end

section
variable {C : Type} [StorageUnit C] [VoltageUnit C]

omit [StorageUnit C] [VoltageUnit C] in
theorem balanceKids_rel {U : Type} {R : U → U → Prop} (hrefl : ∀ u, R u u) (f : U → Outcome Status × U)
    (hf : ∀ u, R u (f u).2) (first : Bool) (l : List (Kid U)) :
    List.Forall₂ (fun x y => Kid.rc x = Kid.rc y ∧ R x.su y.su) l (balanceKids f first l).2 := by
  induction l generalizing first with
  | nil => exact .nil
  | cons k ks ih =>
    have hsame : ∀ l : List (Kid U), List.Forall₂ (fun x y => Kid.rc x = Kid.rc y ∧ R x.su y.su) l l :=
      fun l => List.forall₂_same.mpr fun _ _ => ⟨rfl, hrefl _⟩
    unfold balanceKids
    have h1 := hf k.su
    rcases hk : f k.su with ⟨st | e | w, u⟩ <;> rw [hk] at h1
    · dsimp only
      by_cases hs : st.isSuccessful = true
      · rw [if_pos hs]; exact .cons ⟨rfl, h1⟩ (ih false)
      · rw [if_neg hs]
        cases first
        · exact .cons ⟨rfl, h1⟩ (hsame _)
        · exact .cons ⟨rfl, h1⟩ (hsame _)
    · exact .cons ⟨rfl, h1⟩ (hsame _)
    · exact .cons ⟨rfl, h1⟩ (hsame _)

theorem rebalanceTree_rel {R : C → C → Prop} (hrefl : ∀ c, R c c) (fuel : ℕ) (Vbal : ℚ)
    (hcell : ∀ c : C, R c (balanceCell fuel Vbal c).2) (d : ℕ) (t : Tree C d) :
    CellWise R d t (rebalanceTree fuel Vbal d t).2 := by
  induction d with
  | zero => exact hcell t
  | succ d ih =>
    cases t with
    | cell c => exact hcell c
    | series m => exact ⟨rfl, balanceKids_rel (cellWise_refl hrefl d) _ ih true m.kids⟩
    | parallel m => exact ⟨rfl, balanceKids_rel (cellWise_refl hrefl d) _ ih true m.kids⟩

omit [StorageUnit C] [VoltageUnit C] in
theorem blockTop_rel {R : C → C → Prop} (hrefl : ∀ c, R c c) (set : Bool → C → C) (b : Bool) (hset : ∀ c, R c (set b c))
    (d : ℕ) (t : Tree C d) : CellWise R d t (blockTop set b d t) := by
  cases d with
  | zero => exact hset t
  | succ d =>
    cases t with
    | cell c => exact hset c
    | series m => exact cellWise_refl hrefl (d + 1) (Node.series m : Tree C (d + 1))
    | parallel m => exact cellWise_refl hrefl (d + 1) (Node.parallel m : Tree C (d + 1))

omit [StorageUnit C] [VoltageUnit C] in
theorem isModule_cellWise {R : C → C → Prop} {d : ℕ} {t t' : Tree C d} (h : CellWise R d t t') (hm : IsModule d t) :
    IsModule d t' := by
  cases d with
  | zero => cases hm
  | succ d =>
    cases t with
    | cell c => cases hm
    | series m =>
      cases t' with
      | cell c => cases h
      | series m' => trivial
      | parallel m' => trivial
    | parallel m =>
      cases t' with
      | cell c => cases h
      | series m' => trivial
      | parallel m' => trivial

omit [StorageUnit C] [VoltageUnit C] in
theorem blockTop_module (set : Bool → C → C) (b : Bool) {d : ℕ} {t : Tree C d} (hm : IsModule d t) :
    blockTop set b d t = t := by
  cases d with
  | zero => cases hm
  | succ d =>
    cases t with
    | cell c => cases hm
    | series m => rfl
    | parallel m => rfl

theorem balancingTree_rel {R : C → C → Prop} (hrefl : ∀ c, R c c) (htrans : ∀ a b c, R a b → R b c → R a c)
    (set : Bool → C → C) (hset : ∀ b c, R c (set b c)) (fuel : ℕ) (Vbal : ℚ)
    (hcell : ∀ c : C, R c (balanceCell fuel Vbal c).2) (d : ℕ) (t : Tree C d) :
    CellWise R d t (balancingTree set fuel Vbal d t).2 := by
  have h1 := cellWise_trans htrans d (blockTop_rel hrefl set true (hset true) d t)
    (rebalanceTree_rel hrefl fuel Vbal hcell d (blockTop set true d t))
  unfold balancingTree
  rcases hk : rebalanceTree fuel Vbal d (blockTop set true d t) with ⟨_ | e | w, t'⟩ <;> rw [hk] at h1
  · exact cellWise_trans htrans d h1 (blockTop_rel hrefl set false (hset false) d t')
  · exact h1
  · exact h1

theorem balancingTree_module_rel {R : C → C → Prop} (hrefl : ∀ c, R c c) (set : Bool → C → C) (fuel : ℕ) (Vbal : ℚ)
    (hcell : ∀ c : C, R c (balanceCell fuel Vbal c).2) (d : ℕ) (t : Tree C d) (hm : IsModule d t) :
    CellWise R d t (balancingTree set fuel Vbal d t).2 := by
  unfold balancingTree
  rw [blockTop_module set true hm]
  have h1 := rebalanceTree_rel hrefl fuel Vbal hcell d t
  rcases hk : rebalanceTree fuel Vbal d t with ⟨_ | e | w, t'⟩ <;> rw [hk] at h1
  · dsimp only
    rw [blockTop_module set false (isModule_cellWise h1 hm)]
    exact h1
  · exact h1
  · exact h1

omit [VoltageUnit C] in
theorem checkUpTree_unit (fuel d : ℕ) (t : Tree C d) : (checkUpTree fuel d t).2 = (checkUpPrep fuel t).2 := by
  unfold checkUpTree
  rcases checkUpPrep fuel t with ⟨_ | e | w, t1⟩
  · dsimp only
    rcases treeCells d t1 with _ | ⟨c, cs⟩ <;> rfl
  · rfl
  · rfl

end
end Slide

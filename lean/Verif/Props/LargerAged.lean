import Verif.Lemmas.LargerAged
import Verif.Lemmas.LargerPack
import Verif.Spec.LargerAgedUnit
import Verif.Props.LargerPack
import Verif.Props.Reference
import Verif.Props.Driven

/-!
# C152: a larger cell warms and ages alike
-/

namespace Slide
open StorageUnit Spec Cyc

section
variable {N : ℕ} {k A : ℚ}

/-! ## Helper lemmas: what ordinary use keeps -/

theorem use_keeps (c : SPM N) (o : SpmOp N) (ho : blockedUse o) :
    (spmAfter c o).fixed = c.fixed ∧ (spmAfter c o).parent = c.parent := by
  have hV : ∀ a : SPM N, a.V.2.fixed = a.fixed ∧ a.V.2.parent = a.parent := by
    intro a
    unfold SPM.V
    split
    · exact ⟨rfl, rfl⟩
    · rcases a.calcV with (_ | v) | e | w <;> exact ⟨rfl, rfl⟩
  have hC : ∀ a : SPM N, a.checkV.2.fixed = a.fixed ∧ a.checkV.2.parent = a.parent := by
    intro a
    have h := hV a
    unfold SPM.checkV
    rcases hk : a.V with ⟨v | e | w, a'⟩ <;> rw [hk] at h <;> exact h
  cases o with
  | readV => exact hV c
  | setCurrent i b => exact ⟨setCurrent_fixed c i b, congrArg (fun x => x.2.2.2.2.2.2) (aside_setCurrent c i b)⟩
  | setSOC s b =>
    show (c.setSOC s b).2.fixed = _ ∧ (c.setSOC s b).2.parent = _
    unfold SPM.setSOC
    split
    · exact ⟨rfl, rfl⟩
    · cases b
      · exact ⟨rfl, rfl⟩
      · have h := hC ({ c with st := { c.st with SOC := s } } : SPM N)
        simp only [if_true]
        rcases hk : SPM.checkV ({ c with st := { c.st with SOC := s } } : SPM N) with ⟨r | e | w, c2⟩ <;> rw [hk] at h
        · simp only
          split <;> exact h
        · exact h
        · exact h
  | setT t => exact ⟨rfl, rfl⟩
  | setTenv t =>
    show (c.setTenv t).2.fixed = _ ∧ (c.setTenv t).2.parent = _
    unfold SPM.setTenv
    split <;> exact ⟨rfl, rfl⟩
  | setC fp fn =>
    show (c.setC fp fn).2.fixed = _ ∧ (c.setC fp fn).2.parent = _
    unfold SPM.setC
    split <;> exact ⟨rfl, rfl⟩
  | step dt n =>
    refine ⟨SPM.timeStep_fixed c dt n, ?_⟩
    show (c.timeStep dt n).2.parent = c.parent
    have hT : ∀ (a : SPM N) h, (a.thermStep h).2.parent = a.parent := by
      intro a h
      unfold SPM.thermStep
      rcases a.heat with q | e | w
      · show (SPM.thermPass _).2.parent = _
        unfold SPM.thermPass
        split
        · rfl
        · have hA : ∀ b : SPM N, b.thermAlone.2.parent = b.parent := by
            intro b
            unfold SPM.thermAlone
            split
            · rfl
            · split
              · rfl
              · simp only
                split <;> rfl
          have hB := hA ({ a with Qgen := a.Qgen + q * h, thermTime := a.thermTime + h } : SPM N)
          rcases hk : SPM.thermAlone ({ a with Qgen := a.Qgen + q * h, thermTime := a.thermTime + h } : SPM N) with ⟨t | e | w, c2⟩ <;>
            rw [hk] at hB <;> exact hB
      · rfl
      · rfl
    have hG : ∀ (a : SPM N) h, (a.ageStep h).2.parent = a.parent := by
      intro a h
      have h1 : a.updDai.parent = a.parent := by
        unfold SPM.updDai
        split <;> rfl
      have h2 : ∀ b : SPM N, b.updLares.2.parent = b.parent := by
        intro b
        unfold SPM.updLares
        split
        · split
          · rfl
          · split
            · rfl
            · split <;> rfl
        · rfl
      have h3 := (h2 a.updDai).trans h1
      unfold SPM.ageStep SPM.andThen
      rcases hk : a.updDai.updLares with ⟨_ | e | w, c1⟩ <;> rw [hk] at h3
      · simp only
        rcases c1.degRate with d | e | w <;> exact h3
      · exact h3
      · exact h3
    unfold SPM.timeStep
    split
    · rfl
    · have h : (SPM.diffLoop dt n.toNat (c.rotate (n * dt))).2.parent = c.parent :=
        congrArg (fun x => x.2.2.2.2.2.2) ((aside_diffLoop dt n.toNat (c.rotate (n * dt))).trans rfl)
      generalize SPM.diffLoop dt n.toNat (c.rotate (n * dt)) = r at *
      obtain ⟨o, a⟩ := r
      unfold SPM.andThen
      rcases o with _ | e | w
      · simp only
        split
        · exact h
        · have h2 := (hT a (dt * n)).trans h
          rcases hk : a.thermStep (dt * n) with ⟨_ | e | w, b⟩ <;> rw [hk] at h2
          · exact (hG b _).trans h2
          · exact h2
          · exact h2
      · exact h
      · exact h
  | setStates s b => exact ho.elim
  | setStateObj st => exact ho.elim
  | block b => exact ho.elim
  | overwriteChar a b r => exact ho.elim
  | overwriteGeo a b e f g h => exact ho.elim
  | setGeometric a b e f g h => exact ho.elim
  | setCharacterisation a b e f g => exact ho.elim

theorem coolsAlike_fixed {a b : SPM N} (h : b.fixed = a.fixed) (hp : b.parent = a.parent) (hs : CoolsAlike k A a) : CoolsAlike k A b := by
  have e1 : b.par = a.par := congrArg Prod.fst h
  unfold CoolsAlike
  rw [e1, hp]; exact hs

/-! ## C152: one cell -/

/-- **C152, one call**: the larger cell with `k` times the current ends in the larger state. -/
theorem larger_aged_call (hk : 0 < k) {c : SPM N} (hs : SizeFree c.par c.deg) (hA : CoolsAlike k A c) (o : SpmOp N)
    (ho : blockedUse o) : spmAfter (largerAged k A c) (scaleOp k o) = largerAged k A (spmAfter c o) := by
  cases o with
  | readV => exact congrArg Prod.snd (la_V hk c)
  | setCurrent i b => exact congrArg Prod.snd (la_setCurrent hk c i b)
  | setSOC s b => exact congrArg Prod.snd (la_setSOC hk c s b)
  | setT t => rfl
  | setTenv t =>
    show ((largerAged k A c).setTenv t).2 = largerAged k A (c.setTenv t).2
    unfold SPM.setTenv
    split <;> rfl
  | setC fp fn =>
    show ((largerAged k A c).setC fp fn).2 = largerAged k A (c.setC fp fn).2
    unfold SPM.setC
    split
    · rfl
    · simp only [largerAged, largerSt, mul_zero]
      rfl
  | step dt n => exact congrArg Prod.snd (la_timeStep hk c hs hA dt n)
  | setStates s b => exact ho.elim
  | setStateObj st => exact ho.elim
  | block b => exact ho.elim
  | overwriteChar a b r => exact ho.elim
  | overwriteGeo a b e f g h => exact ho.elim
  | setGeometric a b e f g h => exact ho.elim
  | setCharacterisation a b e f g => exact ho.elim

/-- **C152, any use**: after the same calls with `k` times the currents the larger cell is the larger version of the small one. -/
theorem larger_aged_run (hk : 0 < k) (ops : List (SpmOp N)) : ∀ {c : SPM N}, SizeFree c.par c.deg → CoolsAlike k A c →
    (∀ o ∈ ops, blockedUse o) → spmRun (largerAged k A c) (ops.map (scaleOp k)) = largerAged k A (spmRun c ops) := by
  induction ops with
  | nil => intro c _ _ _; rfl
  | cons o os ih =>
    intro c hs hA ho
    obtain ⟨h1, h2⟩ := use_keeps c o (ho o (List.mem_cons_self ..))
    show spmRun (spmAfter (largerAged k A c) (scaleOp k o)) (os.map (scaleOp k)) = _
    rw [larger_aged_call hk hs hA o (ho o (List.mem_cons_self ..))]
    exact ih (sizeFree_fixed h1 hs) (coolsAlike_fixed h1 h2 hA) (fun o' h => ho o' (List.mem_cons_of_mem _ h))

/-- The larger cell reports what the small one reports. -/
theorem larger_aged_reads (hk : 0 < k) (c : SPM N) : ages (largerAged k A c) = ages c ∧
    (largerAged k A c).st.LLI = k * c.st.LLI ∧ (largerAged k A c).st.SOC = c.st.SOC ∧ (largerAged k A c).st.Ah = k * c.st.Ah ∧
    (largerAged k A c).Qtot = k * c.Qtot := by
  refine ⟨?_, rfl, rfl, rfl, rfl⟩
  unfold ages
  rw [la_V hk]
  rfl

/-- The stress of Dai's model is the same in the larger cell, so that its function of the state is that of the small cell in
the corresponding state. -/
theorem larger_dai (hk : 0 < k) (c : SPM N) (mp mn : Dai.Material) (Q : Fin (2 * N + 3) → Fin (2 * N + 3) → ℚ)
    (h : ∀ s, Dai.ofCell mp mn Q { c with st := s } = .ok (c.par.dai s)) (s : SpmState N) :
    Dai.ofCell mp mn Q { largerAged k A c with st := s } = .ok ((largerAged k A c).par.dai s) := by
  have e : largerSt k (largerSt k⁻¹ s) = s := by
    have := largerSt_inv (inv_pos.mpr hk) s
    rwa [inv_inv] at this
  have h0 := h (largerSt k⁻¹ s)
  obtain ⟨d, hd⟩ : ∃ d : SPM N, d = { c with st := largerSt k⁻¹ s } := ⟨_, rfl⟩
  have h1 : ({ largerAged k A c with st := s } : SPM N) =
      { largerAged k A d with Qgen := (largerAged k A c).Qgen, Qtot := (largerAged k A c).Qtot } := by
    rw [hd]
    unfold largerAged
    simp only [e]
  have hP : Dai.concP ({ largerAged k A c with st := s } : SPM N) = Dai.concP d := by
    rw [h1]
    funext i
    have a1 := la_nodeP (A := A) hk d
    have a2 := la_centreP (A := A) hk d
    show (if h : i.val < N + 1 then (largerAged k A d).nodeP ⟨i.val, h⟩ else (largerAged k A d).centreP) = _
    simp only [a1, a2]
    rfl
  have hN : Dai.concN ({ largerAged k A c with st := s } : SPM N) = Dai.concN d := by
    rw [h1]
    funext i
    have a1 := la_nodeN (A := A) hk d
    have a2 := la_centreN (A := A) hk d
    show (if h : i.val < N + 1 then (largerAged k A d).nodeN ⟨i.val, h⟩ else (largerAged k A d).centreN) = _
    simp only [a1, a2]
    rfl
  have hx : ({ largerAged k A c with st := s } : SPM N).par.M.xch = d.par.M.xch := by rw [hd]; rfl
  rw [← hd] at h0
  unfold Dai.ofCell at h0 ⊢
  rw [hP, hN, hx]
  exact h0

/-- **C152 (part)**: with ageing models that contain no absolute size and no thermal model (or a module that cools the cell), a
cell made with capacity factor `k` warms and ages as the cell made with factor 1. -/
theorem larger_ages_alike_partial {c : SPM N} (hc : FreshCell c) {deg : DegSel} (hs : SizeFree c.par deg)
    (ht : c.par.tModel = 0 ∨ c.parent = true) : LargerAgesAlike c deg := by
  intro k hk ops ho
  have e : c.build deg k 1 1 1 = largerAged k c.par.Acell (c.build deg 1 1 1 1) := by
    refine SPM.ext ?_ ?_ rfl rfl ?_ ?_ rfl rfl rfl rfl rfl
    · have hd : (fun s => c.par.dai (largerSt k⁻¹ s)) = c.par.dai := funext (hc.dai k⁻¹)
      show ({ c.par with cap := _, elecSurf := _, sei := _, cs := _, lam := _, pl := _ } : SpmPar N) = _
      unfold largerAged SPM.build
      simp only [hd, mul_one, mul_comm k]
    · show ({ c.st with rDCcc := _, rDCp := _, rDCn := _ } : SpmState N) = largerSt k { c.st with rDCcc := _, rDCp := _, rDCn := _ }
      unfold largerSt
      simp only [hc.I, hc.LLI, hc.Ah, hc.Wh, mul_zero]
    · show c.Qgen = k * c.Qgen
      rw [hc.Qgen, mul_zero]
    · show c.Qtot = k * c.Qtot
      rw [hc.Qtot, mul_zero]
  have hs' : SizeFree (c.build deg 1 1 1 1).par (c.build deg 1 1 1 1).deg := hs
  have hA : CoolsAlike k c.par.Acell (c.build deg 1 1 1 1) := by
    rcases ht with h | h
    · exact .inr (.inl h)
    · exact .inl h
  simp only
  rw [e, larger_aged_run hk ops hs' hA ho]
  obtain ⟨h1, h2, -⟩ := larger_aged_reads (A := c.par.Acell) hk (spmRun (c.build deg 1 1 1 1) ops)
  exact ⟨h1, h2⟩

end

/-! ## C152: packs and cycling -/

section
variable {N : ℕ} {k : ℚ} {d : ℕ}

theorem largerAged_sound (hk : 0 < k) {A : ℚ} {c : SPM N} (h : SpmSound c) : SpmSound (largerAged k A c) where
  finite := (la_finite hk c).trans h.finite
  cap := mul_ne_zero hk.ne' h.cap
  exp := h.exp
  sqrt := h.sqrt
  elec := h.elec
  kp := h.kp
  kn := h.kn
  curves := h.curves

/-- The larger cell as a child of modules. -/
def largerUnit (hk : 0 < k) (u : SizeFreeUnit N) : SizeFreeUnit N where
  unit := ⟨largerAged k (k * u.unit.cell.par.Acell) u.unit.cell, largerAged_sound hk u.unit.sound⟩
  free := u.free

theorem SizeFreeUnit.ext_cell {a b : SizeFreeUnit N} (h : a.unit.cell = b.unit.cell) : a = b := by
  obtain ⟨⟨a, _⟩, _⟩ := a
  obtain ⟨⟨b, _⟩, _⟩ := b
  cases h; rfl

theorem largerUnit_size (hk : 0 < k) : SizeMap k (largerUnit (N := N) hk) where
  V u := by
    show (match (largerAged k (k * u.unit.cell.par.Acell) u.unit.cell).V.1 with | .ok v => v | _ => 0) =
      (match u.unit.cell.V.1 with | .ok v => v | _ => 0)
    rw [la_V hk]
  I _ := rfl
  Cap _ := rfl
  lim _ := rfl
  OCV u := by
    have e : (largerAged k (k * u.unit.cell.par.Acell) u.unit.cell).getOCV = u.unit.cell.getOCV := by
      unfold SPM.getOCV
      rw [la_finite hk, la_cps hk, la_cns hk]
      rfl
    show (match (largerAged k (k * u.unit.cell.par.Acell) u.unit.cell).getOCV with | .ok v => some v | _ => none) =
      (match u.unit.cell.getOCV with | .ok v => some v | _ => none)
    rw [e]
  Rtot u := by
    show (largerAged k (k * u.unit.cell.par.Acell) u.unit.cell).Rdc = u.unit.cell.Rdc / k
    have e : ∀ x y : ℚ, x / (k * y) = x / y / k := by
      intro x y
      rw [mul_comm k y, div_mul_eq_div_div]
    have e3 : ∀ x y z : ℚ, x / (y * (k * u.unit.cell.par.elecSurf) * z) = x / (y * u.unit.cell.par.elecSurf * z) / k := by
      intro x y z
      rw [show y * (k * u.unit.cell.par.elecSurf) * z = k * (y * u.unit.cell.par.elecSurf * z) by ring, e]
    unfold SPM.Rdc largerAged largerSt
    simp only
    rw [e3, e3, e3, e]
    ring
  Vlow u := by
    show (match (largerAged k (k * u.unit.cell.par.Acell) u.unit.cell).V.1 with | .ok v => v | _ => 0) =
      (match u.unit.cell.V.1 with | .ok v => v | _ => 0)
    rw [la_V hk]
  Vhigh u := by
    show (match (largerAged k (k * u.unit.cell.par.Acell) u.unit.cell).V.1 with | .ok v => v | _ => 0) =
      (match u.unit.cell.V.1 with | .ok v => v | _ => 0)
    rw [la_V hk]
  check u := by
    show (match (largerAged k (k * u.unit.cell.par.Acell) u.unit.cell).checkV.1 with | .ok s => s | _ => .V_not_calculated) =
      (match u.unit.cell.checkV.1 with | .ok s => s | _ => .V_not_calculated)
    rw [la_checkV hk]
  set u i b := by
    have h := la_setCurrent (A := k * u.unit.cell.par.Acell) hk u.unit.cell i b
    have h1 := congrArg Prod.fst h
    have h2 := congrArg Prod.snd h
    refine Prod.ext h1 (SizeFreeUnit.ext_cell (Eq.trans h2 ?_))
    have e : (u.unit.cell.setCurrent i b).2.par = u.unit.cell.par := congrArg Prod.fst (setCurrent_fixed u.unit.cell i b)
    show largerAged k (k * u.unit.cell.par.Acell) (u.unit.cell.setCurrent i b).2 =
      largerAged k (k * (u.unit.cell.setCurrent i b).2.par.Acell) (u.unit.cell.setCurrent i b).2
    rw [e]
  step u dt n := by
    have h := la_timeStep (A := k * u.unit.cell.par.Acell) hk u.unit.cell u.free (.inr (.inr rfl)) dt n
    have e : (u.unit.cell.timeStep dt n).2.par = u.unit.cell.par := congrArg Prod.fst (SPM.timeStep_fixed u.unit.cell dt n)
    have hf : ((largerAged k (k * u.unit.cell.par.Acell) u.unit.cell).timeStep dt n).2.finite = (u.unit.cell.timeStep dt n).2.finite := by
      rw [h]; exact la_finite hk _
    by_cases hz : (u.unit.cell.timeStep dt n).2.finite = true
    · have e1 : StorageUnit.timeStep u.unit dt n = ((u.unit.cell.timeStep dt n).1, ⟨(u.unit.cell.timeStep dt n).2,
          u.unit.sound.congr e (hz.trans u.unit.sound.finite.symm)⟩) := dif_pos hz
      have e2 : StorageUnit.timeStep (largerUnit hk u).unit dt n = (((largerUnit hk u).unit.cell.timeStep dt n).1,
          ⟨((largerUnit hk u).unit.cell.timeStep dt n).2, (largerUnit hk u).unit.sound.congr
            (congrArg Prod.fst (SPM.timeStep_fixed _ dt n)) ((hf.trans hz).trans (largerUnit hk u).unit.sound.finite.symm)⟩) :=
        dif_pos (hf.trans hz)
      refine Prod.ext ?_ (SizeFreeUnit.ext_cell ?_)
      · show (StorageUnit.timeStep (largerUnit hk u).unit dt n).1 = (StorageUnit.timeStep u.unit dt n).1
        rw [e1, e2]
        have h1 := congrArg Prod.fst h
        exact h1
      · show (StorageUnit.timeStep (largerUnit hk u).unit dt n).2.cell =
          largerAged k (k * (StorageUnit.timeStep u.unit dt n).2.cell.par.Acell) (StorageUnit.timeStep u.unit dt n).2.cell
        rw [e1, e2]
        show ((largerAged k (k * u.unit.cell.par.Acell) u.unit.cell).timeStep dt n).2 =
          largerAged k (k * (u.unit.cell.timeStep dt n).2.par.Acell) (u.unit.cell.timeStep dt n).2
        rw [e, h]
    · have e1 : StorageUnit.timeStep u.unit dt n = (.ub "state outside the domain of the model", u.unit) := dif_neg hz
      have e2 : StorageUnit.timeStep (largerUnit hk u).unit dt n = (.ub "state outside the domain of the model", (largerUnit hk u).unit) :=
        dif_neg (fun g => hz (hf.symm.trans g))
      refine Prod.ext ?_ (SizeFreeUnit.ext_cell ?_)
      · show (StorageUnit.timeStep (largerUnit hk u).unit dt n).1 = (StorageUnit.timeStep u.unit dt n).1
        rw [e1, e2]
      · show (StorageUnit.timeStep (largerUnit hk u).unit dt n).2.cell =
          largerAged k (k * (StorageUnit.timeStep u.unit dt n).2.cell.par.Acell) (StorageUnit.timeStep u.unit dt n).2.cell
        rw [e1, e2]
        rfl

/-- Restricting the ageing models changes no call. -/
theorem sizeFree_is_aged : SizeMap 1 (SizeFreeUnit.unit (N := N)) where
  V _ := rfl
  I u := (one_mul _).symm
  Cap u := (one_mul _).symm
  lim _ := rfl
  OCV _ := rfl
  Rtot u := (div_one _).symm
  Vlow _ := rfl
  Vhigh _ := rfl
  check _ := rfl
  set u i b := by rw [one_mul]; rfl
  step u dt n := rfl

/-- **C152, packs**: a pack of larger cells reads the same voltages and `k` times the current, and stays the larger version of
the small pack through every call, whatever its cells age by. -/
theorem larger_aged_pack (hk : 0 < k) (m : Tree (SizeFreeUnit N) d) :
    (StorageUnit.V (largerPack k (largerUnit hk) d m) = StorageUnit.V m ∧
      StorageUnit.I (largerPack k (largerUnit hk) d m) = k * StorageUnit.I m ∧
      StorageUnit.Cap (largerPack k (largerUnit hk) d m) = k * StorageUnit.Cap m ∧
      StorageUnit.Rtot (largerPack k (largerUnit hk) d m) = StorageUnit.Rtot m / k) ∧
    (∀ i b, StorageUnit.setCurrent (largerPack k (largerUnit hk) d m) (k * i) b =
      ((StorageUnit.setCurrent m i b).1, largerPack k (largerUnit hk) d (StorageUnit.setCurrent m i b).2)) ∧
    (∀ dt j, StorageUnit.timeStep (largerPack k (largerUnit hk) d m) dt j =
      ((StorageUnit.timeStep m dt j).1, largerPack k (largerUnit hk) d (StorageUnit.timeStep m dt j).2)) := by
  have h := larger_pack hk (largerUnit_size (N := N) hk) d
  exact ⟨⟨h.V m, h.I m, h.Cap m, h.Rtot m⟩, h.set m, h.step m⟩

/-- **C152, constant current**: cycling a pack of larger cells ages it as cycling the small pack does. -/
theorem larger_aged_pack_cc (hk : 0 < k) (fuel : ℕ) (c : Cyc (Tree (SizeFreeUnit N) d)) (I vlim tlim dt : ℚ) (ndt : ℤ) (th : Thr) :
    CC fuel (cycMap (largerPack k (largerUnit hk) d) c) (k * I) vlim tlim dt ndt (thrTimes k th) =
      let r := CC fuel c I vlim tlim dt ndt th
      (r.1, cycMap (largerPack k (largerUnit hk) d) r.2.1, thrTimes k r.2.2) :=
  scaled_cc (larger_pack hk (largerUnit_size hk) d) hk fuel c I vlim tlim dt ndt th

/-- **C152, rest** (calendar ageing). -/
theorem larger_aged_pack_rest (hk : 0 < k) (fuel : ℕ) (c : Cyc (Tree (SizeFreeUnit N) d)) (tlim dt : ℚ) (ndt : ℤ) (th : Thr) :
    rest fuel (cycMap (largerPack k (largerUnit hk) d) c) tlim dt ndt (thrTimes k th) =
      let r := rest fuel c tlim dt ndt th
      (r.1, cycMap (largerPack k (largerUnit hk) d) r.2.1, thrTimes k r.2.2) :=
  scaled_rest (larger_pack hk (largerUnit_size hk) d) fuel c tlim dt ndt th

theorem largerUnit_hold (hk : 0 < k) : HoldMap k (largerUnit (N := N) hk) where
  toSizeMap := largerUnit_size hk
  hold u v := scaled_iterative (largerUnit_size hk) u v

/-- **C152, constant current and constant voltage** on one cell (with the limits of C150). -/
theorem larger_aged_cccv_partial (hk : 0 < k) (fuel : ℕ) (c : Cyc (SizeFreeUnit N)) (I Vset : ℚ) {Ilim : ℚ}
    (h1 : AboveSmallest |Ilim|) (h2 : AboveSmallest (k * |Ilim|)) (tlim dt : ℚ) (ndt : ℤ) (th : Thr) :
    CCCVt fuel (cycMap (largerUnit hk) c) (k * I) Vset (k * Ilim) tlim dt ndt (thrTimes k th) =
      let r := CCCVt fuel c I Vset Ilim tlim dt ndt th
      (r.1, cycMap (largerUnit hk) r.2.1, thrTimes k r.2.2) :=
  scaled_cccv (largerUnit_hold hk) hk fuel c I Vset h1 h2 tlim dt ndt th

/-- **C152, constant current and constant voltage** on a series module (of modules). -/
theorem larger_aged_string_cccv_partial (hk : 0 < k) (fuel : ℕ) (c : Cyc (ModuleS (Tree (SizeFreeUnit N) d))) (I Vset : ℚ) {Ilim : ℚ}
    (h1 : AboveSmallest |Ilim|) (h2 : AboveSmallest (k * |Ilim|)) (tlim dt : ℚ) (ndt : ℤ) (th : Thr) :
    CCCVt fuel (cycMap (largerSeries k (largerPack k (largerUnit hk) d)) c) (k * I) Vset (k * Ilim) tlim dt ndt (thrTimes k th) =
      let r := CCCVt fuel c I Vset Ilim tlim dt ndt th
      (r.1, cycMap (largerSeries k (largerPack k (largerUnit hk) d)) r.2.1, thrTimes k r.2.2) :=
  scaled_cccv (larger_string_hold hk (larger_pack hk (largerUnit_size hk) d)) hk fuel c I Vset h1 h2 tlim dt ndt th

end

/-! ## The full statement, and what stands against it -/

/-- Full statement: with any ageing and thermal models. -/
def LargerAlwaysAgesAlike : Prop := ∀ (c : SPM 1) (deg : DegSel), FreshCell c → LargerAgesAlike c deg

/-- A new cell with a curved exponential function. -/
def spmNewPot : SPM 1 := { spmPot with deg := { SEI := [], SEIpor := 0, CS := [], CSdiff := 0, LAM := [], pl := 0 } }

theorem spmNewPot_fresh : FreshCell spmNewPot := ⟨rfl, rfl, rfl, rfl, rfl, rfl, fun _ _ => rfl⟩

/-- The same cell with a thermal model. -/
def spmNewWarm : SPM 1 := { spmNewPot with par := { spmNewPot.par with tModel := 1 } }

theorem spmNewWarm_fresh : FreshCell spmNewWarm := ⟨rfl, rfl, rfl, rfl, rfl, rfl, fun _ _ => rfl⟩

/-- The voltage drop over the surface layer is computed from the current instead of the current density: SEI model 1 makes a
thicker layer on a cell of another size. -/
theorem larger_sei_differs : ¬ LargerAgesAlike spmNewPot { SEI := [1], SEIpor := 0, CS := [], CSdiff := 0, LAM := [], pl := 0 } := by
  intro h
  have := (h 2 (by norm_num) [.setCurrent (-1 / 100) true, .step (1 / 1000000) 1]
    (by intro o ho; simp only [List.mem_cons, List.not_mem_nil, or_false] at ho; rcases ho with rfl | rfl <;> trivial)).1
  have := congrArg (fun x => x.2.1.2.1) this
  revert this
  decide +kernel

/-- Lithium plating likewise. -/
theorem larger_plating_differs : ¬ LargerAgesAlike spmNewPot { SEI := [], SEIpor := 0, CS := [], CSdiff := 0, LAM := [], pl := 1 } := by
  intro h
  have := (h 2 (by norm_num) [.setCurrent (-1 / 100) true, .step (1 / 1000000) 1]
    (by intro o ho; simp only [List.mem_cons, List.not_mem_nil, or_false] at ho; rcases ho with rfl | rfl <;> trivial)).1
  have := congrArg (fun x => x.2.1.2.2) this
  revert this
  decide +kernel

/-- The surface of the cracks of a new cell does not depend on its size (nor does its growth): a larger cell loses less
lithium per surface. -/
theorem larger_cracks_differ : ¬ LargerAgesAlike spmNewPot { SEI := [4], SEIpor := 0, CS := [3], CSdiff := 0, LAM := [], pl := 0 } := by
  intro h
  have := (h 2 (by norm_num) [.setCurrent (-1 / 100) true, .step (1 / 1000000) 1]
    (by intro o ho; simp only [List.mem_cons, List.not_mem_nil, or_false] at ho; rcases ho with rfl | rfl <;> trivial)).2
  revert this
  decide +kernel

/-- The cooling surface of a cell alone does not grow with it: a larger cell gets hotter. -/
theorem larger_cooling_differs : ¬ LargerAgesAlike spmNewWarm { SEI := [], SEIpor := 0, CS := [], CSdiff := 0, LAM := [], pl := 0 } := by
  intro h
  have := (h 2 (by norm_num) [.setCurrent (-1 / 100) true, .step (1 / 1000000) 1, .step (1 / 1000000) 1]
    (by intro o ho; simp only [List.mem_cons, List.not_mem_nil, or_false] at ho; rcases ho with rfl | rfl | rfl <;> trivial)).1
  have := congrArg (fun x => x.2.1.1) this
  revert this
  decide +kernel

/-- **C152 in full is false of the code.** -/
theorem not_largerAlwaysAgesAlike : ¬ LargerAlwaysAgesAlike := fun h => larger_sei_differs (h _ _ spmNewPot_fresh)

/-! ## Non-vacuity -/

/-- A cell that ages by SEI model 4 and three models of loss of active material is covered, and does age. -/
example : FreshCell spmNewPot ∧ SizeFree spmNewPot.par { SEI := [4], SEIpor := 1, CS := [], CSdiff := 0, LAM := [2, 3, 4], pl := 0 } ∧
    spmNewPot.par.tModel = 0 := by
  refine ⟨spmNewPot_fresh, ⟨.inr ⟨?_, by decide⟩, ?_⟩, rfl⟩ <;> intro i hi <;> simp at hi
  subst hi; decide

example : let deg : DegSel := { SEI := [4], SEIpor := 1, CS := [], CSdiff := 0, LAM := [2, 3, 4], pl := 0 }
    let ops : List (SpmOp 1) := [.setCurrent (-1 / 100) true, .step (1 / 1000000) 1]
    let a := spmRun (spmNewPot.build deg 1 1 1 1) ops
    let b := spmRun (spmNewPot.build deg 3 1 1 1) (ops.map (scaleOp 3))
    spmNewPot.st.delta < a.st.delta ∧ 0 < a.st.LLI ∧ a.st.ep ≠ spmNewPot.st.ep ∧ a.st.ap ≠ spmNewPot.st.ap ∧
    b.st.delta = a.st.delta ∧ b.st.LLI = 3 * a.st.LLI ∧ b.st.I = 3 * a.st.I := by decide +kernel

/-- The stress of a cell that computes it meets the hypothesis of `larger_dai`. -/
example : ∃ mp mn Q, ∀ s, Dai.ofCell mp mn Q ({ spmDr with st := s } : SPM 1) = .ok (spmDr.par.dai s) := by
  obtain ⟨-, -, -, ⟨mp, mn, Q, -, h⟩, -⟩ := spmDr_restsWell
  exact ⟨mp, mn, Q, h⟩

/-- With cooling surface in proportion the warming cell is covered too. -/
example : CoolsAlike 2 2 spmNewWarm := .inr (.inr (by show (2 : ℚ) = 2 * 1; norm_num))

end Slide

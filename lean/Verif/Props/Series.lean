import Verif.Lemmas.Modules

/-!
Properties of the series module: C02 (all-or-nothing setCurrent), C07 (equal currents), C08 (voltage law),
module parts of C12 and C13.
-/

namespace Slide
open StorageUnit

/-- `Cell_Bucket` with the library's default OCV curve: capacity 16 Ah, 2 mΩ, given SOC and current. -/
def bucket (soc i : ℚ) : ECM 0 where
  par := { cap := 16, Rdc := 2/1000, Rp := Fin.elim0, invTau := Fin.elim0, ocv := ECM.defaultOCV }
  st := { T := 288, SOC := soc, I := i, Ir := Fin.elim0, time := 0, Ah := 0, Wh := 0 }

/-- A half-full cell's SOC. -/
def half : ℚ := 1/2

theorem bucket_V (soc i : ℚ) (h : 0 ≤ soc ∧ soc ≤ 1) : (bucket soc i).V = 2 + 23/10 * soc - 2/1000 * i := by
  simp [ECM.V, bucket, ECM.defaultOCV_eq, h]

section
variable {U : Type} [StorageUnit U]

/-! ### C02 -/

/-- Full statement of C02: whenever `setCurrent` on a series module reports a bad status, every child
carries the current it carried before. -/
def SeriesSetCurrentAtomic (U : Type) [StorageUnit U] : Prop :=
  ∀ (m : ModuleS U) (Inew : ℚ) (b : Bool) (st : Status), m.kids.length ≤ 100 →
    (m.setCurrent Inew b).1 = .ok st → st.isBad = true →
    (m.setCurrent Inew b).2.kids.map (fun k => StorageUnit.I k.su) = m.kids.map (fun k => StorageUnit.I k.su)

/-- A string whose second cell is empty. -/
def badString : ModuleS (ECM 0) := { T := 288, kids := [⟨0, bucket half 0⟩, ⟨0, bucket 0 0⟩] }

theorem badString_result : (badString.setCurrent 1 true).1 = .ok .VMIN_violation ∧
    (badString.setCurrent 1 true).2.kids.map (fun k => StorageUnit.I k.su) = [1, 0] := by
  have h1 : (bucket half 0).setCurrent 1 true = (.Success, bucket half 1) := by
    have hv : (bucket half 1).V = 3148/1000 := by
      rw [bucket_V half 1 (by norm_num [half])]; norm_num [half]
    have : (bucket half 0).withI 1 = bucket half 1 := rfl
    rw [ECM.setCurrent_eq, this]
    norm_num [ECM.checkCurrent, ECM.checkV, hv, checkVoltage, cellLimits, P_V_ABSTOL, Status.isBad,
      Status.isOK, Status.code, Status.Critical]
  have h2 : (bucket 0 0).setCurrent 1 true = (.VMIN_violation, bucket 0 0) := by
    have hv := bucket_V 0 1 (by norm_num)
    have : (bucket 0 0).withI 1 = bucket 0 1 := rfl
    rw [ECM.setCurrent_eq, this]
    have hI : (bucket 0 1).st.I = 1 := rfl
    norm_num [ECM.checkCurrent, ECM.checkV, hv, hI, checkVoltage, cellLimits, P_V_ABSTOL, Status.isBad,
      Status.isOK, Status.code, Status.Critical]
  have h3 : (bucket 0 0).setCurrent 0 false = (.Success, bucket 0 0) := by
    rw [ECM.setCurrent_unchecked]; rfl
  have e1 : StorageUnit.setCurrent (bucket half 0) 1 true = (.ok .Success, bucket half 1) := by
    show (Outcome.ok _, _) = _; rw [h1]
  have e2 : StorageUnit.setCurrent (bucket 0 0) 1 true = (.ok .VMIN_violation, bucket 0 0) := by
    show (Outcome.ok _, _) = _; rw [h2]
  have e3 : StorageUnit.setCurrent (bucket 0 0) (StorageUnit.I (bucket 0 0)) false = (.ok .Success, bucket 0 0) := by
    show (Outcome.ok (ECM.setCurrent _ 0 _).1, (ECM.setCurrent _ 0 _).2) = _; rw [h3]
  have b1 : Status.VMIN_violation.isBad = true := by decide
  constructor
  · simp [ModuleS.setCurrent, badString, ModuleS.setLoop, e1, e2, b1, isBad_success, NSUs_MAX]
  · simp [ModuleS.setCurrent, badString, ModuleS.setLoop, e1, e2, e3, b1, isBad_success, NSUs_MAX,
      ModuleS.restore]
    exact ⟨rfl, rfl⟩

/-- C02 is false of the code: the roll-back loop stops at `j > 0`, so the first cell keeps the new current. -/
theorem series_setCurrent_not_atomic : ¬ SeriesSetCurrentAtomic (ECM 0) := by
  intro h
  have := h badString 1 true .VMIN_violation (by simp [badString]) badString_result.1 (by decide)
  rw [badString_result.2] at this
  simp [badString, StorageUnit.I, bucket] at this

/-- C02, what does hold, as a complete description of the result for up to 100 well-behaved children (e.g.
ECM cells) and every position of the failing child: either `Success`, all children accepted and carry the
requested current; or a bad status, which is the status of a rejecting child, and all children except
possibly the *first* are exactly as before. -/
theorem series_setCurrent_partial [LawfulCurrent U] (m : ModuleS U) (Inew : ℚ) (b : Bool)
    (hlen : m.kids.length ≤ 100) :
    ∃ st, (m.setCurrent Inew b).1 = .ok st ∧ (m.setCurrent Inew b).2.T = m.T ∧
      ((st = .Success ∧
          (∀ k ∈ (m.setCurrent Inew b).2.kids, StorageUnit.I k.su = Inew) ∧
          (m.setCurrent Inew b).2.kids = m.kids.map fun k => { k with su := (setCurrent k.su Inew b).2 }) ∨
       (st.isBad = true ∧
          (∃ k ∈ m.kids, (setCurrent k.su Inew b).1 = .ok st) ∧
          (m.setCurrent Inew b).2.kids.tail = m.kids.tail ∧
          (m.setCurrent Inew b).2.kids.head? =
            m.kids.head?.map fun k => { k with su := (setCurrent k.su Inew b).2 })) := by
  obtain ⟨st, h1, h2⟩ := setLoop_spec Inew b [] m.kids (by simpa using hlen) (by simp)
  simp only [List.map_nil, List.nil_append] at h1 h2
  refine ⟨st, h1, rfl, ?_⟩
  rcases h2 with ⟨e1, e2, e3⟩ | ⟨e1, e2, e3⟩
  · left
    have hk : (m.setCurrent Inew b).2.kids = m.kids.map fun k => k.set Inew b := e3
    refine ⟨e1, ?_, hk⟩
    intro k hkm
    rw [hk] at hkm
    obtain ⟨j, hj, rfl⟩ := List.mem_map.mp hkm
    obtain ⟨s, hs1, hs2⟩ := e2 j hj
    exact LawfulCurrent.sets j.su Inew b s hs1 hs2
  · right
    have hk : (m.setCurrent Inew b).2.kids = match m.kids with
            | [] => []
            | k0 :: rest => k0.set Inew b :: rest := e3
    refine ⟨e1, e2, ?_, ?_⟩
    · rw [hk]; cases m.kids <;> rfl
    · rw [hk]; cases m.kids <;> rfl

/-- C02: in particular, if the first child is the one that rejects, nothing changes at all; and an
unchecked call always succeeds. -/
theorem series_setCurrent_first_rejects_partial [LawfulCurrent U] (m : ModuleS U) (Inew : ℚ) (b : Bool)
    (hlen : m.kids.length ≤ 100) (k : Kid U) (hk : m.kids.head? = some k) (s : Status)
    (hs : (setCurrent k.su Inew b).1 = .ok s) (hb : s.isBad = true) :
    (m.setCurrent Inew b).2 = m := by
  obtain ⟨st, h1, hT, h2⟩ := series_setCurrent_partial m Inew b hlen
  have hrej := LawfulCurrent.rejects k.su Inew b s hs hb
  cases hm : m.kids with
  | nil => rw [hm] at hk; simp at hk
  | cons k0 rest =>
    have hkk : k0 = k := by rw [hm] at hk; simpa using hk
    subst hkk
    rcases h2 with ⟨e1, e2, e3⟩ | ⟨e1, e2, e3, e4⟩
    · -- impossible: the loop would have stopped at the first child
      exfalso
      have hloop : (m.setCurrent Inew b).1 = .ok s := by
        unfold ModuleS.setCurrent
        rw [hm]
        unfold ModuleS.setLoop
        rw [if_neg (by simp [NSUs_MAX])]
        have hp : setCurrent k0.su Inew b = (.ok s, (setCurrent k0.su Inew b).2) := by rw [← hs]
        rw [hp]
        simp [hb]
      rw [hloop] at h1
      cases h1
      rw [e1] at hb
      exact absurd hb (by decide)
    · have : (m.setCurrent Inew b).2.kids = m.kids := by
        rw [hm] at e3 e4
        simp only [List.head?_cons, Option.map_some, List.tail_cons, hrej] at e3 e4
        cases hr : (m.setCurrent Inew b).2.kids with
        | nil => rw [hr] at e4; simp at e4
        | cons a l =>
          rw [hr] at e3 e4
          simp at e3 e4
          rw [e3, e4, hm]
      cases hmm : (m.setCurrent Inew b).2
      rw [hmm] at this hT
      cases m
      simp_all

/-- The hypotheses are met by the failing string above, and by a good one. -/
example : badString.kids.length ≤ 100 := by simp [badString]

/-- C02/C52: with more than 100 children the fixed-size array of old currents overflows. -/
theorem series_setCurrent_overflow [LawfulCurrent U] (m : ModuleS U) (Inew : ℚ)
    (hlen : 100 < m.kids.length) :
    (m.setCurrent Inew false).1 = .ub "Iolds out of bounds" := by
  have key : ∀ (ks : List (Kid U)) (done : List (ℚ × Kid U)), done.length ≤ 100 →
      100 < done.length + ks.length →
      (ModuleS.setLoop Inew false done ks).1 = .ub "Iolds out of bounds" := by
    intro ks
    induction ks with
    | nil => intro done h1 h2; simp at h2; omega
    | cons k ks ih =>
      intro done h1 h2
      unfold ModuleS.setLoop
      by_cases hd : NSUs_MAX ≤ done.length
      · rw [if_pos hd]
      · rw [if_neg hd]
        have hp : setCurrent k.su Inew false = (.ok .Success, (setCurrent k.su Inew false).2) := by
          rw [← LawfulCurrent.unchecked k.su Inew]
        rw [hp]
        simp only [isBad_success, Bool.false_eq_true, if_false]
        simp only [NSUs_MAX] at hd
        apply ih
        · simp; omega
        · simp at h2 ⊢; omega
  exact key m.kids [] (by simp) (by simpa using hlen)

example : 100 < (List.replicate 101 (⟨0, bucket half 0⟩ : Kid (ECM 0))).length := by simp

/-! ### C07 -/

/-- All children of the string carry the same current and it is the current the string reports. -/
def SameCurrent (m : ModuleS U) : Prop := ∀ k ∈ m.kids, StorageUnit.I k.su = m.I

/-- Calls on a string. -/
inductive SOp where
  | setCurrent (i : ℚ) (b : Bool)
  | step (dt : ℚ) (n : ℕ)

/-- Effect of a call. -/
def sApply (m : ModuleS U) : SOp → ModuleS U
  | .setCurrent i b => (m.setCurrent i b).2
  | .step dt n => (m.timeStep dt n).2

/-- The status of a call is not bad. -/
def sAccepted (m : ModuleS U) : SOp → Prop
  | .setCurrent i b => ∃ st, (m.setCurrent i b).1 = .ok st ∧ st.isBad = false
  | .step _ _ => True

/-- Full statement of C07: the invariant is kept by every history of calls. -/
def SeriesCurrentsStayEqual (U : Type) [StorageUnit U] : Prop :=
  ∀ (m : ModuleS U) (ops : List SOp), m.kids.length ≤ 100 → SameCurrent m → SameCurrent (ops.foldl sApply m)

/-- C07 is false of the code because of the incomplete roll-back (C02): after the rejected call the first cell
carries 1 A and the second 0 A – in a series connection. -/
theorem series_currents_can_differ : ¬ SeriesCurrentsStayEqual (ECM 0) := by
  intro h
  have h0 : SameCurrent badString := by
    intro k hk
    simp [badString] at hk
    rcases hk with rfl | rfl <;> rfl
  have := h badString [.setCurrent 1 true] (by simp [badString]) h0
  simp only [List.foldl_cons, List.foldl_nil, sApply] at this
  have hr := badString_result.2
  generalize (badString.setCurrent 1 true).2 = m at this hr
  cases hk : m.kids with
  | nil => rw [hk] at hr; simp at hr
  | cons a l =>
    cases l with
    | nil => rw [hk] at hr; simp at hr
    | cons c l =>
      rw [hk] at hr
      simp at hr
      have h1 := this c (by simp [hk])
      have h2 : m.I = StorageUnit.I a.su := by simp [ModuleS.I, hk]
      rw [h2, hr.1, hr.2.1] at h1
      norm_num at h1

theorem sameCurrent_of_all (m : ModuleS U) (i : ℚ) (h : ∀ k ∈ m.kids, StorageUnit.I k.su = i) :
    SameCurrent m := by
  intro k hk
  rw [h k hk]
  unfold ModuleS.I
  cases hm : m.kids with
  | nil => rw [hm] at hk; simp at hk
  | cons a l => simp [h a (by simp [hm])]

theorem sApply_length [LawfulCurrent U] [LawfulStep U] (m : ModuleS U) (o : SOp)
    (hlen : m.kids.length ≤ 100) : (sApply m o).kids.length = m.kids.length := by
  cases o with
  | setCurrent i b =>
    obtain ⟨st, _, _, h⟩ := series_setCurrent_partial m i b hlen
    rcases h with ⟨_, _, h⟩ | ⟨_, _, h1, h2⟩
    · simp [sApply, h]
    · simp only [sApply]
      cases hk : (m.setCurrent i b).2.kids with
      | nil => rw [hk] at h1 h2; cases hm : m.kids <;> simp_all
      | cons a l => rw [hk] at h1 h2; cases hm : m.kids <;> simp_all
  | step dt n =>
    simp only [sApply, ModuleS.timeStep]
    split_ifs with h
    · rfl
    · rw [stepKids_spec dt n (not_lt.mp h)]; simp

/-- C07, part that holds: as long as no `setCurrent` call is rejected, all children of a string of
well-behaved units carry the same current after any history of calls. -/
theorem series_currents_equal_partial [LawfulCurrent U] [LawfulStep U] (m : ModuleS U) (ops : List SOp)
    (hlen : m.kids.length ≤ 100) (h0 : SameCurrent m)
    (hacc : ∀ pre o post, ops = pre ++ o :: post → sAccepted (pre.foldl sApply m) o) :
    SameCurrent (ops.foldl sApply m) := by
  induction ops generalizing m with
  | nil => exact h0
  | cons o os ih =>
    simp only [List.foldl_cons]
    apply ih
    · rw [sApply_length m o hlen]; exact hlen
    · cases o with
      | setCurrent i b =>
        have ha := hacc [] (.setCurrent i b) os rfl
        obtain ⟨st, hs, hb⟩ := ha
        obtain ⟨st', h1, _, h2⟩ := series_setCurrent_partial m i b hlen
        simp only [List.foldl_nil] at hs
        rw [hs] at h1
        cases h1
        rcases h2 with ⟨_, h, _⟩ | ⟨h, _⟩
        · exact sameCurrent_of_all _ i h
        · rw [hb] at h; cases h
      | step dt n =>
        simp only [sApply, ModuleS.timeStep]
        split_ifs with h
        · exact h0
        · rw [stepKids_spec dt n (not_lt.mp h)]
          apply sameCurrent_of_all _ m.I
          intro k hk
          simp only [List.mem_map] at hk
          obtain ⟨j, hj, rfl⟩ := hk
          simp only [LawfulStep.keepsI]
          exact h0 j hj
    · intro pre o' post he
      exact hacc (o :: pre) o' post (by simp [he])

example : SameCurrent badString := by
  intro k hk
  simp [badString] at hk
  rcases hk with rfl | rfl <;> rfl

/-! ### C08 -/

/-- C08: with positive child voltages the string voltage is the sum of the child voltages minus the
contact resistance drops; each child's own current is used. -/
theorem series_V_sum (m : ModuleS U) (h : ∀ k ∈ m.kids, 0 < StorageUnit.V k.su) :
    m.V = (m.kids.map fun k => StorageUnit.V k.su).sum -
      (m.kids.map fun k => k.rc * StorageUnit.I k.su).sum := by
  rw [ModuleS.V, vLoop_pos m.kids 0 h, zero_add]
  induction m.kids with
  | nil => simp
  | cons k ks ih => simp [ih]; ring

/-- C08: Kirchhoff's voltage law: with equal currents the drop is the string current times the total contact
resistance. -/
theorem series_V_kirchhoff (m : ModuleS U) (h : ∀ k ∈ m.kids, 0 < StorageUnit.V k.su) (hI : SameCurrent m) :
    m.V = (m.kids.map fun k => StorageUnit.V k.su).sum - m.I * (m.kids.map Kid.rc).sum := by
  rw [series_V_sum m h]
  congr 1
  have : ∀ l : List (Kid U), (∀ k ∈ l, StorageUnit.I k.su = m.I) →
      (l.map fun k => k.rc * StorageUnit.I k.su).sum = m.I * (l.map Kid.rc).sum := by
    intro l hl
    induction l with
    | nil => simp
    | cons k ks ih =>
      simp [ih (fun j hj => hl j (by simp [hj])), hl k (by simp)]; ring
  exact this m.kids hI

/-- C08: if any child has no valid voltage, neither has the string. -/
theorem series_V_invalid (m : ModuleS U) (h : ∃ k ∈ m.kids, StorageUnit.V k.su ≤ 0) : m.V = 0 :=
  vLoop_nonpos m.kids 0 h

/-- C08: limits and resistance of the string are the sums. -/
theorem series_limits_sum (m : ModuleS U) :
    m.lim.Vmin = (m.kids.map fun k => (StorageUnit.lim k.su).Vmin).sum ∧
    m.lim.Vmax = (m.kids.map fun k => (StorageUnit.lim k.su).Vmax).sum ∧
    m.lim.VMIN = (m.kids.map fun k => (StorageUnit.lim k.su).VMIN).sum ∧
    m.lim.VMAX = (m.kids.map fun k => (StorageUnit.lim k.su).VMAX).sum ∧
    m.Rtot = (m.kids.map fun k => StorageUnit.Rtot k.su).sum + (m.kids.map Kid.rc).sum := by
  refine ⟨rfl, rfl, rfl, rfl, ?_⟩
  rw [ModuleS.Rtot, rtot_fold]; ring

/-- C08: the open-circuit voltage is the sum, and it is an error iff it is an error for some child. -/
theorem series_OCV_sum (m : ModuleS U) :
    (∀ o : Kid U → ℚ, (∀ k ∈ m.kids, StorageUnit.OCV k.su = some (o k)) → m.OCV = some (m.kids.map o).sum) ∧
    (m.OCV = none ↔ ∃ k ∈ m.kids, StorageUnit.OCV k.su = none) := by
  unfold ModuleS.OCV
  generalize m.kids = l
  constructor
  · intro o h
    induction l with
    | nil => rfl
    | cons k ks ih =>
      rw [tsumOpt, h k (by simp), ih (fun j hj => h j (by simp [hj]))]
      simp
  · induction l with
    | nil => simp [tsumOpt]
    | cons k ks ih =>
      rw [tsumOpt]
      cases h1 : StorageUnit.OCV k.su <;> cases h2 : tsumOpt StorageUnit.OCV ks <;> simp_all

/-- Children whose voltage is OCV minus current times resistance (`V = OCV - I*Rtot`, the documented meaning of
`getRtot`). -/
def OhmicUnit (u : U) : Prop := ∃ o, StorageUnit.OCV u = some o ∧ StorageUnit.V u = o - StorageUnit.I u * StorageUnit.Rtot u

/-- C08: `V = OCV - I * Rtot` is preserved by series connection: if it holds for all children and they carry the
same current and have positive voltages, it holds for the string. -/
theorem series_ohmic (m : ModuleS U) (h : ∀ k ∈ m.kids, 0 < StorageUnit.V k.su) (hI : SameCurrent m)
    (ho : ∀ k ∈ m.kids, OhmicUnit k.su) :
    ∃ o, m.OCV = some o ∧ m.V = o - m.I * m.Rtot := by
  classical
  let oc : Kid U → ℚ := fun k => (StorageUnit.OCV k.su).getD 0
  have hoc : ∀ k ∈ m.kids, StorageUnit.OCV k.su = some (oc k) := by
    intro k hk
    obtain ⟨o, ho1, _⟩ := ho k hk
    simp [oc, ho1]
  refine ⟨_, (series_OCV_sum m).1 oc hoc, ?_⟩
  rw [series_V_kirchhoff m h hI, (series_limits_sum m).2.2.2.2]
  have : (m.kids.map fun k => StorageUnit.V k.su).sum =
      (m.kids.map oc).sum - m.I * (m.kids.map fun k => StorageUnit.Rtot k.su).sum := by
    have aux : ∀ l : List (Kid U), (∀ k ∈ l, StorageUnit.V k.su = oc k - m.I * StorageUnit.Rtot k.su) →
        (l.map fun k => StorageUnit.V k.su).sum =
          (l.map oc).sum - m.I * (l.map fun k => StorageUnit.Rtot k.su).sum := by
      intro l hl
      induction l with
      | nil => simp
      | cons k ks ih => simp [ih (fun j hj => hl j (by simp [hj])), hl k (by simp)]; ring
    apply aux
    intro k hk
    obtain ⟨o, ho1, ho2⟩ := ho k hk
    rw [ho2, hI k hk]
    simp [oc, ho1]
  rw [this]; ring

/-- C08: bucket cells (no RC pair) with a valid SOC are ohmic, so the previous theorem applies to them. -/
theorem ecm0_ohmic (c : ECM 0) (h : (c.par.ocv c.st.SOC).isSome) : OhmicUnit c := by
  obtain ⟨o, ho⟩ := Option.isSome_iff_exists.mp h
  refine ⟨o, ho, ?_⟩
  show ECM.V c = o - c.st.I * c.par.Rdc
  simp [ECM.V, ho]; ring

/-- The voltage hypotheses are met by the example string. -/
example : ∀ k ∈ badString.kids, 0 < StorageUnit.V k.su := by
  intro k hk
  simp [badString] at hk
  rcases hk with rfl | rfl
  · show 0 < (bucket half 0).V
    rw [bucket_V _ _ (by norm_num [half])]; norm_num [half]
  · show 0 < (bucket 0 0).V
    rw [bucket_V _ _ (by norm_num)]; norm_num

/-! ### C12, C13 for strings -/

/-- C13: a negative step on a series module throws 10 and leaves every child alone. -/
theorem series_timeStep_negative (m : ModuleS U) (dt : ℚ) (n : ℕ) (h : dt < 0) :
    m.timeStep dt n = (.throw 10, m) := by simp [ModuleS.timeStep, h]

/-- C12: batching steps on a series module is the same as single calls, and the module of well-behaved children is
well-behaved again – so the result extends to all nested series modules. -/
instance series_lawfulStep [LawfulStep U] : LawfulStep (ModuleS U) where
  returns m dt n h := by
    show (ModuleS.timeStep m dt n).1 = _
    rw [ModuleS.timeStep, if_neg (not_lt.mpr h), stepKids_spec dt n h]
  negative m dt n h := series_timeStep_negative m dt n h
  keepsI m dt n := by
    show ModuleS.I (ModuleS.timeStep m dt n).2 = ModuleS.I m
    rcases lt_or_ge dt 0 with h | h
    · rw [series_timeStep_negative m dt n h]
    · rw [ModuleS.timeStep, if_neg (not_lt.mpr h), stepKids_spec dt n h]
      unfold ModuleS.I
      cases m.kids with
      | nil => rfl
      | cons k ks => simp [LawfulStep.keepsI]
  batch m dt a b h := by
    show (ModuleS.timeStep m dt (a+b)).2 = (ModuleS.timeStep (ModuleS.timeStep m dt a).2 dt b).2
    simp only [ModuleS.timeStep, if_neg (not_lt.mpr h), stepKids_spec _ _ h, List.map_map]
    congr 1
    apply List.map_congr_left
    intro k _
    simp [LawfulStep.batch k.su dt a b h]

/-- C12 stated for a string: `a + b` steps in one call equal `a` steps then `b` steps. -/
theorem series_timeStep_batch [LawfulStep U] (m : ModuleS U) (dt : ℚ) (a b : ℕ) (h : 0 ≤ dt) :
    (m.timeStep dt (a + b)).2 = ((m.timeStep dt a).2.timeStep dt b).2 :=
  LawfulStep.batch (U := ModuleS U) m dt a b h

/-- C13 for strings: a non-negative step returns normally and does not change the current of the string. -/
theorem series_timeStep_nonneg [LawfulStep U] (m : ModuleS U) (dt : ℚ) (n : ℕ) (h : 0 ≤ dt) :
    (m.timeStep dt n).1 = .ok () ∧ (m.timeStep dt n).2.I = m.I ∧ (m.timeStep dt n).2.T = m.T := by
  refine ⟨LawfulStep.returns (U := ModuleS U) m dt n h, LawfulStep.keepsI (U := ModuleS U) m dt n, ?_⟩
  rw [ModuleS.timeStep, if_neg (not_lt.mpr h)]

/-- The class assumption holds for strings of cells and for strings of strings of cells. -/
example : LawfulStep (ModuleS (ModuleS (ECM 2))) := inferInstance

end
end Slide

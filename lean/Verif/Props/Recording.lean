import Verif.Spec.Recording
import Verif.Props.Lithium
import Verif.Props.SpmUse

/-! C117 and C118: recorded drive cycles and pulse tests. -/

namespace Slide
open Spec SPM Recording

variable {N : ℕ}

/-! ### What passes -/

theorem Spec.Passed.refl (a : SPM N) : Passed a a 0 0 :=
  ⟨rfl, rfl, ⟨rfl, rfl, rfl, rfl, rfl⟩, by simp, by simp, by simp⟩

theorem Spec.Passed.trans {a b c : SPM N} {q t q' t' : ℚ} (h : Passed a b q t) (g : Passed b c q' t') :
    Passed a c (q + q') (t + t') := by
  obtain ⟨a1, a2, a3, a4, a5⟩ := h.aged
  obtain ⟨b1, b2, b3, b4, b5⟩ := g.aged
  refine ⟨g.par.trans h.par, g.block.trans h.block, ⟨b1.trans a1, b2.trans a2, b3.trans a3, b4.trans a4, b5.trans a5⟩, ?_, ?_, ?_⟩
  · rw [g.cathode, h.cathode]; ring
  · rw [g.anode, h.anode]; ring
  · rw [g.time, h.time]; ring

theorem passed_only {a b : SPM N} (h : OnlyCurrentDiffers a b) : Passed a b 0 0 := by
  have hs := h.st
  have f : ∀ {α : Type} (g : SpmState N → α), g { b.st with I := a.st.I, V := a.st.V } = g a.st := fun g => congrArg g hs
  have f1 : b.st.LLI = a.st.LLI := f SpmState.LLI
  have f2 : b.st.an = a.st.an := f SpmState.an
  have f3 : b.st.thickn = a.st.thickn := f SpmState.thickn
  have f4 : b.st.ap = a.st.ap := f SpmState.ap
  have f5 : b.st.thickp = a.st.thickp := f SpmState.thickp
  have f6 : b.st.zp = a.st.zp := f SpmState.zp
  have f7 : b.st.zn = a.st.zn := f SpmState.zn
  have f8 : b.st.time = a.st.time := f SpmState.time
  refine ⟨h.par, h.rest.2.1, ⟨f1, f2, f3, f4, f5⟩, ?_, ?_, ?_⟩
  · unfold cathodeLi; rw [h.par, f4, f5, f6]; ring
  · unfold anodeLi; rw [h.par, f2, f3, f7]; ring
  · rw [f8]; ring

theorem passed_second {c c' : SPM N} (hb : c.block = true) (hc : CountsLi c) (h : c.timeStep 1 1 = (.ok (), c')) :
    Passed c c' c.st.I 1 ∧ c'.st.I = c.st.I := by
  have h1 : (c.timeStep 1 1).1 = .ok () := by rw [h]
  have h2 : (c.timeStep 1 1).2 = c' := by rw [h]
  have ht : (c.timeStep 1 1).2.st.time = c.st.time + (1 : ℕ) * 1 := (spm_soc_charge c 1 1 h1).2.1
  obtain ⟨-, h3, h4, -, -, -, -, h5, h6, -⟩ := timeStep_ok h1
  obtain ⟨q, e1, e2, e3, e4⟩ := diffLoop_lithium 1 (Int.toNat 1) (c.rotate ((1 : ℤ) * 1)) (countsLi_par (a := c) rfl hc)
  have hq := e3 h3
  have hbl := (diffLoop_ok 1 _ _ h3).1.block
  rw [← h4 hb, h2] at e1 e2 e4 hbl
  rw [h2] at h5 ht
  have e1 : anodeLi c' = anodeLi c - q := e1
  have e2 : cathodeLi c' = cathodeLi c + q := e2
  have hq : q = c.st.I := by
    have : q = c.st.I * (((1 : ℤ).toNat : ℚ) * 1) := hq
    rw [this]; norm_num
  rw [hq] at e1 e2
  refine ⟨⟨e4.par, hbl, ⟨e4.LLI, e4.an, e4.thickn, e4.ap, e4.thickp⟩, e2, e1, ?_⟩, h5⟩
  rw [ht]; norm_num

theorem Spec.Passed.counts {a b : SPM N} {q t : ℚ} (h : Passed a b q t) (hc : CountsLi a) : CountsLi b :=
  countsLi_par h.par hc

/-! ### C117: drive cycles -/

theorem second_spec (cap : ℚ) (m : Marks) (k : Fin N) (r : ℚ) (c c3 : SPM N) (row : DriveRow)
    (h : second cap m k r c = (.ok row, c3)) :
    ∃ (s : Status) (d : SPM N), c.setCurrent (r * cap) true = (.ok s, d) ∧ RowOf m k d row ∧ row.asked = r * cap ∧
      (∃ c2 : SPM N, OnlyCurrentDiffers d c2 ∧ c2.st.I = d.st.I ∧ row.state = c2.getStates.take 28 ∧
        c2.timeStep 1 1 = (.ok (), c3) ∧ c2 = d.V.2) := by
  unfold second at h
  rcases h1 : c.setCurrent (r * cap) true with ⟨s | e | w, d⟩ <;> rw [h1] at h <;> simp only at h
  rotate_left
  · cases congrArg Prod.fst h
  · cases congrArg Prod.fst h
  have hV := SPM.V_rest d
  have hO := V_onlyCurrent d
  rcases h2 : d.V with ⟨v | e | w, c2⟩ <;> rw [h2] at h hV hO <;> simp only at h hV hO
  rotate_left
  · cases congrArg Prod.fst h
  · cases congrArg Prod.fst h
  rcases h3 : c2.timeStep 1 1 with ⟨x | e | w, c4⟩ <;> rw [h3] at h <;> simp only at h
  rotate_left
  · cases congrArg Prod.fst h
  · cases congrArg Prod.fst h
  have hrow := Outcome.ok.inj (congrArg Prod.fst h)
  have hc : c4 = c3 := congrArg Prod.snd h
  have hI : c2.st.I = d.st.I := by rw [hV]
  have hz : c2.st.zn = d.st.zn := by rw [hV]
  subst hrow hc
  refine ⟨s, d, rfl, ?_, rfl, c2, hO, hI, rfl, h3, by rw [h2]⟩
  refine ⟨by show some c2.st.I = _; rw [hI], by rw [h2], ?_, by rw [← hz]⟩
  intro hv
  show some c2.st.V = some v
  unfold SPM.V at h2
  by_cases hval : d.valid = true
  · rw [if_pos hval] at h2
    have i1 : d = c2 := congrArg Prod.snd h2
    have i2 : d.st.V = v := Outcome.ok.inj (congrArg Prod.fst h2)
    rw [← i1, i2]
  · rw [if_neg hval] at h2
    rcases hcv : d.calcV with (_ | v') | e | w <;> rw [hcv] at h2 <;> simp only at h2
    · exact absurd (Outcome.ok.inj (congrArg Prod.fst h2)).symm hv
    · have i1 : d.cache v' = c2 := congrArg Prod.snd h2
      have i2 : v' = v := Outcome.ok.inj (congrArg Prod.fst h2)
      rw [← i1, ← i2]; rfl
    · cases congrArg Prod.fst h2
    · cases congrArg Prod.fst h2

theorem drive_low {cap : ℚ} {m : Marks} {k : Fin N} {r : ℚ} {c c3 : SPM N} {row : DriveRow} (rs : List ℚ)
    (hx : second cap m k r c = (.ok row, c3)) (hlt : c3.st.zn k < m.tenth) :
    drive cap m k (r :: rs) c = (.ok [row], c3) := by
  show (match (second cap m k r c).1 with | .throw e => _ | .ub w => _ | .ok row => _ : Outcome (List DriveRow) × SPM N) = _
  rw [hx]
  exact if_pos hlt

theorem drive_on {cap : ℚ} {m : Marks} {k : Fin N} {r : ℚ} {c c3 : SPM N} {row : DriveRow} (rs : List ℚ)
    (hx : second cap m k r c = (.ok row, c3)) (hlt : ¬ c3.st.zn k < m.tenth) :
    drive cap m k (r :: rs) c =
      ((drive cap m k rs c3).1.bind fun rows => .ok (row :: rows), (drive cap m k rs c3).2) := by
  show (match (second cap m k r c).1 with | .throw e => _ | .ub w => _ | .ok row => _ : Outcome (List DriveRow) × SPM N) = _
  rw [hx]
  exact if_neg hlt

theorem drive_second {cap : ℚ} {m : Marks} {k : Fin N} {r : ℚ} {c c' : SPM N} {rs : List ℚ} {rows : List DriveRow}
    (h : drive cap m k (r :: rs) c = (.ok rows, c')) : ∃ row, (second cap m k r c).1 = .ok row := by
  have h1 := congrArg Prod.fst h
  change (match (second cap m k r c).1 with | .throw e => _ | .ub w => _ | .ok row => _ : Outcome (List DriveRow) × SPM N).1 = _ at h1
  rcases hx : (second cap m k r c).1 with row | e | w
  · exact ⟨row, rfl⟩
  · rw [hx] at h1; cases h1
  · rw [hx] at h1; cases h1

/-- What one entry of the profile does. -/
theorem drive_cons (cap : ℚ) (m : Marks) (k : Fin N) (r : ℚ) (rs : List ℚ) (c c' : SPM N) (rows : List DriveRow)
    (h : drive cap m k (r :: rs) c = (.ok rows, c')) :
    ∃ (s : Status) (d : SPM N) (row : DriveRow) (c3 : SPM N), c.setCurrent (r * cap) true = (.ok s, d) ∧ RowOf m k d row ∧ row.asked = r * cap ∧
      (∃ c2 : SPM N, OnlyCurrentDiffers d c2 ∧ c2.st.I = d.st.I ∧ row.state = c2.getStates.take 28 ∧ c2.timeStep 1 1 = (.ok (), c3) ∧ c2 = d.V.2) ∧
      (c3.st.zn k < m.tenth → (rows = [row] ∧ c' = c3) ∧ ∀ rs', drive cap m k (r :: rs') c = (.ok [row], c3)) ∧
      (¬ c3.st.zn k < m.tenth → (∃ rows', drive cap m k rs c3 = (.ok rows', c') ∧ rows = row :: rows') ∧
        ∀ rs' rows' c4, drive cap m k rs' c3 = (.ok rows', c4) → drive cap m k (r :: rs') c = (.ok (row :: rows'), c4)) := by
  obtain ⟨row, hrow⟩ := drive_second h
  obtain ⟨c3, hx⟩ : ∃ c3, second cap m k r c = (.ok row, c3) := ⟨_, Prod.ext hrow rfl⟩
  obtain ⟨s, d, g1, g2, g3, g4⟩ := second_spec cap m k r c c3 row hx
  refine ⟨s, d, row, c3, g1, g2, g3, g4, ?_, ?_⟩
  · intro hlt
    rw [drive_low rs hx hlt] at h
    exact ⟨⟨(Outcome.ok.inj (congrArg Prod.fst h)).symm, (congrArg Prod.snd h).symm⟩, fun rs' => drive_low rs' hx hlt⟩
  · intro hlt
    rw [drive_on rs hx hlt] at h
    obtain ⟨rows', e1, e2⟩ := Outcome.bind_eq_ok.mp (congrArg Prod.fst h)
    have e3 : (drive cap m k rs c3).2 = c' := congrArg Prod.snd h
    refine ⟨⟨rows', Prod.ext e1 e3, (Outcome.ok.inj e2).symm⟩, fun rs' rows'' c5 h5 => ?_⟩
    rw [drive_on rs' hx hlt, h5]
    rfl

theorem drive_run (cap : ℚ) (m : Marks) (k : Fin N) (prof : List ℚ) : ∀ (c c' : SPM N) (rows : List DriveRow),
    c.block = true → CountsLi c → drive cap m k prof c = (.ok rows, c') →
    Passed c c' (rows.map rowCurrent).sum rows.length ∧ rows.length ≤ prof.length ∧
    rows.map (·.asked) = (prof.take rows.length).map (· * cap) ∧
    (rows.length = prof.length ∨ c'.st.zn k < m.tenth) := by
  induction prof with
  | nil =>
    intro c c' rows hb hc h
    have h1 : [] = rows := Outcome.ok.inj (congrArg Prod.fst h)
    have h2 : c = c' := congrArg Prod.snd h
    subst h1 h2
    exact ⟨by simpa using Passed.refl c, by simp, by simp, by simp⟩
  | cons r rs ih =>
    intro c c' rows hb hc h
    obtain ⟨s, d, row, c3, h1, h2, h3, ⟨c2, g1, g2, g3, g4, -⟩, h5, h6⟩ := drive_cons cap m k r rs c c' rows h
    have o1 : OnlyCurrentDiffers c d := by
      have := setCurrent_onlyCurrent c (r * cap) true
      rw [h1] at this; exact this
    have p1 := (passed_only o1).trans (passed_only g1)
    have hb2 : c2.block = true := by rw [p1.block, hb]
    obtain ⟨p2, -⟩ := passed_second hb2 (p1.counts hc) g4
    have p3 := p1.trans p2
    have hrow : rowCurrent row = c2.st.I := by
      unfold rowCurrent
      rw [g3]; rfl
    by_cases hlt : c3.st.zn k < m.tenth
    · obtain ⟨⟨e1, e2⟩, -⟩ := h5 hlt
      subst e1 e2
      refine ⟨?_, by simp, by simp [h3], Or.inr hlt⟩
      simp only [List.map_cons, List.map_nil, List.sum_cons, List.sum_nil, List.length_cons, List.length_nil, hrow]
      convert p3 using 1 <;> norm_num
    · obtain ⟨⟨rows', e1, e2⟩, -⟩ := h6 hlt
      subst e2
      obtain ⟨q1, q2, q3, q4⟩ := ih c3 c' rows' (by rw [p3.block, hb]) (p3.counts hc) e1
      refine ⟨?_, by simpa using q2, by simp [h3, q3], ?_⟩
      · simp only [List.map_cons, List.sum_cons, List.length_cons, hrow]
        convert p3.trans q1 using 1
        · ring
        · push_cast; ring
      · rcases q4 with q4 | q4
        · left; simp [q4]
        · exact Or.inr q4

/-- The beginning of a recording is the recording of the beginning of the profile. -/
theorem drive_prefix (cap : ℚ) (m : Marks) (k : Fin N) (prof : List ℚ) : ∀ (i : ℕ) (c c' : SPM N) (rows : List DriveRow),
    drive cap m k prof c = (.ok rows, c') → i ≤ rows.length →
    ∃ ci : SPM N, drive cap m k (prof.take i) c = (.ok (rows.take i), ci) ∧ (0 < i → i < rows.length → ¬ ci.st.zn k < m.tenth) ∧
      ∀ r, rows[i]? = some r → ∃ (p : ℚ) (s : Status) (d : SPM N), prof[i]? = some p ∧ ci.setCurrent (p * cap) true = (.ok s, d) ∧ RowOf m k d r := by
  induction prof with
  | nil =>
    intro i c c' rows h hi
    have h1 : [] = rows := Outcome.ok.inj (congrArg Prod.fst h)
    subst h1
    obtain rfl : i = 0 := by simpa using hi
    exact ⟨c, rfl, by simp, by simp⟩
  | cons r rs ih =>
    intro i c c' rows h hi
    obtain ⟨s, d, row, c3, h1, h2, h3, -, h5, h6⟩ := drive_cons cap m k r rs c c' rows h
    have hne : rows[0]? = some row := by
      by_cases hlt : c3.st.zn k < m.tenth
      · rw [(h5 hlt).1.1]; rfl
      · obtain ⟨rows', -, e2⟩ := (h6 hlt).1; rw [e2]; rfl
    rcases i with _ | i
    · refine ⟨c, rfl, by simp, fun q hq => ?_⟩
      rw [hne] at hq
      cases hq
      exact ⟨r, s, d, rfl, h1, h2⟩
    · by_cases hlt : c3.st.zn k < m.tenth
      · obtain ⟨⟨e1, e2⟩, e3⟩ := h5 hlt
        subst e1
        obtain rfl : i = 0 := by simpa using hi
        exact ⟨c3, e3 [], by simp, by simp⟩
      · obtain ⟨⟨rows', e1, e2⟩, e3⟩ := h6 hlt
        subst e2
        obtain ⟨ci, k1, k2, k3⟩ := ih i c3 c' rows' e1 (by simpa using hi)
        refine ⟨ci, e3 _ _ _ k1, ?_, ?_⟩
        · intro _ hi'
          rcases Nat.eq_zero_or_pos i with rfl | hpos
          · have : c3 = ci := congrArg Prod.snd k1
            exact this ▸ hlt
          · exact k2 hpos (by simpa using hi')
        · intro q hq
          exact k3 q (by simpa using hq)

/-- **C117.** A recorded drive cycle (degradation blocked, as in the example): the recording ends with the profile or when
the anode falls below the mark, and not earlier; every row describes the cell in its second, after the currents of the rows
before it have passed, one second each; the currents of the voltage file are those of the profile. -/
theorem drive_record_partial (cap : ℚ) (m : Marks) (k : Fin N) (prof : List ℚ) (c c' : SPM N) (rows : List DriveRow)
    (hb : c.block = true) (hc : CountsLi c) (h : drive cap m k prof c = (.ok rows, c')) :
    (rows.length = prof.length ∨ rows.length < prof.length ∧ c'.st.zn k < m.tenth) ∧
    Passed c c' (rows.map rowCurrent).sum rows.length ∧
    ∀ i r, rows[i]? = some r → ∃ (p : ℚ) (ci : SPM N) (s : Status) (d : SPM N), prof[i]? = some p ∧ r.asked = p * cap ∧
      (0 < i → m.tenth ≤ ci.st.zn k) ∧ Passed c ci ((rows.take i).map rowCurrent).sum i ∧
      ci.setCurrent (p * cap) true = (.ok s, d) ∧ RowOf m k d r ∧
      (s.isBad = false → rowCurrent r = r.asked) ∧ (s.isBad = true → d = ci) := by
  obtain ⟨h1, h2, h3, h4⟩ := drive_run cap m k prof c c' rows hb hc h
  refine ⟨?_, h1, ?_⟩
  · rcases Nat.lt_or_ge rows.length prof.length with g | g
    · exact Or.inr ⟨g, h4.resolve_left (by omega)⟩
    · exact Or.inl (by omega)
  · intro i r hr
    have hi : i < rows.length := by
      by_contra hn
      rw [List.getElem?_eq_none (by omega)] at hr
      cases hr
    obtain ⟨ci, k1, k2, k3⟩ := drive_prefix cap m k prof i c c' rows h hi.le
    obtain ⟨p, s, d, g1, g2, g3⟩ := k3 r hr
    obtain ⟨q1, -, -, -⟩ := drive_run cap m k _ c ci _ hb hc k1
    have ha : r.asked = p * cap := by
      have h5 := congrArg (·[i]?) h3
      simp only [List.getElem?_map, hr, List.getElem?_take, hi, if_true, g1, Option.map_some] at h5
      exact Option.some.inj h5
    have hs : (ci.setCurrent (p * cap) true).1 = .ok s := by rw [g2]
    have hcur : rowCurrent r = d.st.I := by
      unfold rowCurrent
      have := g3.current
      rcases hst : r.state with _ | ⟨x, xs⟩ <;> rw [hst] at this
      · cases this
      · exact Option.some.inj this
    refine ⟨p, ci, s, d, g1, ha, fun h0 => not_lt.mp (k2 h0 hi), ?_, g2, g3, fun hbad => ?_, fun hbad => ?_⟩
    · rw [List.length_take, Nat.min_eq_left hi.le] at q1; exact q1
    · have := (spm_setCurrent_accepted ci (p * cap) true s hs hbad).1
      rw [g2] at this
      rw [hcur, ha]; exact this
    · have := spm_setCurrent_refused ci (p * cap) true s hs hbad
      rw [g2] at this; exact this

/-- C117: the state of charge in the voltage file counts the charge that has passed, in units of the lithium between the
marks for 0 % and 100 %. -/
theorem drive_soc (cap : ℚ) (m : Marks) (prof : List ℚ) (c c' : SPM N) (rows : List DriveRow)
    (hb : c.block = true) (hc : CountsLi c) (h : drive cap m c.par.M.ind prof c = (.ok rows, c')) (hm : m.full ≠ m.empty)
    (i : ℕ) (r0 r : DriveRow) (h0 : rows[0]? = some r0) (hr : rows[i]? = some r) :
    let at' := fun z => anodeLi ({ c with st := { c.st with zn := fun _ => z } } : SPM N)
    (r.soc - r0.soc) * (at' m.full - at' m.empty) = -100 * ((rows.take i).map rowCurrent).sum := by
  intro at'
  obtain ⟨-, -, hrow⟩ := drive_record_partial cap m c.par.M.ind prof c c' rows hb hc h
  have key : ∀ j q, rows[j]? = some q → ∃ z, q.soc = 100 * ((z - m.empty) / (m.full - m.empty)) ∧
      at' z = anodeLi c - ((rows.take j).map rowCurrent).sum := by
    intro j q hq
    obtain ⟨p, ci, s, d, -, -, -, g1, g2, g3, -, -⟩ := hrow j q hq
    have o1 : OnlyCurrentDiffers ci d := by
      have := setCurrent_onlyCurrent ci (p * cap) true
      rw [g2] at this; exact this
    have g4 := g1.trans (passed_only o1)
    refine ⟨d.st.zn c.par.M.ind, g3.soc, ?_⟩
    have g5 := g4.anode
    unfold anodeLi at g5
    rw [g4.par, g4.aged.2.1, g4.aged.2.2.1, add_zero] at g5
    exact g5
  obtain ⟨z0, a1, a2⟩ := key 0 r0 h0
  obtain ⟨z, b1, b2⟩ := key i r hr
  have hd : m.full - m.empty ≠ 0 := sub_ne_zero.mpr hm
  have e : at' z - at' z0 = -((rows.take i).map rowCurrent).sum := by rw [a2, b2]; simp
  have lin : ∀ x y, at' x - at' y = at' (x - y) := by
    intro x y
    show -_ * x / _ - -_ * y / _ = -_ * (x - y) / _
    ring
  rw [lin] at e ⊢
  have hs : (r.soc - r0.soc) * (m.full - m.empty) = 100 * (z - z0) := by
    rw [a1, b1]; field_simp; ring
  have lin2 : ∀ x y, x * at' y = at' (x * y) := by
    intro x y
    show x * (-_ * y / _) = -_ * (x * y) / _
    ring
  rw [lin2, hs, ← lin2, e]
  ring

/-- C117: the columns of the state file are what their heading says. -/
theorem drive_columns (c : SPM 5) (m : Marks) (k : Fin 5) (cap r : ℚ) (c3 : SPM 5) (row : DriveRow)
    (h : second cap m k r c = (.ok row, c3)) :
    ∃ d : SPM 5, RowOf m k d row ∧ stateHeading.length = row.state.length ∧
      ∀ (i : ℕ) name, stateHeading[i]? = some name → row.state[i]? = columnValue d.V.2.st name := by
  obtain ⟨s, d, -, g2, -, c2, -, -, g3, -, g4⟩ := second_spec cap m k r c c3 row h
  refine ⟨d, g2, ?_⟩
  rw [g3, ← g4]
  have hl : c2.getStates.take 28 = [c2.st.I, c2.st.V, c2.st.T, c2.st.delta, c2.st.LLI, c2.st.thickp, c2.st.thickn, c2.st.ep,
      c2.st.en, c2.st.ap, c2.st.an, c2.st.CS, c2.st.Dp, c2.st.Dn, c2.st.deltaPl, c2.st.zp 0, c2.st.zp 1, c2.st.zp 2, c2.st.zp 3,
      c2.st.zp 4, c2.st.zn 0, c2.st.zn 1, c2.st.zn 2, c2.st.zn 3, c2.st.zn 4, c2.st.rDCp, c2.st.rDCn, c2.st.rDCcc] := rfl
  rw [hl]
  refine ⟨rfl, fun i name hn => ?_⟩
  have hi : i < 28 := by
    by_contra hn'
    rw [List.getElem?_eq_none (by show 28 ≤ i; omega)] at hn
    cases hn
  interval_cases i <;> cases hn <;> rfl

/-- A cell whose ageing is blocked. -/
def spmQuiet : SPM 1 := { spm1 with block := true }

theorem spmQuiet_counts : CountsLi spmQuiet := ⟨⟨rfl, rfl⟩, by decide +kernel, by decide +kernel, rfl, rfl⟩

/-- **C117 in full is false of the code**: the current column of the voltage file shows the profile also where the cell has
refused the current. -/
theorem not_driveShowsCurrent : ¬ DriveShowsCurrent 1 := by
  intro h
  have h1 : ∃ r, (drive 1 ⟨0, 0, 1⟩ 0 [100000] spmQuiet).1 = .ok [r] ∧ r.state.head? = some 0 ∧ r.asked = 100000 :=
    ⟨⟨100000, 18 / 5, 100, [0, 18 / 5, 298, 1, 0, 1, 1, 1, 1, 3, 3, 1 / 10, 1, 1, 0, 1, 1, 1, 1, 1, 1 / 2, 0, 0, 0]⟩,
      by decide +kernel⟩
  obtain ⟨r, e1, e2, e3⟩ := h1
  have h2 := h 1 ⟨0, 0, 1⟩ 0 [100000] spmQuiet _ [r] (Prod.ext e1 rfl) r (by simp)
  rw [e2, e3] at h2
  revert h2
  decide +kernel

/-- An accepted entry: the cell has the current of the profile. -/
example : spmQuiet.block = true ∧ ∃ r, (drive 1 ⟨0, 0, 1⟩ 0 [1 / 10, 1 / 10] spmQuiet).1 = .ok r ∧ r.length = 2 ∧
    ∀ q ∈ r, rowCurrent q = q.asked := by
  refine ⟨rfl, ?_⟩
  have : ∃ r, (drive 1 ⟨0, 0, 1⟩ 0 [1 / 10, 1 / 10] spmQuiet).1 = .ok r := by
    rcases h : (drive 1 ⟨0, 0, 1⟩ 0 [1 / 10, 1 / 10] spmQuiet).1 with r | e | w
    · exact ⟨r, rfl⟩
    · exact absurd h (by
        have : ((drive 1 ⟨0, 0, 1⟩ 0 [1 / 10, 1 / 10] spmQuiet).1.bind fun _ => .ok ()) = .ok () := by decide +kernel
        intro h'; rw [h'] at this; cases this)
    · exact absurd h (by
        have : ((drive 1 ⟨0, 0, 1⟩ 0 [1 / 10, 1 / 10] spmQuiet).1.bind fun _ => .ok ()) = .ok () := by decide +kernel
        intro h'; rw [h'] at this; cases this)
  obtain ⟨r, hr⟩ := this
  refine ⟨r, hr, ?_, ?_⟩
  · have : ((drive 1 ⟨0, 0, 1⟩ 0 [1 / 10, 1 / 10] spmQuiet).1.bind fun q => .ok q.length) = .ok 2 := by decide +kernel
    rw [hr] at this; exact Outcome.ok.inj this
  · have : ((drive 1 ⟨0, 0, 1⟩ 0 [1 / 10, 1 / 10] spmQuiet).1.bind fun q => .ok (decide (∀ x ∈ q, rowCurrent x = x.asked))) =
        .ok true := by decide +kernel
    rw [hr] at this; exact of_decide_eq_true (Outcome.ok.inj this)

/-- The anode falls below the mark: the recording ends. -/
example : ((drive 1 ⟨0, 2, 3⟩ 0 [1 / 10, 1 / 10] spmQuiet).1.bind fun q => .ok q.length) = .ok 1 := by decide +kernel

/-! ### C118: pulse tests -/

theorem Spec.LogOf.nil (b : Bench N) : LogOf b [] b :=
  ⟨by simp, by simpa using Passed.refl b.c, by simpa using Passed.refl b.d, by simp⟩

theorem Spec.LogOf.append {b b1 b2 : Bench N} {r1 r2 : List GittRow} (h : LogOf b r1 b1) (g : LogOf b1 r2 b2) :
    LogOf b (r1 ++ r2) b2 := by
  refine ⟨?_, ?_, ?_, ?_⟩
  · rw [g.time, h.time]; push_cast [List.length_append]; ring
  · have := h.c.trans g.c
    rw [List.map_append, List.sum_append, List.length_append]; push_cast; exact this
  · have := h.d.trans g.d
    rw [List.map_append, List.sum_append, List.length_append]; push_cast; exact this
  · intro j r hr
    rcases Nat.lt_or_ge j r1.length with hj | hj
    · rw [List.getElem?_append_left hj] at hr
      rw [List.take_append_of_le_length hj.le]
      exact h.row j r hr
    · rw [List.getElem?_append_right hj] at hr
      obtain ⟨t1, ⟨x, x1, x2, x3⟩, y, y1, y2, y3⟩ := g.row _ r hr
      have hjc : (j : ℚ) = r1.length + ((j - r1.length : ℕ) : ℚ) := by
        rw [Nat.cast_sub hj]; ring
      have ht : (r1 ++ r2).take j = r1 ++ r2.take (j - r1.length) := by
        rw [List.take_append, List.take_of_length_le hj]
      refine ⟨?_, ⟨x, ?_, x2, x3⟩, y, ?_, y2, y3⟩
      · rw [t1, h.time, hjc]; ring
      · rw [ht, List.map_append, List.sum_append, hjc]; exact h.c.trans x1
      · rw [ht, List.map_append, List.sum_append, hjc]; exact h.d.trans y1

theorem Spec.LogOf.after {b b1 b2 : Bench N} {r : List GittRow} (hc : OnlyCurrentDiffers b.c b1.c)
    (hd : OnlyCurrentDiffers b.d b1.d) (ht : b1.t = b.t) (h : LogOf b1 r b2) : LogOf b r b2 := by
  have key : LogOf b [] b1 :=
    ⟨by simp [ht], by simpa using passed_only hc, by simpa using passed_only hd, by simp⟩
  exact key.append h

theorem record_spec {b b1 : Bench N} {r : GittRow} (h : record b = (.ok r, b1)) :
    OnlyCurrentDiffers b.c b1.c ∧ OnlyCurrentDiffers b.d b1.d ∧ b1.t = b.t ∧ b1.c.st.I = b.c.st.I ∧ b1.d.st.I = b.d.st.I ∧
    r.t = b.t ∧ r.Ic = b.c.st.I ∧ r.Id = b.d.st.I ∧ b.c.V.1 = .ok r.Vc ∧ b.d.V.1 = .ok r.Vd := by
  unfold record at h
  have hO := V_onlyCurrent b.c
  have hI : b.c.V.2.st.I = b.c.st.I := by rw [SPM.V_rest]
  have hO' := V_onlyCurrent b.d
  have hI' : b.d.V.2.st.I = b.d.st.I := by rw [SPM.V_rest]
  rcases h1 : b.c.V with ⟨v | e | w, c⟩ <;> rw [h1] at h hO hI <;> simp only at h hO hI
  rotate_left
  · cases congrArg Prod.fst h
  · cases congrArg Prod.fst h
  rcases h2 : b.d.V with ⟨v' | e | w, d⟩ <;> rw [h2] at h hO' hI' <;> simp only at h hO' hI'
  rotate_left
  · cases congrArg Prod.fst h
  · cases congrArg Prod.fst h
  have e1 := Outcome.ok.inj (congrArg Prod.fst h)
  have e2 : _ = b1 := congrArg Prod.snd h
  subst e1 e2
  exact ⟨hO, hO', rfl, hI, hI', rfl, hI, hI', rfl, rfl⟩

theorem setBoth_spec {b b1 : Bench N} {i j : ℚ} (h : setBoth i j b = (.ok (), b1)) :
    OnlyCurrentDiffers b.c b1.c ∧ OnlyCurrentDiffers b.d b1.d ∧ b1.t = b.t ∧
    (b1.c.st.I = i ∨ b1.c.st.I = b.c.st.I) ∧ (b1.d.st.I = j ∨ b1.d.st.I = b.d.st.I) := by
  have cur : ∀ (c : SPM N) (x : ℚ) s, (c.setCurrent x true).1 = .ok s →
      (c.setCurrent x true).2.st.I = x ∨ (c.setCurrent x true).2.st.I = c.st.I := by
    intro c x s hs
    rcases hb : s.isBad
    · exact Or.inl (spm_setCurrent_accepted c x true s hs hb).1
    · right; rw [spm_setCurrent_refused c x true s hs hb]
  unfold setBoth at h
  have o1 := setCurrent_onlyCurrent b.c i true
  have o2 := setCurrent_onlyCurrent b.d j true
  have c1 := cur b.c i
  have c2 := cur b.d j
  rcases h1 : b.c.setCurrent i true with ⟨s | e | w, c⟩ <;> rw [h1] at h o1 c1 <;> simp only at h o1 c1
  rotate_left
  · cases congrArg Prod.fst h
  · cases congrArg Prod.fst h
  rcases h2 : b.d.setCurrent j true with ⟨s' | e | w, d⟩ <;> rw [h2] at h o2 c2 <;> simp only at h o2 c2
  rotate_left
  · cases congrArg Prod.fst h
  · cases congrArg Prod.fst h
  have e2 : _ = b1 := congrArg Prod.snd h
  subst e2
  exact ⟨o1, o2, rfl, c1 s rfl, c2 s' rfl⟩

/-- Both cells are blocked and count lithium. -/
structure BenchOk (b : Bench N) : Prop where
  bc : b.c.block = true
  bd : b.d.block = true
  cc : CountsLi b.c
  cd : CountsLi b.d

theorem BenchOk.log {b b' : Bench N} {r : List GittRow} (h : BenchOk b) (g : LogOf b r b') : BenchOk b' :=
  ⟨g.c.block.trans h.bc, g.d.block.trans h.bd, g.c.counts h.cc, g.d.counts h.cd⟩

theorem tick_spec {b b1 : Bench N} (hb : BenchOk b) (h : tick b = (.ok (), b1)) :
    Passed b.c b1.c b.c.st.I 1 ∧ Passed b.d b1.d b.d.st.I 1 ∧ b1.t = b.t + 1 ∧ b1.c.st.I = b.c.st.I ∧ b1.d.st.I = b.d.st.I := by
  unfold tick at h
  have p1 := fun c' => passed_second (c' := c') hb.bc hb.cc
  have p2 := fun c' => passed_second (c' := c') hb.bd hb.cd
  rcases h1 : b.c.timeStep 1 1 with ⟨s | e | w, c⟩ <;> rw [h1] at h p1 <;> simp only at h
  rotate_left
  · cases congrArg Prod.fst h
  · cases congrArg Prod.fst h
  rcases h2 : b.d.timeStep 1 1 with ⟨s' | e | w, d⟩ <;> rw [h2] at h p2 <;> simp only at h
  rotate_left
  · cases congrArg Prod.fst h
  · cases congrArg Prod.fst h
  have e2 : _ = b1 := congrArg Prod.snd h
  subst e2
  exact ⟨(p1 c rfl).1, (p2 d rfl).1, rfl, (p1 c rfl).2, (p2 d rfl).2⟩

section
attribute [local irreducible] record tick hold

theorem phase_succ (n : ℕ) (b : Bench N) : phase (n + 1) b =
    match (record b).1 with
    | .throw e => (.throw e, [], (record b).2)
    | .ub w => (.ub w, [], (record b).2)
    | .ok row =>
      match (tick (record b).2).1 with
      | .throw e => (.throw e, [row], (tick (record b).2).2)
      | .ub w => (.ub w, [row], (tick (record b).2).2)
      | .ok () => ((phase n (tick (record b).2).2).1, row :: (phase n (tick (record b).2).2).2.1,
          (phase n (tick (record b).2).2).2.2) := rfl

theorem pulses_succ (i : ℚ) (tp tr n : ℕ) (b : Bench N) : pulses i tp tr (n + 1) b =
    match (hold (-i) i tp b).1 with
    | .throw e => (.throw e, (hold (-i) i tp b).2)
    | .ub w => (.ub w, (hold (-i) i tp b).2)
    | .ok () =>
      match (hold 0 0 tr (hold (-i) i tp b).2.2).1 with
      | .throw e => (.throw e, (hold (-i) i tp b).2.1 ++ (hold 0 0 tr (hold (-i) i tp b).2.2).2.1,
          (hold 0 0 tr (hold (-i) i tp b).2.2).2.2)
      | .ub w => (.ub w, (hold (-i) i tp b).2.1 ++ (hold 0 0 tr (hold (-i) i tp b).2.2).2.1,
          (hold 0 0 tr (hold (-i) i tp b).2.2).2.2)
      | .ok () =>
        ((pulses i tp tr n (hold 0 0 tr (hold (-i) i tp b).2.2).2.2).1,
          (hold (-i) i tp b).2.1 ++ (hold 0 0 tr (hold (-i) i tp b).2.2).2.1 ++
            (pulses i tp tr n (hold 0 0 tr (hold (-i) i tp b).2.2).2.2).2.1,
          (pulses i tp tr n (hold 0 0 tr (hold (-i) i tp b).2.2).2.2).2.2) := rfl

end

theorem phase_spec (n : ℕ) : ∀ (b b' : Bench N) (rows : List GittRow), BenchOk b → phase n b = (.ok (), rows, b') →
    LogOf b rows b' ∧ rows.map (·.Ic) = List.replicate n b.c.st.I ∧ rows.map (·.Id) = List.replicate n b.d.st.I ∧
    b'.c.st.I = b.c.st.I ∧ b'.d.st.I = b.d.st.I := by
  induction n with
  | zero =>
    intro b b' rows _ h
    have e1 : [] = rows := congrArg (·.2.1) h
    have e2 : b = b' := congrArg (·.2.2) h
    subst e1 e2
    exact ⟨.nil b, rfl, rfl, rfl, rfl⟩
  | succ n ih =>
    intro b b' rows hb h
    rw [phase_succ] at h
    rcases h1 : record b with ⟨row | e | w, b1⟩ <;> rw [h1] at h <;> simp only at h
    rotate_left
    · cases congrArg Prod.fst h
    · cases congrArg Prod.fst h
    obtain ⟨a1, a2, a3, a4, a5, a6, a7, a8, a9, a10⟩ := record_spec h1
    have l1 : LogOf b [] b1 := .after a1 a2 a3 (.nil b1)
    have hb1 := hb.log l1
    rcases h2 : tick b1 with ⟨u | e | w, b2⟩ <;> rw [h2] at h <;> simp only at h
    rotate_left
    · cases congrArg Prod.fst h
    · cases congrArg Prod.fst h
    obtain ⟨k1, k2, k3, k4, k5⟩ := tick_spec hb1 h2
    have pc := (passed_only a1).trans k1
    have pd := (passed_only a2).trans k2
    have l2 : LogOf b [row] b2 := by
      refine ⟨by simp [k3, a3], ?_, ?_, ?_⟩
      · simp only [List.map_cons, List.map_nil, List.sum_cons, List.sum_nil, List.length_cons, List.length_nil, a7]
        convert pc using 1
        · rw [a4]; ring
        · norm_num
      · simp only [List.map_cons, List.map_nil, List.sum_cons, List.sum_nil, List.length_cons, List.length_nil, a8]
        convert pd using 1
        · rw [a5]; ring
        · norm_num
      · intro j r hr
        rcases j with _ | j
        · cases hr
          exact ⟨by simp [a6], ⟨b.c, by simpa using Passed.refl b.c, a7.symm, a9⟩, b.d, by simpa using Passed.refl b.d, a8.symm, a10⟩
        · simp at hr
    have e0 : (phase n b2).1 = .ok () := congrArg Prod.fst h
    have e1 : row :: (phase n b2).2.1 = rows := congrArg (·.2.1) h
    have e2 : (phase n b2).2.2 = b' := congrArg (·.2.2) h
    obtain ⟨i1, i2, i3, i4, i5⟩ := ih b2 b' (phase n b2).2.1 (hb.log l2) (Prod.ext e0 (Prod.ext rfl e2))
    subst e1
    refine ⟨l2.append i1, ?_, ?_, ?_, ?_⟩
    · rw [List.map_cons, i2, a7, k4, a4]; rfl
    · rw [List.map_cons, i3, a8, k5, a5]; rfl
    · rw [i4, k4, a4]
    · rw [i5, k5, a5]

theorem hold_spec {i j : ℚ} {n : ℕ} {b b' : Bench N} {rows : List GittRow} (hb : BenchOk b)
    (h : hold i j n b = (.ok (), rows, b')) :
    LogOf b rows b' ∧ ∃ x y, (x = i ∨ x = b.c.st.I) ∧ (y = j ∨ y = b.d.st.I) ∧ rows.map (·.Ic) = List.replicate n x ∧
      rows.map (·.Id) = List.replicate n y ∧ b'.c.st.I = x ∧ b'.d.st.I = y := by
  unfold hold at h
  rcases h1 : setBoth i j b with ⟨u | e | w, b1⟩ <;> rw [h1] at h <;> simp only at h
  rotate_left
  · cases congrArg Prod.fst h
  · cases congrArg Prod.fst h
  obtain ⟨a1, a2, a3, a4, a5⟩ := setBoth_spec h1
  have l1 : LogOf b [] b1 := .after a1 a2 a3 (.nil b1)
  obtain ⟨p1, p2, p3, p4, p5⟩ := phase_spec n b1 b' rows (hb.log l1) h
  exact ⟨l1.append p1, _, _, a4, a5, p2, p3, p4, p5⟩

theorem pulses_spec (i : ℚ) (tp tr n : ℕ) : ∀ (b b' : Bench N) (rows : List GittRow), BenchOk b →
    pulses i tp tr n b = (.ok (), rows, b') →
    LogOf b rows b' ∧ PulseTrain (-i) tp tr n b.c.st.I (rows.map (·.Ic)) ∧ PulseTrain i tp tr n b.d.st.I (rows.map (·.Id)) := by
  induction n with
  | zero =>
    intro b b' rows _ h
    have e1 : [] = rows := congrArg (·.2.1) h
    have e2 : b = b' := congrArg (·.2.2) h
    subst e1 e2
    exact ⟨.nil b, .done _, .done _⟩
  | succ n ih =>
    intro b b' rows hb h
    rw [pulses_succ] at h
    rcases h1 : hold (-i) i tp b with ⟨u | e | w, r1, b1⟩ <;> rw [h1] at h <;> simp only at h
    rotate_left
    · cases congrArg Prod.fst h
    · cases congrArg Prod.fst h
    obtain ⟨l1, x, y, x1, y1, x2, y2, x3, y3⟩ := hold_spec hb h1
    have hb1 := hb.log l1
    rcases h2 : hold 0 0 tr b1 with ⟨u | e | w, r2, b2⟩ <;> rw [h2] at h <;> simp only at h
    rotate_left
    · cases congrArg Prod.fst h
    · cases congrArg Prod.fst h
    obtain ⟨l2, z, w, z1, w1, z2, w2, z3, w3⟩ := hold_spec hb1 h2
    have hb2 := hb1.log l2
    have e0 : (pulses i tp tr n b2).1 = .ok () := congrArg Prod.fst h
    have e1 : r1 ++ r2 ++ (pulses i tp tr n b2).2.1 = rows := congrArg (·.2.1) h
    have e2 : (pulses i tp tr n b2).2.2 = b' := congrArg (·.2.2) h
    obtain ⟨i1, i2, i3⟩ := ih b2 b' (pulses i tp tr n b2).2.1 hb2 (Prod.ext e0 (Prod.ext rfl e2))
    subst e1
    refine ⟨(l1.append l2).append i1, ?_, ?_⟩
    · rw [List.map_append, List.map_append, x2, z2]
      exact .pulse n _ x z _ x1 (x3 ▸ z1) (z3 ▸ i2)
    · rw [List.map_append, List.map_append, y2, w2]
      exact .pulse n _ y w _ y1 (y3 ▸ w1) (w3 ▸ i3)

theorem Spec.PulseTrain.length {i : ℚ} {tp tr n : ℕ} {x : ℚ} {l : List ℚ} (h : PulseTrain i tp tr n x l) :
    l.length = n * (tp + tr) := by
  induction h with
  | done => simp
  | pulse n _ a b rest _ _ _ ih => simp [ih]; ring

/-- **C118.** A pulse test of `n` pulses that ends: a row for the start and one per second, in which times, currents and
voltages are those of the two cells; in every phase each cell has one current, the one asked for or – if it refuses – the one
before; the charge of the rows is the charge that has passed. -/
theorem gitt_record (n tp tr : ℕ) (c d : SPM N) (rows : List GittRow) (b : Bench N) (hb : BenchOk (⟨c, d, 0⟩ : Bench N))
    (h : gitt n tp tr c d = (.ok (), rows, b)) :
    ∃ first rest, rows = first :: rest ∧ first.t = 0 ∧ first.Ic = c.st.I ∧ first.Id = d.st.I ∧ c.V.1 = .ok first.Vc ∧
      d.V.1 = .ok first.Vd ∧ rest.length = n * (tp + tr) ∧ LogOf ⟨c, d, 0⟩ rest b ∧
      PulseTrain (-(5 / 100 * c.par.cap)) tp tr n c.st.I (rest.map (·.Ic)) ∧
      PulseTrain (5 / 100 * c.par.cap) tp tr n d.st.I (rest.map (·.Id)) := by
  unfold gitt at h
  rcases h1 : record (⟨c, d, 0⟩ : Bench N) with ⟨row | e | w, b1⟩ <;> rw [h1] at h <;> simp only at h
  rotate_left
  · cases congrArg Prod.fst h
  · cases congrArg Prod.fst h
  obtain ⟨a1, a2, a3, a4, a5, a6, a7, a8, a9, a10⟩ := record_spec h1
  have l1 : LogOf ⟨c, d, 0⟩ [] b1 := .after a1 a2 a3 (.nil b1)
  have e0 : (pulses (5 / 100 * c.par.cap) tp tr n b1).1 = .ok () := congrArg Prod.fst h
  have e1 : row :: (pulses (5 / 100 * c.par.cap) tp tr n b1).2.1 = rows := congrArg (·.2.1) h
  have e2 : (pulses (5 / 100 * c.par.cap) tp tr n b1).2.2 = b := congrArg (·.2.2) h
  obtain ⟨i1, i2, i3⟩ := pulses_spec _ tp tr n b1 b _ (hb.log l1) (Prod.ext e0 (Prod.ext rfl e2))
  have hlen := i2.length
  rw [List.length_map] at hlen
  have i2 : PulseTrain _ tp tr n c.st.I _ := a4 ▸ i2
  have i3 : PulseTrain _ tp tr n d.st.I _ := a5 ▸ i3
  exact ⟨row, _, e1.symm, a6, a7, a8, a9, a10, hlen, l1.append i1, i2, i3⟩

/-- C118: if no current is refused, the 20 pulses of an hour at 0.05 C pass exactly the nominal capacity, whatever the rests. -/
theorem gitt_nominal (tr : ℕ) (c d : SPM N) (rows : List GittRow) (b : Bench N) (hb : BenchOk (⟨c, d, 0⟩ : Bench N))
    (h : gitt 20 3600 tr c d = (.ok (), rows, b))
    (hc : rows.tail.map (·.Ic) = fullTrain (-(5 / 100 * c.par.cap)) 3600 tr 20)
    (hd : rows.tail.map (·.Id) = fullTrain (5 / 100 * c.par.cap) 3600 tr 20) :
    cathodeLi b.c = cathodeLi c - 3600 * c.par.cap ∧ cathodeLi b.d = cathodeLi d + 3600 * c.par.cap := by
  obtain ⟨first, rest, e, -, -, -, -, -, -, l, -, -⟩ := gitt_record 20 3600 tr c d rows b hb h
  have sum : ∀ (i : ℚ) (tp n : ℕ), (fullTrain i tp tr n).sum = n * tp * i := by
    intro i tp n
    unfold fullTrain
    induction n with
    | zero => simp
    | succ n ih =>
      rw [List.replicate_succ, List.flatten_cons, List.sum_append, ih, List.sum_append, List.sum_replicate, List.sum_replicate]
      rw [nsmul_eq_mul, smul_zero]; push_cast; ring
  rw [e] at hc hd
  have h1 := l.c.cathode
  have h2 := l.d.cathode
  rw [show rest.map (·.Ic) = _ from hc, sum] at h1
  rw [show rest.map (·.Id) = _ from hd, sum] at h2
  refine ⟨?_, ?_⟩
  · rw [h1]; push_cast; ring
  · rw [h2]; push_cast; ring

theorem spmQuiet_bench : BenchOk (⟨spmQuiet, spmQuiet, 0⟩ : Bench 1) := ⟨rfl, rfl, spmQuiet_counts, spmQuiet_counts⟩

/-- A short pulse test that ends, with all currents accepted. -/
example : (gitt 2 3 2 spmQuiet spmQuiet).1 = .ok () ∧
    (gitt 2 3 2 spmQuiet spmQuiet).2.1.tail.map (·.Ic) = fullTrain (-(5 / 100 * spmQuiet.par.cap)) 3 2 2 := by
  constructor <;> decide +kernel

end Slide

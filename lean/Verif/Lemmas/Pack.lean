import Verif.Spec.Pack
import Verif.Props.Structure
import Mathlib.Tactic.Ring
import Mathlib.Tactic.Linarith
import Mathlib.Tactic.FieldSimp
import Mathlib.Tactic.Positivity
import Mathlib.Order.Monotone.Basic

namespace Slide
open StorageUnit Spec Obj
namespace Pack

/-! ### decimal numbers -/

theorem dec_inj {m n : ℕ} (h : dec m = dec n) : m = n := by
  have h1 := @Nat.ofDigitChars_ten_toDigits m
  have h2 := @Nat.ofDigitChars_ten_toDigits n
  unfold dec at h
  rw [h] at h1
  exact h1.symm.trans h2

theorem dec_noSep (n : ℕ) : '_' ∉ dec n := Nat.underscore_not_in_toDigits

theorem dec_ne_nil (n : ℕ) : dec n ≠ [] := Nat.toDigits_ne_nil

/-! ### objects -/

/-- What is known of a unit made by a factory; its objects have addresses in `[lo, hi)`. -/
structure UnitOK (ctl : ℤ) (k : ℕ) (id : List Char) (lo hi : ℕ) (o : Obj Part) : Prop where
  parent : o.parent = none
  oid : o.id = id
  addr : ∀ p u, at? o p = some u → lo ≤ u.addr ∧ u.addr < hi
  distinct : DistinctAddr o
  linked : Linked o
  leaves : CellsAreLeaves o
  names : GoodNames o
  bottomUp : BottomUp o
  count : cellsReached o = k
  cool : CoolingFits ctl o

/-- A row of units with consecutive address ranges. -/
def Row (ctl : ℤ) (k : ℕ) (nm : ℕ → List Char) (i0 lo hi : ℕ) (os : List (Obj Part)) : Prop :=
  ∃ f : ℕ → ℕ, Monotone f ∧ f 0 = lo ∧ f os.length = hi ∧
    ∀ i o, os[i]? = some o → UnitOK ctl k (nm (i0 + i)) (f i) (f (i + 1)) o

theorem row_nil (ctl : ℤ) (k : ℕ) (nm : ℕ → List Char) (i0 lo : ℕ) : Row ctl k nm i0 lo lo [] :=
  ⟨fun _ => lo, fun _ _ _ => le_refl _, rfl, rfl, fun i o h => by simp at h⟩

theorem row_cons {ctl : ℤ} {k : ℕ} {nm : ℕ → List Char} {i0 lo mid hi : ℕ} {o : Obj Part} {os : List (Obj Part)}
    (hm : lo ≤ mid) (h : UnitOK ctl k (nm i0) lo mid o) (hr : Row ctl k nm (i0 + 1) mid hi os) :
    Row ctl k nm i0 lo hi (o :: os) := by
  obtain ⟨f, hf, h0, hl, hk⟩ := hr
  refine ⟨fun i => Nat.casesOn i lo f, ?_, rfl, hl, ?_⟩
  · refine monotone_nat_of_le_succ ?_
    intro i
    cases i with
    | zero => show lo ≤ f 0; omega
    | succ i => exact hf (Nat.le_succ i)
  · intro i u hu
    cases i with
    | zero =>
      simp only [List.getElem?_cons_zero, Option.some.injEq] at hu
      subst hu
      show UnitOK ctl k (nm (i0 + 0)) lo (f 0) o
      rw [h0]; exact h
    | succ i =>
      have := hk i u (by simpa using hu)
      rw [Nat.add_assoc, Nat.add_comm 1] at this
      exact this

theorem at?_setParent_cons (p : Option ℕ) (o : Obj Part) (i : ℕ) (q : List ℕ) :
    at? (o.setParent p) (i :: q) = at? o (i :: q) := by
  rw [at?_cons, at?_cons]; cases o; rfl

theorem at?_setParent (p : Option ℕ) (o : Obj Part) (q : List ℕ) (u : Obj Part) (h : at? (o.setParent p) q = some u) :
    ∃ v, at? o q = some v ∧ u.addr = v.addr ∧ u.kind = v.kind ∧ u.id = v.id ∧ u.data = v.data ∧ u.kids = v.kids := by
  cases q with
  | nil =>
    cases h
    refine ⟨o, rfl, ?_⟩
    cases o
    exact ⟨rfl, rfl, rfl, rfl, rfl⟩
  | cons i q =>
    rw [at?_setParent_cons] at h
    exact ⟨u, h, rfl, rfl, rfl, rfl, rfl⟩

theorem cellsReached_of_same (u v : Obj Part) (hk : u.kind = v.kind) (hks : u.kids = v.kids) :
    cellsReached u = cellsReached v := by
  obtain ⟨a, k, i, p, d, ks⟩ := u
  obtain ⟨a', k', i', p', d', ks'⟩ := v
  change k = k' at hk
  change ks = ks' at hks
  subst hk hks
  unfold cellsReached
  cases k <;> (rw [visit, visit]; rfl)

theorem mem_at (os : List (Obj Part)) (a : ℕ) (k : Kind) (id : List Char) (pa : Option ℕ) (d : Part) (b : Option ℕ)
    (i : ℕ) (q : List ℕ) (u : Obj Part) (h : at? (Obj.mk a k id pa d (os.map (setParent b))) (i :: q) = some u) :
    ∃ o, os[i]? = some o ∧ at? (o.setParent b) q = some u := by
  rw [at?_cons] at h
  change ((os.map (setParent b))[i]?).bind _ = _ at h
  rw [List.getElem?_map] at h
  cases ho : os[i]? with
  | none => rw [ho] at h; cases h
  | some o => rw [ho] at h; exact ⟨o, rfl, h⟩

/-- Connecting a row of units to a new module. -/
theorem mkObj_ok {ctl : ℤ} {k : ℕ} {nm : ℕ → List Char} {lo hi : ℕ} {os : List (Obj Part)} (hr : Row ctl k nm 0 lo hi os)
    (hnm : ∀ i j, nm i = nm j → i = j) (par th : Bool) (id : List Char) (hid : '_' ∉ id) (ncells cooltype : ℕ) (rc : ℚ)
    (hn : ncells = k * os.length) :
    ∃ o, mkObj par th id ncells ctl cooltype rc os hi = (.ok (), o) ∧
      UnitOK ctl (k * os.length) id lo (hi + 1) o ∧
      o.data = .module par th (42 / 10000 * 10 * ncells) (coolOf ncells ctl cooltype) rc := by
  obtain ⟨f, hf, h0, hl, hk⟩ := hr
  have hmem : ∀ o ∈ os, ∃ i, os[i]? = some o := fun o ho => List.mem_iff_getElem?.mp ho
  have hpar : ∀ o ∈ os, o.parent = none := by
    intro o ho
    obtain ⟨i, hi⟩ := hmem o ho
    exact (hk i o hi).parent
  have hnone : ¬ (os.any fun t => t.parent ≠ none && t.parent ≠ some hi) = true := by
    rw [List.any_eq_true]
    rintro ⟨o, ho, h⟩
    rw [hpar o ho] at h
    simp at h
  have hbu : ∀ o ∈ os, BottomUp o := by
    intro o ho
    obtain ⟨i, hi⟩ := hmem o ho
    exact (hk i o hi).bottomUp
  have hcnt : ∀ o ∈ os, cellsReached o = k := by
    intro o ho
    obtain ⟨i, hi⟩ := hmem o ho
    exact (hk i o hi).count
  have hsum : sumNcells os = .ok (k * os.length) := by
    rw [sumNcells_eq os fun o ho => ncells_bottomUp_partial o (hbu o ho)]
    congr 1
    rw [List.map_congr_left hcnt, List.map_const', List.sum_replicate, smul_eq_mul, Nat.mul_comm]
  have hlt : ∀ i o, os[i]? = some o → i < os.length := by
    intro i o h
    by_contra hc
    rw [List.getElem?_eq_none (by omega)] at h
    cases h
  have hset : mkObj par th id ncells ctl cooltype rc os hi = (.ok (), Obj.mk hi (.module (some (k * os.length))) id none
      (.module par th (42 / 10000 * 10 * ncells) (coolOf ncells ctl cooltype) rc) (os.map (setParent (some hi)))) := by
    refine (if_neg hnone).trans ?_
    rw [hsum]
    rfl
  have hreach : cellsReached (Obj.mk hi (.module (some (k * os.length))) id none
      (.module par th (42 / 10000 * 10 * ncells) (coolOf ncells ctl cooltype) rc) (os.map (setParent (some hi)))) =
      k * os.length := by
    rw [cellsReached_module, List.map_map]
    rw [List.map_congr_left (g := fun _ => k) (fun o ho => by
      show cellsReached (o.setParent _) = k
      rw [cellsReached_setParent]; exact hcnt o ho)]
    rw [List.map_const', List.sum_replicate, smul_eq_mul, Nat.mul_comm]
  refine ⟨_, hset, ⟨rfl, rfl, ?_, ?_, ?_, ?_, ?_, ?_, hreach, ?_⟩, rfl⟩
  · intro p u hu
    cases p with
    | nil => cases hu; exact ⟨by show lo ≤ hi; rw [← h0, ← hl]; exact hf (Nat.zero_le _), Nat.lt_succ_self hi⟩
    | cons i q =>
      obtain ⟨o, ho, hq⟩ := mem_at _ _ _ _ _ _ _ _ _ _ hu
      obtain ⟨v, hv, ha, _⟩ := at?_setParent _ _ _ _ hq
      have h1 := (hk i o ho).addr q v hv
      have h2 : lo ≤ f i := by rw [← h0]; exact hf (Nat.zero_le _)
      have h3 : f (i + 1) ≤ hi := by rw [← hl]; exact hf (hlt i o ho)
      rw [ha]
      omega
  · intro p q u v hu hv e
    have key : ∀ i r w, at? (Obj.mk hi (.module (some (k * os.length))) id none
        (.module par th (42 / 10000 * 10 * ncells) (coolOf ncells ctl cooltype) rc) (os.map (setParent (some hi)))) (i :: r) =
        some w → ∃ o x, os[i]? = some o ∧ at? o r = some x ∧ w.addr = x.addr ∧ f i ≤ w.addr ∧ w.addr < f (i + 1) ∧
          f (i + 1) ≤ hi := by
      intro i r w hw
      obtain ⟨o, ho, hq⟩ := mem_at _ _ _ _ _ _ _ _ _ _ hw
      obtain ⟨x, hx, ha, _⟩ := at?_setParent _ _ _ _ hq
      have h1 := (hk i o ho).addr r x hx
      refine ⟨o, x, ho, hx, ha, by omega, by omega, ?_⟩
      rw [← hl]; exact hf (hlt i o ho)
    cases p with
    | nil =>
      cases q with
      | nil => rfl
      | cons j r =>
        cases hu
        obtain ⟨_, _, _, _, _, _, h2, h3⟩ := key j r v hv
        change hi = v.addr at e
        omega
    | cons i r =>
      cases q with
      | nil =>
        cases hv
        obtain ⟨_, _, _, _, _, _, h2, h3⟩ := key i r u hu
        change u.addr = hi at e
        omega
      | cons j r' =>
        obtain ⟨o, x, ho, hx, hxa, hx1, hx2, _⟩ := key i r u hu
        obtain ⟨o', y, ho', hy, hya, hy1, hy2, _⟩ := key j r' v hv
        have hij : i = j := by
          rcases Nat.lt_trichotomy i j with h | h | h
          · have := hf (show i + 1 ≤ j from h); omega
          · exact h
          · have := hf (show j + 1 ≤ i from h); omega
        subst hij
        rw [ho] at ho'
        cases ho'
        rw [(hk i o ho).distinct r r' x y hx hy (by omega)]
  · intro p u i w hu hw
    cases p with
    | nil =>
      cases hu
      obtain ⟨o, ho, hq⟩ := mem_at _ _ _ _ _ _ _ _ _ _ hw
      cases hq
      cases o; rfl
    | cons j q =>
      obtain ⟨o, ho, hq⟩ := mem_at _ _ _ _ _ _ _ _ _ _ hu
      obtain ⟨v, hv, ha, _, _, _, hks⟩ := at?_setParent _ _ _ _ hq
      rw [ha]
      refine (hk j o ho).linked q v i w hv ?_
      rw [at?_cons] at hw ⊢
      rw [hks] at hw
      exact hw
  · intro p u hu hkd
    cases p with
    | nil => cases hu; cases hkd
    | cons j q =>
      obtain ⟨o, ho, hq⟩ := mem_at _ _ _ _ _ _ _ _ _ _ hu
      obtain ⟨v, hv, _, hkk, _, _, hks⟩ := at?_setParent _ _ _ _ hq
      rw [hks]
      exact (hk j o ho).leaves q v hv (by rw [← hkk]; exact hkd)
  · intro p u hu
    cases p with
    | nil =>
      cases hu
      refine ⟨hid, ?_⟩
      show ((os.map (setParent (some hi))).map Obj.id).Nodup
      rw [List.map_map, List.nodup_iff_injective_getElem]
      intro i j hij
      have hi' : i.1 < os.length := by have := i.2; simpa using this
      have hj' : j.1 < os.length := by have := j.2; simpa using this
      simp only [List.getElem_map, Function.comp] at hij
      have e1 : (os[i.1]).id = nm (0 + i.1) := (hk i.1 _ (List.getElem?_eq_getElem hi')).oid
      have e2 : (os[j.1]).id = nm (0 + j.1) := (hk j.1 _ (List.getElem?_eq_getElem hj')).oid
      have e3 : ∀ (b : Option ℕ) (o : Obj Part), (o.setParent b).id = o.id := by intro b o; cases o; rfl
      rw [e3, e3, e1, e2] at hij
      have := hnm _ _ hij
      exact Fin.ext (by omega)
    | cons j q =>
      obtain ⟨o, ho, hq⟩ := mem_at _ _ _ _ _ _ _ _ _ _ hu
      obtain ⟨v, hv, _, _, hidd, _, hks⟩ := at?_setParent _ _ _ _ hq
      rw [hidd, hks]
      exact (hk j o ho).names q v hv
  · exact BottomUp.connect _ os true _ hbu hset
  · intro p u pr t A cool r hu hd
    cases p with
    | nil =>
      cases hu
      rw [hreach]
      cases hd
      refine ⟨?_, ?_, ?_⟩
      · rw [hn]; ring
      · unfold coolOf; rw [hn]; split <;> rfl
      · unfold coolOf; split <;> rfl
    | cons j q =>
      obtain ⟨o, ho, hq⟩ := mem_at _ _ _ _ _ _ _ _ _ _ hu
      obtain ⟨v, hv, _, hkk, _, hdd, hks⟩ := at?_setParent _ _ _ _ hq
      rw [cellsReached_of_same u v hkk hks]
      exact (hk j o ho).cool q v pr t A cool r hv (by rw [← hdd]; exact hd)

theorem cell_ok (ctl : ℤ) (a : ℕ) (id : List Char) (hid : '_' ∉ id) (deg : DegSel) (f : Factors) :
    UnitOK ctl 1 id a (a + 1) (Obj.mk a .cell id none (.cell deg f) []) := by
  have h : ∀ p u, at? (Obj.mk a .cell id none (Part.cell deg f) []) p = some u →
      p = [] ∧ u = Obj.mk a .cell id none (Part.cell deg f) [] := by
    intro p u hu
    cases p with
    | nil => cases hu; exact ⟨rfl, rfl⟩
    | cons i q => rw [at?_cons] at hu; simp [Obj.kids] at hu
  refine ⟨rfl, rfl, ?_, ?_, ?_, ?_, ?_, BottomUp.cell _ _ _ _, rfl, ?_⟩
  · intro p u hu; obtain ⟨_, rfl⟩ := h p u hu; exact ⟨le_refl _, Nat.lt_succ_self _⟩
  · intro p q u v hu hv _; rw [(h p u hu).1, (h q v hv).1]
  · intro p u i k hu hk
    obtain ⟨_, rfl⟩ := h p u hu
    exact absurd (h _ _ hk).1 (by simp)
  · intro p u hu _; obtain ⟨_, rfl⟩ := h p u hu; rfl
  · intro p u hu; obtain ⟨_, rfl⟩ := h p u hu; exact ⟨hid, by simp [Obj.kids]⟩
  · intro p u pr t A cool r hu hd
    obtain ⟨_, rfl⟩ := h p u hu
    cases hd

/-! ### factories -/

variable {G C U W : Type}

/-- The factors agree with the switches: what is not spread is 1. -/
def Synced (cfg : Cfg) (f : Factors) : Prop :=
  (cfg.capSpread = false → f.capf = 1) ∧ (cfg.RSpread = false → f.Rf = 1) ∧
    (cfg.degSpread = false → f.degf = 1 ∧ f.degflam = 1)

/-- The state of the generator after the draws for `n` cells. -/
def genAfter (gen : Gen G) (cfg : Cfg) : ℕ → G → G
  | 0, g => g
  | n + 1, g =>
    let c := if cfg.capSpread then gen.c g else (1, g)
    let r := if cfg.RSpread then gen.r c.2 else (1, c.2)
    let a := if cfg.degSpread then gen.d r.2 else (1, r.2)
    let b := if cfg.degSpread then gen.d a.2 else (1, a.2)
    genAfter gen cfg n b.2

theorem freshDraws_add (gen : Gen G) (cfg : Cfg) (m n : ℕ) (g : G) :
    freshDraws gen cfg (m + n) g = freshDraws gen cfg m g ++ freshDraws gen cfg n (genAfter gen cfg m g) := by
  induction m generalizing g with
  | zero => rw [Nat.zero_add]; rfl
  | succ m ih =>
    rw [Nat.add_right_comm]
    simp only [freshDraws, genAfter]
    rw [ih]
    rfl

theorem genAfter_add (gen : Gen G) (cfg : Cfg) (m n : ℕ) (g : G) :
    genAfter gen cfg (m + n) g = genAfter gen cfg n (genAfter gen cfg m g) := by
  induction m generalizing g with
  | zero => rw [Nat.zero_add]; rfl
  | succ m ih =>
    rw [Nat.add_right_comm]
    simp only [genAfter]
    rw [ih]

theorem draw_eq (gen : Gen G) (cfg : Cfg) (f : Factors) (g : G) (hs : Synced cfg f) :
    Synced cfg (draw gen cfg f g).1 ∧ freshDraws gen cfg 1 g = [(draw gen cfg f g).1] ∧
      genAfter gen cfg 1 g = (draw gen cfg f g).2 := by
  obtain ⟨h1, h2, h3⟩ := hs
  obtain ⟨a, b, c, d⟩ := f
  obtain ⟨x, y, z, w, v⟩ := cfg
  dsimp only at h1 h2 h3
  cases x <;> cases y <;> cases z <;> simp_all [Synced, freshDraws, genAfter, draw]

/-- `one i` makes a unit with `k` cells named `nm i`; `cs` lists the cells of a unit. -/
def Makes (mk : Factors → C) (gen : Gen G) (cfg : Cfg) (k : ℕ) (nm : ℕ → List Char) (cs : U → List C) (P : U → Prop)
    (one : ℕ → St G → Outcome (Built U) × St G) : Prop :=
  ∀ i s, Synced cfg s.f → ∃ b s', one i s = (.ok b, s') ∧ Synced cfg s'.f ∧ s.next ≤ s'.next ∧
    UnitOK cfg.coolControl k (nm i) s.next s'.next b.obj ∧ P b.su ∧
    cs b.su = (freshDraws gen cfg k s.gen).map mk ∧ s'.gen = genAfter gen cfg k s.gen

theorem collect_makes {mk : Factors → C} {gen : Gen G} {cfg : Cfg} {k : ℕ} {nm : ℕ → List Char} {cs : U → List C}
    {P : U → Prop} {one : ℕ → St G → Outcome (Built U) × St G}
    (h : Makes mk gen cfg k nm cs P one) (n i : ℕ) (s : St G) (hs : Synced cfg s.f) :
    ∃ bs s', collect one i n s = (.ok bs, s') ∧ Synced cfg s'.f ∧ s.next ≤ s'.next ∧
      Row cfg.coolControl k nm i s.next s'.next (bs.map Built.obj) ∧ bs.length = n ∧ (∀ b ∈ bs, P b.su) ∧
      (bs.flatMap fun b => cs b.su) = (freshDraws gen cfg (k * n) s.gen).map mk ∧
      s'.gen = genAfter gen cfg (k * n) s.gen := by
  induction n generalizing i s with
  | zero => exact ⟨[], s, rfl, hs, le_refl _, row_nil _ _ _ _ _, rfl, by simp, rfl, rfl⟩
  | succ n ih =>
    obtain ⟨b, s1, e1, hs1, hn1, hu1, hp1, hc1, hg1⟩ := h i s hs
    obtain ⟨bs, s2, e2, hs2, hn2, hu2, hl2, hp2, hc2, hg2⟩ := ih (i + 1) s1 hs1
    refine ⟨b :: bs, s2, ?_, hs2, le_trans hn1 hn2, row_cons hn1 hu1 hu2, by rw [List.length_cons, hl2], ?_, ?_, ?_⟩
    · rw [collect, e1]
      dsimp only
      rw [e2]
    · intro x hx
      rcases List.mem_cons.mp hx with rfl | hx
      · exact hp1
      · exact hp2 x hx
    · rw [List.flatMap_cons, hc1, hc2, hg1, Nat.mul_succ, Nat.add_comm, freshDraws_add, List.map_append]
    · rw [hg2, hg1, Nat.mul_succ, Nat.add_comm, genAfter_add]

theorem level_S {mk : Factors → C} {gen : Gen G} {cfg : Cfg} {k : ℕ} {nm : ℕ → List Char} {cs : U → List C}
    {P : U → Prop} {one : ℕ → St G → Outcome (Built U) × St G}
    (h : Makes mk gen cfg k nm cs P one) (hnm : ∀ i j, nm i = nm j → i = j) (n : ℕ) (th : Bool)
    (id : ℕ → List Char) (hid : ∀ i, '_' ∉ id i) (ncells cooltype : ℕ) (rc : ℚ) (hn : ncells = k * n) :
    Makes mk gen cfg (k * n) id (fun m : ModuleS U => m.kids.flatMap fun x => cs x.su) (StringOf n rc P)
      (fun i => level one n (mkS th (id i) ncells cfg.coolControl cooltype rc)) := by
  intro i s hs
  obtain ⟨bs, s', e, hs', hn', hrow, hl, hp, hc, hg⟩ := collect_makes h n 0 s hs
  obtain ⟨o, ho, hok, _⟩ := mkObj_ok hrow hnm false th (id i) (hid i) ncells cooltype rc (by rw [List.length_map, hl]; exact hn)
  refine ⟨⟨o, { T := CoolSystem.T_ENV, kids := bs.map fun u => ⟨rc, u.su⟩ }⟩, { s' with next := s'.next + 1 }, ?_, hs',
    by show s.next ≤ s'.next + 1; omega, ?_, ⟨?_, ?_, ?_⟩, ?_, hg⟩
  · show level one n (mkS th (id i) ncells cfg.coolControl cooltype rc) s = _
    unfold level
    rw [e]
    dsimp only
    unfold mkS
    rw [ho]
  · rw [List.length_map, hl] at hok; exact hok
  · show CoolSystem.T_ENV = 288; unfold CoolSystem.T_ENV; norm_num
  · show (bs.map _).length = n; rw [List.length_map, hl]
  · intro x hx
    obtain ⟨b, hb, rfl⟩ := List.mem_map.mp hx
    exact ⟨rfl, hp b hb⟩
  · show (bs.map _).flatMap _ = _
    rw [List.flatMap_map]
    exact hc

theorem level_P {mk : Factors → C} {gen : Gen G} {cfg : Cfg} {k : ℕ} {nm : ℕ → List Char} {cs : U → List C}
    {P : U → Prop} {one : ℕ → St G → Outcome (Built U) × St G}
    (h : Makes mk gen cfg k nm cs P one) (hnm : ∀ i j, nm i = nm j → i = j) (n : ℕ) (th : Bool)
    (id : ℕ → List Char) (hid : ∀ i, '_' ∉ id i) (ncells cooltype : ℕ) (rc : ℚ) (hn : ncells = k * n) :
    Makes mk gen cfg (k * n) id (fun m : ModuleP U => m.kids.flatMap fun x => cs x.su) (BlockOf n rc P)
      (fun i => level one n (mkP th (id i) ncells cfg.coolControl cooltype rc)) := by
  intro i s hs
  obtain ⟨bs, s', e, hs', hn', hrow, hl, hp, hc, hg⟩ := collect_makes h n 0 s hs
  obtain ⟨o, ho, hok, _⟩ := mkObj_ok hrow hnm true th (id i) (hid i) ncells cooltype rc (by rw [List.length_map, hl]; exact hn)
  refine ⟨⟨o, { T := CoolSystem.T_ENV, kids := bs.map fun u => ⟨rc, u.su⟩ }⟩, { s' with next := s'.next + 1 }, ?_, hs',
    by show s.next ≤ s'.next + 1; omega, ?_, ⟨?_, ?_, ?_⟩, ?_, hg⟩
  · show level one n (mkP th (id i) ncells cfg.coolControl cooltype rc) s = _
    unfold level
    rw [e]
    dsimp only
    unfold mkP
    rw [ho]
  · rw [List.length_map, hl] at hok; exact hok
  · show CoolSystem.T_ENV = 288; unfold CoolSystem.T_ENV; norm_num
  · show (bs.map _).length = n; rw [List.length_map, hl]
  · intro x hx
    obtain ⟨b, hb, rfl⟩ := List.mem_map.mp hx
    exact ⟨rfl, hp b hb⟩
  · show (bs.map _).flatMap _ = _
    rw [List.flatMap_map]
    exact hc

theorem cell_makes (mk : DegSel → Factors → C) (gen : Gen G) (cfg : Cfg) (deg : DegSel) :
    Makes (mk deg) gen cfg 1 (fun i => ['c', 'e', 'l', 'l'] ++ dec i) (fun c => [c]) (fun _ => True)
      (mkCell mk gen cfg deg) := by
  intro i s hs
  obtain ⟨h1, h2, h3⟩ := draw_eq gen cfg s.f s.gen hs
  refine ⟨_, _, rfl, h1, Nat.le_succ _, cell_ok _ _ _ ?_ _ _, trivial, ?_, h3.symm⟩
  · rw [List.mem_append]
    rintro (h | h)
    · revert h; decide
    · exact dec_noSep i h
  · rw [h2]; rfl

theorem mkObj_data (par th : Bool) (id : List Char) (n : ℕ) (ctl : ℤ) (ct : ℕ) (rc : ℚ) (os : List (Obj Part)) (a : ℕ) :
    (mkObj par th id n ctl ct rc os a).2.data = .module par th (42 / 10000 * 10 * n) (coolOf n ctl ct) rc := by
  unfold mkObj setSUs
  split
  · split <;> rfl
  · split <;> rfl

theorem level_S_cool {one : ℕ → St G → Outcome (Built U) × St G} {n : ℕ} {th : Bool} {id : List Char} {nc : ℕ} {ctl : ℤ}
    {ct : ℕ} {rc : ℚ} {s s' : St G} {b : Built (ModuleS U)} (h : level one n (mkS th id nc ctl ct rc) s = (.ok b, s')) :
    getCoolSystem b.obj = some (coolOf nc ctl ct) := by
  unfold level at h
  split at h
  · unfold mkS at h
    split at h
    · next ho =>
      cases h
      have hd := congrArg (fun r => r.2.data) ho
      dsimp only at hd
      rw [mkObj_data] at hd
      unfold getCoolSystem
      rw [← hd]
    · cases h
    · cases h
  · cases h
  · cases h

theorem level_P_cool {one : ℕ → St G → Outcome (Built U) × St G} {n : ℕ} {th : Bool} {id : List Char} {nc : ℕ} {ctl : ℤ}
    {ct : ℕ} {rc : ℚ} {s s' : St G} {b : Built (ModuleP U)} (h : level one n (mkP th id nc ctl ct rc) s = (.ok b, s')) :
    getCoolSystem b.obj = some (coolOf nc ctl ct) := by
  unfold level at h
  split at h
  · unfold mkP at h
    split at h
    · next ho =>
      cases h
      have hd := congrArg (fun r => r.2.data) ho
      dsimp only at hd
      rw [mkObj_data] at hd
      unfold getCoolSystem
      rw [← hd]
    · cases h
    · cases h
  · cases h
  · cases h

theorem cons_dec_noSep (c : Char) (hc : c ≠ '_') (i : ℕ) : '_' ∉ c :: dec i := by
  rw [List.mem_cons]
  rintro (h | h)
  · exact hc h.symm
  · exact dec_noSep i h

theorem cell_nm_inj (i j : ℕ) (h : (['c', 'e', 'l', 'l'] ++ dec i) = ['c', 'e', 'l', 'l'] ++ dec j) : i = j :=
  dec_inj (List.append_cancel_left h)

theorem cons_nm_inj (c : Char) (i j : ℕ) (h : c :: dec i = c :: dec j) : i = j := dec_inj (List.cons.inj h).2

end Pack
end Slide

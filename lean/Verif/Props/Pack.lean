import Verif.Lemmas.PackReads
import Verif.Props.BatteryBuild
import Verif.Lemmas.SPM

/-!
# C93 Ready-made battery packs
-/

namespace Slide
open StorageUnit Spec Obj
namespace Pack

variable {G C U : Type}

/-- Different units of a battery have different full identifiers, whatever the name of the battery. -/
theorem battery_ids (a : ℕ) (id : List Char) (d : Part) {ctl : ℤ} {k : ℕ} {nm : List Char} {o : Obj Part}
    (h : UnitOK ctl k nm 0 a o) :
    DistinctFullIDs (Obj.mk a (.battery 1 1) id none d [o.setParent (some a)]) := by
  set t := Obj.mk a (.battery 1 1) id none d [o.setParent (some a)] with ht
  have hat : ∀ i p u, at? t (i :: p) = some u → i = 0 ∧ at? (o.setParent (some a)) p = some u := by
    intro i p u hu
    rw [at?_cons] at hu
    cases i with
    | zero => exact ⟨rfl, hu⟩
    | succ i => simp [ht, Obj.kids] at hu
  have hlt : ∀ i p u, at? t (i :: p) = some u → u.addr < a := by
    intro i p u hu
    obtain ⟨v, hv, ha, _⟩ := at?_setParent _ _ _ _ (hat i p u hu).2
    rw [ha]; exact (h.addr p v hv).2
  have hd : DistinctAddr t := by
    intro p q u v hu hv e
    cases p with
    | nil =>
      cases q with
      | nil => rfl
      | cons j q => have := hlt j q v hv; cases hu; change a = _ at e; omega
    | cons i p =>
      cases q with
      | nil => have := hlt i p u hu; cases hv; change _ = a at e; omega
      | cons j q =>
        obtain ⟨rfl, hu'⟩ := hat i p u hu
        obtain ⟨rfl, hv'⟩ := hat j q v hv
        obtain ⟨x, hx, hxa, _⟩ := at?_setParent _ _ _ _ hu'
        obtain ⟨y, hy, hya, _⟩ := at?_setParent _ _ _ _ hv'
        rw [h.distinct p q x y hx hy (by rw [← hxa, ← hya]; exact e)]
  have hl : Linked t := by
    intro p u i w hu hw
    cases p with
    | nil =>
      cases hu
      obtain ⟨_, hw'⟩ := hat i [] w hw
      cases hw'
      cases o; rfl
    | cons j q =>
      obtain ⟨_, hu'⟩ := hat j q u hu
      obtain ⟨x, hx, hxa, _, _, _, hks⟩ := at?_setParent _ _ _ _ hu'
      rw [hxa]
      refine h.linked q x i w hx ?_
      rw [at?_cons] at hw ⊢
      rw [hks] at hw
      exact hw
  have hg : GoodNames (o.setParent (some a)) := by
    intro p u hu
    obtain ⟨x, hx, _, _, hid, _, hks⟩ := at?_setParent _ _ _ _ hu
    rw [hid, hks]
    exact h.names p x hx
  intro p q u v fuel hu hv hp hq e
  rw [fullID_path t hd hl rfl p u hu fuel hp, fullID_path t hd hl rfl q v hv fuel hq] at e
  have e := Outcome.ok.inj e
  cases p with
  | nil =>
    cases q with
    | nil => rfl
    | cons j q =>
      exfalso
      have hlen := congrArg List.length e
      simp only [pathName, ht, Obj.id, List.length_append, List.length_cons] at hlen
      omega
  | cons i p =>
    obtain ⟨rfl, hu'⟩ := hat i p u hu
    cases q with
    | nil =>
      exfalso
      have hlen := congrArg List.length e
      simp only [pathName, ht, Obj.id, List.length_append, List.length_cons] at hlen
      omega
    | cons j q =>
      obtain ⟨rfl, hv'⟩ := hat j q v hv
      have e2 := (List.cons.inj (List.append_cancel_left (show t.id ++ '_' :: pathName (o.setParent (some a)) p =
        t.id ++ '_' :: pathName (o.setParent (some a)) q from e))).2
      rw [names_unique _ hg p q u v hu' hv' e2]

theorem setModule_T [StorageUnit U] (m : U) (mc : Option CoolSystem) (par : Bool) (ns np : ℕ) (b : Battery U)
    (h : Battery.setModule m par mc ns np = .ok b) : b.cool.T = 288 := by
  unfold Battery.setModule CoolSystem.makeHVAC at h
  by_cases hp : par = true
  · rw [if_pos hp] at h; cases h
  · rw [if_neg hp] at h
    cases mc with
    | none => cases h
    | some mc =>
      dsimp only at h
      by_cases hk : mc.kind = .hvac
      · rw [if_pos hk] at h; cases h
      · rw [if_neg hk] at h
        cases hl : Converter.init.getLosses ((lim m).Vmax * ns) (Cap m * np) with
        | throw e => rw [hl] at h; cases h
        | ub w => rw [hl] at h; cases h
        | ok q =>
          rw [hl, Outcome.bind] at h
          split at h
          · cases h
          · rw [Outcome.bind] at h
            cases h
            show CoolSystem.T_ENV = 288
            unfold CoolSystem.T_ENV; norm_num

/-- A battery of one module reads like the module. -/
theorem reads_battery [StorageUnit U] {v clo chi rlo rhi : ℚ} {n : ℕ} {L : VLimits} (b : Battery U)
    (h : Reads b.cells v clo chi rlo rhi n L) (hs : b.ns = 1) (hp : b.np = 1) (hT : b.cool.T = 288) :
    Reads b v clo chi rlo rhi n L := by
  have hs' : (b.ns : ℚ) = 1 := by rw [hs]; rfl
  have hp' : (b.np : ℚ) = 1 := by rw [hp]; rfl
  refine ⟨?_, ?_, ?_, hT, ?_, ?_, ?_, ?_, ?_, ?_, h.ok⟩
  · show V b.cells * b.ns = v; rw [hs', mul_one]; exact h.volt
  · show (OCV b.cells).map (· * (b.ns : ℚ)) = _; rw [h.ocv, hs']; simp
  · show I b.cells * b.np = 0; rw [h.curr, zero_mul]
  · show clo ≤ Cap b.cells * b.np; rw [hp', mul_one]; exact h.cap_lo
  · show Cap b.cells * b.np ≤ chi; rw [hp', mul_one]; exact h.cap_hi
  · show rlo ≤ Rtot b.cells * b.ns / b.np; rw [hp', hs', mul_one, div_one]; exact h.r_lo
  · show Rtot b.cells * b.ns / b.np ≤ rhi; rw [hp', hs', mul_one, div_one]; exact h.r_hi
  · show nCells b.cells * b.ns * b.np = n; rw [hs, hp, mul_one, mul_one]; exact h.cells
  · show Battery.lim b = L
    unfold Battery.lim
    rw [hs', h.limits, mul_one, mul_one, mul_one, mul_one]

/-- The battery around a module made by a factory. -/
theorem mkBattery_ok [StorageUnit U] {mk : Factors → C} {gen : Gen G} {cfg : Cfg} {N : ℕ} {nm : ℕ → List Char}
    {cs : U → List C} {P : U → Prop} {one : ℕ → St G → Outcome (Built U) × St G} (h : Makes mk gen cfg N nm cs P one)
    (nc ct : ℕ) (hc : ∀ s s' b, one 0 s = (.ok b, s') → getCoolSystem b.obj = some (coolOf nc cfg.coolControl ct))
    (id : List Char) (g0 : G) (v clo chi rlo rhi : ℚ) (L : VLimits) (hN : 0 < N)
    (hr : ∀ m : U, P m → cs m = (freshDraws gen cfg N g0).map mk → Reads m v clo chi rlo rhi N L) :
    ∃ o b s', mkBattery id (one 0 { gen := g0 }) = (.ok (o, b), s') ∧ P b.cells ∧ Reads b v clo chi rlo rhi N L ∧
      IsPack mk gen cfg g0 N cs o b ∧ o.id = id := by
  obtain ⟨m, s', e, _, hn, hok, hP, hcs, _⟩ := h 0 { gen := g0 } ⟨fun _ => rfl, fun _ => rfl, fun _ => ⟨rfl, rfl⟩⟩
  have hcool := hc _ _ _ e
  have hread := hr m.su hP hcs
  have hkind : (coolOf nc cfg.coolControl ct).kind ≠ .hvac := by
    unfold coolOf
    split <;> (intro h; cases h)
  have hstr : (coolOf nc cfg.coolControl ct).strategy = cfg.coolControl := by
    unfold coolOf; split <;> rfl
  obtain ⟨b, q, hb, _, hbc, hns, hnp, _, _, hP2, _, _, hk2, hst2, _⟩ :=
    setModule_builds m.su (coolOf nc cfg.coolControl ct) 1 1 hkind (by rw [hread.cells]; omega)
  have hset : (Obj.mk s'.next (.battery 1 1) id none Part.battery []).setModule m.obj =
      (.ok (), Obj.mk s'.next (.battery 1 1) id none Part.battery [m.obj.setParent (some s'.next)]) := by
    unfold setModule
    rw [if_neg (by rw [hok.parent]; simp), if_neg (by simp [Obj.kids])]
    rfl
  have hreach : cellsReached (Obj.mk s'.next (.battery 1 1) id none Part.battery [m.obj.setParent (some s'.next)]) = N := by
    show visit _ 0 (Obj.mk _ _ _ _ _ [_]) = N
    rw [visit, visitAll_count _ _ (fun t _ s => visit_count t s)]
    simp [Obj.kind, cellsReached_setParent, hok.count]
  refine ⟨Obj.mk s'.next (.battery 1 1) id none Part.battery [m.obj.setParent (some s'.next)], b,
    { s' with next := s'.next + 1 }, ?_, by rw [hbc]; exact hP,
    reads_battery b (by rw [hbc]; exact hread) hns hnp (setModule_T _ _ _ _ _ b hb), ?_, rfl⟩
  · unfold mkBattery
    rw [e]
    dsimp only
    rw [hset]
    dsimp only
    rw [hcool, hok.parent]
    dsimp only [Option.isSome]
    rw [hb]
  · refine ⟨?_, hreach, battery_ids _ _ _ hok, ?_, by rw [hbc]; exact hcs, ⟨hk2, by rw [hst2, hstr]⟩, hP2⟩
    · rw [ncells_battery m.obj hok.bottomUp _ _ 1 1 rfl hset, hok.count, Nat.mul_one, Nat.mul_one]
    · intro p u pr t A cool r hu hd
      cases p with
      | nil => cases hu; cases hd
      | cons j q =>
        rw [at?_cons] at hu
        cases j with
        | succ j => simp [Obj.kids] at hu
        | zero =>
          obtain ⟨x, hx, _, hkk, _, hdd, hks⟩ := at?_setParent _ _ _ _ hu
          rw [cellsReached_of_same u x hkk hks]
          exact hok.cool q x pr t A cool r hx (by rw [← hdd]; exact hd)

theorem timesLimits_mul (a b : ℚ) (L : VLimits) : timesLimits a (timesLimits b L) = timesLimits (a * b) L := by
  unfold timesLimits
  simp only [mul_assoc]

/-- Units of the shape `P` whose cells `cs` all read as given, read `v`, `clo`, … -/
def ReadsIf [StorageUnit C] [StorageUnit U] (R : C → Prop) (P : U → Prop) (cs : U → List C)
    (v clo chi rlo rhi : ℚ) (n : ℕ) (L : VLimits) : Prop :=
  ∀ u, P u → (∀ c ∈ cs u, R c) → Reads u v clo chi rlo rhi n L

theorem readsIf_cell [StorageUnit C] (v clo chi rlo rhi : ℚ) (n : ℕ) (L : VLimits) :
    ReadsIf (fun c : C => Reads c v clo chi rlo rhi n L) (fun _ : C => True) (fun c => [c]) v clo chi rlo rhi n L :=
  fun _ _ h => h _ List.mem_cons_self

theorem readsIf_S [StorageUnit C] [StorageUnit U] {R : C → Prop} {P : U → Prop} {cs : U → List C}
    {v clo chi rlo rhi : ℚ} {k : ℕ} {L : VLimits} (h : ReadsIf R P cs v clo chi rlo rhi k L) (hv : 0 < v)
    (n : ℕ) (hn : 0 < n) (rc : ℚ) :
    ReadsIf R (StringOf n rc P) (fun m : ModuleS U => m.kids.flatMap fun x => cs x.su) (n * v) clo chi (n * (rlo + rc))
      (n * (rhi + rc)) (n * k) (timesLimits n L) := by
  intro m hm hc
  exact reads_series hn hv m ⟨hm.1, hm.2.1, fun x hx => ⟨(hm.2.2 x hx).1,
    h x.su (hm.2.2 x hx).2 fun c hcx => hc c (List.mem_flatMap.mpr ⟨x, hx, hcx⟩)⟩⟩

theorem readsIf_P [StorageUnit C] [StorageUnit U] {R : C → Prop} {P : U → Prop} {cs : U → List C}
    {v clo chi rlo rhi : ℚ} {k : ℕ} {L : VLimits} (h : ReadsIf R P cs v clo chi rlo rhi k L) (hr : 0 < rlo)
    (n : ℕ) (hn : 0 < n) (rc : ℚ) (hc : 0 ≤ rc) :
    ReadsIf R (BlockOf n rc P) (fun m : ModuleP U => m.kids.flatMap fun x => cs x.su) v (n * clo) (n * chi)
      (ladder rc rlo (n - 1)) (ladder rc rhi (n - 1)) (n * k) L := by
  intro m hm hcs
  exact reads_parallel hn hc hr m ⟨hm.1, hm.2.1, fun x hx => ⟨(hm.2.2 x hx).1,
    h x.su (hm.2.2 x hx).2 fun c hcx => hcs c (List.mem_flatMap.mpr ⟨x, hx, hcx⟩)⟩⟩

section packs
variable [StorageUnit C] (mk : DegSel → Factors → C) (gen : Gen G) (cfg : Cfg) (g0 : G)
  (v clo chi rlo rhi : ℚ) (L : VLimits)

/-- **C93, `makeBattery`.** -/
theorem makeBattery_pack (balance : Bool) (hv : 0 < v) (hr : 0 < rlo)
    (hcell : ∀ f ∈ freshDraws gen cfg 2700 g0, Reads (mk deg1 f) v clo chi rlo rhi 1 L) :
    let Rs : ℚ := if cfg.contactR then 1 / 10000 else 0
    let Rp : ℚ := if cfg.contactR then 1 / 5000 else 0
    ∃ o b s', makeBattery mk gen cfg { gen := g0 } balance = (.ok (o, b), s') ∧
      BlockOf 9 Rp (StringOf 15 Rs (StringOf 20 Rs fun _ => True)) b.cells ∧
      Reads b (300 * v) (9 * clo) (9 * chi) (ladder Rp (15 * (20 * (rlo + Rs) + Rs)) 8)
        (ladder Rp (15 * (20 * (rhi + Rs) + Rs)) 8) 2700 (timesLimits 300 L) ∧
      IsPack (mk deg1) gen cfg g0 2700 cells3 o b := by
  intro Rs Rp
  have hRs : 0 ≤ Rs := by show (0:ℚ) ≤ if cfg.contactR then _ else _; split <;> norm_num
  have hRp : 0 ≤ Rp := by show (0:ℚ) ≤ if cfg.contactR then _ else _; split <;> norm_num
  have hRp' : (if cfg.contactR then (1:ℚ) / 1000 / 5 else 0) = Rp := by
    show _ = if cfg.contactR then _ else _; split <;> norm_num
  have h1 := level_S (cell_makes mk gen cfg deg1) cell_nm_inj 20 false (fun i => 's' :: dec i)
    (cons_dec_noSep 's' (by decide)) 20 0 Rs rfl
  have h2 := level_S h1 (cons_nm_inj 's') 15 false (fun i => 's' :: dec i)
    (cons_dec_noSep 's' (by decide)) (20 * 15) 2 Rs rfl
  have h3 := level_P h2 (cons_nm_inj 's') 9 true (fun _ => ['p']) (fun _ => by decide) (20 * 15 * 9) 2 Rp rfl
  obtain ⟨o, b, s', e, hP, hrd, hpk, _⟩ := mkBattery_ok h3 (20 * 15 * 9) 2 (fun s s' b hb => level_P_cool hb)
    (settingsStr cfg balance ++ "_pss".toList) g0 (300 * v) (9 * clo) (9 * chi)
    (ladder Rp (15 * (20 * (rlo + Rs) + Rs)) 8) (ladder Rp (15 * (20 * (rhi + Rs) + Rs)) 8) (timesLimits 300 L)
    (by norm_num) (by
      intro m hm hcs
      have r1 := readsIf_S (readsIf_cell (C := C) v clo chi rlo rhi 1 L) hv 20 (by norm_num) Rs
      have r2 := readsIf_S r1 (by positivity) 15 (by norm_num) Rs
      have r3 := readsIf_P r2 (by positivity) 9 (by norm_num) Rp hRp m hm (by
        intro c hc
        beta_reduce at hc
        rw [hcs] at hc
        obtain ⟨f, hf, rfl⟩ := List.mem_map.mp hc
        exact hcell f hf)
      rw [timesLimits_mul] at r3
      push_cast at r3
      rw [show (300:ℚ) * v = 15 * (20 * v) by ring, show timesLimits 300 L = timesLimits (15 * 20) L by norm_num]
      exact r3)
  refine ⟨o, b, s', ?_, hP, hrd, hpk⟩
  rw [← e]
  unfold makeBattery module1
  rw [hRp']

/-- **C93, `makeBattery2`.** -/
theorem makeBattery2_pack (balance : Bool) (hv : 0 < v) (hr : 0 < rlo)
    (hcell : ∀ f ∈ freshDraws gen cfg 2700 g0, Reads (mk deg2 f) v clo chi rlo rhi 1 L) :
    let Rs : ℚ := if cfg.contactR then 1 / 10000 else 0
    let Rp : ℚ := if cfg.contactR then 1 / 5000 else 0
    ∃ o b s', makeBattery2 mk gen cfg { gen := g0 } balance = (.ok (o, b), s') ∧
      StringOf 20 Rs (StringOf 15 Rs (BlockOf 9 Rp fun _ => True)) b.cells ∧
      Reads b (300 * v) (9 * clo) (9 * chi) (20 * (15 * (ladder Rp rlo 8 + Rs) + Rs))
        (20 * (15 * (ladder Rp rhi 8 + Rs) + Rs)) 2700 (timesLimits 300 L) ∧
      IsPack (mk deg2) gen cfg g0 2700 cells3' o b := by
  intro Rs Rp
  have hRs : 0 ≤ Rs := by show (0:ℚ) ≤ if cfg.contactR then _ else _; split <;> norm_num
  have hRp : 0 ≤ Rp := by show (0:ℚ) ≤ if cfg.contactR then _ else _; split <;> norm_num
  have hRp' : (if cfg.contactR then (1:ℚ) / 1000 / 5 else 0) = Rp := by
    show _ = if cfg.contactR then _ else _; split <;> norm_num
  have h1 := level_P (cell_makes mk gen cfg deg2) cell_nm_inj 9 false (fun i => 'p' :: dec i)
    (cons_dec_noSep 'p' (by decide)) 9 0 Rp rfl
  have h2 := level_S h1 (cons_nm_inj 'p') 15 false (fun i => 's' :: dec i)
    (cons_dec_noSep 's' (by decide)) (9 * 15) 2 Rs rfl
  have h3 := level_S h2 (cons_nm_inj 's') 20 true (fun _ => ['s']) (fun _ => by decide) (9 * 15 * 20) 2 Rs rfl
  obtain ⟨o, b, s', e, hP, hrd, hpk, _⟩ := mkBattery_ok h3 (9 * 15 * 20) 2 (fun s s' b hb => level_S_cool hb)
    (settingsStr cfg balance ++ "_ssp".toList) g0 (300 * v) (9 * clo) (9 * chi)
    (20 * (15 * (ladder Rp rlo 8 + Rs) + Rs)) (20 * (15 * (ladder Rp rhi 8 + Rs) + Rs)) (timesLimits 300 L)
    (by norm_num) (by
      intro m hm hcs
      have r1 := readsIf_P (readsIf_cell (C := C) v clo chi rlo rhi 1 L) hr 9 (by norm_num) Rp hRp
      have r2 := readsIf_S r1 hv 15 (by norm_num) Rs
      have r3 := readsIf_S r2 (by positivity) 20 (by norm_num) Rs m hm (by
        intro c hc
        beta_reduce at hc
        rw [hcs] at hc
        obtain ⟨f, hf, rfl⟩ := List.mem_map.mp hc
        exact hcell f hf)
      rw [timesLimits_mul] at r3
      push_cast at r3
      rw [show (300:ℚ) * v = 20 * (15 * v) by ring, show timesLimits 300 L = timesLimits (20 * 15) L by norm_num]
      exact r3)
  refine ⟨o, b, s', ?_, hP, hrd, hpk⟩
  rw [← e]
  unfold makeBattery2 module2
  rw [hRp']

/-- The three packs of racks: `nr` parallel racks of `nm` modules in series, of `ns` blocks in series, of `np` parallel
cells. -/
theorem epfl_pack (deg : DegSel) (np ns nm nr : ℕ) (h0 : 0 < np ∧ 0 < ns ∧ 0 < nm ∧ 0 < nr) (RM : ℚ) (hRM : 0 ≤ RM)
    (id : List Char) (hv : 0 < v) (hr : 0 < rlo)
    (hcell : ∀ f ∈ freshDraws gen cfg (np * ns * nm * nr) g0, Reads (mk deg f) v clo chi rlo rhi 1 L) :
    let Rc : ℚ := if cfg.contactR then 3 / 400000 * RM else 0
    let Rm : ℚ := if cfg.contactR then 1 / 4000 * RM else 0
    let rack (r : ℚ) : ℚ := nm * (ns * (ladder Rc r (np - 1) + Rc) + Rm)
    ∃ o b s', mkBattery id (moduleEPFL deg np ns nm nr mk gen cfg RM { gen := g0 }) = (.ok (o, b), s') ∧
      BlockOf nr Rm (StringOf nm Rm (StringOf ns Rc (BlockOf np Rc fun _ => True))) b.cells ∧
      Reads b ((nm * ns : ℕ) * v) ((nr * np : ℕ) * clo) ((nr * np : ℕ) * chi) (ladder Rm (rack rlo) (nr - 1))
        (ladder Rm (rack rhi) (nr - 1)) (np * ns * nm * nr) (timesLimits ((nm * ns : ℕ) : ℚ) L) ∧
      IsPack (mk deg) gen cfg g0 (np * ns * nm * nr) cells4 o b ∧ o.id = id := by
  intro Rc Rm rack
  obtain ⟨h01, h02, h03, h04⟩ := h0
  have hRc : 0 ≤ Rc := by
    show (0:ℚ) ≤ if cfg.contactR then _ else _
    split
    · positivity
    · exact le_refl _
  have hRm : 0 ≤ Rm := by
    show (0:ℚ) ≤ if cfg.contactR then _ else _
    split
    · positivity
    · exact le_refl _
  have hRc' : (if cfg.contactR then (75:ℚ) / 10000 * (1 / 1000) * RM else 0) = Rc := by
    show _ = if cfg.contactR then _ else _; split <;> ring
  have hRm' : (if cfg.contactR then (25:ℚ) / 100 * (1 / 1000) * RM else 0) = Rm := by
    show _ = if cfg.contactR then _ else _; split <;> ring
  have h1 := level_P (cell_makes mk gen cfg deg) cell_nm_inj np false (fun i => 'p' :: dec i)
    (cons_dec_noSep 'p' (by decide)) np 2 Rc (by rw [Nat.one_mul])
  have h2 := level_S h1 (cons_nm_inj 'p') ns false (fun i => 's' :: dec i)
    (cons_dec_noSep 's' (by decide)) (np * ns) 0 Rc (by rw [Nat.one_mul])
  have h3 := level_S h2 (cons_nm_inj 's') nm false (fun i => 's' :: dec i)
    (cons_dec_noSep 's' (by decide)) (np * ns * nm) 2 Rm (by rw [Nat.one_mul])
  have h4 := level_P h3 (cons_nm_inj 's') nr true (fun _ => ['p']) (fun _ => by decide) (np * ns * nm * nr) 2 Rm
    (by rw [Nat.one_mul])
  rw [Nat.one_mul] at h4
  obtain ⟨o, b, s', e, hP, hrd, hpk, hid⟩ := mkBattery_ok h4 (np * ns * nm * nr) 2 (fun s s' b hb => level_P_cool hb)
    id g0 ((nm * ns : ℕ) * v) ((nr * np : ℕ) * clo) ((nr * np : ℕ) * chi)
    (ladder Rm (rack rlo) (nr - 1)) (ladder Rm (rack rhi) (nr - 1)) (timesLimits ((nm * ns : ℕ) : ℚ) L)
    (by positivity) (by
      intro m hm hcs
      have hl : 0 < ladder Rc rlo (np - 1) := ladder_pos hRc hr _
      have r1 := readsIf_P (readsIf_cell (C := C) v clo chi rlo rhi 1 L) hr np h01 Rc hRc
      have r2 := readsIf_S r1 hv ns h02 Rc
      have r3 := readsIf_S r2 (by positivity) nm h03 Rm
      have r4 := readsIf_P r3 (by positivity) nr h04 Rm hRm m hm (by
        intro c hc
        beta_reduce at hc
        rw [hcs] at hc
        obtain ⟨f, hf, rfl⟩ := List.mem_map.mp hc
        exact hcell f hf)
      rw [timesLimits_mul] at r4
      rw [show (((nm * ns : ℕ) : ℚ)) * v = nm * (ns * v) by push_cast; ring,
        show (((nm * ns : ℕ) : ℚ)) = nm * ns by push_cast; ring,
        show (((nr * np : ℕ) : ℚ)) * clo = nr * (np * clo) by push_cast; ring,
        show (((nr * np : ℕ) : ℚ)) * chi = nr * (np * chi) by push_cast; ring,
        show np * ns * nm * nr = nr * (nm * (ns * (np * 1))) by ring]
      exact r4)
  refine ⟨o, b, s', ?_, hP, hrd, hpk, hid⟩
  rw [← e]
  unfold moduleEPFL
  rw [hRc', hRm']

/-- **C93, `makeBattery_EPFL_smaller`.** -/
theorem makeEPFLsmaller_pack (toStr : ℚ → List Char) (add : List Char) (RM : ℚ) (hRM : 0 ≤ RM) (hv : 0 < v) (hr : 0 < rlo)
    (hcell : ∀ f ∈ freshDraws gen cfg 126 g0, Reads (mk deg3 f) v clo chi rlo rhi 1 L) :
    let Rc : ℚ := if cfg.contactR then 3 / 400000 * RM else 0
    let Rm : ℚ := if cfg.contactR then 1 / 4000 * RM else 0
    let rack (r : ℚ) : ℚ := 3 * (3 * (ladder Rc r 6 + Rc) + Rm)
    ∃ o b s', makeEPFLsmaller mk gen cfg { gen := g0 } toStr add RM = (.ok (o, b), s') ∧
      BlockOf 2 Rm (StringOf 3 Rm (StringOf 3 Rc (BlockOf 7 Rc fun _ => True))) b.cells ∧
      Reads b (9 * v) (14 * clo) (14 * chi) (ladder Rm (rack rlo) 1) (ladder Rm (rack rhi) 1) 126 (timesLimits 9 L) ∧
      IsPack (mk deg3) gen cfg g0 126 cells4 o b := by
  intro Rc Rm rack
  obtain ⟨o, b, s', e, h1, h2, h3, _⟩ := epfl_pack mk gen cfg g0 v clo chi rlo rhi L deg3 7 3 3 2 (by norm_num) RM hRM
    (settingsStrRM toStr cfg add RM ++ "_EPFL".toList) hv hr hcell
  refine ⟨o, b, s', e, h1, ?_, h3⟩
  norm_num at h2
  exact h2

/-- **C93, `makeBattery_EPFL`.** -/
theorem makeEPFL_pack (toStr : ℚ → List Char) (add : List Char) (RM : ℚ) (hRM : 0 ≤ RM) (hv : 0 < v) (hr : 0 < rlo)
    (hcell : ∀ f ∈ freshDraws gen cfg 18900 g0, Reads (mk deg2 f) v clo chi rlo rhi 1 L) :
    let Rc : ℚ := if cfg.contactR then 3 / 400000 * RM else 0
    let Rm : ℚ := if cfg.contactR then 1 / 4000 * RM else 0
    let rack (r : ℚ) : ℚ := 15 * (20 * (ladder Rc r 6 + Rc) + Rm)
    ∃ o b s', makeEPFL mk gen cfg { gen := g0 } toStr add RM = (.ok (o, b), s') ∧
      BlockOf 9 Rm (StringOf 15 Rm (StringOf 20 Rc (BlockOf 7 Rc fun _ => True))) b.cells ∧
      Reads b (300 * v) (63 * clo) (63 * chi) (ladder Rm (rack rlo) 8) (ladder Rm (rack rhi) 8) 18900 (timesLimits 300 L) ∧
      IsPack (mk deg2) gen cfg g0 18900 cells4 o b := by
  intro Rc Rm rack
  obtain ⟨o, b, s', e, h1, h2, h3, _⟩ := epfl_pack mk gen cfg g0 v clo chi rlo rhi L deg2 7 20 15 9 (by norm_num) RM hRM
    (settingsStrRM toStr cfg add RM ++ "_EPFL".toList) hv hr hcell
  refine ⟨o, b, s', e, h1, ?_, h3⟩
  norm_num at h2
  exact h2

/-- **C93, `makeBattery_Test`.** -/
theorem makeTest_pack (toStr : ℚ → List Char) (add : List Char) (RM : ℚ) (hRM : 0 ≤ RM) (hv : 0 < v) (hr : 0 < rlo)
    (hcell : ∀ f ∈ freshDraws gen cfg 72 g0, Reads (mk deg2 f) v clo chi rlo rhi 1 L) :
    let Rc : ℚ := if cfg.contactR then 3 / 400000 * RM else 0
    let Rm : ℚ := if cfg.contactR then 1 / 4000 * RM else 0
    let rack (r : ℚ) : ℚ := 2 * (4 * (ladder Rc r 2 + Rc) + Rm)
    ∃ o b s', makeTest mk gen cfg { gen := g0 } toStr add RM = (.ok (o, b), s') ∧
      BlockOf 3 Rm (StringOf 2 Rm (StringOf 4 Rc (BlockOf 3 Rc fun _ => True))) b.cells ∧
      Reads b (8 * v) (9 * clo) (9 * chi) (ladder Rm (rack rlo) 2) (ladder Rm (rack rhi) 2) 72 (timesLimits 8 L) ∧
      IsPack (mk deg2) gen cfg g0 72 cells4 o b := by
  intro Rc Rm rack
  obtain ⟨o, b, s', e, h1, h2, h3, _⟩ := epfl_pack mk gen cfg g0 v clo chi rlo rhi L deg2 3 4 2 3 (by norm_num) RM hRM
    (settingsStrRM toStr cfg add RM ++ "_EPFL".toList) hv hr hcell
  refine ⟨o, b, s', e, h1, ?_, h3⟩
  norm_num at h2
  exact h2

/-- **C93, `makeBattery_TestParallel`.** -/
theorem makeTestParallel_pack (toStr : ℚ → List Char) (add : List Char) (RM : ℚ) (hRM : 0 ≤ RM) (hr : 0 < rlo)
    (hcell : ∀ f ∈ freshDraws gen cfg 3 g0, Reads (mk deg2 f) v clo chi rlo rhi 1 L) :
    let Rc : ℚ := if cfg.contactR then 3 / 400000 * RM else 0
    ∃ o b s', makeTestParallel mk gen cfg { gen := g0 } toStr add RM = (.ok (o, b), s') ∧
      BlockOf 3 Rc (fun _ => True) b.cells ∧
      Reads b v (3 * clo) (3 * chi) (ladder Rc rlo 2) (ladder Rc rhi 2) 3 L ∧
      IsPack (mk deg2) gen cfg g0 3 cells1 o b := by
  intro Rc
  have hRc : 0 ≤ Rc := by
    show (0:ℚ) ≤ if cfg.contactR then _ else _
    split
    · positivity
    · exact le_refl _
  have hRc' : (if cfg.contactR then (75:ℚ) / 10000 * (1 / 1000) * RM else 0) = Rc := by
    show _ = if cfg.contactR then _ else _; split <;> ring
  have h1 := level_P (cell_makes mk gen cfg deg2) cell_nm_inj 3 false (fun _ => 'p' :: dec 0)
    (fun _ => cons_dec_noSep 'p' (by decide) 0) 3 2 Rc rfl
  obtain ⟨o, b, s', e, hP, hrd, hpk, _⟩ := mkBattery_ok h1 3 2 (fun s s' b hb => level_P_cool hb)
    (settingsStrRM toStr cfg add RM ++ "_ParTest".toList) g0 v (3 * clo) (3 * chi)
    (ladder Rc rlo 2) (ladder Rc rhi 2) L (by norm_num) (by
      intro m hm hcs
      have r1 := readsIf_P (readsIf_cell (C := C) v clo chi rlo rhi 1 L) hr 3 (by norm_num) Rc hRc m hm (by
        intro c hc
        beta_reduce at hc
        rw [hcs] at hc
        obtain ⟨f, hf, rfl⟩ := List.mem_map.mp hc
        exact hcell f hf)
      exact r1)
  refine ⟨o, b, s', ?_, hP, hrd, hpk⟩
  rw [← e]
  unfold makeTestParallel moduleTestParallel
  rw [hRc']

end packs

/-! ### C93: the printed number of cells -/

/-- A battery made by a factory is named as asked and holds the cells of its module. -/
theorem mkBattery_reached [StorageUnit U] {mk : Factors → C} {gen : Gen G} {cfg : Cfg} {N : ℕ} {nm : ℕ → List Char}
    {cs : U → List C} {P : U → Prop} {one : ℕ → St G → Outcome (Built U) × St G} (h : Makes mk gen cfg N nm cs P one)
    (id : List Char) (g0 : G) (o : Obj Part) (b : Battery U) (s' : St G)
    (hb : mkBattery id (one 0 { gen := g0 }) = (.ok (o, b), s')) : cellsReached o = N := by
  obtain ⟨m, s1, e, _, hn, hok, hP, hcs, _⟩ := h 0 { gen := g0 } ⟨fun _ => rfl, fun _ => rfl, fun _ => ⟨rfl, rfl⟩⟩
  have hset : (Obj.mk s1.next (.battery 1 1) id none Part.battery []).setModule m.obj =
      (.ok (), Obj.mk s1.next (.battery 1 1) id none Part.battery [m.obj.setParent (some s1.next)]) := by
    unfold setModule
    rw [if_neg (by rw [hok.parent]; simp), if_neg (by simp [Obj.kids])]
    rfl
  unfold mkBattery at hb
  rw [e] at hb
  dsimp only at hb
  rw [hset] at hb
  dsimp only at hb
  have ho : o = Obj.mk s1.next (.battery 1 1) id none Part.battery [m.obj.setParent (some s1.next)] := by
    split at hb
    · cases hb; rfl
    · cases hb
    · cases hb
  rw [ho]
  show visit _ 0 (Obj.mk _ _ _ _ _ [_]) = N
  rw [visit, visitAll_count _ _ (fun t _ s => visit_count t s)]
  simp [Obj.kind, cellsReached_setParent, hok.count]

theorem epfl_makes (mk : DegSel → Factors → C) (gen : Gen G) (cfg : Cfg) (deg : DegSel) (np ns nm nr : ℕ) (RM : ℚ) :
    ∃ P, Makes (mk deg) gen cfg (np * ns * nm * nr) (fun _ => ['p']) cells4 P
      (fun _ => moduleEPFL deg np ns nm nr mk gen cfg RM) := by
  have h1 := level_P (cell_makes mk gen cfg deg) cell_nm_inj np false (fun i => 'p' :: dec i)
    (cons_dec_noSep 'p' (by decide)) np 2 (if cfg.contactR then 75 / 10000 * (1 / 1000) * RM else 0) (by rw [Nat.one_mul])
  have h2 := level_S h1 (cons_nm_inj 'p') ns false (fun i => 's' :: dec i)
    (cons_dec_noSep 's' (by decide)) (np * ns) 0 (if cfg.contactR then 75 / 10000 * (1 / 1000) * RM else 0) (by rw [Nat.one_mul])
  have h3 := level_S h2 (cons_nm_inj 's') nm false (fun i => 's' :: dec i)
    (cons_dec_noSep 's' (by decide)) (np * ns * nm) 2 (if cfg.contactR then 25 / 100 * (1 / 1000) * RM else 0) (by rw [Nat.one_mul])
  have h4 := level_P h3 (cons_nm_inj 's') nr true (fun _ => ['p']) (fun _ => by decide) (np * ns * nm * nr) 2
    (if cfg.contactR then 25 / 100 * (1 / 1000) * RM else 0) (by rw [Nat.one_mul])
  rw [Nat.one_mul] at h4
  exact ⟨_, h4⟩

theorem module1_makes (mk : DegSel → Factors → C) (gen : Gen G) (cfg : Cfg) :
    ∃ P, Makes (mk deg1) gen cfg 2700 (fun _ => ['p']) cells3 P (fun _ => module1 mk gen cfg) := by
  have h1 := level_S (cell_makes mk gen cfg deg1) cell_nm_inj 20 false (fun i => 's' :: dec i)
    (cons_dec_noSep 's' (by decide)) 20 0 (if cfg.contactR then 1 / 10000 else 0) rfl
  have h2 := level_S h1 (cons_nm_inj 's') 15 false (fun i => 's' :: dec i)
    (cons_dec_noSep 's' (by decide)) (20 * 15) 2 (if cfg.contactR then 1 / 10000 else 0) rfl
  have h3 := level_P h2 (cons_nm_inj 's') 9 true (fun _ => ['p']) (fun _ => by decide) (20 * 15 * 9) 2
    (if cfg.contactR then 1 / 1000 / 5 else 0) rfl
  rw [show 1 * 20 * 15 * 9 = 2700 by norm_num] at h3
  exact ⟨_, h3⟩

theorem module2_makes (mk : DegSel → Factors → C) (gen : Gen G) (cfg : Cfg) :
    ∃ P, Makes (mk deg2) gen cfg 2700 (fun _ => ['s']) cells3' P (fun _ => module2 mk gen cfg) := by
  have h1 := level_P (cell_makes mk gen cfg deg2) cell_nm_inj 9 false (fun i => 'p' :: dec i)
    (cons_dec_noSep 'p' (by decide)) 9 0 (if cfg.contactR then 1 / 1000 / 5 else 0) rfl
  have h2 := level_S h1 (cons_nm_inj 'p') 15 false (fun i => 's' :: dec i)
    (cons_dec_noSep 's' (by decide)) (9 * 15) 2 (if cfg.contactR then 1 / 10000 else 0) rfl
  have h3 := level_S h2 (cons_nm_inj 's') 20 true (fun _ => ['s']) (fun _ => by decide) (9 * 15 * 20) 2
    (if cfg.contactR then 1 / 10000 else 0) rfl
  rw [show 1 * 9 * 15 * 20 = 2700 by norm_num] at h3
  exact ⟨_, h3⟩

theorem testParallel_makes (mk : DegSel → Factors → C) (gen : Gen G) (cfg : Cfg) (RM : ℚ) :
    ∃ P, Makes (mk deg2) gen cfg 3 (fun _ => 'p' :: dec 0) cells1 P (fun _ => moduleTestParallel mk gen cfg RM) :=
  ⟨_, level_P (cell_makes mk gen cfg deg2) cell_nm_inj 3 false (fun _ => 'p' :: dec 0)
    (fun _ => cons_dec_noSep 'p' (by decide) 0) 3 2 (if cfg.contactR then 75 / 10000 * (1 / 1000) * RM else 0) rfl⟩

/-- C93 (partial): five of the six factories print the number of cells of their pack, whatever the cells are.  Missing:
`makeBattery_TestParallel` (`not_printsNumberOfCells`). -/
theorem printsNumberOfCells_partial [StorageUnit C] (mk : DegSel → Factors → C) (gen : Gen G) (cfg : Cfg) (g0 : G)
    (toStr : ℚ → List Char) (add : List Char) (RM : ℚ) (balance : Bool) :
    (∀ o b s', makeBattery mk gen cfg { gen := g0 } balance = (.ok (o, b), s') →
      announced (cellsReached o) .pss = cellsReached o) ∧
    (∀ o b s', makeBattery2 mk gen cfg { gen := g0 } balance = (.ok (o, b), s') →
      announced (cellsReached o) .ssp = cellsReached o) ∧
    (∀ o b s', makeEPFLsmaller mk gen cfg { gen := g0 } toStr add RM = (.ok (o, b), s') →
      announced (cellsReached o) .epflSmaller = cellsReached o) ∧
    (∀ o b s', makeEPFL mk gen cfg { gen := g0 } toStr add RM = (.ok (o, b), s') →
      announced (cellsReached o) .epfl = cellsReached o) ∧
    (∀ o b s', makeTest mk gen cfg { gen := g0 } toStr add RM = (.ok (o, b), s') →
      announced (cellsReached o) .test = cellsReached o) ∧
    (∀ o b s', makeTestParallel mk gen cfg { gen := g0 } toStr add RM = (.ok (o, b), s') → cellsReached o = 3) := by
  refine ⟨?_, ?_, ?_, ?_, ?_, ?_⟩
  · intro o b s' h
    obtain ⟨P, hP⟩ := module1_makes mk gen cfg
    rw [mkBattery_reached hP _ g0 o b s' h]; rfl
  · intro o b s' h
    obtain ⟨P, hP⟩ := module2_makes mk gen cfg
    rw [mkBattery_reached hP _ g0 o b s' h]; rfl
  · intro o b s' h; rfl
  · intro o b s' h; rfl
  · intro o b s' h
    obtain ⟨P, hP⟩ := epfl_makes mk gen cfg deg2 3 4 2 3 RM
    rw [mkBattery_reached hP _ g0 o b s' h]; rfl
  · intro o b s' h
    obtain ⟨P, hP⟩ := testParallel_makes mk gen cfg RM
    exact mkBattery_reached hP _ g0 o b s' h

/-- Cells for the examples: capacity 16 Ah and resistance 2 mΩ times the factors, half full. -/
def packCell (_ : DegSel) (f : Factors) : ECM 0 where
  par := { cap := 16 * f.capf, Rdc := 2 / 1000 * f.Rf, Rp := fun _ => 0, invTau := fun _ => 0, ocv := fun s => some (3 + s) }
  st := { T := 288, SOC := 1 / 2, I := 0, Ir := fun _ => 0, time := 0, Ah := 0, Wh := 0 }

/-- A generator which counts: 1 % more, 1 % less, 1 % more, … -/
def packGen : Gen Bool := ⟨fun b => (if b then 101 / 100 else 99 / 100, !b), fun b => (if b then 102 / 100 else 98 / 100, !b),
  fun b => (if b then 2 else 1, !b)⟩

theorem packCell_reads (d : DegSel) (f : Factors) (h1 : 98 / 100 ≤ f.capf) (h2 : f.capf ≤ 102 / 100)
    (h3 : 98 / 100 ≤ f.Rf) (h4 : f.Rf ≤ 102 / 100) :
    Reads (packCell d f) (7 / 2) (1568 / 100) (1632 / 100) (196 / 100000) (204 / 100000) 1 cellLimits := by
  have hV : ECM.V (packCell d f) = 7 / 2 := by
    show (3:ℚ) + 1 / 2 - 2 / 1000 * f.Rf * 0 - ∑ i : Fin 0, _ = 7 / 2
    simp; norm_num
  refine ⟨hV, ?_, rfl, rfl, ?_, ?_, ?_, ?_, rfl, rfl, ?_⟩
  · show some ((3:ℚ) + 1 / 2) = _; norm_num
  · show _ ≤ 16 * f.capf; linarith
  · show 16 * f.capf ≤ _; linarith
  · show _ ≤ 2 / 1000 * f.Rf; linarith
  · show 2 / 1000 * f.Rf ≤ _; linarith
  · show Slide.checkVoltage cellLimits (some (ECM.V _)) 0 = _
    rw [hV]; decide +kernel

theorem packGen_draws (cfg : Cfg) (n : ℕ) (b : Bool) (f : Factors) (h : f ∈ freshDraws packGen cfg n b) :
    98 / 100 ≤ f.capf ∧ f.capf ≤ 102 / 100 ∧ 98 / 100 ≤ f.Rf ∧ f.Rf ≤ 102 / 100 := by
  induction n generalizing b with
  | zero => cases h
  | succ n ih =>
    rw [freshDraws] at h
    rcases List.mem_cons.mp h with h | h
    · rw [h]
      obtain ⟨c, r, d, x, z⟩ := cfg
      cases c <;> cases r <;> cases d <;> cases b <;> simp [packGen] <;> norm_num
    · exact ih _ h

/-- C93: what is printed for the pack of parallel cells is always `72`, whatever was built. -/
theorem testParallel_announced (k : ℕ) : announced k .testParallel = 72 := rfl

/-- C93 fails: the pack of three parallel cells is announced as 72 cells. -/
theorem not_printsNumberOfCells : ¬ PrintsNumberOfCells := by
  intro h
  let cfg : Cfg := ⟨false, false, false, false, 1⟩
  obtain ⟨o, b, s', e, _, _, hp⟩ := makeTestParallel_pack packCell packGen cfg true (7 / 2) (1568 / 100) (1632 / 100)
    (196 / 100000) (204 / 100000) cellLimits (fun _ => []) [] 1 (by norm_num) (by norm_num) (by
      intro f hf
      obtain ⟨h1, h2, h3, h4⟩ := packGen_draws cfg 3 true f hf
      exact packCell_reads _ f h1 h2 h3 h4)
  have h1 := (h Bool (ECM 0) packCell packGen cfg true (fun _ => []) [] 1 false).2.2.2.2.2 o b s' e
  rw [hp.reached] at h1
  revert h1
  decide

/-- The big pack with spread of everything: 1050 V, between 141 and 147 Ah. -/
example : ∃ o b s', makeBattery packCell packGen ⟨true, true, true, true, 1⟩ { gen := true } true = (.ok (o, b), s') ∧
    StorageUnit.V b = 1050 ∧ 141 ≤ StorageUnit.Cap b ∧ StorageUnit.Cap b ≤ 147 ∧ o.getNcells = .ok 2700 := by
  obtain ⟨o, b, s', e, _, hr, hp⟩ := makeBattery_pack packCell packGen ⟨true, true, true, true, 1⟩ true (7 / 2) (1568 / 100)
    (1632 / 100) (196 / 100000) (204 / 100000) cellLimits true (by norm_num) (by norm_num) (by
      intro f hf
      obtain ⟨h1, h2, h3, h4⟩ := packGen_draws _ _ _ f hf
      exact packCell_reads _ f h1 h2 h3 h4)
  refine ⟨o, b, s', e, ?_, ?_, ?_, hp.count⟩
  · rw [hr.volt]; norm_num
  · have := hr.cap_lo; linarith
  · have := hr.cap_hi; linarith

example : ∃ o b s', makeEPFL packCell packGen ⟨true, true, true, true, 1⟩ { gen := true } (fun _ => []) [] 1 = (.ok (o, b), s') ∧
    StorageUnit.V b = 1050 ∧ 987 ≤ StorageUnit.Cap b ∧ o.getNcells = .ok 18900 := by
  obtain ⟨o, b, s', e, _, hr, hp⟩ := makeEPFL_pack packCell packGen ⟨true, true, true, true, 1⟩ true (7 / 2) (1568 / 100)
    (1632 / 100) (196 / 100000) (204 / 100000) cellLimits (fun _ => []) [] 1 (by norm_num) (by norm_num) (by norm_num) (by
      intro f hf
      obtain ⟨h1, h2, h3, h4⟩ := packGen_draws _ _ _ f hf
      exact packCell_reads _ f h1 h2 h3 h4)
  refine ⟨o, b, s', e, ?_, ?_, hp.count⟩
  · rw [hr.volt]; norm_num
  · have := hr.cap_lo; linarith

/-! ### C94: the spread between the cells -/

theorem spmCells_spread {N : ℕ} (c : SPM N) (deg : DegSel) (fs : List Factors) :
    SpreadOfSPM c fs (fs.map (spmCells c deg)) := by
  refine ⟨?_, ?_, ?_⟩
  · rw [List.map_map]; rfl
  · rw [List.map_map]; rfl
  · intro x hx
    obtain ⟨f, _, rfl⟩ := List.mem_map.mp hx
    exact ⟨rfl, rfl, rfl, rfl⟩

/-- C94 (partial): in the packs of single-particle cells the capacity and the resistance of every cell follow its own
draws; the degradation models have the same parameters in all cells.  Missing: the spread of the degradation rates
(`not_spreadOfAgeing`). -/
theorem spreadOfSPM_partial {N : ℕ} (c : SPM N) (gen : Gen G) (cfg : Cfg) (g0 : G) (RM : ℚ) :
    (∃ b s', module1 (spmCells c) gen cfg { gen := g0 } = (.ok b, s') ∧
      SpreadOfSPM c (freshDraws gen cfg 2700 g0) (cells3 b.su)) ∧
    (∃ b s', module2 (spmCells c) gen cfg { gen := g0 } = (.ok b, s') ∧
      SpreadOfSPM c (freshDraws gen cfg 2700 g0) (cells3' b.su)) ∧
    (∃ b s', moduleEPFL deg3 7 3 3 2 (spmCells c) gen cfg RM { gen := g0 } = (.ok b, s') ∧
      SpreadOfSPM c (freshDraws gen cfg 126 g0) (cells4 b.su)) ∧
    (∃ b s', moduleEPFL deg2 7 20 15 9 (spmCells c) gen cfg RM { gen := g0 } = (.ok b, s') ∧
      SpreadOfSPM c (freshDraws gen cfg 18900 g0) (cells4 b.su)) ∧
    (∃ b s', moduleEPFL deg2 3 4 2 3 (spmCells c) gen cfg RM { gen := g0 } = (.ok b, s') ∧
      SpreadOfSPM c (freshDraws gen cfg 72 g0) (cells4 b.su)) ∧
    (∃ b s', moduleTestParallel (spmCells c) gen cfg RM { gen := g0 } = (.ok b, s') ∧
      SpreadOfSPM c (freshDraws gen cfg 3 g0) (cells1 b.su)) := by
  have hs : Synced cfg ({ gen := g0 } : St G).f := ⟨fun _ => rfl, fun _ => rfl, fun _ => ⟨rfl, rfl⟩⟩
  refine ⟨?_, ?_, ?_, ?_, ?_, ?_⟩
  · obtain ⟨P, hP⟩ := module1_makes (spmCells c) gen cfg
    obtain ⟨b, s', e, _, _, _, _, hc, _⟩ := hP 0 { gen := g0 } hs
    exact ⟨b, s', e, by rw [hc]; exact spmCells_spread c _ _⟩
  · obtain ⟨P, hP⟩ := module2_makes (spmCells c) gen cfg
    obtain ⟨b, s', e, _, _, _, _, hc, _⟩ := hP 0 { gen := g0 } hs
    exact ⟨b, s', e, by rw [hc]; exact spmCells_spread c _ _⟩
  · obtain ⟨P, hP⟩ := epfl_makes (spmCells c) gen cfg deg3 7 3 3 2 RM
    obtain ⟨b, s', e, _, _, _, _, hc, _⟩ := hP 0 { gen := g0 } hs
    exact ⟨b, s', e, by rw [hc]; exact spmCells_spread c _ _⟩
  · obtain ⟨P, hP⟩ := epfl_makes (spmCells c) gen cfg deg2 7 20 15 9 RM
    obtain ⟨b, s', e, _, _, _, _, hc, _⟩ := hP 0 { gen := g0 } hs
    exact ⟨b, s', e, by rw [hc]; exact spmCells_spread c _ _⟩
  · obtain ⟨P, hP⟩ := epfl_makes (spmCells c) gen cfg deg2 3 4 2 3 RM
    obtain ⟨b, s', e, _, _, _, _, hc, _⟩ := hP 0 { gen := g0 } hs
    exact ⟨b, s', e, by rw [hc]; exact spmCells_spread c _ _⟩
  · obtain ⟨P, hP⟩ := testParallel_makes (spmCells c) gen cfg RM
    obtain ⟨b, s', e, _, _, _, _, hc, _⟩ := hP 0 { gen := g0 } hs
    exact ⟨b, s', e, by rw [hc]; exact spmCells_spread c _ _⟩

/-- C94 fails: the factors drawn for the degradation have no effect. -/
theorem not_spreadOfAgeing : ¬ SpreadOfAgeing := by
  intro h
  obtain ⟨⟨b, s', e, _, _, hx⟩, _⟩ := spreadOfSPM_partial spm1 packGen ⟨false, false, true, false, 1⟩ true 1
  have h1 := h 1 spm1 Bool packGen ⟨false, false, true, false, 1⟩ true rfl rfl rfl b s' e
  rw [show freshDraws packGen ⟨false, false, true, false, 1⟩ 2700 true = ⟨1, 1, 2, 1⟩ ::
    freshDraws packGen ⟨false, false, true, false, 1⟩ 2699 true from rfl, List.map_cons] at h1
  cases hc : cells3 b.su with
  | nil => rw [hc] at h1; cases h1
  | cons x xs =>
    rw [hc, List.map_cons] at h1
    have h2 := (Prod.mk.inj (List.cons.inj h1).1).1
    rw [(hx x (by rw [hc]; exact List.mem_cons_self)).1] at h2
    revert h2
    decide +kernel

/-! ### C95: the names of the packs -/

theorem mkBattery_id [StorageUnit U] (id : List Char) (r : Outcome (Built U) × St G) (o : Obj Part) (b : Battery U)
    (s' : St G) (h : mkBattery id r = (.ok (o, b), s')) : o.id = id := by
  unfold mkBattery at h
  split at h
  · split at h
    · split at h
      · cases h
        rename_i hs _
        unfold Obj.setModule at hs
        split at hs
        · cases hs
        · split at hs
          · cases hs
          · cases hs; rfl
      · cases h
      · cases h
    · cases h
    · cases h
  · cases h
  · cases h

theorem decZ_noSep (z : ℤ) : '_' ∉ decZ z := by
  unfold decZ
  split
  · exact cons_dec_noSep '-' (by decide) _
  · exact dec_noSep _

theorem dec_noMinus (n : ℕ) : '-' ∉ dec n := by
  intro h
  have := Nat.isDigit_of_mem_toDigits (b := 10) (by norm_num) (by norm_num) h
  revert this; decide

theorem decZ_inj {x y : ℤ} (h : decZ x = decZ y) : x = y := by
  unfold decZ at h
  split at h <;> split at h
  · have := dec_inj (List.cons.inj h).2; omega
  · exact absurd (h ▸ List.mem_cons_self) (dec_noMinus _)
  · exact absurd (h.symm ▸ List.mem_cons_self) (dec_noMinus _)
  · have := dec_inj h; omega

/-- The switches in the name. -/
def switches (c r d k b : Bool) : List Char :=
  (if c then "_capSpread".toList else []) ++ ((if r then "_RSpread".toList else []) ++
    ((if d then "_degSpread".toList else []) ++ ((if k then "_contactR".toList else []) ++
    (if b then "_balance".toList else []))))

theorem settingsStr_eq (cfg : Cfg) (bal : Bool) : settingsStr cfg bal = ("cool".toList ++ decZ cfg.coolControl) ++
    switches cfg.capSpread cfg.RSpread cfg.degSpread cfg.contactR bal := by
  unfold settingsStr switches
  simp only [List.append_assoc]

theorem switches_inj : ∀ c r d k b c' r' d' k' b' : Bool, switches c r d k b = switches c' r' d' k' b' →
    c = c' ∧ r = r' ∧ d = d' ∧ k = k' ∧ b = b' := by
  decide +kernel

theorem switches_head (c r d k b : Bool) (t : List Char) (ht : t.head? = some '_') :
    (switches c r d k b ++ t).head? = some '_' := by
  cases c <;> cases r <;> cases d <;> cases k <;> cases b <;> first | exact ht | rfl

/-- What is in front of the first `_`. -/
theorem front_inj {a b x y : List Char} (ha : '_' ∉ a) (hb : '_' ∉ b) (hx : x.head? = some '_') (hy : y.head? = some '_')
    (h : a ++ x = b ++ y) : a = b ∧ x = y := by
  induction a generalizing b with
  | nil =>
    cases b with
    | nil => exact ⟨rfl, h⟩
    | cons c b =>
      exfalso
      rw [List.nil_append] at h
      rw [h] at hx
      simp at hx
      exact hb (by rw [hx]; exact List.mem_cons_self)
  | cons c a ih =>
    cases b with
    | nil =>
      exfalso
      rw [List.nil_append] at h
      rw [← h] at hy
      simp at hy
      exact ha (by rw [hy]; exact List.mem_cons_self)
    | cons d b =>
      obtain ⟨h1, h2⟩ := List.cons.inj (show c :: (a ++ x) = d :: (b ++ y) from h)
      obtain ⟨e1, e2⟩ := ih (fun h => ha (List.mem_cons_of_mem _ h)) (fun h => hb (List.mem_cons_of_mem _ h)) h2
      exact ⟨by rw [h1, e1], e2⟩

theorem cool_noSep (z : ℤ) : '_' ∉ "cool".toList ++ decZ z := by
  intro h
  rcases List.mem_append.mp h with h | h
  · revert h; decide
  · exact decZ_noSep z h

/-- The name tells the settings. -/
theorem settings_name_inj (t : List Char) (ht : t = "_pss".toList ∨ t = "_ssp".toList) (cfg cfg' : Cfg) (bal bal' : Bool)
    (h : settingsStr cfg bal ++ t = settingsStr cfg' bal' ++ t) : cfg = cfg' ∧ bal = bal' := by
  rw [settingsStr_eq, settingsStr_eq, List.append_assoc (_ ++ _), List.append_assoc (_ ++ decZ cfg'.coolControl)] at h
  have hh : t.head? = some '_' := by rcases ht with rfl | rfl <;> rfl
  obtain ⟨h1, h2⟩ := front_inj (cool_noSep _) (cool_noSep _) (switches_head _ _ _ _ _ t hh) (switches_head _ _ _ _ _ t hh) h
  have h3 := decZ_inj (List.append_cancel_left h1)
  obtain ⟨e1, e2, e3, e4, e5⟩ := switches_inj _ _ _ _ _ _ _ _ _ _ (List.append_cancel_right h2)
  obtain ⟨a, b, c, d, z⟩ := cfg
  obtain ⟨a', b', c', d', z'⟩ := cfg'
  simp only at h3 e1 e2 e3 e4
  exact ⟨by rw [e1, e2, e3, e4, h3], e5⟩

theorem last_ne {a b x y : List Char} {c d : Char} (hc : c ≠ d) (h : a ++ (x ++ [c]) = b ++ (y ++ [d])) : False := by
  have := congrArg List.getLast? h
  rw [← List.append_assoc, ← List.append_assoc, List.getLast?_concat, List.getLast?_concat] at this
  exact hc (Option.some.inj this)

/-- C95 (partial): the names of the packs of `makeBattery` and `makeBattery2` tell the factory and all settings, and no
other factory gives these names; the three packs of racks and the parallel test pack are told apart as well.  Missing:
the three packs of racks are not told apart from each other (`not_namesTellPacksApart`). -/
theorem names_partial [StorageUnit C] (mk : DegSel → Factors → C) (gen : Gen G) (toStr : ℚ → List Char) (add add' : List Char)
    (RM RM' : ℚ) (cfg cfg' : Cfg) (s : St G) (bal bal' : Bool) :
    (∀ o b s1 o' b' s2, makeBattery mk gen cfg s bal = (.ok (o, b), s1) →
      makeBattery mk gen cfg' s bal' = (.ok (o', b'), s2) → o.id = o'.id → cfg = cfg' ∧ bal = bal') ∧
    (∀ o b s1 o' b' s2, makeBattery2 mk gen cfg s bal = (.ok (o, b), s1) →
      makeBattery2 mk gen cfg' s bal' = (.ok (o', b'), s2) → o.id = o'.id → cfg = cfg' ∧ bal = bal') ∧
    (∀ o b s1 o' b' s2, makeBattery mk gen cfg s bal = (.ok (o, b), s1) →
      makeBattery2 mk gen cfg' s bal' = (.ok (o', b'), s2) → o.id ≠ o'.id) ∧
    (∀ o b s1 o' b' s2, makeBattery mk gen cfg s bal = (.ok (o, b), s1) →
      (makeEPFL mk gen cfg' s toStr add RM = (.ok (o', b'), s2) ∨ makeTest mk gen cfg' s toStr add RM = (.ok (o', b'), s2) ∨
        makeEPFLsmaller mk gen cfg' s toStr add RM = (.ok (o', b'), s2)) → o.id ≠ o'.id) ∧
    (∀ o b s1 o' b' s2, makeBattery2 mk gen cfg s bal = (.ok (o, b), s1) →
      (makeEPFL mk gen cfg' s toStr add RM = (.ok (o', b'), s2) ∨ makeTest mk gen cfg' s toStr add RM = (.ok (o', b'), s2) ∨
        makeEPFLsmaller mk gen cfg' s toStr add RM = (.ok (o', b'), s2)) → o.id ≠ o'.id) ∧
    (∀ o b s1 o' b' s2, makeTestParallel mk gen cfg s toStr add' RM' = (.ok (o, b), s1) →
      (makeEPFL mk gen cfg' s toStr add RM = (.ok (o', b'), s2) ∨ makeTest mk gen cfg' s toStr add RM = (.ok (o', b'), s2) ∨
        makeEPFLsmaller mk gen cfg' s toStr add RM = (.ok (o', b'), s2)) → o.id ≠ o'.id) := by
  refine ⟨?_, ?_, ?_, ?_, ?_, ?_⟩
  · intro o b s1 o' b' s2 h h' e
    rw [mkBattery_id _ _ _ _ _ h, mkBattery_id _ _ _ _ _ h'] at e
    exact settings_name_inj _ (.inl rfl) _ _ _ _ e
  · intro o b s1 o' b' s2 h h' e
    rw [mkBattery_id _ _ _ _ _ h, mkBattery_id _ _ _ _ _ h'] at e
    exact settings_name_inj _ (.inr rfl) _ _ _ _ e
  · intro o b s1 o' b' s2 h h' e
    rw [mkBattery_id _ _ _ _ _ h, mkBattery_id _ _ _ _ _ h'] at e
    exact last_ne (x := "_ps".toList) (y := "_ss".toList) (c := 's') (d := 'p') (by decide) e
  · intro o b s1 o' b' s2 h h' e
    rw [mkBattery_id _ _ _ _ _ h, show o'.id = settingsStrRM toStr cfg' add RM ++ "_EPFL".toList by
      rcases h' with h' | h' | h' <;> exact mkBattery_id _ _ _ _ _ h'] at e
    exact last_ne (x := "_ps".toList) (y := "_EPF".toList) (c := 's') (d := 'L') (by decide) e
  · intro o b s1 o' b' s2 h h' e
    rw [mkBattery_id _ _ _ _ _ h, show o'.id = settingsStrRM toStr cfg' add RM ++ "_EPFL".toList by
      rcases h' with h' | h' | h' <;> exact mkBattery_id _ _ _ _ _ h'] at e
    exact last_ne (x := "_ss".toList) (y := "_EPF".toList) (c := 'p') (d := 'L') (by decide) e
  · intro o b s1 o' b' s2 h h' e
    rw [mkBattery_id _ _ _ _ _ h, show o'.id = settingsStrRM toStr cfg' add RM ++ "_EPFL".toList by
      rcases h' with h' | h' | h' <;> exact mkBattery_id _ _ _ _ _ h'] at e
    exact last_ne (x := "_ParTes".toList) (y := "_EPF".toList) (c := 't') (d := 'L') (by decide) e

/-- C95 fails: a battery of 18900 cells and one of 72 cells with the same settings have the same name. -/
theorem not_namesTellPacksApart : ¬ NamesTellPacksApart := by
  intro h
  let cfg : Cfg := ⟨true, true, true, true, 1⟩
  obtain ⟨o, b, s1, e1, _, _, _⟩ := makeEPFL_pack packCell packGen cfg true (7 / 2) (1568 / 100)
    (1632 / 100) (196 / 100000) (204 / 100000) cellLimits (fun _ => []) [] 1 (by norm_num) (by norm_num) (by norm_num) (by
      intro f hf
      obtain ⟨h1, h2, h3, h4⟩ := packGen_draws _ _ _ f hf
      exact packCell_reads _ f h1 h2 h3 h4)
  obtain ⟨o', b', s2, e2, _, _, _⟩ := makeTest_pack packCell packGen cfg true (7 / 2) (1568 / 100)
    (1632 / 100) (196 / 100000) (204 / 100000) cellLimits (fun _ => []) [] 1 (by norm_num) (by norm_num) (by norm_num) (by
      intro f hf
      obtain ⟨h1, h2, h3, h4⟩ := packGen_draws _ _ _ f hf
      exact packCell_reads _ f h1 h2 h3 h4)
  refine (h Bool (ECM 0) packCell packGen (fun _ => []) [] 1).2.2.2 cfg { gen := true } o b s1 o' b' s2 e1 e2 ?_
  rw [mkBattery_id _ _ _ _ _ e1, mkBattery_id _ _ _ _ _ e2]

/-- C94: in the packs the cells grow an SEI layer by one law (number 4), without cracks and without plating; loss of active
material only in the packs other than that of `makeBattery`, and by one law (number 1); clogging of the pores in all but the
small EPFL pack. -/
theorem pack_cells_age {N : ℕ} (c : SPM N) (ocv : ℚ) :
    (c.deg ∈ [deg1, deg2, deg3] → c.crack ocv = .ok (0, 0, 0) ∧ c.plating ocv = .ok 0 ∧
      (c.SEI ocv).bind (fun r => .ok r.1) = c.seiModel ocv 4) ∧
    (c.deg = deg1 → c.lamSum c.deg.LAM = .ok {}) ∧
    (c.deg = deg2 ∨ c.deg = deg3 → c.lamSum c.deg.LAM = c.lamModel 1) ∧
    (c.deg = deg3 → ∀ r, c.SEI ocv = .ok r → r.2 = 0) ∧
    (c.deg = deg1 ∨ c.deg = deg2 → ∀ r, c.SEI ocv = .ok r → r.2 = -c.par.sei.porosity *
      (c.st.I / c.par.elecSurf / (c.st.an * c.par.n * Faraday * c.st.thickn) * c.par.Vmain + r.1 * c.par.Vsei)) := by
  have hsum : ∀ x : Outcome ℚ, (x.bind fun a => Outcome.bind (.ok 0) fun r => Outcome.ok (a + r)) = x := by
    intro x
    cases x with
    | ok a => show Outcome.ok (a + 0) = _; rw [add_zero]
    | throw e => rfl
    | ub w => rfl
  have hlam : ∀ x : Outcome SPM.LamOut, (x.bind fun a => Outcome.bind (.ok {}) fun r => Outcome.ok (a.add r)) = x := by
    intro x
    cases x with
    | ok a =>
      show Outcome.ok (a.add {}) = _
      unfold SPM.LamOut.add
      simp only [add_zero]
    | throw e => rfl
    | ub w => rfl
  have hs : ∀ d, d = deg1 ∨ d = deg2 ∨ d = deg3 → d.SEI = [4] ∧ d.CS = [0] ∧ d.CSdiff = 0 ∧ d.pl = 0 := by
    rintro d (rfl | rfl | rfl) <;> exact ⟨rfl, rfl, rfl, rfl⟩
  have hsei : ∀ d, c.deg = d → d.SEI = [4] → SPM.sumModels (c.seiModel ocv) c.deg.SEI = c.seiModel ocv 4 := by
    intro d hd h4
    rw [hd, h4]
    exact hsum _
  refine ⟨fun hd => ?_, fun hd => ?_, fun hd => ?_, fun hd r hr => ?_, fun hd r hr => ?_⟩
  · have hd' : c.deg = deg1 ∨ c.deg = deg2 ∨ c.deg = deg3 := by simpa using hd
    obtain ⟨h1, h2, h3, h4⟩ := hs _ hd'
    refine ⟨?_, ?_, ?_⟩
    · unfold SPM.crack
      rw [h2, h3]
      show Outcome.ok ((([0] : List ℕ).map c.csMult).sum, (0 : ℚ) + 0, (0 : ℚ)) = _
      simp [SPM.csMult]
    · unfold SPM.plating
      rw [h4]
      rfl
    · unfold SPM.SEI
      rw [hsei _ rfl h1]
      generalize c.seiModel ocv 4 = x
      have hp : c.deg.SEIpor = 0 ∨ c.deg.SEIpor = 1 := by
        rcases hd' with h | h | h <;> rw [h]
        · exact .inr rfl
        · exact .inr rfl
        · exact .inl rfl
      cases x with
      | ok a => rcases hp with h | h <;> rw [h] <;> rfl
      | throw e => rfl
      | ub w => rfl
  · rw [hd]; exact hlam (.ok {})
  · have : c.deg.LAM = [1] := by rcases hd with h | h <;> rw [h] <;> rfl
    rw [this]
    exact hlam _
  · unfold SPM.SEI at hr
    rw [hsei _ hd rfl, hd] at hr
    generalize c.seiModel ocv 4 = x at hr
    cases x with
    | ok a => exact (congrArg Prod.snd (Outcome.ok.inj hr)).symm
    | throw e => cases hr
    | ub w => cases hr
  · have hp : c.deg.SEIpor = 1 := by rcases hd with h | h <;> rw [h] <;> rfl
    have h4 : c.deg.SEI = [4] := by rcases hd with h | h <;> rw [h] <;> rfl
    unfold SPM.SEI at hr
    rw [hsei _ rfl h4, hp] at hr
    generalize c.seiModel ocv 4 = x at hr
    cases x with
    | ok a =>
      have := Outcome.ok.inj hr
      rw [← this]
    | throw e => cases hr
    | ub w => cases hr

/-- Non-vacuity of `pack_cells_age`. -/
example : (spm1.build deg2 1 1 1 1).deg = deg2 ∧ (spm1.build deg2 1 1 1 1).deg ∈ [deg1, deg2, deg3] := by decide +kernel

/-- C93: the constructor of a module gives it an open cooling system, without a fan of its own, if asked for type 2, and one with a fan for
its cells otherwise. -/
theorem module_cooling_kind (par th : Bool) (id : List Char) (n : ℕ) (ctl : ℤ) (ct : ℕ) (rc : ℚ) (os : List (Obj Part)) (a : ℕ) :
    ∃ cool, getCoolSystem (mkObj par th id n ctl ct rc os a).2 = some cool ∧
      (ct = 2 → cool.kind = .openSys ∧ cool.flowrate = 0) ∧
      (ct ≠ 2 → cool.kind = .conventional ∧ cool.flowrate = 5 / 10000 * n) := by
  refine ⟨coolOf n ctl ct, ?_, ?_, ?_⟩
  · unfold getCoolSystem
    rw [mkObj_data]
  · intro h; unfold coolOf; rw [if_pos h]; exact ⟨rfl, rfl⟩
  · intro h; unfold coolOf; rw [if_neg h]; exact ⟨rfl, rfl⟩

/-- C93: the outermost modules of the two standard packs pass the air through to the air conditioning of the battery. -/
theorem pack_open_cooling (mk : DegSel → Factors → C) (gen : Gen G) (cfg : Cfg) (s s' : St G) :
    (∀ b, module1 mk gen cfg s = (.ok b, s') → ∃ cool, getCoolSystem b.obj = some cool ∧ cool.kind = .openSys) ∧
    (∀ b, module2 mk gen cfg s = (.ok b, s') → ∃ cool, getCoolSystem b.obj = some cool ∧ cool.kind = .openSys) := by
  constructor
  · intro b h
    unfold module1 at h
    have e := level_P_cool h
    refine ⟨_, e, ?_⟩
    unfold coolOf
    rw [if_pos rfl]
    rfl
  · intro b h
    unfold module2 at h
    have e := level_S_cool h
    refine ⟨_, e, ?_⟩
    unfold coolOf
    rw [if_pos rfl]
    rfl
/-- Non-vacuity of `pack_open_cooling`: both packs are built. -/
example {N : ℕ} (c : SPM N) (gen : Gen G) (cfg : Cfg) (g0 : G) :
    (∃ b s', module1 (spmCells c) gen cfg { gen := g0 } = (.ok b, s')) ∧ (∃ b s', module2 (spmCells c) gen cfg { gen := g0 } = (.ok b, s')) := by
  obtain ⟨⟨b1, s1, h1, _⟩, ⟨b2, s2, h2, _⟩, _⟩ := spreadOfSPM_partial c gen cfg g0 1
  exact ⟨⟨b1, s1, h1⟩, ⟨b2, s2, h2⟩⟩

end Pack
end Slide

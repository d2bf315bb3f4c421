import Verif.Props.Equalise
import Verif.Spec.EqualiseStrings

/-!
# Helper lemmas for C156: branches that follow a current
-/

namespace Slide
open StorageUnit Spec

variable {U : Type} [StorageUnit U]

/-- The unit `u` can be taken to every current within `B` of `j`; it is then `f i`, a source. -/
structure Steer (B j c e r : ℚ) (u : U) (f : ℚ → U) : Prop where
  take : ∀ i, |i - j| ≤ B → ∃ st, StorageUnit.setCurrent u i true = (.ok st, f i) ∧ st.isOK = true
  again : ∀ i i', |i - j| ≤ B → |i' - j| ≤ B → ∃ st, StorageUnit.setCurrent (f i) i' true = (.ok st, f i') ∧ st.isOK = true
  volt : ∀ i, |i - j| ≤ B → StorageUnit.V (f i) = e - r * i ∧ 0 < e - r * i
  cur : ∀ i, StorageUnit.I (f i) = i
  cap : ∀ i, StorageUnit.Cap (f i) = c

/-- What is asked of a kind of source: it can be steered, and if it is well it is what it would be steered to. -/
def Steerable (B j : ℚ) (Q : U → ℚ → ℚ → ℚ → Prop) (P : U → Prop) : Prop :=
  ∀ u e r c, Q u e r c → ∃ f, Steer B j c e r u f ∧ (P u → f (StorageUnit.I u) = u)

theorem safeCell_steerable {n : ℕ} (B j : ℚ) : Steerable (U := ECM n) B j (SafeCell B j) fun _ => True := by
  rintro u e r c ⟨hs, hc, hw⟩
  have hV : ∀ i, (u.withI i).V = e - r * i := fun i => safe_V (k := ⟨0, u⟩) (a := ⟨e, r, 0⟩) hs i
  refine ⟨u.withI, ⟨?_, ?_, ?_, fun _ => rfl, fun _ => hc⟩, fun _ => rfl⟩
  · intro i hi
    have := hw i hi
    exact ecm_accepts u i (by rw [hV]; exact this.1) (by rw [hV]; exact this.2)
  · intro i i' _ hi
    have := hw i' hi
    exact ecm_accepts (u.withI i) i' (by show 2 ≤ (u.withI i').V; rw [hV]; exact this.1)
      (by show (u.withI i').V ≤ _; rw [hV]; exact this.2)
  · intro i hi
    have := hw i hi
    exact ⟨hV i, by linarith⟩

/-! ## Strings -/

/-- The children of a string taken to a current. -/
def kidsAt : List (Kid U) → List (ℚ → U) → ℚ → List (Kid U)
  | k :: ks, f :: fs, i => { k with su := f i } :: kidsAt ks fs i
  | _, _, _ => []

/-- All children of a string can be steered. -/
def SteersS (B j : ℚ) : List (Kid U) → List (Arm × ℚ) → List (ℚ → U) → Prop
  | [], [], [] => True
  | k :: ks, x :: xs, f :: fs => (Steer B j x.2 x.1.emf x.1.res k.su f ∧ k.rc = x.1.rc) ∧ SteersS B j ks xs fs
  | _, _, _ => False

theorem steersS_of {B j : ℚ} {Q : U → ℚ → ℚ → ℚ → Prop} {P : U → Prop} (hQ : Steerable B j Q P) {ks : List (Kid U)}
    {l : List (Arm × ℚ)} (h : List.Forall₂ (fun k x => Q k.su x.1.emf x.1.res x.2 ∧ k.rc = x.1.rc) ks l) :
    ∃ fs, SteersS B j ks l fs ∧ ∀ i, (∀ k ∈ ks, StorageUnit.I k.su = i ∧ P k.su) → kidsAt ks fs i = ks := by
  induction h with
  | nil => exact ⟨[], trivial, fun _ _ => rfl⟩
  | @cons k x ks xs hk _ ih =>
    obtain ⟨fs, h1, h2⟩ := ih
    obtain ⟨f, h3, h4⟩ := hQ _ _ _ _ hk.1
    refine ⟨f :: fs, ⟨⟨h3, hk.2⟩, h1⟩, fun i hi => ?_⟩
    have h5 := hi k List.mem_cons_self
    have h6 := h4 h5.2
    rw [h5.1] at h6
    simp only [kidsAt, h6, h2 i fun y hy => hi y (List.mem_cons_of_mem _ hy)]

theorem kidsAt_length {B j : ℚ} : ∀ {ks : List (Kid U)} {xs : List (Arm × ℚ)} {fs : List (ℚ → U)}, SteersS B j ks xs fs →
    ∀ i, (kidsAt ks fs i).length = ks.length
  | [], [], [], _, _ => rfl
  | _ :: _, _ :: _, _ :: _, h, i => by simp only [kidsAt, List.length_cons, kidsAt_length h.2 i]
  | [], _ :: _, _, h, _ => h.elim
  | [], [], _ :: _, h, _ => h.elim
  | _ :: _, [], _, h, _ => h.elim
  | _ :: _, _ :: _, [], h, _ => h.elim

theorem kidsAt_steers {B j i : ℚ} (hi : |i - j| ≤ B) : ∀ {ks : List (Kid U)} {xs : List (Arm × ℚ)} {fs : List (ℚ → U)},
    SteersS B j ks xs fs → SteersS B j (kidsAt ks fs i) xs fs ∧ ∀ i', kidsAt (kidsAt ks fs i) fs i' = kidsAt ks fs i'
  | [], [], [], _ => ⟨trivial, fun _ => rfl⟩
  | k :: ks, x :: xs, f :: fs, h => by
    obtain ⟨h1, h2⟩ := kidsAt_steers hi h.2
    obtain ⟨⟨⟨a1, a2, a3, a4, a5⟩, a6⟩, -⟩ := h
    refine ⟨⟨⟨⟨fun i' hi' => a2 i i' hi hi', a2, a3, a4, a5⟩, a6⟩, h1⟩, fun i' => ?_⟩
    simp only [kidsAt, h2 i']
  | [], _ :: _, _, h => h.elim
  | [], [], _ :: _, h => h.elim
  | _ :: _, [], _, h => h.elim
  | _ :: _, _ :: _, [], h => h.elim

theorem setLoop_steer {B j i : ℚ} (hi : |i - j| ≤ B) : ∀ {ks : List (Kid U)} {xs : List (Arm × ℚ)} {fs : List (ℚ → U)},
    SteersS B j ks xs fs → ∀ done : List (ℚ × Kid U), done.length + ks.length ≤ 100 →
    ModuleS.setLoop i true done ks = (.ok .Success, done.map Prod.snd ++ kidsAt ks fs i)
  | [], [], [], _, done, _ => by simp [ModuleS.setLoop, kidsAt]
  | k :: ks, x :: xs, f :: fs, h, done, hl => by
    obtain ⟨st, h1, h2⟩ := h.1.1.take i hi
    have hb : ¬ st.isBad = true := by simp [Status.isBad, h2]
    simp only [List.length_cons] at hl
    unfold ModuleS.setLoop
    rw [if_neg (by simp only [NSUs_MAX]; omega)]
    dsimp only
    rw [h1]
    dsimp only
    rw [if_neg hb, setLoop_steer hi h.2 _ (by simp only [List.length_append, List.length_cons, List.length_nil]; omega)]
    simp [kidsAt]
  | [], _ :: _, _, h, _, _ => h.elim
  | [], [], _ :: _, h, _, _ => h.elim
  | _ :: _, [], _, h, _, _ => h.elim
  | _ :: _, _ :: _, [], h, _, _ => h.elim

theorem vLoop_steer {B j i : ℚ} (hi : |i - j| ≤ B) : ∀ {ks : List (Kid U)} {xs : List (Arm × ℚ)} {fs : List (ℚ → U)},
    SteersS B j ks xs fs → ∀ acc : ℚ, ModuleS.vLoop acc (kidsAt ks fs i) =
      acc + ((xs.map fun x => x.1.emf).sum - (xs.map fun x => x.1.res + x.1.rc).sum * i)
  | [], [], [], _, acc => by simp [ModuleS.vLoop, kidsAt]
  | k :: ks, x :: xs, f :: fs, h, acc => by
    obtain ⟨h1, h2⟩ := h.1.1.volt i hi
    simp only [kidsAt]
    unfold ModuleS.vLoop
    dsimp only
    rw [h1, if_neg (not_le.mpr h2), vLoop_steer hi h.2, h.1.1.cur, h.1.2]
    simp only [List.map_cons, List.sum_cons]
    ring
  | [], _ :: _, _, h, _ => h.elim
  | [], [], _ :: _, h, _ => h.elim
  | _ :: _, [], _, h, _ => h.elim
  | _ :: _, _ :: _, [], h, _ => h.elim

theorem kidsAt_caps {B j : ℚ} (i : ℚ) : ∀ {ks : List (Kid U)} {xs : List (Arm × ℚ)} {fs : List (ℚ → U)},
    SteersS B j ks xs fs → ((kidsAt ks fs i).map fun k => StorageUnit.Cap k.su) = xs.map Prod.snd
  | [], [], [], _ => rfl
  | k :: ks, x :: xs, f :: fs, h => by
    simp only [kidsAt, List.map_cons, kidsAt_caps i h.2, h.1.1.cap]
  | [], _ :: _, _, h => h.elim
  | [], [], _ :: _, h => h.elim
  | _ :: _, [], _, h => h.elim
  | _ :: _, _ :: _, [], h => h.elim

omit [StorageUnit U] in
theorem foldl_min_least (f : U → ℚ) : ∀ (ks : List (Kid U)) (a : ℚ), (∀ k ∈ ks, ks.foldl (fun m j => min m (f j.su)) a ≤ f k.su) ∧
    ks.foldl (fun m j => min m (f j.su)) a ≤ a ∧
    (ks.foldl (fun m j => min m (f j.su)) a = a ∨ ∃ k ∈ ks, ks.foldl (fun m j => min m (f j.su)) a = f k.su)
  | [], a => ⟨by simp, le_rfl, .inl rfl⟩
  | k :: ks, a => by
    obtain ⟨h1, h2, h3⟩ := foldl_min_least f ks (min a (f k.su))
    simp only [List.foldl_cons]
    refine ⟨?_, h2.trans (min_le_left _ _), ?_⟩
    · intro x hx
      rcases List.mem_cons.mp hx with rfl | hx
      · exact h2.trans (min_le_right _ _)
      · exact h1 x hx
    · rcases h3 with h3 | ⟨x, hx, h3⟩
      · rcases min_choice a (f k.su) with h4 | h4
        · left; rw [h3, h4]
        · right; exact ⟨k, List.mem_cons_self, by rw [h3, h4]⟩
      · right; exact ⟨x, List.mem_cons_of_mem _ hx, h3⟩

omit [StorageUnit U] in
theorem tmin_least (f : U → ℚ) {ks : List (Kid U)} {c : ℚ} (h1 : ∃ k ∈ ks, f k.su = c) (h2 : ∀ k ∈ ks, c ≤ f k.su) :
    tmin f ks = c := by
  cases ks with
  | nil => obtain ⟨_, h, _⟩ := h1; cases h
  | cons k ks =>
    obtain ⟨a1, a2, a3⟩ := foldl_min_least f ks (f k.su)
    show ks.foldl _ _ = c
    apply le_antisymm
    · obtain ⟨x, hx, rfl⟩ := h1
      rcases List.mem_cons.mp hx with rfl | hx
      · exact a2
      · exact a1 x hx
    · rcases a3 with h | ⟨x, hx, h⟩
      · rw [h]; exact h2 k List.mem_cons_self
      · rw [h]; exact h2 x (List.mem_cons_of_mem _ hx)

/-- A string of units that can be steered can be steered. -/
theorem inSeries_steerable {B j : ℚ} {Q : U → ℚ → ℚ → ℚ → Prop} {P : U → Prop} (hQ : Steerable B j Q P) :
    Steerable B j (InSeries B j Q) (SharesCurrent P) := by
  rintro m e r c ⟨hne, hlen, l, hf, he, hr, hc1, hc2, hpos⟩
  obtain ⟨fs, hs, hone⟩ := steersS_of hQ hf
  refine ⟨fun i => { m with kids := kidsAt m.kids fs i }, ⟨?_, ?_, ?_, ?_, ?_⟩, ?_⟩
  · intro i hi
    refine ⟨.Success, ?_, by decide⟩
    show ((ModuleS.setLoop i true [] m.kids).1, { m with kids := (ModuleS.setLoop i true [] m.kids).2 }) = _
    rw [setLoop_steer hi hs [] (by simpa using hlen)]
    rfl
  · intro i i' hi hi'
    refine ⟨.Success, ?_, by decide⟩
    obtain ⟨h1, h2⟩ := kidsAt_steers hi hs
    show ((ModuleS.setLoop i' true [] (kidsAt m.kids fs i)).1,
      ({ m with kids := (ModuleS.setLoop i' true [] (kidsAt m.kids fs i)).2 } : ModuleS U)) = _
    rw [setLoop_steer hi' h1 [] (by rw [kidsAt_length hs]; simpa using hlen), h2]
    rfl
  · intro i hi
    refine ⟨?_, hpos i hi⟩
    show ModuleS.vLoop 0 (kidsAt m.kids fs i) = _
    rw [vLoop_steer hi hs, he, hr]
    ring
  · intro i
    show ModuleS.I _ = i
    unfold ModuleS.I
    dsimp only
    generalize m.kids = ks at *
    match ks, l, fs, hs with
    | k :: ks, x :: xs, f :: fs, hs => exact hs.1.1.cur i
    | [], _, _, _ => exact (hne rfl).elim
  · intro i
    have hcaps := kidsAt_caps i hs
    show tmin StorageUnit.Cap (kidsAt m.kids fs i) = c
    refine tmin_least _ ?_ ?_
    · obtain ⟨x, hx, h⟩ := hc1
      have : x.2 ∈ (kidsAt m.kids fs i).map fun k => StorageUnit.Cap k.su := by rw [hcaps]; exact List.mem_map_of_mem hx
      obtain ⟨k, hk, e⟩ := List.mem_map.mp this
      exact ⟨k, hk, e.trans h⟩
    · intro k hk
      have : StorageUnit.Cap k.su ∈ (kidsAt m.kids fs i).map fun k => StorageUnit.Cap k.su := List.mem_map_of_mem hk
      rw [hcaps] at this
      obtain ⟨x, hx, e⟩ := List.mem_map.mp this
      rw [← e]; exact hc2 x hx
  · intro h
    have := hone (StorageUnit.I m) h
    show ({ m with kids := kidsAt m.kids fs (StorageUnit.I m) } : ModuleS U) = m
    rw [this]

/-! ## The equalisation loop -/

/-- All branches can be steered, each around its own current. -/
def Steers (B c : ℚ) : List (Kid U) → List Arm → List ℚ → List (ℚ → U) → Prop
  | [], [], [], [] => True
  | k :: ks, a :: as, j :: js, f :: fs => (Steer B j c a.emf a.res k.su f ∧ k.rc = a.rc) ∧ Steers B c ks as js fs
  | _, _, _, _ => False

/-- The branches at given currents. -/
def steered : List Arm → List (ℚ → U) → List ℚ → List (ModuleP.Branch U)
  | a :: as, f :: fs, i :: is => { kid := ⟨a.rc, f i⟩, ia := i } :: steered as fs is
  | _, _, _ => []

theorem steers_of {B c : ℚ} {Q : ℚ → U → ℚ → ℚ → ℚ → Prop} {P : U → Prop} (hQ : ∀ j, Steerable B j (Q j) P) :
    ∀ {ks : List (Kid U)} {as : List Arm} {js : List ℚ}, BranchesOf Q c ks as js →
    ∃ fs, Steers B c ks as js fs ∧ ((∀ k ∈ ks, P k.su) →
      (ks.map fun k => ({ kid := k, ia := StorageUnit.I k.su } : ModuleP.Branch U)) =
        steered as fs (ks.map fun k => StorageUnit.I k.su))
  | [], [], [], _ => ⟨[], trivial, fun _ => rfl⟩
  | k :: ks, a :: as, j :: js, h => by
    obtain ⟨fs, h1, h2⟩ := steers_of hQ h.2
    obtain ⟨f, h3, h4⟩ := hQ j _ _ _ _ h.1.1
    refine ⟨f :: fs, ⟨⟨h3, h.1.2⟩, h1⟩, fun hp => ?_⟩
    have h5 := h4 (hp k List.mem_cons_self)
    simp only [List.map_cons, steered, h5, ← h.1.2, h2 fun x hx => hp x (List.mem_cons_of_mem _ hx)]
  | [], [], _ :: _, h => h.elim
  | [], _ :: _, _, h => h.elim
  | _ :: _, [], _, h => h.elim
  | _ :: _, _ :: _, [], h => h.elim

/-- A source: what the unit reads is the source voltage less the drop over the resistance. -/
def Reads (u : U) (e r : ℚ) : Prop := StorageUnit.V u = e - r * StorageUnit.I u

theorem steered_circuit {B c : ℚ} : ∀ {ks : List (Kid U)} {as : List Arm} {js is : List ℚ} {fs : List (ℚ → U)},
    Steers B c ks as js fs → DevLe B is js → IsCircuit Reads (ModuleP.kidsOf (steered as fs is)) as ∧
      ((ModuleP.kidsOf (steered as fs is)).map fun k => StorageUnit.I k.su) = is
  | [], [], [], [], [], _, _ => ⟨List.Forall₂.nil, rfl⟩
  | k :: ks, a :: as, j :: js, i :: is, f :: fs, h, hd => by
    obtain ⟨d1, d2⟩ := List.forall₂_cons.mp hd
    obtain ⟨h1, h2⟩ := steered_circuit h.2 d2
    refine ⟨List.Forall₂.cons ⟨?_, rfl⟩ h1, ?_⟩
    · show StorageUnit.V (f i) = _ - _ * StorageUnit.I (f i)
      rw [h.1.1.cur, (h.1.1.volt i d1).1]
    · simp only [ModuleP.kidsOf] at h2
      simp only [ModuleP.kidsOf, steered, List.map_cons, h2, h.1.1.cur]
  | _, _, [], _ :: _, _, _, hd => by cases hd
  | _, _, _ :: _, [], _, _, hd => by cases hd
  | [], _ :: _, _, _, _, h, _ => h.elim
  | [], [], _ :: _, _, _, h, _ => h.elim
  | [], [], [], _, _ :: _, h, _ => h.elim
  | _ :: _, [], _, _, _, h, _ => h.elim
  | _ :: _, _ :: _, [], _, _, h, _ => h.elim
  | _ :: _, _ :: _, _ :: _, _, [], h, _ => h.elim

theorem sweep_steered {B c : ℚ} (m : ℚ) : ∀ {ks : List (Kid U)} {as : List Arm} {js is vs : List ℚ} {fs : List (ℚ → U)},
    Steers B c ks as js fs → DevLe B is js → vs.length = as.length → DevLe B (axpy (-c) is (vs.map fun v => m - v)) js →
    ModuleP.sweep m (steered as fs is) vs = (.ok (), steered as fs (axpy (-c) is (vs.map fun v => m - v)))
  | [], [], [], [], _, [], _, _, _, _ => rfl
  | k :: ks, a :: as, j :: js, i :: is, v :: vs, f :: fs, h, hd, hl, hd' => by
    obtain ⟨d1, d2⟩ := List.forall₂_cons.mp hd
    simp only [axpy, List.map_cons, List.zipWith_cons_cons] at hd'
    obtain ⟨d3, d4⟩ := List.forall₂_cons.mp hd'
    have ih := sweep_steered m h.2 d2 (by simpa using hl) d4
    have hia : i - (m - v) * StorageUnit.Cap (f i) = i + -c * (m - v) := by
      rw [h.1.1.cap]; ring
    obtain ⟨st, hst, -⟩ := h.1.1.again i (i + -c * (m - v)) d1 d3
    simp only [axpy, List.map_cons, List.zipWith_cons_cons, steered] at ih ⊢
    unfold ModuleP.sweep
    dsimp only
    rw [hia, hst]
    dsimp only
    rw [ih]
  | _ :: _, _ :: _, _, _, [], _, _, _, h, _ => by cases h
  | _, _, [], _ :: _, _, _, _, hd, _, _ => by cases hd
  | _, _, _ :: _, [], _, _, _, hd, _, _ => by cases hd
  | [], _ :: _, _, _, _, _, h, _, _, _ => h.elim
  | [], [], _ :: _, _, _, _, h, _, _, _ => h.elim
  | [], [], [], _, _, _ :: _, h, _, _, _ => h.elim
  | _ :: _, [], _, _, _, _, h, _, _, _ => h.elim
  | _ :: _, _ :: _, [], _, _, _, h, _, _, _ => h.elim
  | _ :: _, _ :: _, _ :: _, _, _, [], h, _, _, _ => h.elim

/-- The first phase of `setCurrent`. -/
theorem initLoop_steered {B c dI : ℚ} : ∀ {ks : List (Kid U)} {as : List Arm} {js : List ℚ} {fs : List (ℚ → U)} (last : Status),
    last.isOK = true → Steers B c ks as js fs → DevLe B (ks.map fun k => StorageUnit.I k.su + dI) js →
    ∃ st, st.isOK = true ∧ ModuleP.initLoop dI last (ks.map fun k => ({ kid := k, ia := StorageUnit.I k.su } : ModuleP.Branch U)) =
      (.ok (st, false), steered as fs (ks.map fun k => StorageUnit.I k.su + dI))
  | [], [], [], [], last, hl, _, _ => ⟨last, hl, rfl⟩
  | k :: ks, a :: as, j :: js, f :: fs, last, _, h, hd => by
    obtain ⟨d1, d2⟩ := List.forall₂_cons.mp (show List.Forall₂ _ ((StorageUnit.I k.su + dI) :: ks.map fun k => StorageUnit.I k.su + dI) _ from hd)
    obtain ⟨st, h1, h2⟩ := h.1.1.take _ d1
    obtain ⟨st', h3, h4⟩ := initLoop_steered (dI := dI) st h2 h.2 d2
    refine ⟨st', h3, ?_⟩
    simp only [List.map_cons, steered]
    unfold ModuleP.initLoop
    dsimp only
    rw [h1]
    dsimp only
    rw [if_neg (by simp [h2]), h4, ← h.1.2]
  | [], _ :: _, _, _, _, _, h, _ => h.elim
  | [], [], _ :: _, _, _, _, h, _ => h.elim
  | [], [], [], _ :: _, _, _, h, _ => h.elim
  | _ :: _, [], _, _, _, _, h, _ => h.elim
  | _ :: _, _ :: _, [], _, _, _, h, _ => h.elim
  | _ :: _, _ :: _, _ :: _, [], _, _, h, _ => h.elim

/-- The equalisation succeeds. -/
theorem eqLoop_steered {c R B tol v : ℚ} {ks : List (Kid U)} {as : List Arm} {js : List ℚ} {fs : List (ℚ → U)}
    (hg : Gentle c R as) (hS : Steers B c ks as js fs) (hk : Kirchhoff v as js)
    (hB : 0 ≤ B) (htol : 0 < tol) (hne : as ≠ []) (N : ℕ) (is : List ℚ)
    (hl : is.length = as.length) (hs : is.sum = js.sum) (hE : devEnergy as is js ≤ R * (B * B))
    (hN : as.length * ((1 - c * R) ^ N * devEnergy as is js) < c * (tol * tol)) :
    ∃ is', ModuleP.eqLoop tol (N + 1) (steered as fs is) = (.ok true, steered as fs is') ∧ DevLe B is' js ∧
      is'.sum = js.sum := by
  have hcpos := hg.cap
  have hRpos := hg.res
  have hj := kirchhoff_length _ _ _ hk
  have hcR : 0 ≤ 1 - c * R := by
    obtain ⟨a, ha⟩ := List.exists_mem_of_ne_nil as hne
    have h1 := hg.most a ha
    have h2 := (hg.least a ha).1
    have h3 : 0 ≤ (as.map Arm.rc).sum := List.sum_nonneg (by
      simp only [List.mem_map]; rintro _ ⟨b, hb, rfl⟩; exact (hg.least b hb).2)
    have h4 : (0:ℚ) ≤ as.length * (as.map Arm.rc).sum := by positivity
    have h5 := mul_le_mul_of_nonneg_left (h2.trans (le_add_of_nonneg_right h4)) hcpos.le
    linarith
  induction N generalizing is with
  | zero =>
    obtain ⟨-, -, -, h4⟩ := sweep_descends hg hl hk hs
    have hdev := dev_of_energy hRpos hB hg.least hl hj hE
    refine ⟨is, ?_, hdev, hs⟩
    obtain ⟨hci, hI⟩ := steered_circuit hS hdev
    have hva : (ModuleP.vallLoop (ModuleP.kidsOf (steered as fs is))).1 = armVolts as is := by
      rw [vallLoop_arms (P := Reads) (fun _ _ _ h => h) hci, hI]
    unfold ModuleP.eqLoop
    dsimp only
    rw [hva, if_pos]
    have hsp := spread_sq_le (armVolts as is)
    rw [armVolts_length as is hl] at hsp
    rw [pow_zero, one_mul] at hN
    have hn : (0:ℚ) ≤ as.length := by positivity
    have h5 := mul_le_mul_of_nonneg_left h4 hn
    have h6 : c * (ModuleP.spread (armVolts as is) * ModuleP.spread (armVolts as is)) < c * (tol * tol) := by
      have := mul_le_mul_of_nonneg_left hsp hcpos.le
      linarith
    have h7 := lt_of_mul_lt_mul_left h6 hcpos.le
    by_contra hcon
    have h8 := not_lt.mp hcon
    have := mul_le_mul h8 h8 htol.le (htol.le.trans h8)
    linarith
  | succ N ih =>
    obtain ⟨h1, h2, h3, h4⟩ := sweep_descends hg hl hk hs
    have hdev := dev_of_energy hRpos hB hg.least hl hj hE
    obtain ⟨hci, hI⟩ := steered_circuit hS hdev
    have hva : (ModuleP.vallLoop (ModuleP.kidsOf (steered as fs is))).1 = armVolts as is := by
      rw [vallLoop_arms (P := Reads) (fun _ _ _ h => h) hci, hI]
    have hE0 : 0 ≤ devEnergy as is js := by
      refine le_trans ?_ h4
      exact mul_nonneg hcpos.le (dotL_self_nonneg _)
    have hE' : devEnergy as (axpy (-c) is (gaps (armVolts as is))) js ≤ R * (B * B) := by
      have : c * R * devEnergy as is js ≥ 0 := by positivity
      linarith
    unfold ModuleP.eqLoop
    dsimp only
    rw [hva]
    by_cases hsp : ModuleP.spread (armVolts as is) < tol
    · rw [if_pos hsp]
      exact ⟨is, rfl, hdev, hs⟩
    · rw [if_neg hsp]
      have hsw := sweep_steered (ModuleP.mean (armVolts as is)) hS hdev (armVolts_length as is hl)
        (dev_of_energy hRpos hB hg.least h3 hj hE')
      rw [hsw]
      dsimp only
      refine ih _ h3 h2 hE' ?_
      refine lt_of_le_of_lt ?_ hN
      rw [pow_succ, mul_assoc]
      exact mul_le_mul_of_nonneg_left (mul_le_mul_of_nonneg_left h1 (pow_nonneg hcR N)) (by positivity)

theorem reachable_steered {c R B D tol v : ℚ} {ks : List (Kid U)} {as : List Arm} {is js : List ℚ} {fs : List (ℚ → U)} {N : ℕ}
    (hg : Gentle c R as) (hS : Steers B c ks as js fs) (hk : Kirchhoff v as js)
    (htol : 0 < tol) (hne : as ≠ []) (hs : is.sum = js.sum) (hr : Reachable c R D B tol N as is js) :
    ∃ is', ModuleP.eqLoop tol (N + 1) (steered as fs is) = (.ok true, steered as fs is') ∧ DevLe B is' js ∧
      is'.sum = js.sum := by
  have hj := kirchhoff_length _ _ _ hk
  have hl : is.length = as.length := hr.start.length_eq.trans hj
  have h0 := start_energy hg hl hr.start
  have hcpos := hg.cap
  have hE0 : 0 ≤ devEnergy as is js := by
    obtain ⟨-, -, -, h4⟩ := sweep_descends hg hl hk hs
    exact (mul_nonneg hcpos.le (dotL_self_nonneg _)).trans h4
  refine eqLoop_steered hg hS hk hr.pos htol hne N is hl hs ?_ ?_
  · have h1 : c * devEnergy as is js ≤ c * (R * (B * B)) := by
      have := hr.room
      linarith
    exact le_of_mul_le_mul_left h1 hcpos
  · have hcR : 0 ≤ (1 - c * R) ^ N ∨ (1 - c * R) ^ N < 0 := le_or_gt _ _
    have h2 := hr.enough
    have hn : (0:ℚ) ≤ as.length := by positivity
    refine lt_of_mul_lt_mul_left (a := c) ?_ hcpos.le
    rcases hcR with h3 | h3
    · have h4 := mul_le_mul_of_nonneg_left (mul_le_mul_of_nonneg_left h0 hn) h3
      nlinarith
    · have h5 : as.length * ((1 - c * R) ^ N * devEnergy as is js) ≤ 0 :=
        mul_nonpos_of_nonneg_of_nonpos hn (mul_nonpos_of_nonpos_of_nonneg h3.le hE0)
      have h6 : 0 < c * (c * (tol * tol)) := by positivity
      nlinarith

theorem steers_length {B c : ℚ} : ∀ {ks : List (Kid U)} {as : List Arm} {js : List ℚ} {fs : List (ℚ → U)},
    Steers B c ks as js fs → ks.length = as.length
  | [], [], [], [], _ => rfl
  | _ :: _, _ :: _, _ :: _, _ :: _, h => by simp [steers_length h.2]
  | [], _ :: _, _, _, h => h.elim
  | [], [], _ :: _, _, h => h.elim
  | [], [], [], _ :: _, h => h.elim
  | _ :: _, [], _, _, h => h.elim
  | _ :: _, _ :: _, [], _, h => h.elim
  | _ :: _, _ :: _, _ :: _, [], h => h.elim

end Slide

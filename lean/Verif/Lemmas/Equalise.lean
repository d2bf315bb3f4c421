import Verif.Props.Circuit
import Verif.Spec.Equalise

/-!
# The equalisation of a parallel module as a descent (helper lemmas for C156)
-/

namespace Slide
open StorageUnit Spec

/-! ## Vectors -/

/-- `∑ x y`. -/
def dotL : List ℚ → List ℚ → ℚ
  | x :: xs, y :: ys => x * y + dotL xs ys
  | _, _ => 0

/-- `x + t y`. -/
def axpy (t : ℚ) (xs ys : List ℚ) : List ℚ := List.zipWith (fun x y => x + t * y) xs ys

/-- The bilinear form of the ladder. -/
def bil : List Arm → List ℚ → List ℚ → ℚ
  | a :: as, x :: xs, y :: ys => a.res * x * y + a.rc * (x + xs.sum) * (y + ys.sum) + bil as xs ys
  | _, _, _ => 0

/-- Voltage drops between the terminal and each source. -/
def drops : List Arm → List ℚ → List ℚ
  | a :: as, d :: ds => ((a.res * d) :: drops as ds).map (fun v => v + (d + ds.sum) * a.rc)
  | _, _ => []

theorem axpy_length (t : ℚ) (xs ys : List ℚ) (h : ys.length = xs.length) : (axpy t xs ys).length = xs.length := by
  simp [axpy, h]

theorem axpy_sum (t : ℚ) : ∀ (xs ys : List ℚ), ys.length = xs.length → (axpy t xs ys).sum = xs.sum + t * ys.sum
  | [], [], _ => by simp [axpy]
  | [], _ :: _, h => by cases h
  | _ :: _, [], h => by cases h
  | x :: xs, y :: ys, h => by
    have := axpy_sum t xs ys (by simpa using h)
    simp only [axpy] at this
    simp only [axpy, List.zipWith_cons_cons, List.sum_cons, this]; ring

theorem dotL_add (t : ℚ) : ∀ (xs vs : List ℚ), vs.length = xs.length →
    dotL xs (vs.map fun v => v + t) = dotL xs vs + t * xs.sum
  | [], _, _ => by simp [dotL]
  | _ :: _, [], h => by cases h
  | x :: xs, v :: vs, h => by
    simp only [List.map_cons, dotL, List.sum_cons]
    rw [dotL_add t xs vs (by simpa using h)]; ring

theorem drops_length : ∀ (as : List Arm) (ds : List ℚ), ds.length = as.length → (drops as ds).length = as.length
  | [], [], _ => rfl
  | [], _ :: _, h => by cases h
  | _ :: _, [], h => by cases h
  | a :: as, d :: ds, h => by
    have := drops_length as ds (by simpa using h)
    simp [drops, this]

theorem bil_symm : ∀ (as : List Arm) (xs ys : List ℚ), bil as xs ys = bil as ys xs
  | [], _, _ => by simp [bil]
  | _ :: _, [], [] => by simp [bil]
  | _ :: _, [], _ :: _ => by simp [bil]
  | _ :: _, _ :: _, [] => by simp [bil]
  | a :: as, x :: xs, y :: ys => by
    simp only [bil]
    rw [bil_symm as xs ys]; ring

theorem dotL_drops : ∀ (as : List Arm) (xs ys : List ℚ), xs.length = as.length → ys.length = as.length →
    dotL xs (drops as ys) = bil as xs ys
  | [], [], _, _, _ => by simp [bil, dotL]
  | [], _ :: _, _, h, _ => by cases h
  | _ :: _, [], _, h, _ => by cases h
  | _ :: _, _ :: _, [], _, h => by cases h
  | a :: as, x :: xs, y :: ys, h1, h2 => by
    have h1' : xs.length = as.length := by simpa using h1
    have h2' : ys.length = as.length := by simpa using h2
    simp only [drops]
    rw [dotL_add _ (x :: xs) _ (by simp [drops_length _ _ h2', h1'])]
    simp only [dotL, bil, List.sum_cons]
    rw [dotL_drops as xs ys h1' h2']; ring

theorem bil_axpy (t : ℚ) : ∀ (as : List Arm) (xs ys : List ℚ), xs.length = as.length → ys.length = as.length →
    bil as (axpy t xs ys) (axpy t xs ys) = bil as xs xs + 2 * t * bil as ys xs + t * t * bil as ys ys
  | [], [], [], _, _ => by simp [bil]
  | [], _ :: _, _, h, _ => by cases h
  | [], [], _ :: _, _, h => by cases h
  | _ :: _, [], _, h, _ => by cases h
  | _ :: _, _ :: _, [], _, h => by cases h
  | a :: as, x :: xs, y :: ys, h1, h2 => by
    have h1' : xs.length = as.length := by simpa using h1
    have h2' : ys.length = as.length := by simpa using h2
    have ih := bil_axpy t as xs ys h1' h2'
    have hs := axpy_sum t xs ys (by rw [h1', h2'])
    simp only [axpy] at ih hs
    simp only [axpy, List.zipWith_cons_cons, bil, ih, hs]; ring

theorem dotL_self_nonneg : ∀ xs : List ℚ, 0 ≤ dotL xs xs
  | [] => le_refl _
  | x :: xs => add_nonneg (mul_self_nonneg x) (dotL_self_nonneg xs)

theorem dotL_young {μ : ℚ} (hμ : 0 < μ) : ∀ (xs ys : List ℚ), xs.length = ys.length →
    2 * μ * dotL xs ys ≤ μ * μ * dotL xs xs + dotL ys ys
  | [], [], _ => by simp [dotL]
  | [], _ :: _, h => by cases h
  | _ :: _, [], h => by cases h
  | x :: xs, y :: ys, h => by
    have := dotL_young hμ xs ys (by simpa using h)
    simp only [dotL]
    nlinarith [mul_self_nonneg (μ * x - y)]

theorem bil_ge {R : ℚ} : ∀ (as : List Arm) (xs : List ℚ), AtLeast R as → xs.length = as.length →
    R * dotL xs xs ≤ bil as xs xs
  | [], [], _, _ => by simp [dotL, bil]
  | [], _ :: _, _, h => by cases h
  | _ :: _, [], _, h => by cases h
  | a :: as, x :: xs, ha, h => by
    have ih := bil_ge as xs (fun b hb => ha b (List.mem_cons_of_mem _ hb)) (by simpa using h)
    obtain ⟨h1, h2⟩ := ha a List.mem_cons_self
    simp only [dotL, bil]
    nlinarith [mul_nonneg h2 (mul_self_nonneg (x + xs.sum)), mul_nonneg (sub_nonneg.mpr h1) (mul_self_nonneg x)]

/-- `(∑ x)² ≤ N ∑ x²`. -/
theorem sum_sq_le : ∀ xs : List ℚ, xs.sum * xs.sum ≤ xs.length * dotL xs xs
  | [] => by simp [dotL]
  | x :: xs => by
    have ih := sum_sq_le xs
    have hq := dotL_self_nonneg xs
    simp only [List.sum_cons, List.length_cons, dotL]
    push_cast
    generalize xs.sum = S at ih ⊢
    generalize dotL xs xs = q at ih hq ⊢
    have hn : (0:ℚ) ≤ xs.length := by positivity
    generalize (xs.length : ℚ) = n at ih hn ⊢
    have hx := mul_self_nonneg x
    have h1 : (2 * x * S) ^ 2 ≤ (n * (x * x) + q) ^ 2 := by
      nlinarith [mul_le_mul_of_nonneg_left ih hx, sq_nonneg (n * (x * x) - q)]
    have h2 : 2 * x * S ≤ n * (x * x) + q :=
      le_of_abs_le (abs_le_of_sq_le_sq h1 (by positivity))
    nlinarith

theorem bil_le {L : ℚ} (N : ℕ) : ∀ (as : List Arm) (xs : List ℚ), (∀ a ∈ as, a.res ≤ L ∧ 0 ≤ a.rc) →
    xs.length = as.length → as.length ≤ N →
    bil as xs xs ≤ (L + N * (as.map Arm.rc).sum) * dotL xs xs
  | [], [], _, _, _ => by simp [dotL, bil]
  | [], _ :: _, _, h, _ => by cases h
  | _ :: _, [], _, h, _ => by cases h
  | a :: as, x :: xs, ha, h, hN => by
    have hl : xs.length = as.length := by simpa using h
    have ih := bil_le (L := L) N as xs (fun b hb => ha b (List.mem_cons_of_mem _ hb)) hl
      (by simp only [List.length_cons] at hN; omega)
    obtain ⟨h1, h2⟩ := ha a List.mem_cons_self
    have hs := sum_sq_le (x :: xs)
    simp only [List.sum_cons, dotL] at hs
    have hd := dotL_self_nonneg xs
    have hN' : (((x :: xs).length : ℕ) : ℚ) ≤ N := by
      rw [h]; exact_mod_cast hN
    have hrs : 0 ≤ (as.map Arm.rc).sum := List.sum_nonneg (by
      simp only [List.mem_map]; rintro _ ⟨b, hb, rfl⟩; exact (ha b (List.mem_cons_of_mem _ hb)).2)
    have hx := mul_self_nonneg x
    simp only [dotL, bil, List.map_cons, List.sum_cons]
    have h3 : a.rc * ((x + xs.sum) * (x + xs.sum)) ≤ a.rc * (N * (x * x + dotL xs xs)) :=
      mul_le_mul_of_nonneg_left (hs.trans (mul_le_mul_of_nonneg_right hN' (by positivity))) h2
    have h4 : a.res * (x * x) ≤ L * (x * x) := mul_le_mul_of_nonneg_right h1 hx
    have h5 : (0:ℚ) ≤ N * (as.map Arm.rc).sum * (x * x) := by positivity
    nlinarith

theorem gentle_bil {c R : ℚ} {as : List Arm} (hg : Gentle c R as) (xs : List ℚ) (h : xs.length = as.length) :
    c * bil as xs xs ≤ dotL xs xs := by
  have hc := hg.cap
  have := bil_le (L := 1 / c - as.length * (as.map Arm.rc).sum) as.length as xs (fun a ha => by
    refine ⟨?_, (hg.least a ha).2⟩
    have := hg.most a ha
    rw [le_sub_iff_add_le, le_div_iff₀ hc]
    linarith) h (le_refl _)
  rw [sub_add_cancel] at this
  have h2 := mul_le_mul_of_nonneg_left this hc.le
  have : c * (1 / c * dotL xs xs) = dotL xs xs := by field_simp
  linarith

/-! ## One correction -/

theorem armVolts_drops : ∀ (v : ℚ) (as : List Arm) (is js : List ℚ), is.length = as.length → Kirchhoff v as js →
    armVolts as is = (drops as (axpy (-1) is js)).map fun w => v - w
  | _, [], [], [], _, _ => rfl
  | _, [], [], _ :: _, _, h => h.elim
  | _, [], _ :: _, _, h, _ => by cases h
  | _, _ :: _, [], _, h, _ => by cases h
  | _, _ :: _, _ :: _, [], _, h => h.elim
  | v, a :: as, i :: is, j :: js, h, hk => by
    have hl : is.length = as.length := by simpa using h
    have hj := kirchhoff_length _ _ _ hk.2
    have ih := armVolts_drops _ as is js hl hk.2
    have hs := axpy_sum (-1) is js (by rw [hj, hl])
    have e := hk.1
    simp only [axpy] at ih hs
    simp only [armVolts, axpy, List.zipWith_cons_cons, drops, ih, List.map_cons, List.map_map, hs]
    refine List.cons_eq_cons.mpr ⟨by linarith, ?_⟩
    apply List.map_congr_left
    intro w _
    simp only [Function.comp]
    ring

/-- The corrections of one sweep. -/
def gaps (vs : List ℚ) : List ℚ := vs.map fun v => ModuleP.mean vs - v

theorem gaps_sum (vs : List ℚ) : (gaps vs).sum = 0 := by
  have : ∀ (m : ℚ) (l : List ℚ), (l.map fun v => m - v).sum = l.length * m - l.sum := by
    intro m l
    induction l with
    | nil => simp
    | cons v l ih => simp only [List.map_cons, List.sum_cons, ih, List.length_cons]; push_cast; ring
  rw [gaps, this]
  unfold ModuleP.mean
  rcases vs with _ | ⟨v, vs⟩
  · simp
  · rw [mul_div_cancel₀ _ (by simp only [List.length_cons]; positivity), sub_self]

theorem axpy_swap (t s : ℚ) : ∀ xs ys zs : List ℚ, axpy t (axpy s xs zs) ys = axpy s (axpy t xs ys) zs
  | [], _, _ => by simp [axpy]
  | _ :: _, [], _ => by simp [axpy]
  | _ :: _, _ :: _, [] => by simp [axpy]
  | x :: xs, y :: ys, z :: zs => by
    have := axpy_swap t s xs ys zs
    simp only [axpy] at this
    simp only [axpy, List.zipWith_cons_cons, this]
    congr 1; ring

/-- The energy of the deviation. -/
def devEnergy (as : List Arm) (is js : List ℚ) : ℚ := bil as (axpy (-1) is js) (axpy (-1) is js)

/-- One sweep shrinks the energy of the deviation by a factor. -/
theorem sweep_descends {c R v : ℚ} {as : List Arm} {is js : List ℚ} (hg : Gentle c R as) (hl : is.length = as.length)
    (hk : Kirchhoff v as js) (hs : is.sum = js.sum) :
    devEnergy as (axpy (-c) is (gaps (armVolts as is))) js ≤ (1 - c * R) * devEnergy as is js ∧
    (axpy (-c) is (gaps (armVolts as is))).sum = js.sum ∧
    (axpy (-c) is (gaps (armVolts as is))).length = as.length ∧
    c * dotL (gaps (armVolts as is)) (gaps (armVolts as is)) ≤ devEnergy as is js := by
  have hc := hg.cap
  have hR := hg.res
  have hj := kirchhoff_length _ _ _ hk
  have hvl := armVolts_length as is hl
  have hgl : (gaps (armVolts as is)).length = as.length := by rw [gaps, List.length_map, hvl]
  have hdl : (axpy (-1) is js).length = as.length := by rw [axpy_length _ _ _ (by rw [hj, hl]), hl]
  have hg0 := gaps_sum (armVolts as is)
  have hd0 : (axpy (-1) is js).sum = 0 := by rw [axpy_sum _ _ _ (by rw [hj, hl]), hs]; ring
  -- the drops are the gaps up to a constant
  have hw : ∃ t, drops as (axpy (-1) is js) = (gaps (armVolts as is)).map fun x => x + t := by
    refine ⟨v - ModuleP.mean (armVolts as is), ?_⟩
    have e := armVolts_drops v as is js hl hk
    rw [gaps, List.map_map]
    generalize ModuleP.mean (armVolts as is) = m
    rw [e, List.map_map]
    conv_lhs => rw [← List.map_id (drops as (axpy (-1) is js))]
    apply List.map_congr_left
    intro w _
    simp only [Function.comp, id]; ring
  obtain ⟨t, hw⟩ := hw
  generalize gaps (armVolts as is) = g at *
  generalize hd : axpy (-1) is js = d at *
  have h1 : bil as g d = dotL g g := by
    rw [← dotL_drops as g d hgl hdl, hw, dotL_add _ _ _ rfl, hg0]; ring
  have h2 : bil as d d = dotL d g := by
    rw [← dotL_drops as d d hdl hdl, hw, dotL_add _ _ _ (by rw [hgl, hdl]), hd0]; ring
  have h3 : bil as (axpy (-c) d g) (axpy (-c) d g) = bil as d d - 2 * c * dotL g g + c * c * bil as g g := by
    rw [bil_axpy _ _ _ _ hdl hgl, h1]; ring
  have h4 := gentle_bil hg g hgl
  have h5 := bil_ge as d hg.least hdl
  have h6 := dotL_young hR d g (by rw [hdl, hgl])
  have hE : devEnergy as (axpy (-c) is g) js = bil as (axpy (-c) d g) (axpy (-c) d g) := by
    unfold devEnergy
    rw [axpy_swap, hd]
  have hE0 : devEnergy as is js = bil as d d := by unfold devEnergy; rw [hd]
  have hnn : 0 ≤ bil as (axpy (-c) d g) (axpy (-c) d g) := by
    have hl' : (axpy (-c) d g).length = as.length := by rw [axpy_length _ _ _ (by rw [hgl, hdl]), hdl]
    exact (mul_nonneg hR.le (dotL_self_nonneg _)).trans (bil_ge as _ hg.least hl')
  have h7 : bil as (axpy (-c) d g) (axpy (-c) d g) ≤ bil as d d - c * dotL g g := by
    rw [h3]
    nlinarith [mul_le_mul_of_nonneg_left h4 hc.le]
  have h8 : R * bil as d d ≤ dotL g g := by
    rw [← h2] at h6
    nlinarith
  refine ⟨?_, ?_, ?_, ?_⟩
  · rw [hE, hE0]
    nlinarith [mul_le_mul_of_nonneg_left h8 hc.le]
  · rw [axpy_sum _ _ _ (by rw [hgl, hl]), hg0, hs]; ring
  · rw [axpy_length _ _ _ (by rw [hgl, hl]), hl]
  · rw [hE0]; linarith

/-- The total voltage error is bounded by the energy of the deviation. -/
theorem spread_sq_le (vs : List ℚ) : ModuleP.spread vs * ModuleP.spread vs ≤ vs.length * dotL (gaps vs) (gaps vs) := by
  have h := sum_sq_le (vs.map fun v => |ModuleP.mean vs - v|)
  have e : ∀ (m : ℚ) (l : List ℚ), dotL (l.map fun v => |m - v|) (l.map fun v => |m - v|) =
      dotL (l.map fun v => m - v) (l.map fun v => m - v) := by
    intro m l
    induction l with
    | nil => rfl
    | cons v l ih => simp only [List.map_cons, dotL, ih, abs_mul_abs_self]
  rw [e, List.length_map] at h
  exact h

/-! ## The loop -/

variable {n : ℕ}

/-- The children at given currents. -/
def atCurrents (ks : List (Kid (ECM n))) (is : List ℚ) : List (ModuleP.Branch (ECM n)) :=
  List.zipWith (fun k i => { kid := { k with su := k.su.withI i }, ia := i }) ks is

theorem atCurrents_circuit : ∀ {ks : List (Kid (ECM n))} {as : List Arm}, IsCircuit CellSource ks as → ∀ is : List ℚ,
    is.length = as.length → IsCircuit CellSource (ModuleP.kidsOf (atCurrents ks is)) as ∧
      ((ModuleP.kidsOf (atCurrents ks is)).map fun k => StorageUnit.I k.su) = is
  | [], [], _, [], _ => ⟨List.Forall₂.nil, rfl⟩
  | [], [], _, _ :: _, h => by cases h
  | [], _ :: _, h, _, _ => by cases h
  | _ :: _, [], h, _, _ => by cases h
  | _ :: _, _ :: _, _, [], h => by cases h
  | k :: ks, a :: as, hc, i :: is, h => by
    obtain ⟨h1, h2⟩ := List.forall₂_cons.mp hc
    obtain ⟨h3, h4⟩ := atCurrents_circuit h2 is (by simpa using h)
    refine ⟨List.Forall₂.cons ?_ h3, ?_⟩
    · obtain ⟨⟨o, e1, e2, e3⟩, e4⟩ := h1
      exact ⟨⟨o, e1, e2, e3⟩, e4⟩
    · simp only [atCurrents, ModuleP.kidsOf] at h4
      simp only [atCurrents, ModuleP.kidsOf, List.zipWith_cons_cons, List.map_cons, h4]
      rfl

theorem safe_V {k : Kid (ECM n)} {a : Arm} (h : CellSource k.su a.emf a.res) (i : ℚ) :
    (k.su.withI i).V = a.emf - a.res * i := by
  have := cellSource_V (k.su.withI i) a.emf a.res (by
    obtain ⟨o, e1, e2, e3⟩ := h
    exact ⟨o, e1, e2, e3⟩)
  exact this

/-- A sweep whose corrections are all accepted. -/
theorem sweep_accepted (c m B : ℚ) : ∀ {ks : List (Kid (ECM n))} {as : List Arm} {is js vs : List ℚ},
    IsCircuit CellSource ks as → SameCap c ks → SafeAround B as js → is.length = as.length → vs.length = as.length →
    DevLe B (axpy (-c) is (vs.map fun v => m - v)) js →
    ModuleP.sweep m (atCurrents ks is) vs = (.ok (), atCurrents ks (axpy (-c) is (vs.map fun v => m - v)))
  | [], [], [], _, _, _, _, _, _, _, _ => rfl
  | [], [], _ :: _, _, _, _, _, _, h, _, _ => by cases h
  | [], _ :: _, _, _, _, h, _, _, _, _, _ => by cases h
  | _ :: _, [], _, _, _, h, _, _, _, _, _ => by cases h
  | _ :: _, _ :: _, [], _, _, _, _, _, h, _, _ => by cases h
  | _ :: _, _ :: _, _ :: _, _, [], _, _, _, _, h, _ => by cases h
  | _ :: _, _ :: _, _ :: _, [], _ :: _, _, _, h, _, _, _ => by cases h
  | k :: ks, a :: as, i :: is, j :: js, v :: vs, hc, hcap, hsafe, h1, h2, hd => by
    obtain ⟨hk, hc'⟩ := List.forall₂_cons.mp hc
    obtain ⟨hsa, hs'⟩ := List.forall₂_cons.mp hsafe
    simp only [axpy, List.map_cons, List.zipWith_cons_cons] at hd
    obtain ⟨hda, hd'⟩ := List.forall₂_cons.mp hd
    have ih := sweep_accepted c m B hc' (fun x hx => hcap x (List.mem_cons_of_mem _ hx)) hs'
      (by simpa using h1) (by simpa using h2) hd'
    have hw := hsa _ hda
    rw [← safe_V hk.1] at hw
    have hce : k.su.par.cap = c := hcap k List.mem_cons_self
    have hia : i - (m - v) * StorageUnit.Cap (k.su.withI i) = i + -c * (m - v) := by
      show i - (m - v) * k.su.par.cap = _
      rw [hce]; ring
    obtain ⟨st, hst, -⟩ := ecm_accepts (k.su.withI i) (i + -c * (m - v)) hw.1 hw.2
    have hww : (k.su.withI i).withI (i + -c * (m - v)) = k.su.withI (i + -c * (m - v)) := rfl
    rw [hww] at hst
    simp only [atCurrents, List.zipWith_cons_cons, axpy, List.map_cons] at ih ⊢
    unfold ModuleP.sweep
    dsimp only
    rw [hia, hst]
    dsimp only
    rw [ih]

theorem dev_of_energy {R B : ℚ} (hR : 0 < R) (hB : 0 ≤ B) {as : List Arm} {is js : List ℚ} (ha : AtLeast R as)
    (hl : is.length = as.length) (hj : js.length = as.length) (h : devEnergy as is js ≤ R * (B * B)) : DevLe B is js := by
  have h1 := bil_ge as (axpy (-1) is js) ha (by rw [axpy_length _ _ _ (by rw [hj, hl]), hl])
  have h2 : dotL (axpy (-1) is js) (axpy (-1) is js) ≤ B * B := by
    have : R * dotL (axpy (-1) is js) (axpy (-1) is js) ≤ R * (B * B) := h1.trans h
    exact le_of_mul_le_mul_left this hR
  have h3 : is.length = js.length := by rw [hl, hj]
  clear h1 h hl hj
  induction is generalizing js with
  | nil =>
    cases js with
    | nil => exact List.Forall₂.nil
    | cons _ _ => cases h3
  | cons i is ih =>
    cases js with
    | nil => cases h3
    | cons j js =>
      simp only [axpy, List.zipWith_cons_cons, dotL] at h2
      have hq := dotL_self_nonneg (List.zipWith (fun x y : ℚ => x + -1 * y) is js)
      have hx := mul_self_nonneg (i + -1 * j)
      refine List.Forall₂.cons ?_ (ih (by simp only [axpy]; linarith) (by simpa using h3))
      have : (i - j) ^ 2 ≤ B ^ 2 := by nlinarith
      exact abs_le_of_sq_le_sq this hB

/-- The equalisation succeeds. -/
theorem eqLoop_converges {c R B tol v : ℚ} {ks : List (Kid (ECM n))} {as : List Arm} {js : List ℚ}
    (hg : Gentle c R as) (hc : IsCircuit CellSource ks as) (hcap : SameCap c ks) (hk : Kirchhoff v as js)
    (hsafe : SafeAround B as js) (hB : 0 ≤ B) (htol : 0 < tol) (hne : as ≠ []) (N : ℕ) (is : List ℚ)
    (hl : is.length = as.length) (hs : is.sum = js.sum) (hE : devEnergy as is js ≤ R * (B * B))
    (hN : as.length * ((1 - c * R) ^ N * devEnergy as is js) < c * (tol * tol)) :
    ∃ is', ModuleP.eqLoop tol (N + 1) (atCurrents ks is) = (.ok true, atCurrents ks is') ∧ is'.length = as.length ∧
      is'.sum = js.sum := by
  have hcpos := hg.cap
  have hRpos := hg.res
  have hcR : 0 ≤ 1 - c * R := by
    obtain ⟨a, ha⟩ := List.exists_mem_of_ne_nil as hne
    have h1 := hg.most a ha
    have h2 := (hg.least a ha).1
    have h3 : 0 ≤ (as.map Arm.rc).sum := List.sum_nonneg (by
      simp only [List.mem_map]; rintro _ ⟨b, hb, rfl⟩; exact (hg.least b hb).2)
    have h4 : (0:ℚ) ≤ as.length * (as.map Arm.rc).sum := by positivity
    have h5 := mul_le_mul_of_nonneg_left (h2.trans (le_add_of_nonneg_right h4)) hcpos.le
    linarith
  induction N generalizing is with
  | zero =>
    obtain ⟨-, -, -, h4⟩ := sweep_descends hg hl hk hs
    refine ⟨is, ?_, hl, hs⟩
    obtain ⟨hci, hI⟩ := atCurrents_circuit hc is hl
    have hva : (ModuleP.vallLoop (ModuleP.kidsOf (atCurrents ks is))).1 = armVolts as is := by
      rw [vallLoop_arms cellSource_V hci, hI]
    unfold ModuleP.eqLoop
    dsimp only
    rw [hva, if_pos]
    have hsp := spread_sq_le (armVolts as is)
    rw [armVolts_length as is hl] at hsp
    rw [pow_zero, one_mul] at hN
    have hn : (0:ℚ) ≤ as.length := by positivity
    have h5 := mul_le_mul_of_nonneg_left h4 hn
    have h6 : c * (ModuleP.spread (armVolts as is) * ModuleP.spread (armVolts as is)) < c * (tol * tol) := by
      have := mul_le_mul_of_nonneg_left hsp hcpos.le
      linarith
    have h7 := lt_of_mul_lt_mul_left h6 hcpos.le
    by_contra hcon
    have h8 := not_lt.mp hcon
    have := mul_le_mul h8 h8 htol.le (htol.le.trans h8)
    linarith
  | succ N ih =>
    obtain ⟨h1, h2, h3, h4⟩ := sweep_descends hg hl hk hs
    obtain ⟨hci, hI⟩ := atCurrents_circuit hc is hl
    have hva : (ModuleP.vallLoop (ModuleP.kidsOf (atCurrents ks is))).1 = armVolts as is := by
      rw [vallLoop_arms cellSource_V hci, hI]
    have hj := kirchhoff_length _ _ _ hk
    have hE0 : 0 ≤ devEnergy as is js := by
      refine le_trans ?_ h4
      exact mul_nonneg hcpos.le (dotL_self_nonneg _)
    have hE' : devEnergy as (axpy (-c) is (gaps (armVolts as is))) js ≤ R * (B * B) := by
      have : c * R * devEnergy as is js ≥ 0 := by positivity
      linarith
    unfold ModuleP.eqLoop
    dsimp only
    rw [hva]
    by_cases hsp : ModuleP.spread (armVolts as is) < tol
    · rw [if_pos hsp]
      exact ⟨is, rfl, hl, hs⟩
    · rw [if_neg hsp]
      have hsw := sweep_accepted c (ModuleP.mean (armVolts as is)) B hc hcap hsafe hl (armVolts_length as is hl)
        (dev_of_energy hRpos hB hg.least h3 hj hE')
      rw [hsw]
      dsimp only
      refine ih _ h3 h2 hE' ?_
      refine lt_of_le_of_lt ?_ hN
      rw [pow_succ, mul_assoc]
      exact mul_le_mul_of_nonneg_left (mul_le_mul_of_nonneg_left h1 (pow_nonneg hcR N)) (by positivity)

/-- The energy at the start. -/
theorem start_energy {c R D : ℚ} {as : List Arm} {is js : List ℚ} (hg : Gentle c R as) (hl : is.length = as.length)
    (hd : List.Forall₂ (fun i j => |i - j| ≤ D) is js) : c * devEnergy as is js ≤ as.length * (D * D) := by
  have hj := hd.length_eq
  refine (gentle_bil hg _ (by rw [axpy_length _ _ _ hj.symm, hl])).trans ?_
  rw [← hl]
  clear hl hj
  induction hd with
  | nil => simp [axpy, dotL]
  | @cons i j is js h _ ih =>
    simp only [axpy, List.zipWith_cons_cons, dotL, List.length_cons] at ih ⊢
    push_cast
    have : (i + -1 * j) * (i + -1 * j) ≤ D * D := by
      rw [show i + -1 * j = i - j by ring, ← abs_mul_abs_self]
      exact mul_le_mul h h (abs_nonneg _) ((abs_nonneg _).trans h)
    linarith

theorem reachable_converges {c R B D tol v : ℚ} {ks : List (Kid (ECM n))} {as : List Arm} {is js : List ℚ} {N : ℕ}
    (hg : Gentle c R as) (hc : IsCircuit CellSource ks as) (hcap : SameCap c ks) (hk : Kirchhoff v as js)
    (hsafe : SafeAround B as js) (htol : 0 < tol) (hne : as ≠ []) (hs : is.sum = js.sum)
    (hr : Reachable c R D B tol N as is js) :
    ∃ is', ModuleP.eqLoop tol (N + 1) (atCurrents ks is) = (.ok true, atCurrents ks is') ∧ is'.length = as.length ∧
      is'.sum = js.sum := by
  have hj := kirchhoff_length _ _ _ hk
  have hl : is.length = as.length := hr.start.length_eq.trans hj
  have h0 := start_energy hg hl hr.start
  have hcpos := hg.cap
  have hE0 : 0 ≤ devEnergy as is js := by
    obtain ⟨-, -, -, h4⟩ := sweep_descends hg hl hk hs
    exact (mul_nonneg hcpos.le (dotL_self_nonneg _)).trans h4
  refine eqLoop_converges hg hc hcap hk hsafe hr.pos htol hne N is hl hs ?_ ?_
  · have h1 : c * devEnergy as is js ≤ c * (R * (B * B)) := by
      have := hr.room
      linarith
    exact le_of_mul_le_mul_left h1 hcpos
  · have hcR : 0 ≤ (1 - c * R) ^ N ∨ (1 - c * R) ^ N < 0 := le_or_gt _ _
    have h2 := hr.enough
    have hn : (0:ℚ) ≤ as.length := by positivity
    refine lt_of_mul_lt_mul_left (a := c) ?_ hcpos.le
    rcases hcR with h3 | h3
    · have h4 := mul_le_mul_of_nonneg_left (mul_le_mul_of_nonneg_left h0 hn) h3
      nlinarith
    · have h5 : as.length * ((1 - c * R) ^ N * devEnergy as is js) ≤ 0 :=
        mul_nonpos_of_nonneg_of_nonpos hn (mul_nonpos_of_nonpos_of_nonneg h3.le hE0)
      have h6 : 0 < c * (c * (tol * tol)) := by positivity
      nlinarith

end Slide

import Verif.Lemmas.Rearrange

/-!
# C158: rearranging the cells of a string changes nothing at its terminals
-/

namespace Slide
open StorageUnit Spec Cyc

section
variable {U : Type} [StorageUnit U]

/-- C158, readings: whatever the units in a string are, once they carry one current the order in which they are
connected does not show in anything that can be read at the terminals of the string. -/
theorem string_order_unread (m m' : ModuleS U) (h : Rearranged m m') (hc : OneCurrent m) : SameTerminals m m' :=
  rearranged_readings h hc

/-- C158, one call: two strings of the same well-behaved cells accept the same calls; an accepted call – with or without
checks – leaves them with the same cells again, in corresponding states, and still alike at the terminals. -/
theorem string_order_call [LawfulCurrent U] [LawfulStep U] (m m' : ModuleS U) (h : Rearranged m m') (hc : OneCurrent m)
    (hl : m.kids.length ≤ 100) (c : StringCall) :
    (c.Accepted m ↔ c.Accepted m') ∧ (c.Accepted m → Alike (c.after m) (c.after m') ∧ (c.after m).kids.length ≤ 100) := by
  cases c with
  | setCurrent i b =>
    obtain ⟨h1, h2⟩ := rearranged_set h hl i b
    refine ⟨h1, fun g => ?_⟩
    obtain ⟨-, -, r, o, l⟩ := h2 g
    exact ⟨⟨r, o, rearranged_readings r o⟩, l⟩
  | step dt n =>
    obtain ⟨-, r, o, l⟩ := rearranged_step h hc hl dt n
    exact ⟨Iff.rfl, fun _ => ⟨⟨r, o, rearranged_readings r o⟩, l⟩⟩

/-- C158, what holds of whole histories: as long as no call is refused, two strings of the same cells, connected in
different order, cannot be told apart at their terminals – and hold the same cells. -/
theorem string_order_partial [LawfulCurrent U] [LawfulStep U] (m m' : ModuleS U) (calls : List StringCall)
    (hl : m.kids.length ≤ 100) (hc : OneCurrent m) (h : Rearranged m m')
    (ha : ∀ pre c post, calls = pre ++ c :: post → c.Accepted (pre.foldl StringCall.after m)) :
    Alike (calls.foldl StringCall.after m) (calls.foldl StringCall.after m') := by
  induction calls generalizing m m' with
  | nil => exact ⟨h, hc, rearranged_readings h hc⟩
  | cons c cs ih =>
    obtain ⟨⟨r, o, -⟩, l⟩ := (string_order_call m m' h hc hl c).2 (ha [] c cs rfl)
    refine ih (c.after m) (c.after m') l o r ?_
    intro pre c' post he
    exact ha (c :: pre) c' post (by simp [he])

/-- C158: in particular, without checks nothing is ever refused, so that no history of unchecked calls distinguishes the
two strings. -/
theorem string_order_unchecked [LawfulCurrent U] [LawfulStep U] (m m' : ModuleS U) (calls : List StringCall)
    (hl : m.kids.length ≤ 100) (hc : OneCurrent m) (h : Rearranged m m') (hu : ∀ c ∈ calls, c.Unchecked) :
    Alike (calls.foldl StringCall.after m) (calls.foldl StringCall.after m') := by
  induction calls generalizing m m' with
  | nil => exact ⟨h, hc, rearranged_readings h hc⟩
  | cons c cs ih =>
    obtain ⟨⟨r, o, -⟩, l⟩ := (string_order_call m m' h hc hl c).2 (unchecked_accepted hl c (hu c (by simp)))
    exact ih (c.after m) (c.after m') l o r (fun c' hc' => hu c' (by simp [hc']))

/-- Strings of at most 100 cells that are alike look the same to a cycler. -/
theorem alike_bisim [LawfulCurrent U] [LawfulStep U] :
    Bisim (fun m m' : ModuleS U => Alike m m' ∧ m.kids.length ≤ 100) where
  V h := h.1.2.2.V
  Vlow h := h.1.2.2.Vlow
  set {u w} h i := by
    obtain ⟨⟨r, o, -⟩, l⟩ := h
    obtain ⟨a, b, r', o', l'⟩ := (rearranged_set r l i false).2 (unchecked_accepted l _ (show (StringCall.setCurrent i false).Unchecked from rfl))
    exact ⟨a, b, ⟨r', o', rearranged_readings r' o'⟩, l'⟩
  step {u w} h dt n := by
    obtain ⟨⟨r, o, -⟩, l⟩ := h
    obtain ⟨a, r', o', l'⟩ := rearranged_step r o l dt n
    exact ⟨a, ⟨r', o', rearranged_readings r' o'⟩, l'⟩

theorem like_weaken {A B : Type} {R S : A → B → Prop} (hRS : ∀ u w, R u w → S u w) {c : Cyc A} {d : Cyc B} (h : LikeCycler R c d) :
    LikeCycler S c d where
  su := hRS _ _ h.su
  index := h.index
  diagnostic := h.diagnostic
  log := h.log.imp fun _ _ he => by
    cases he with
    | store hu => exact .store (hRS _ _ hu)
    | write => exact .write

/-- C158, cycling: a cycler that does not check individual cells does exactly the same with a rearranged string at
constant current: the same outcome, the same status, the same time, charge and energy; the records it made and the
strings it leaves are alike. -/
theorem string_order_cc [LawfulCurrent U] [LawfulStep U] (fuel : ℕ) (m m' : ModuleS U) (hl : m.kids.length ≤ 100)
    (hc : OneCurrent m) (h : Rearranged m m') (I vlim tlim dt : ℚ) (ndt : ℤ) (th : Thr) :
    let r := CC fuel { su := m } I vlim tlim dt ndt th
    let r' := CC fuel { su := m' } I vlim tlim dt ndt th
    r.1 = r'.1 ∧ r.2.2 = r'.2.2 ∧ LikeCycler Alike r.2.1 r'.2.1 := by
  obtain ⟨o, c', d', th', e1, e2, hh⟩ := like_cc alike_bisim fuel (c := { su := m }) (d := { su := m' })
    ⟨⟨⟨h, hc, rearranged_readings h hc⟩, hl⟩, rfl, rfl, .nil⟩ rfl I vlim tlim dt ndt th
  dsimp only
  rw [e1, e2]
  exact ⟨rfl, rfl, like_weaken (fun _ _ h => h.1) hh⟩

/-- C158, resting: likewise. -/
theorem string_order_rest [LawfulCurrent U] [LawfulStep U] (fuel : ℕ) (m m' : ModuleS U) (hl : m.kids.length ≤ 100)
    (hc : OneCurrent m) (h : Rearranged m m') (tlim dt : ℚ) (ndt : ℤ) (th : Thr) :
    let r := rest fuel { su := m } tlim dt ndt th
    let r' := rest fuel { su := m' } tlim dt ndt th
    r.1 = r'.1 ∧ r.2.2 = r'.2.2 ∧ LikeCycler Alike r.2.1 r'.2.1 := by
  obtain ⟨o, c', d', th', e1, e2, hh⟩ := like_rest alike_bisim fuel (c := { su := m }) (d := { su := m' })
    ⟨⟨⟨h, hc, rearranged_readings h hc⟩, hl⟩, rfl, rfl, .nil⟩ tlim dt ndt th
  dsimp only
  rw [e1, e2]
  exact ⟨rfl, rfl, like_weaken (fun _ _ h => h.1) hh⟩

end

/-! ## What fails -/

/-- `badString` with its two cells swapped: the empty cell comes first. -/
def badStringSwapped : ModuleS (ECM 0) := { T := 288, kids := [⟨0, bucket 0 0⟩, ⟨0, bucket half 0⟩] }

theorem badString_swapped : Rearranged badString badStringSwapped := ⟨List.Perm.swap _ _ _, rfl⟩

theorem badString_oneCurrent : OneCurrent badString := by
  refine ⟨0, fun k hk => ?_⟩
  simp [badString] at hk
  rcases hk with rfl | rfl <;> rfl

/-- After the same refused call the string reports 1 A in one order and 0 A in the other. -/
theorem badString_order_shows :
    StorageUnit.I (setCurrent badString 1 true).2 = 1 ∧ StorageUnit.I (setCurrent badStringSwapped 1 true).2 = 0 := by
  constructor <;> decide +kernel

/-- C158 in full is false of the code: after a refused current the first cell of the string keeps the new current
(C02), and which cell is the first depends on the order. -/
theorem not_orderIrrelevant : ¬ OrderIrrelevant (ECM 0) := by
  intro h
  have := (h badString badStringSwapped [.setCurrent 1 true] (by simp [badString]) badString_oneCurrent badString_swapped).I
  obtain ⟨h1, h2⟩ := badString_order_shows
  simp only [List.foldl_cons, List.foldl_nil, StringCall.after] at this
  rw [h1, h2] at this
  norm_num at this

/-! ## Examples -/

/-- Three different cells with different contacts. -/
def mixedString : ModuleS (ECM 0) := { T := 288, kids := [⟨1/1000, bucket (1/2) 1⟩, ⟨2/1000, bucket (3/4) 1⟩, ⟨0, bucket (5/8) 1⟩] }

def mixedStringTurned : ModuleS (ECM 0) := { T := 288, kids := [⟨0, bucket (5/8) 1⟩, ⟨1/1000, bucket (1/2) 1⟩, ⟨2/1000, bucket (3/4) 1⟩] }

theorem mixedString_turned : Rearranged mixedString mixedStringTurned :=
  ⟨(List.perm_append_comm : ([(⟨1/1000, bucket (1/2) 1⟩ : Kid (ECM 0)), ⟨2/1000, bucket (3/4) 1⟩] ++
    [(⟨0, bucket (5/8) 1⟩ : Kid (ECM 0))]).Perm _), rfl⟩

theorem mixedString_oneCurrent : OneCurrent mixedString := by
  refine ⟨1, fun k hk => ?_⟩
  simp [mixedString] at hk
  rcases hk with rfl | rfl | rfl <;> rfl

/-- The hypotheses are met, and the reading is not trivial. -/
example : SameTerminals mixedString mixedStringTurned ∧ 0 < StorageUnit.V mixedString :=
  ⟨string_order_unread _ _ mixedString_turned mixedString_oneCurrent, by decide +kernel⟩

/-- A discharge of a minute at 2 A, with and without the swap: it reaches the time limit. -/
example : (CC 60 { su := mixedString } 2 6 60 2 1 Thr.zero).1 = .ok .ReachedTimeLimit ∧
    (CC 60 { su := mixedStringTurned } 2 6 60 2 1 Thr.zero).1 = .ok .ReachedTimeLimit := by
  have h := string_order_cc 60 mixedString mixedStringTurned (by simp [mixedString]) mixedString_oneCurrent mixedString_turned
    2 6 60 2 1 Thr.zero
  have e : (CC 60 { su := mixedString } 2 6 60 2 1 Thr.zero).1 = .ok .ReachedTimeLimit := by decide +kernel
  exact ⟨e, h.1 ▸ e⟩

/-- A checked call that is accepted. -/
example : (StringCall.setCurrent 2 true).Accepted mixedString := by
  intro st h
  have e : (setCurrent mixedString 2 true).1 = .ok .Success := by decide +kernel
  rw [e] at h; cases h; rfl

end Slide

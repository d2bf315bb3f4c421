import Verif.Lemmas.Procedure
import Verif.Props.Cycler

/-!
Cycle ageing (C49) and the record of throughput it writes (C67).
-/

namespace Slide
open Spec

variable {U : Type} [StorageUnit U] [VoltageUnit U]

namespace Age

/-- Everything on record: rows in the file, then rows still in memory. -/
def rows (a : Age U) : List Thr := a.file ++ a.mem

omit [StorageUnit U] [VoltageUnit U] in
theorem onUnit_eq {a : Age U} {f : U → Outcome Unit × U} {o : Outcome Unit} {u : U} (h : f a.cyc.su = (o, u)) :
    a.onUnit f = (o, { a with cyc := a.cyc.withSU u }) := by
  unfold Age.onUnit
  rw [h]

omit [StorageUnit U] [VoltageUnit U] in
theorem onUnit_ok {a a' : Age U} {f : U → Outcome Unit × U} (h : a.onUnit f = (.ok (), a')) :
    f a.cyc.su = (.ok (), a'.cyc.su) ∧ a' = { a with cyc := a.cyc.withSU a'.cyc.su } := by
  unfold Age.onUnit at h
  rcases hf : f a.cyc.su with ⟨o, u⟩
  rw [hf] at h
  obtain ⟨h1, h2⟩ := Prod.mk.inj h
  subst h2
  exact ⟨by rw [h1]; rfl, rfl⟩

omit [StorageUnit U] [VoltageUnit U] in
theorem balanceCheckup_ok {k : Checks U} {p : AgeParams} {i : ℕ} {a a' : Age U} {b c : Bool} {Ah : ℚ}
    (hw : when p i = .ok (b, c)) {nr : ℤ} (h : a.balanceCheckup k b c Ah nr = (.ok (), a')) :
    Between k p i a.cyc a'.cyc ∧ a'.th = a.th ∧ (c = true ↔ (i : ℤ) % p.Ncheck = 0)
    ∧ a'.rows = (if c = true ∧ Ah = 0 then a.mem else a.rows)
    ∧ a'.file = (if c = true then (if Ah = 0 then a.mem else a.file ++ a.mem) else a.file) := by
  have hbc : (b = true ↔ (p.balance = true ∧ (i : ℤ) % p.Nbal = 0)) ∧ (c = true ↔ (i : ℤ) % p.Ncheck = 0) := by
    unfold when everyNth at hw
    by_cases hp : p.balance = true
    · rw [if_pos hp] at hw
      by_cases hn : p.Nbal = 0
      · rw [if_pos hn] at hw; cases hw
      · rw [if_neg hn] at hw
        simp only [Outcome.ok_bind] at hw
        by_cases hc : p.Ncheck = 0
        · rw [if_pos hc] at hw; cases hw
        · rw [if_neg hc] at hw
          simp only [Outcome.ok_bind] at hw
          cases hw
          simp [hp]
    · rw [if_neg hp] at hw
      simp only [Outcome.ok_bind] at hw
      by_cases hc : p.Ncheck = 0
      · rw [if_pos hc] at hw; cases hw
      · rw [if_neg hc] at hw
        simp only [Outcome.ok_bind] at hw
        cases hw
        simp [hp]
  obtain ⟨hb, hc⟩ := hbc
  unfold Age.balanceCheckup at h
  have h1 : ∃ a1, (if b = true then a.onUnit k.rebalance else (.ok (), a)) = (.ok (), a1)
      ∧ (if p.balance = true ∧ (i : ℤ) % p.Nbal = 0 then k.rebalance a.cyc.su = (.ok (), a1.cyc.su)
          else a1.cyc.su = a.cyc.su)
      ∧ a1 = { a with cyc := a.cyc.withSU a1.cyc.su } := by
    by_cases hbt : b = true
    · rw [if_pos hbt] at h ⊢
      rcases hu : a.onUnit k.rebalance with ⟨o, a1⟩
      rw [hu] at h
      rcases o with _ | e | w
      · obtain ⟨h1, h2⟩ := onUnit_ok hu
        refine ⟨a1, rfl, ?_, h2⟩
        rw [if_pos (hb.mp hbt)]; exact h1
      · cases h
      · cases h
    · rw [if_neg hbt]
      exact ⟨a, rfl, by rw [if_neg (fun hh => hbt (hb.mpr hh))], rfl⟩
  obtain ⟨a1, e1, hr, ha1⟩ := h1
  rw [e1] at h
  dsimp only at h
  have hth : a1.th = a.th := by rw [ha1]
  have hmem : a1.mem = a.mem := by rw [ha1]
  have hfile : a1.file = a.file := by rw [ha1]
  have hcyc : a1.cyc = a.cyc.withSU a1.cyc.su := congrArg Age.cyc ha1
  by_cases hct : c = true
  · rw [if_pos hct] at h
    obtain ⟨h2, ha'⟩ := onUnit_ok h
    have hcyc' : a'.cyc = a.cyc.withSU a'.cyc.su := by
      have := congrArg Age.cyc ha'
      dsimp only [Age.writeThroughput] at this
      rw [hcyc] at this
      exact this
    refine ⟨⟨a1.cyc.su, hr, a'.cyc.su, ?_, hcyc'⟩, ?_, hc, ?_, ?_⟩
    · rw [if_pos (hc.mp hct)]; exact h2
    · rw [ha', ← hth]; rfl
    · rw [ha']
      simp only [Age.rows, Age.writeThroughput, hmem, hfile, hct, true_and, List.append_nil]
      split <;> simp
    · rw [ha']
      simp only [Age.writeThroughput, hmem, hfile, hct, if_true]
      split <;> simp
  · rw [if_neg hct] at h
    cases h
    refine ⟨⟨a'.cyc.su, hr, a'.cyc.su, ?_, hcyc⟩, hth, hc, ?_, ?_⟩
    · rw [if_neg (fun hh => hct (hc.mpr hh))]
    · rw [if_neg (fun hh => hct hh.1)]
      simp [Age.rows, hmem, hfile]
    · rw [if_neg hct, hfile]

/-- What the loop has done when it ends. -/
structure Ended (fuel : ℕ) (k : Checks U) (p : AgeParams) (Icha Idis : ℚ) (left i : ℕ) (a a' : Age U) (n : ℕ)
    (c1 : Cyc U) (ms ms' : List Thr) : Prop where
  le : i ≤ n
  cycles : Cycles fuel k p Icha Idis i (n - i) a.cyc c1 ms
  stop : (n = i + left ∧ ms' = []) ∨ (n < i + left ∧ ∃ c0, Between k p n c1 c0 ∧ MayStop fuel p Icha Idis c0 ms')
  grow : a.th.Ah ≤ a'.th.Ah
  grew : i < n → a.th.Ah < a'.th.Ah
  rows : a'.rows = (if left ≠ 0 ∧ (i : ℤ) % p.Ncheck = 0 ∧ a.th.Ah = 0 then a.mem else a.rows)
    ++ totals a.th (ms ++ ms')
  file : i = n → a'.file = (if left ≠ 0 ∧ (i : ℤ) % p.Ncheck = 0 then
    (if a.th.Ah = 0 then a.mem else a.file ++ a.mem) else a.file)
  idle : left = 0 → a' = a

theorem loop_ended (fuel : ℕ) (k : Checks U) (p : AgeParams) (Icha Idis : ℚ) (left : ℕ) :
    ∀ (i : ℕ) (a a' : Age U) (n : ℕ), 0 ≤ a.th.Ah → loop fuel k p Icha Idis left i a = (.ok n, a') →
      ∃ c1 ms ms', Ended fuel k p Icha Idis left i a a' n c1 ms ms' := by
  induction left with
  | zero =>
    intro i a a' n _ h
    rw [loop] at h
    cases h
    exact ⟨a.cyc, [], [], ⟨le_refl _, by rw [Nat.sub_self]; exact .zero _ _, Or.inl ⟨rfl, rfl⟩, le_refl _,
      fun h => absurd h (lt_irrefl _), by simp [totals], fun _ => by simp, fun _ => rfl⟩⟩
  | succ left ih =>
    intro i a a' n h0 h
    rw [loop] at h
    rcases hw : when p i with ⟨b, c⟩ | e | w
    · rw [hw] at h
      dsimp only at h
      rcases hbc : a.balanceCheckup k b c a.th.Ah i with ⟨o, a1⟩
      rw [hbc] at h
      rcases o with _ | e | w
      · obtain ⟨hbet, hth, hc, hrows, hfile⟩ := balanceCheckup_ok hw hbc
        dsimp only at h
        rcases hcy : a1.cycle fuel p Icha Idis with ⟨o2, a2⟩
        rw [hcy] at h
        have hbase : a1.rows = (if left + 1 ≠ 0 ∧ (i : ℤ) % p.Ncheck = 0 ∧ a.th.Ah = 0 then a.mem else a.rows) := by
          rw [hrows]
          by_cases h1 : c = true ∧ a.th.Ah = 0
          · rw [if_pos h1, if_pos ⟨by omega, hc.mp h1.1, h1.2⟩]
          · rw [if_neg h1, if_neg (fun h2 => h1 ⟨hc.mpr h2.2.1, h2.2.2⟩)]
        rcases o2 with bb | e | w
        · rcases cycle_cases fuel p Icha Idis a1 a2 bb hcy with ⟨rfl, ms, hfull, mv⟩ |
            ⟨rfl, ms, hstop, hmem, hf, hle⟩
          · dsimp only at h
            have hpos : a1.th.Ah + 1/100000 ≤ a2.th.Ah := by
              obtain ⟨c1, c2, c3, m1, ms2, m3, ms4, -, hm1, -, -, -, rfl⟩ := hfull
              rw [mv.th]
              have hx : [m1] ++ ms2 ++ [m3] ++ ms4 = m1 :: (ms2 ++ [m3] ++ ms4) := by simp
              rw [hx, List.foldl_cons]
              refine le_trans ?_ (foldl_Ah _ _ (fun m hm => mv.pos m (by rw [hx]; simp only [List.mem_cons]; exact Or.inr hm)))
              simp only [Thr.add]; linarith
            rw [hth] at hpos
            have hrows2 : a2.rows = a1.rows ++ totals a.th ms := by
              simp only [Age.rows]; rw [mv.file, mv.mem, hth, List.append_assoc]
            obtain ⟨c1, ms1, ms', hE⟩ := ih (i + 1) a2 a' n (by linarith) h
            refine ⟨c1, ms ++ ms1, ms', ⟨by have := hE.le; omega, ?_, ?_, by have := hE.grow; linarith,
              fun _ => by have := hE.grow; linarith, ?_, fun he => by have := hE.le; omega, fun he => by omega⟩⟩
            · have : n - i = (n - (i + 1)) + 1 := by have := hE.le; omega
              rw [this]
              exact .succ i _ a.cyc a1.cyc a2.cyc c1 ms ms1 hbet hfull hE.cycles
            · rcases hE.stop with h1 | h1
              · exact Or.inl ⟨by omega, h1.2⟩
              · exact Or.inr ⟨by omega, h1.2⟩
            · have hne : ¬ a2.th.Ah = 0 := by intro h2; linarith
              rw [hE.rows, if_neg (fun h2 => hne h2.2.2), hrows2, hbase, mv.th, hth,
                List.append_assoc ms, totals_append a.th ms, List.append_assoc]
          · dsimp only at h
            cases h
            refine ⟨a.cyc, [], ms, ⟨le_refl _, by rw [Nat.sub_self]; exact .zero _ _,
              Or.inr ⟨by omega, a1.cyc, hbet, hstop⟩, by rw [← hth]; exact hle, fun h => absurd h (lt_irrefl _), ?_, ?_, fun he => by omega⟩⟩
            · rw [← hbase]
              simp only [Age.rows, List.nil_append]
              rw [hf, hmem, hth, List.append_assoc]
            · intro _
              rw [hf, hfile]
              by_cases hct : c = true
              · have hcond : left + 1 ≠ 0 ∧ (i : ℤ) % p.Ncheck = 0 := ⟨by omega, hc.mp hct⟩
                simp only [hct, if_true, if_pos hcond]
              · rw [if_neg hct, if_neg (fun hh => hct (hc.mpr hh.2))]
        · cases h
        · cases h
      · cases h
      · cases h
    · rw [hw] at h; cases h
    · rw [hw] at h; cases h

end Age

/-- The charging and discharging currents of `cycleAge`. -/
def chargeI (p : AgeParams) (u : U) : ℚ := -p.Ccha * StorageUnit.Cap u
/-- The discharging current. -/
def dischargeI (p : AgeParams) (u : U) : ℚ := p.Cdis * StorageUnit.Cap u

/-- The cycler `cycleAge` starts with. -/
def startCyc (u : U) : Cyc U := { su := u, diagnostic := true }

theorem cycleAge_ended {fuel : ℕ} {k : Checks U} {p : AgeParams} {u : U} {mem file : List Thr} {n : ℕ} {a : Age U}
    (h : cycleAge fuel k p u mem file = (.ok n, a)) :
    ∃ a1 c1 ms ms', Age.Ended fuel k p (chargeI p u) (dischargeI p u) p.Ncycle.toNat 0
        { cyc := startCyc u, th := Thr.zero, mem := mem, file := file } a1 n c1 ms ms'
      ∧ a.mem = [] ∧ a.file = (if a1.th.Ah = 0 then [] else a1.file) ++ a1.mem := by
  unfold cycleAge at h
  dsimp only at h
  rcases hl : Age.loop fuel k p (-p.Ccha * StorageUnit.Cap u) (p.Cdis * StorageUnit.Cap u) p.Ncycle.toNat 0
    { cyc := { su := u, diagnostic := true }, th := Thr.zero, mem := mem, file := file } with ⟨o, a1⟩
  rw [hl] at h
  rcases o with n' | e | w
  · dsimp only at h
    rcases hf : (a1.writeThroughput a1.th.Ah).checkUp k a1.th.Ah p.Ncycle with ⟨o2, a2⟩
    rw [hf] at h
    rcases o2 with _ | e | w
    · dsimp only at h
      cases h
      obtain ⟨c1, ms, ms', hE⟩ := Age.loop_ended fuel k p _ _ _ 0 _ a1 n (by simp [Thr.zero]) hl
      refine ⟨a1, c1, ms, ms', hE, ?_, ?_⟩
      · rw [(Age.onUnit_ok hf).2]; rfl
      · rw [(Age.onUnit_ok hf).2]; rfl
    · cases h
    · cases h
  · cases h
  · cases h

/-- **C49.** When `cycleAge` returns after `n` cycles, it did `n` complete cycles, balancing and checking where asked
for and nothing else in between, and either `n` is the requested number, or in the next cycle a phase failed to reach
its limit or the charge transferred less than 10⁻⁵ Ah, each phase being judged by a meter of its own. -/
theorem cycleAge_reason (fuel : ℕ) (k : Checks U) (p : AgeParams) (u : U) (mem file : List Thr) (n : ℕ) (a : Age U)
    (h : cycleAge fuel k p u mem file = (.ok n, a)) :
    ∃ c1 ms, Cycles fuel k p (chargeI p u) (dischargeI p u) 0 n (startCyc u) c1 ms ∧
      (n = p.Ncycle.toNat ∨
        (n < p.Ncycle.toNat ∧ ∃ c0 ms', Between k p n c1 c0 ∧
          MayStop fuel p (chargeI p u) (dischargeI p u) c0 ms')) := by
  obtain ⟨a1, c1, ms, ms', hE, -, -⟩ := cycleAge_ended h
  refine ⟨c1, ms, hE.cycles, ?_⟩
  rcases hE.stop with h1 | ⟨h1, c0, h2⟩
  · exact Or.inl (by have := h1.1; omega)
  · exact Or.inr ⟨by omega, c0, ms', h2⟩

/-- **C67 (partial).** The rows of the throughput file after `cycleAge`, for a procedure with nothing pending: one row
per recorded phase, each the *running total* up to and including that phase; nothing is left pending.  Missing: the
documentation says each row is the throughput of the phase (`not_rowsPerPhase`). -/
theorem throughput_totals_partial (fuel : ℕ) (k : Checks U) (p : AgeParams) (u : U) (file : List Thr) (n : ℕ) (a : Age U)
    (h : cycleAge fuel k p u [] file = (.ok n, a)) :
    ∃ c1 ms ms', Cycles fuel k p (chargeI p u) (dischargeI p u) 0 n (startCyc u) c1 ms ∧
      ((n = p.Ncycle.toNat ∧ ms' = []) ∨ (n < p.Ncycle.toNat ∧ ∃ c0, Between k p n c1 c0 ∧
          MayStop fuel p (chargeI p u) (dischargeI p u) c0 ms')) ∧
      a.file = totals ⟨0, 0, 0⟩ (ms ++ ms') ∧ a.mem = [] := by
  obtain ⟨a1, c1, ms, ms', hE, hmem, hfile⟩ := cycleAge_ended h
  refine ⟨c1, ms, ms', hE.cycles, ?_, ?_, hmem⟩
  · rcases hE.stop with h1 | ⟨h1, c0, h2⟩
    · exact Or.inl ⟨by have := h1.1; omega, h1.2⟩
    · exact Or.inr ⟨by omega, c0, h2⟩
  · have hrows := hE.rows
    simp only [Age.rows] at hrows
    have hz : (Thr.zero).Ah = 0 := rfl
    by_cases hn : p.Ncycle.toNat = 0
    · -- no cycles asked for: the file is started afresh
      have hstop := hE.stop
      rw [hn] at hstop
      have hn0 : n = 0 := by rcases hstop with h1 | h1 <;> have := h1.1 <;> omega
      have hms' : ms' = [] := by
        rcases hstop with h1 | h1
        · exact h1.2
        · have := h1.1; omega
      subst hms'
      have hms : ms = [] := by
        have hc := hE.cycles
        rw [hn0] at hc
        cases hc; rfl
      subst hms
      have ha1 := hE.idle hn
      rw [hfile, ha1]
      rfl
    · rw [if_pos ⟨hn, by simp, hz⟩] at hrows
      by_cases h0 : a1.th.Ah = 0
      · have hn0 : 0 = n := by
          by_contra hne
          have h1 := hE.grew (by omega)
          rw [h0] at h1
          exact absurd h1 (lt_irrefl _)
        have hf := hE.file hn0
        rw [if_pos ⟨hn, by simp⟩, if_pos hz] at hf
        rw [hf] at hrows
        rw [hfile, if_pos h0]
        exact hrows
      · rw [hfile, if_neg h0]
        exact hrows

/-! ### Total correctness -/

namespace Age

theorem cv_done {p : AgeParams} {Vset : ℚ} {a : Age U} {c' : Cyc U} {ms : List Thr}
    (h : CvDone p Vset a.cyc c' ms) : ∃ a', a.cv p Vset = (.ok true, a') ∧ a'.cyc = c' := by
  unfold CvDone at h
  unfold Age.cv
  by_cases hp : p.testCV = true
  · rw [if_pos hp] at h ⊢
    obtain ⟨m, hm, -⟩ := h
    have hme := CV_meter a.cyc Vset (1/10) TIME_INF 2 p.ndata a.th
    have hz : a.cyc.CV Vset (1/10) TIME_INF 2 p.ndata Thr.zero = cvPhase p Vset a.cyc := rfl
    rw [hz, hm] at hme
    rw [hme]
    exact ⟨_, rfl, rfl⟩
  · rw [if_neg hp] at h ⊢
    exact ⟨a, rfl, h.1.symm⟩

theorem cycle_done {fuel : ℕ} {p : AgeParams} {Icha Idis : ℚ} {a : Age U} {c' : Cyc U} {ms : List Thr}
    (h : FullCycle fuel p Icha Idis a.cyc c' ms) :
    ∃ a', a.cycle fuel p Icha Idis = (.ok true, a') ∧ a'.cyc = c' := by
  obtain ⟨c1, c2, c3, m1, ms2, m3, ms4, h1, hm1, h2, h3, h4, -⟩ := h
  obtain ⟨e1, -⟩ := cc_store fuel p Icha p.Vmax a _ c1 m1 h1
  unfold Age.cycle
  rw [e1]
  dsimp only
  rw [if_neg (by decide), if_neg (by
    have hd : a.th.Ah + m1.Ah - a.th.Ah = m1.Ah := by ring
    show ¬ (a.th.Ah + m1.Ah - a.th.Ah < 1/100000)
    rw [hd]; linarith)]
  obtain ⟨a3, e3, hc3⟩ := cv_done
    (a := ({ a with cyc := c1, th := a.th.add m1 } : Age U).storeThroughput) (c' := c2) (ms := ms2) h2
  rw [e3]
  dsimp only
  unfold Age.discharge
  obtain ⟨e4, -⟩ := cc_store fuel p Idis p.Vmin a3 _ c3 m3 (by rw [hc3]; exact h3)
  rw [e4]
  dsimp only
  rw [if_pos (by decide)]
  exact cv_done (a := ({ a3 with cyc := c3, th := a3.th.add m3 } : Age U).storeThroughput) (c' := c') (ms := ms4) h4

omit [StorageUnit U] [VoltageUnit U] in
theorem balanceCheckup_done {k : Checks U} {p : AgeParams} {i : ℕ} {a : Age U} {c' : Cyc U} (hcheck : p.Ncheck ≠ 0)
    (hbal : p.balance = true → p.Nbal ≠ 0) (h : Between k p i a.cyc c') :
    ∃ b c, when p i = .ok (b, c) ∧ ∀ Ah nr, ∃ a', a.balanceCheckup k b c Ah nr = (.ok (), a') ∧ a'.cyc = c' := by
  obtain ⟨u1, h1, u2, h2, rfl⟩ := h
  refine ⟨decide (p.balance = true ∧ (i : ℤ) % p.Nbal = 0), decide ((i : ℤ) % p.Ncheck = 0), ?_, fun Ah nr => ?_⟩
  · unfold when everyNth
    by_cases hp : p.balance = true
    · rw [if_pos hp, if_neg (hbal hp), if_neg hcheck]
      simp [Outcome.ok_bind, hp]
    · rw [if_neg hp, if_neg hcheck]
      simp [Outcome.ok_bind, hp]
  · unfold Age.balanceCheckup
    have hfirst : ∃ a1, (if decide (p.balance = true ∧ (i : ℤ) % p.Nbal = 0) = true then a.onUnit k.rebalance
        else (.ok (), a)) = (.ok (), a1) ∧ a1.cyc = a.cyc.withSU u1 := by
      by_cases hb : p.balance = true ∧ (i : ℤ) % p.Nbal = 0
      · rw [if_pos hb] at h1
        rw [if_pos (by simpa using hb)]
        unfold Age.onUnit
        rw [h1]
        exact ⟨_, rfl, rfl⟩
      · rw [if_neg hb] at h1
        rw [if_neg (by simpa using hb)]
        exact ⟨a, rfl, by rw [h1]; rfl⟩
    obtain ⟨a1, e1, hc1⟩ := hfirst
    rw [e1]
    dsimp only
    by_cases hc : (i : ℤ) % p.Ncheck = 0
    · rw [if_pos hc] at h2
      rw [if_pos (by simpa using hc)]
      have : (a1.writeThroughput Ah).cyc.su = u1 := by
        show a1.cyc.su = u1
        rw [hc1]; rfl
      unfold Age.checkUp
      rw [onUnit_eq (o := .ok ()) (u := u2) (by rw [← h2, ← this])]
      refine ⟨_, rfl, ?_⟩
      show a1.cyc.withSU u2 = a.cyc.withSU u2
      rw [hc1]; rfl
    · rw [if_neg hc] at h2
      rw [if_neg (by simpa using hc)]
      exact ⟨a1, rfl, by rw [hc1, h2]⟩

theorem loop_done {fuel : ℕ} {k : Checks U} {p : AgeParams} {Icha Idis : ℚ} (hcheck : p.Ncheck ≠ 0)
    (hbal : p.balance = true → p.Nbal ≠ 0) {left i : ℕ} {c c' : Cyc U} {ms : List Thr}
    (h : Cycles fuel k p Icha Idis i left c c' ms) :
    ∀ a : Age U, a.cyc = c → ∃ a', loop fuel k p Icha Idis left i a = (.ok (i + left), a') ∧ a'.cyc = c' := by
  induction h with
  | zero i c => intro a ha; exact ⟨a, rfl, ha⟩
  | succ i n c c0 c1 c' ms ms' hb hf _ ih =>
    intro a ha
    subst ha
    obtain ⟨b, c, hw, hbc⟩ := balanceCheckup_done hcheck hbal hb
    obtain ⟨a1, e1, hc1⟩ := hbc a.th.Ah i
    subst hc1
    obtain ⟨a2, e2, hc2⟩ := cycle_done hf
    obtain ⟨a3, e3, hc3⟩ := ih a2 hc2
    refine ⟨a3, ?_, hc3⟩
    rw [loop, hw]
    dsimp only
    rw [e1]
    dsimp only
    rw [e2]
    dsimp only
    rw [e3]
    congr 2
    omega

end Age

/-- **C49.** Conversely, if from the given unit all the cycles asked for can be done — every phase reaches its limit
and every charge transfers 10⁻⁵ Ah — then `cycleAge` does them all, however much the unit has been cycled. -/
theorem cycleAge_performs (fuel : ℕ) (k : Checks U) (p : AgeParams) (u u' : U) (mem file : List Thr) (c' : Cyc U)
    (ms : List Thr) (hcheck : p.Ncheck ≠ 0) (hbal : p.balance = true → p.Nbal ≠ 0)
    (h : Cycles fuel k p (chargeI p u) (dischargeI p u) 0 p.Ncycle.toNat (startCyc u) c' ms)
    (hfin : k.checkUp c'.su = (.ok (), u')) :
    ∃ a, cycleAge fuel k p u mem file = (.ok p.Ncycle.toNat, a) ∧ a.cyc = c'.withSU u' := by
  obtain ⟨a1, e1, hc1⟩ := Age.loop_done hcheck hbal h
    { cyc := startCyc u, th := Thr.zero, mem := mem, file := file } rfl
  unfold cycleAge
  dsimp only
  have e1' : Age.loop fuel k p (-p.Ccha * StorageUnit.Cap u) (p.Cdis * StorageUnit.Cap u) p.Ncycle.toNat 0
      { cyc := { su := u, diagnostic := true }, th := Thr.zero, mem := mem, file := file }
      = (.ok (0 + p.Ncycle.toNat), a1) := e1
  rw [e1']
  dsimp only
  have : (a1.writeThroughput a1.th.Ah).cyc.su = c'.su := by
    show a1.cyc.su = c'.su
    rw [hc1]
  unfold Age.checkUp
  rw [Age.onUnit_eq (o := .ok ()) (u := u') (by rw [← hfin, ← this])]
  dsimp only
  rw [Nat.zero_add]
  refine ⟨_, rfl, ?_⟩
  show a1.cyc.withSU u' = c'.withSU u'
  rw [hc1]

/-- **C49.** A check-up interval of zero is a remainder by zero as soon as a cycle is asked for. -/
theorem cycleAge_zero_interval (fuel : ℕ) (k : Checks U) (p : AgeParams) (u : U) (mem file : List Thr)
    (hn : 0 < p.Ncycle) (h : p.Ncheck = 0) (hb : p.balance = false) :
    (cycleAge fuel k p u mem file).1 = .ub "remainder by zero" := by
  unfold cycleAge
  dsimp only
  obtain ⟨m, hm⟩ : ∃ m, p.Ncycle.toNat = m + 1 := ⟨p.Ncycle.toNat - 1, by omega⟩
  rw [hm, Age.loop]
  have hw : Age.when p 0 = .ub "remainder by zero" := by
    unfold Age.when Age.everyNth
    rw [if_neg (by simp [hb]), if_pos h]
    rfl
  rw [hw]

/-! ### Rows of the throughput file -/

/-- The full claim: the file of a completed run has one row per phase, holding the throughput of that phase. -/
def RowsPerPhase : Prop :=
  ∀ (fuel : ℕ) (k : Checks (ECM 0)) (p : AgeParams) (u : ECM 0) (a : Age (ECM 0)),
    cycleAge fuel k p u [] [] = (.ok p.Ncycle.toNat, a) →
    ∃ c1 ms, Cycles fuel k p (chargeI p u) (dischargeI p u) 0 p.Ncycle.toNat (startCyc u) c1 ms ∧ a.file = ms

/-- Balancing and check-ups that leave the unit alone. -/
def quietChecks : Checks (ECM 0) := ⟨fun u => (.ok (), u), fun u => (.ok (), u)⟩

/-- One cycle between 3.1501 V and 3.15 V at 1C. -/
def oneCycle : AgeParams :=
  { Ncycle := 1, Ncheck := 1, Nbal := 1, testCV := false, Ccha := 1, Cdis := 1, Vmax := 31501/10000,
    Vmin := 63/20, balance := false, ndata := 0 }

/-- The unit after the charge of `oneCycle`. -/
def chargedOnce : Cyc (ECM 0) := (ccPhase 10 oneCycle (-1) oneCycle.Vmax (startCyc smallCell)).2.1

/-- **C67 (false of the code).** The rows are running totals: the discharge of 4 s is recorded as 6 s worth of
throughput. -/
theorem not_rowsPerPhase : ¬ RowsPerPhase := by
  intro h
  obtain ⟨c1, ms, hc, hfile⟩ := h 10 quietChecks oneCycle smallCell _
    (Prod.ext (by decide +kernel : _ = Outcome.ok oneCycle.Ncycle.toNat) rfl)
  have hI : chargeI oneCycle smallCell = -1 := by decide +kernel
  have hI' : dischargeI oneCycle smallCell = 1 := by decide +kernel
  rw [hI, hI'] at hc
  change Cycles 10 quietChecks oneCycle (-1) 1 0 1 (startCyc smallCell) c1 ms at hc
  cases hc with
  | succ i n c c0 c1 c' ms ms' hb hf hr =>
    cases hr
    obtain ⟨u1, h1, u2, h2, rfl⟩ := hb
    rw [if_neg (by decide)] at h1
    rw [if_pos (by decide)] at h2
    subst h1
    have h2' : (startCyc smallCell).su = u2 := congrArg Prod.snd h2
    subst h2'
    obtain ⟨d1, d2, d3, m1, ms2, m3, ms4, e1, -, e2, e3, e4, rfl⟩ := hf
    have hd1 : d1 = chargedOnce := (congrArg (fun x => x.2.1) e1).symm
    unfold CvDone at e2 e4
    rw [if_neg (by decide)] at e2 e4
    obtain ⟨rfl, rfl⟩ := e2
    obtain ⟨rfl, rfl⟩ := e4
    subst hd1
    have hm3 : m3 = (ccPhase 10 oneCycle 1 oneCycle.Vmin chargedOnce).2.2 := (congrArg (fun x => x.2.2) e3).symm
    have hlast := congrArg (fun l => (l.getLast?).map Thr.Ah) hfile
    have hl : ([m1] ++ [] ++ [m3] ++ [] ++ ([] : List Thr)).getLast? = some m3 := rfl
    rw [hl, hm3] at hlast
    exact absurd hlast (by decide +kernel)

/-- **C67 (false of the code).** The heading names five columns, the rows have four: `ID number` has no values. -/
theorem throughput_heading_mismatch (charge energy cool conv : ℚ) :
    (throughputRow charge energy cool conv).length < throughputHeading.length := by
  simp [throughputRow, throughputHeading]

/-- **C67 (false of the code).** Every value stands under the name of the quantity before it: the charge under `ID number`,
the energy under the charge; without the first name the heading would fit. -/
theorem throughput_columns_shifted (charge energy cool conv : ℚ) :
    (throughputHeading.zip (throughputRow charge energy cool conv)).lookup "cells charge throughput" = some energy ∧
    (throughputHeading.tail.zip (throughputRow charge energy cool conv)).lookup "cells charge throughput" = some charge ∧
    (throughputHeading.tail.zip (throughputRow charge energy cool conv)).lookup "Cells energy throughput" = some energy ∧
    (throughputHeading.tail.zip (throughputRow charge energy cool conv)).lookup
      "total energy to operate the thermal management system" = some cool ∧
    (throughputHeading.tail.zip (throughputRow charge energy cool conv)).lookup "losses in the converter" = some conv := by
  refine ⟨?_, ?_, ?_, ?_, ?_⟩ <;> simp [throughputRow, throughputHeading, List.lookup]

/-- Two cycles are completed, and the file has four rows. -/
example : (cycleAge 10 quietChecks { oneCycle with Ncycle := 2 } smallCell [] []).1 = .ok 2
    ∧ ((cycleAge 10 quietChecks { oneCycle with Ncycle := 2 } smallCell [] []).2.file.map Thr.time) = [2, 6, 10, 14] := by
  constructor <;> decide +kernel

/-- A run that stops because the unit is already above the charging limit: nothing can be charged. -/
example : (cycleAge 10 quietChecks { oneCycle with Vmax := 3 } smallCell [] []).1 = .ok 0 := by decide +kernel

end Slide

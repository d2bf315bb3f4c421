import Verif.Model.Recording
import Verif.Spec.Lithium
import Verif.Spec.SpmUse

/-! What a user reads from recorded drive cycles and pulse tests (C117, C118). -/

namespace Slide.Spec
open Recording

variable {N : ℕ}

/-- From `a` to `b`, `t` seconds and the charge `q` have passed (out of the anode, into the cathode) and nothing has aged. -/
structure Passed (a b : SPM N) (q t : ℚ) : Prop where
  par : b.par = a.par
  block : b.block = a.block
  aged : b.st.LLI = a.st.LLI ∧ b.st.an = a.st.an ∧ b.st.thickn = a.st.thickn ∧ b.st.ap = a.st.ap ∧ b.st.thickp = a.st.thickp
  cathode : cathodeLi b = cathodeLi a + q
  anode : anodeLi b = anodeLi a - q
  time : b.st.time = a.st.time + t

/-- The current of the cell in a row of the state file. -/
def rowCurrent (r : DriveRow) : ℚ := r.state.headD 0

/-- A row describes the cell `d`. -/
structure RowOf (m : Marks) (k : Fin N) (d : SPM N) (r : DriveRow) : Prop where
  current : r.state.head? = some d.st.I
  volt : d.V.1 = .ok r.volt
  /-- the two files show the same voltage (0 in the voltage file: the voltage cannot be computed) -/
  same : r.volt ≠ 0 → r.state[1]? = some r.volt
  soc : r.soc = 100 * ((d.st.zn k - m.empty) / (m.full - m.empty))

/-- C117, the rest of the full statement: the current in the voltage file is the current of the cell. -/
def DriveShowsCurrent (N : ℕ) : Prop :=
  ∀ (cap : ℚ) (m : Marks) (k : Fin N) (prof : List ℚ) (c c' : SPM N) (rows : List DriveRow),
    drive cap m k prof c = (.ok rows, c') → ∀ r ∈ rows, r.state.head? = some r.asked

/-- The value of a cell which a column of the state file announces. -/
def columnValue (s : SpmState 5) : String → Option ℚ
  | "I[A]" => some s.I
  | "V[V]" => some s.V
  | "T[T]" => some s.T
  | "delta" => some s.delta
  | "LLI" => some s.LLI
  | "thickp" => some s.thickp
  | "thickn" => some s.thickn
  | "ep" => some s.ep
  | "en" => some s.en
  | "ap" => some s.ap
  | "an" => some s.an
  | "CS" => some s.CS
  | "Dp" => some s.Dp
  | "Dn" => some s.Dn
  | "delta_pl" => some s.deltaPl
  | "zp_0" => some (s.zp 0)
  | "zp_1" => some (s.zp 1)
  | "zp_2" => some (s.zp 2)
  | "zp_3" => some (s.zp 3)
  | "zp_4" => some (s.zp 4)
  | "zn_0" => some (s.zn 0)
  | "zn_1" => some (s.zn 1)
  | "zn_2" => some (s.zn 2)
  | "zn_3" => some (s.zn 3)
  | "zn_4" => some (s.zn 4)
  | "rDCp" => some s.rDCp
  | "rDCn" => some s.rDCn
  | "rDCcc" => some s.rDCcc
  | _ => none

/-- The rows describe what happens from `b` to `b'`, one row per second: time, currents and voltages are those of the cells in
this second, when the currents of the rows before have passed through them for one second each. -/
structure LogOf (b : Bench N) (rows : List GittRow) (b' : Bench N) : Prop where
  time : b'.t = b.t + rows.length
  c : Passed b.c b'.c (rows.map (·.Ic)).sum rows.length
  d : Passed b.d b'.d (rows.map (·.Id)).sum rows.length
  row : ∀ (j : ℕ) r, rows[j]? = some r → r.t = b.t + j ∧
    (∃ x, Passed b.c x ((rows.take j).map (·.Ic)).sum j ∧ x.st.I = r.Ic ∧ x.V.1 = .ok r.Vc) ∧
    (∃ y, Passed b.d y ((rows.take j).map (·.Id)).sum j ∧ y.st.I = r.Id ∧ y.V.1 = .ok r.Vd)

/-- The currents of `n` pulses of `tp` seconds at `i`, each followed by a rest of `tr` seconds, for a cell that had the
current `before`: in every phase the current is constant; it is the one asked for, or the one of the phase before if the
cell has refused it. -/
inductive PulseTrain (i : ℚ) (tp tr : ℕ) : ℕ → ℚ → List ℚ → Prop where
  | done (before : ℚ) : PulseTrain i tp tr 0 before []
  | pulse (n : ℕ) (before a b : ℚ) (rest : List ℚ) : a = i ∨ a = before → b = 0 ∨ b = a →
      PulseTrain i tp tr n b rest →
      PulseTrain i tp tr (n + 1) before (List.replicate tp a ++ List.replicate tr b ++ rest)

/-- No current was refused. -/
def fullTrain (i : ℚ) (tp tr n : ℕ) : List ℚ :=
  (List.replicate n (List.replicate tp i ++ List.replicate tr 0)).flatten

end Slide.Spec

import Verif.Model.SPM

/-!
Model of the recordings in the examples – `/repo/examples/drive_cycles.hpp` (`experiment` in `drive_cycle_artemis`) and
`/repo/examples/cell_tests.hpp` (`GITT_test`).

The cells, the profile and the lengths of the phases are parameters; how the cells are prepared (`Cycler`, `setC`) and how
numbers are printed is left out.
-/

namespace Slide.Recording
variable {N : ℕ}

/-- What a second of a drive cycle leaves in the two files: current, voltage and state of charge of the voltage file, and the
row of the state file. -/
structure DriveRow where
  asked : ℚ
  volt : ℚ
  soc : ℚ
  state : List ℚ
  deriving DecidableEq, Repr

/-- The amplitudes of the anode for 0 %, 10 % and 100 % – `drive_cycles.hpp:238`. -/
structure Marks where
  empty : ℚ
  tenth : ℚ
  full : ℚ

/-- Heading of the state file – `drive_cycles.hpp:286-287`. -/
def stateHeading : List String :=
  ["I[A]", "V[V]", "T[T]", "delta", "LLI", "thickp", "thickn", "ep", "en", "ap", "an", "CS", "Dp", "Dn", "delta_pl",
   "zp_0", "zp_1", "zp_2", "zp_3", "zp_4", "zn_0", "zn_1", "zn_2", "zn_3", "zn_4", "rDCp", "rDCn", "rDCcc"]

/-- One second of `experiment` – `drive_cycles.hpp:259-266`.  The status of `setCurrent` is not looked at; the current in the
voltage file is the one of the profile (line 278), the one in the state file is the one of the cell.  `k`: the amplitude looked
at (`zn(3)`). -/
def second (cap : ℚ) (m : Marks) (k : Fin N) (r : ℚ) (c : SPM N) : Outcome DriveRow × SPM N :=
  match c.setCurrent (r * cap) true with
  | (.throw e, c1) => (.throw e, c1)
  | (.ub w, c1) => (.ub w, c1)
  | (.ok _, c1) =>
    match c1.V with
    | (.throw e, c2) => (.throw e, c2)
    | (.ub w, c2) => (.ub w, c2)
    | (.ok v, c2) =>
      match c2.timeStep 1 1 with
      | (.throw e, c3) => (.throw e, c3)
      | (.ub w, c3) => (.ub w, c3)
      | (.ok (), c3) =>
        (.ok ⟨r * cap, v, 100 * ((c2.st.zn k - m.empty) / (m.full - m.empty)), c2.getStates.take 28⟩, c3)

/-- `experiment` – `drive_cycles.hpp:253-297`: both files are written after the loop, so that an exception leaves none. -/
def drive (cap : ℚ) (m : Marks) (k : Fin N) : List ℚ → SPM N → Outcome (List DriveRow) × SPM N
  | [], c => (.ok [], c)
  | r :: rs, c =>
    let x := second cap m k r c
    match x.1 with
    | .throw e => (.throw e, x.2)
    | .ub w => (.ub w, x.2)
    | .ok row =>
      if x.2.st.zn k < m.tenth then (.ok [row], x.2)
      else
        let y := drive cap m k rs x.2
        (y.1.bind fun rows => .ok (row :: rows), y.2)

/-- A row of the GITT file: time, current and voltage of the charged cell, current and voltage of the discharged cell. -/
structure GittRow where
  t : ℚ
  Ic : ℚ
  Vc : ℚ
  Id : ℚ
  Vd : ℚ
  deriving DecidableEq, Repr

/-- The two cells and the clock of the test. -/
structure Bench (N : ℕ) where
  c : SPM N
  d : SPM N
  t : ℚ

/-- `out_GITT << t_all << ',' << c.I() << …` – `cell_tests.hpp:74-75`, `82-83`, `95-96`.  A voltage that throws leaves an
unfinished line, which is not counted as a row. -/
def record (b : Bench N) : Outcome GittRow × Bench N :=
  match b.c.V with
  | (.throw e, c) => (.throw e, { b with c := c })
  | (.ub w, c) => (.ub w, { b with c := c })
  | (.ok vc, c) =>
    match b.d.V with
    | (.throw e, d) => (.throw e, { b with c := c, d := d })
    | (.ub w, d) => (.ub w, { b with c := c, d := d })
    | (.ok vd, d) => (.ok ⟨b.t, c.st.I, vc, d.st.I, vd⟩, { b with c := c, d := d })

/-- `c.setCurrent(i); d.setCurrent(j)`, the voltages checked by default – `cell_tests.hpp:78-79`, `91-92`. -/
def setBoth (i j : ℚ) (b : Bench N) : Outcome Unit × Bench N :=
  match b.c.setCurrent i true with
  | (.throw e, c) => (.throw e, { b with c := c })
  | (.ub w, c) => (.ub w, { b with c := c })
  | (.ok _, c) =>
    match b.d.setCurrent j true with
    | (.throw e, d) => (.throw e, { b with c := c, d := d })
    | (.ub w, d) => (.ub w, { b with c := c, d := d })
    | (.ok _, d) => (.ok (), { b with c := c, d := d })

/-- `c.timeStep_CC(1, 1); d.timeStep_CC(1, 1); t_all += 1` – `cell_tests.hpp:85-88`, `98-101`. -/
def tick (b : Bench N) : Outcome Unit × Bench N :=
  match b.c.timeStep 1 1 with
  | (.throw e, c) => (.throw e, { b with c := c })
  | (.ub w, c) => (.ub w, { b with c := c })
  | (.ok _, c) =>
    match b.d.timeStep 1 1 with
    | (.throw e, d) => (.throw e, { b with c := c, d := d })
    | (.ub w, d) => (.ub w, { b with c := c, d := d })
    | (.ok _, d) => (.ok (), { c := c, d := d, t := b.t + 1 })

/-- A phase of `n` seconds.  The rows stay in the file whatever happens afterwards. -/
def phase : ℕ → Bench N → Outcome Unit × List GittRow × Bench N
  | 0, b => (.ok (), [], b)
  | n + 1, b =>
    let x := record b
    match x.1 with
    | .throw e => (.throw e, [], x.2)
    | .ub w => (.ub w, [], x.2)
    | .ok row =>
      let y := tick x.2
      match y.1 with
      | .throw e => (.throw e, [row], y.2)
      | .ub w => (.ub w, [row], y.2)
      | .ok () =>
        let z := phase n y.2
        (z.1, row :: z.2.1, z.2.2)

/-- Set currents and keep them for `n` seconds. -/
def hold (i j : ℚ) (n : ℕ) (b : Bench N) : Outcome Unit × List GittRow × Bench N :=
  let x := setBoth i j b
  match x.1 with
  | .throw e => (.throw e, [], x.2)
  | .ub w => (.ub w, [], x.2)
  | .ok () => phase n x.2

/-- The loop over the pulses – `cell_tests.hpp:77-103`. -/
def pulses (i : ℚ) (tp tr : ℕ) : ℕ → Bench N → Outcome Unit × List GittRow × Bench N
  | 0, b => (.ok (), [], b)
  | n + 1, b =>
    let x := hold (-i) i tp b
    match x.1 with
    | .throw e => (.throw e, x.2)
    | .ub w => (.ub w, x.2)
    | .ok () =>
      let y := hold 0 0 tr x.2.2
      match y.1 with
      | .throw e => (.throw e, x.2.1 ++ y.2.1, y.2.2)
      | .ub w => (.ub w, x.2.1 ++ y.2.1, y.2.2)
      | .ok () =>
        let z := pulses i tp tr n y.2.2
        (z.1, x.2.1 ++ y.2.1 ++ z.2.1, z.2.2)

/-- The test proper – `cell_tests.hpp:55-104` for 20 pulses of 3600 s, rests of 7200 s and a current of `0.05 * c.Cap()`. -/
def gitt (n tp tr : ℕ) (c d : SPM N) : Outcome Unit × List GittRow × Bench N :=
  let x := record ⟨c, d, 0⟩
  match x.1 with
  | .throw e => (.throw e, [], x.2)
  | .ub w => (.ub w, [], x.2)
  | .ok row =>
    let y := pulses (5 / 100 * c.par.cap) tp tr n x.2
    (y.1, row :: y.2.1, y.2.2)

end Slide.Recording

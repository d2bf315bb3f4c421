import Verif.Model.OcvEstimate
import Verif.Spec.OcvFit

/-! What a user can read in the report of the OCV estimation (C116). -/

namespace Slide.Spec
open OcvFit

/-- The number in the first row with this label. -/
def numberAt (rows : List (List Item)) (label : String) : Option ℚ :=
  match rows.find? (fun r => r.head? == some (.txt label)) with
  | some [_, .num x] => some x
  | _ => none

/-- The first search: 100 amounts of active material from what the measured capacity `cap` needs at least to 2.5 times
that, 51 start fractions per electrode. -/
structure FirstSpaces (cap : ℚ) (s : Spaces) : Prop where
  AMp : Covers s.AMp (3600 * cap / (F * 51385)) (5 / 2 * (3600 * cap / (F * 51385))) 100
  AMn : Covers s.AMn (3600 * cap / (F * 30555)) (5 / 2 * (3600 * cap / (F * 30555))) 100
  sp : Covers s.sp (38 / 100) (40 / 100) 51
  sn : Covers s.sn (55 / 100) (58 / 100) 51

/-- The report describes the best fit `q` with mean square error `e` for a cell with the measured curve `cell`. -/
structure Describes (sqrt : ℚ → ℚ) (cell : Curve) (q : Par) (e : ℚ) (f : FitFiles) : Prop where
  /-- the fitted parameters and their error -/
  AMp : numberAt f.param "AMp" = some q.AMp
  AMn : numberAt f.param "AMn" = some q.AMn
  sp : numberAt f.param "start pos" = some q.sp
  sn : numberAt f.param "start neg" = some q.sn
  err : numberAt f.param "The error on the OCV curve with this fit is" = some (sqrt e)
  /-- the measured curve -/
  cap : numberAt f.param "capacity of the cell in Ah" = cell.x.getLast?
  Vmax : numberAt f.param "maximum voltage of the cell" = cell.y.head?
  Vmin : numberAt f.param "minimum voltage of the cell" = cell.y.getLast?
  /-- half of the electrodes, of 0.0982 m2, is active material -/
  surf : numberAt f.param "electrode surface ele_surf" = some (982 / 10000)
  ep : numberAt f.param "cathode volume fraction ep" = some (1 / 2)
  en : numberAt f.param "anode volume fraction en" = some (1 / 2)
  /-- electrodes of the reported dimensions hold the fitted amounts of material -/
  cathode : ∃ surf ep thick, numberAt f.param "electrode surface ele_surf" = some surf ∧
    numberAt f.param "cathode volume fraction ep" = some ep ∧
    numberAt f.param "cathode thickness thickp" = some thick ∧ surf * ep * thick = q.AMp
  anode : ∃ surf en thick, numberAt f.param "electrode surface ele_surf" = some surf ∧
    numberAt f.param "anode volume fraction en" = some en ∧
    numberAt f.param "anode thickness thickn" = some thick ∧ surf * en * thick = q.AMn
  /-- the reported lithium fractions are those of the simulated discharge: between full and empty exactly the charge of the
  last row passes, and 50 % is half way -/
  fractions : ∃ Q a b c d rest, f.sim.getLast? = some (Q :: rest) ∧
    numberAt f.param "cathode lithium fraction at 100% SOC" = some q.sp ∧
    numberAt f.param "cathode lithium fraction at 50% SOC" = some a ∧
    numberAt f.param "cathode lithium fraction at 0% SOC" = some b ∧
    numberAt f.param "anode lithium fraction at 100% SOC" = some q.sn ∧
    numberAt f.param "anode lithium fraction at 50% SOC" = some c ∧
    numberAt f.param "anode lithium fraction at 0% SOC" = some d ∧
    F * q.AMp * 51385 * (b - q.sp) = 3600 * Q ∧ F * q.AMn * 30555 * (q.sn - d) = 3600 * Q ∧
    F * q.AMp * 51385 * (a - q.sp) = 3600 * (Q / 2) ∧ F * q.AMn * 30555 * (q.sn - c) = 3600 * (Q / 2)

/-- C116, the rest of the full statement: the settings in the report are the ones of the search. -/
def ReportsSearchSpace : Prop :=
  ∀ (sqrt : ℚ → ℚ) (p n cell : Curve) (cap : ℚ) (s : Spaces) (fuel : ℕ) (f : FitFiles),
    estimate sqrt (.ok (p, n, cell)) fuel = .ok (some f) → cell.x.getLast? = some cap → FirstSpaces cap s →
    numberAt f.param "minimum li-fraction" = some s.sp.xMin ∧
    numberAt f.param "maximum li-fraction" = some s.sp.back ∧
    (∀ r, numberAt f.param "relative step size in the search for active material" = some r →
      r * (3600 * cap / (F * 51385)) = s.AMp.dx)

end Slide.Spec

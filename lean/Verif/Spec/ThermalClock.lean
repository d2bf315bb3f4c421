import Verif.Spec.Thermal

/-!
# Time keeping of the thermal model (C127)

Every cell and every module counts the time since its last thermal update, and refuses an update for another time (8 for a
cell, 98 for a module).
-/

namespace Slide.Spec

mutual
/-- Every cell and every module counts `t` seconds since its last update. -/
def ClocksAt (t : ℚ) : HTree → Prop
  | .cell c => c.time = t
  | .plain _ => True
  | .module th _ ks => th.time = t ∧ ClocksAts t ks
termination_by structural u => u
def ClocksAts (t : ℚ) : List HTree → Prop
  | [] => True
  | u :: us => ClocksAt t u ∧ ClocksAts t us
termination_by structural us => us
end

mutual
/-- `t` seconds pass (what the time steps between two updates do to the clocks). -/
def elapse (t : ℚ) : HTree → HTree
  | .cell c => .cell { c with time := c.time + t }
  | .plain T => .plain T
  | .module th cool ks => .module { th with time := th.time + t } cool (elapses t ks)
termination_by structural u => u
def elapses (t : ℚ) : List HTree → List HTree
  | [] => []
  | u :: us => elapse t u :: elapses t us
termination_by structural us => us
end

/-- The time keeping is complained about. -/
def Refused (o : Outcome ℚ) : Prop := o = .throw 8 ∨ o = .throw 98

/-- `t` seconds pass and the update for these `t` seconds is made; the new temperature is set if there is one. -/
def thermalRound (H : CoolSystem → ℚ) (ns : List Neigh) (t : ℚ) (u : HTree) : Outcome ℚ × HTree :=
  match (elapse t u).thermal H ns t with
  | (.ok T, u') => (.ok T, (u'.setT T).2)
  | (o, u') => (o, u')

/-- Some rounds one after the other, up to the first failure. -/
def thermalRounds (H : CoolSystem → ℚ) (ns : List Neigh) : List ℚ → HTree → Outcome ℚ × HTree
  | [], u => (.ok u.T, u)
  | t :: ts, u =>
    match thermalRound H ns t u with
    | (.ok _, u') => thermalRounds H ns ts u'
    | (o, u') => (o, u')

/-- Full statement of C127: with an up-to-date caller the time keeping is never complained about, also not after an update
that failed. -/
def ClocksNeverComplain : Prop :=
  ∀ (H : CoolSystem → ℚ) (ns : List Neigh) (s t : ℚ) (u : HTree), ClocksAt 0 u →
    ¬ Refused (thermalRound H ns s u).1 ∧ ¬ Refused (thermalRound H ns t (thermalRound H ns s u).2).1

end Slide.Spec

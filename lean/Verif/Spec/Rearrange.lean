import Verif.Model.Cycler

/-!
# Specification for C158: rearranging the cells of a string
-/

namespace Slide.Spec
open Slide StorageUnit

variable {U : Type} [StorageUnit U]

/-- The second string consists of the cells of the first – each with the resistance of its own contact – in some
other order. -/
def Rearranged (m m' : ModuleS U) : Prop := m.kids.Perm m'.kids ∧ m.T = m'.T

/-- All cells of the string carry one current. -/
def OneCurrent (m : ModuleS U) : Prop := ∃ i, ∀ k ∈ m.kids, StorageUnit.I k.su = i

/-- Nothing that can be read at the terminals of the two units distinguishes them. -/
structure SameTerminals {W : Type} [StorageUnit W] (u w : W) : Prop where
  V : StorageUnit.V u = StorageUnit.V w
  I : StorageUnit.I u = StorageUnit.I w
  OCV : StorageUnit.OCV u = StorageUnit.OCV w
  Cap : StorageUnit.Cap u = StorageUnit.Cap w
  Rtot : StorageUnit.Rtot u = StorageUnit.Rtot w
  lim : StorageUnit.lim u = StorageUnit.lim w
  Vlow : StorageUnit.Vlow u = StorageUnit.Vlow w
  Vhigh : StorageUnit.Vhigh u = StorageUnit.Vhigh w
  check : StorageUnit.checkVoltage u = StorageUnit.checkVoltage w
  T : StorageUnit.T u = StorageUnit.T w
  cells : StorageUnit.nCells u = StorageUnit.nCells w

/-- What a program can do to a string. -/
inductive StringCall where
  | setCurrent (i : ℚ) (check : Bool)
  | step (dt : ℚ) (n : ℕ)

/-- The string after a call. -/
def StringCall.after (m : ModuleS U) : StringCall → ModuleS U
  | .setCurrent i b => (StorageUnit.setCurrent m i b).2
  | .step dt n => (StorageUnit.timeStep m dt n).2

/-- The call is made without checks, or is a time step. -/
def StringCall.Unchecked : StringCall → Prop
  | .setCurrent _ b => b = false
  | .step _ _ => True

/-- The call is not refused by the string: no status with which a current is turned down. -/
def StringCall.Accepted (m : ModuleS U) : StringCall → Prop
  | .setCurrent i b => ∀ st, (StorageUnit.setCurrent m i b).1 = .ok st → st.isBad = false
  | .step _ _ => True

/-- Full statement of C158: whatever is done to two strings of the same cells, they cannot be told apart at their
terminals. -/
def OrderIrrelevant (U : Type) [StorageUnit U] : Prop :=
  ∀ (m m' : ModuleS U) (calls : List StringCall), m.kids.length ≤ 100 → OneCurrent m → Rearranged m m' →
    SameTerminals (calls.foldl StringCall.after m) (calls.foldl StringCall.after m')

/-- Two records of a cycler match: the same calls, with units that correspond to one another. -/
inductive LikeEvent {A B : Type} (R : A → B → Prop) : Ev A → Ev B → Prop where
  | store {u : A} {w : B} : R u w → LikeEvent R (.store u) (.store w)
  | write : LikeEvent R .write .write

/-- Two cyclers whose units correspond to one another, and which have recorded corresponding data. -/
structure LikeCycler {A B : Type} (R : A → B → Prop) (c : Cyc A) (d : Cyc B) : Prop where
  su : R c.su d.su
  index : c.index = d.index
  diagnostic : c.diagnostic = d.diagnostic
  log : List.Forall₂ (LikeEvent R) c.log d.log

/-- The strings hold the same cells, which carry one current, and look the same at their terminals. -/
def Alike (m m' : ModuleS U) : Prop := Rearranged m m' ∧ OneCurrent m ∧ SameTerminals m m'

end Slide.Spec

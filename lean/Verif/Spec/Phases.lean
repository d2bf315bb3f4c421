import Verif.Spec.Frame
import Verif.Model.Cycler

/-! What "a phase of a cycler ends" means, for C157. -/

namespace Slide.Spec

/-- No module of the tree – series or parallel, at any level – has more than 100 children
(`settings::MODULE_NSUs_MAX`). -/
def NarrowTree {C : Type} : (d : ℕ) → Tree C d → Prop
  | 0, _ => True
  | _ + 1, .cell _ => True
  | d + 1, .series m => m.kids.length ≤ 100 ∧ ∀ k ∈ m.kids, NarrowTree d k.su
  | d + 1, .parallel m => m.kids.length ≤ 100 ∧ ∀ k ∈ m.kids, NarrowTree d k.su

/-- A call, given with the number of iterations its loop may take, comes to an end: from some number of iterations on
nothing changes any more, and the result is a value or an exception, not undefined behaviour. -/
def ComesToEnd {α β : Type} (call : ℕ → Outcome α × β) : Prop :=
  ∃ k, (call k).1.Defined ∧ ∀ j, call (k + j) = call k

/-- C157, in full: whatever the arguments, a rest and a constant-current phase come to an end. -/
def PhasesEnd (C : Type) [StorageUnit C] : Prop :=
  ∀ (d : ℕ) (c : Cyc (Tree C d)), NarrowTree d c.su → ∀ (tlim dt : ℚ) (ndt : ℤ) (th : Thr),
    ComesToEnd (fun fuel => c.rest fuel tlim dt ndt th) ∧
    ∀ I vlim : ℚ, ComesToEnd fun fuel => c.CC fuel I vlim tlim dt ndt th

end Slide.Spec

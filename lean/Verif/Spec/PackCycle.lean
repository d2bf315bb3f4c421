import Verif.Spec.UniformPack
import Verif.Model.Cycler

/-!
Vocabulary for C143: a pack of copies of one cell, connected to a cycler, compared with the cell on a cycler of its own.
-/

namespace Slide.Spec

variable {C : Type}

/-- The same event in the records of the cell and of the pack: the writing of a file, or a data point, made when the pack
consisted of copies of the cell. -/
def SameEvent (d s p : ℕ) : Ev C → Ev (Tree C d) → Prop
  | .store c, .store t => UniformPack c d s p t
  | .write, .write => True
  | _, _ => False

/-- The cycler `P` has a pack of copies of the cell that is connected to `c`, and has made the same records. -/
structure CycUniform (d s p : ℕ) (c : Cyc C) (P : Cyc (Tree C d)) : Prop where
  unit : UniformPack c.su d s p P.su
  index : P.index = c.index
  diagnostic : P.diagnostic = c.diagnostic
  log : List.Forall₂ (SameEvent d s p) c.log P.log

/-- Throughput of the pack: the same time, `p` times the charge, `s * p` times the energy. -/
def thrPack (s p : ℕ) (th : Thr) : Thr := { time := th.time, Ah := p * th.Ah, Wh := s * p * th.Wh }

end Slide.Spec

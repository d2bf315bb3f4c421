import Verif.Model.Outcome

/-!
Model of `slide::run`, `/repo/src/utility/parallelisation.hpp`, with `settings::isParallel = true`
(`/repo/src/settings/settings.hpp:28`).
-/

namespace Slide
namespace Run

/-- Largest value of a 32-bit `int`. -/
def INT_MAX : ℕ := 2147483647

/-- `task_par(i_begin, i_end, Nth)` – `parallelisation.hpp:24-29`: the indices for which one thread calls the task, in
order.  `i_begin += Nth` overflowing an `int` is UB; so is running forever (`Nth = 0`). -/
def taskPar (iEnd nth : ℕ) (i : ℕ) : Outcome (List ℕ) :=
  if _h : i < iEnd then
    if _h0 : nth = 0 then .ub "infinite loop"
    else if i + nth > INT_MAX then .ub "signed overflow"
    else
      match taskPar iEnd nth (i + nth) with
      | .ok is => .ok (i :: is)
      | .throw e => .throw e
      | .ub w => .ub w
  else .ok []
termination_by iEnd - i

/-- The programs of threads `0 .. k-1`. -/
def threads (iEnd nth : ℕ) : ℕ → Outcome (List (List ℕ))
  | 0 => .ok []
  | k + 1 => do
    let ts ← threads iEnd nth k
    let t ← taskPar iEnd nth k
    pure (ts ++ [t])

/-- `run(task, i_end, numMaxParallelWorkers)` on a machine where `std::thread::hardware_concurrency()` returns `hw`
– `parallelisation.hpp:20-58`: the list of threads, each with the indices it runs in order (the calling thread alone if
one worker is requested). -/
def run (iEnd numMax hw : ℕ) : Outcome (List (List ℕ)) :=
  if numMax = 1 then do
    let t ← taskPar iEnd 1 0
    pure [t]
  else
    let numMax := if numMax < 1 then hw else numMax
    let nth := min numMax hw
    threads iEnd nth nth

end Run
end Slide

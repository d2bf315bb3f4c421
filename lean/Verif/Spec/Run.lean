import Mathlib.Data.List.Basic
import Mathlib.Logic.Function.Basic

/-!
Interleavings of concurrently running threads.
-/

namespace Slide.Spec

/-- `Interleaving ts l`: `l` is an execution order of the steps of the threads `ts`, in which every thread executes its
own steps in order. -/
inductive Interleaving {α : Type} : List (List α) → List α → Prop
  | done (ts : List (List α)) (h : ∀ t ∈ ts, t = []) : Interleaving ts []
  | step (pre : List (List α)) (a : α) (t : List α) (post : List (List α)) (l : List α) :
      Interleaving (pre ++ t :: post) l → Interleaving (pre ++ (a :: t) :: post) (a :: l)

/-- An atomic step of task `i`: it reads and writes only the data of that task. -/
structure TStep (σ : Type) where
  task : ℕ
  act : σ → σ

/-- Effect of a step on the data of all tasks. -/
def TStep.run {σ : Type} (s : TStep σ) (d : ℕ → σ) : ℕ → σ := Function.update d s.task (s.act (d s.task))

/-- Run steps one after the other. -/
def runSteps {σ : Type} (l : List (TStep σ)) (d : ℕ → σ) : ℕ → σ := l.foldl (fun d s => s.run d) d

/-- The steps of task `i` when its body consists of the actions `body i`. -/
def stepsOf {σ : Type} (body : ℕ → List (σ → σ)) (i : ℕ) : List (TStep σ) := (body i).map fun f => ⟨i, f⟩

end Slide.Spec

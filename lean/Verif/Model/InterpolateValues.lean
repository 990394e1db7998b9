import Verif.Model.Interpolation
import Verif.Model.Kahan
import Mathlib.Algebra.Module.Basic

/-!
# Interpolation of the combined solution

`interpolateValues`, `/repo/src/manager/InterpolationWorker.hpp` l.10-50. Numbers as in
`Model/Interpolation`: coordinates and coefficients in an ordered field, values in a vector space over it,
without rounding (the summation also with rounding: `localValuesWith`). The OpenMP loop writes to different entries, so its order does not matter.
-/

namespace Verif.Interpolation

variable {K : Type} [Field K] [LinearOrder K] [FloorRing K] {V : Type} [AddCommGroup V] [Module K V]

/-- A task on one process: its coefficient and the local part of its grid. -/
structure EvalTask (K V : Type) where
  coeff : K
  dims : List EvalDim
  data : List V

/-- The loop over the coordinates, l.24-32, with the addition `A` of the machine. -/
def coordLoopWith (A : Adder V) (t : EvalTask K V) : List (List K) → List (V × V) → Outcome (List (V × V))
  | x :: xs, s :: ss => (evalLocal t.dims x t.data).bind fun v =>
      (coordLoopWith A t xs ss).bind fun r => .ok (kahanStep A s (t.coeff • v) :: r)
  | [], [] => .ok []
  | _, _ => .stuck

/-- The loop over the tasks, l.20-33. -/
def taskLoopWith (A : Adder V) (coords : List (List K)) :
    List (EvalTask K V) → List (V × V) → Outcome (List (V × V))
  | [], ss => .ok ss
  | t :: ts, ss => (coordLoopWith A t coords ss).bind fun ss' => taskLoopWith A coords ts ss'

/-- The values of one process before the reductions, l.13-33. -/
def localValuesWith (A : Adder V) (tasks : List (EvalTask K V)) (coords : List (List K)) : Outcome (List V) :=
  (taskLoopWith A coords tasks (coords.map fun _ => (0, 0))).bind fun ss => .ok (ss.map (·.1))

/-- The same without rounding. -/
def localValues (tasks : List (EvalTask K V)) (coords : List (List K)) : Outcome (List V) :=
  localValuesWith (Adder.exact V) tasks coords

/-- The results of several processes; one that gives none makes all of them wait in the reduction. -/
def gather {β : Type} (f : ℕ → Outcome β) : List ℕ → Outcome (List β)
  | [] => .ok []
  | i :: is => (f i).bind fun a => (gather f is).bind fun r => .ok (a :: r)

/-- `MPI_Allreduce` with `MPI_SUM` of vectors of length `m`. -/
def allreduce (m : ℕ) (vs : List (List V)) : List V :=
  (List.range m).map fun i => (vs.map fun v => v.getD i 0).sum

/-- `interpolateValues` on `n` groups of `p` processes, where `tasks g r` are the tasks on rank `r` of
group `g`: reduction in the group (`getLocalComm`, l.35-37), then over the processes of the same rank in all
groups (`getGlobalReduceComm`, l.42-44). The result is the one that every process ends up with. A number of
coordinates that does not fit into `int` makes the reductions fail. -/
def interpolateValues (n p : ℕ) (tasks : ℕ → ℕ → List (EvalTask K V)) (coords : List (List K)) :
    Outcome (List V) :=
  if 2 ^ 31 ≤ coords.length then .stuck
  else (gather (fun g => (gather (fun r => localValues (tasks g r) coords) (List.range p)).bind fun vs =>
      .ok (allreduce coords.length vs)) (List.range n)).bind fun gs =>
    .ok (allreduce coords.length gs)

end Verif.Interpolation

import Verif.Model.StaticFaults
import Mathlib.Algebra.Order.Ring.Rat

/-!
# When a process is made to fail

`/repo/src/fault_tolerance/WeibullFaults.cpp`, `WeibullFaults.hpp`,
`/repo/src/fault_tolerance/StaticFaults.cpp`, `/repo/src/task/Task.hpp` l.94, l.370-385 (every task
owns a fault criterion, which is sent with it), the decision at the end of each run in
`/repo/examples/combi_example_faults/TaskExample.hpp` l.109-131 and l.221-248 (the same code in
`/repo/tests/test_ftolerance.cpp`; the tasks of the GENE examples send `combiStep_` as well and are
not modelled), and what
`/repo/src/manager/ProcessGroupWorker.cpp` does with its tasks.
-/

namespace Verif.FaultSchedule

/-- The members of `WeibullFaults`, `WeibullFaults.hpp` l.19-31. Times are in seconds; the epoch of
the clock is `0`. -/
structure Weibull where
  shape : ℚ
  scale : ℚ
  faultMaster : Bool
  numberOfCombis : ℤ
  tFault : ℚ
  start : ℚ
  deriving DecidableEq

/-- `WeibullFaults::WeibullFaults(k, lambda, numberOfCombis, faultMaster)`, `WeibullFaults.cpp`
l.7-12. `startTimeIteration_` is value-initialised: the epoch of the clock. -/
def Weibull.new (k lambda : ℚ) (numberOfCombis : ℤ) (faultMaster : Bool) : Weibull :=
  ⟨k, lambda, faultMaster, numberOfCombis, -1, 0⟩

/-- `serialize` on the manager and the default constructor plus `serialize` on the worker,
`WeibullFaults.hpp` l.33-40 and `WeibullFaults.cpp` l.14: `t_fault_` and `startTimeIteration_` are
not part of the message. -/
def Weibull.sent (w : Weibull) : Weibull :=
  { shape := w.shape, scale := w.scale, faultMaster := w.faultMaster,
    numberOfCombis := w.numberOfCombis, tFault := -1, start := 0 }

/-- `WeibullFaults::failNow`, `WeibullFaults.cpp` l.20-47. `now` is the time read from the clock,
`master` is `theMPISystem()->isProcessGroupMaster()`. -/
def Weibull.failNow (w : Weibull) (master : Bool) (now : ℚ) (ncombi : ℤ) : Bool :=
  if !w.faultMaster && master then false
  else if ncombi = w.numberOfCombis - 1 then false
  else decide (w.tFault < now - w.start)

/-- `WeibullFaults::init`, `WeibullFaults.cpp` l.49-62; `sample` is the number drawn from the
Weibull distribution, which is used if the argument is negative. No line of `/repo` calls it. -/
def Weibull.init (w : Weibull) (sample start tFault : ℚ) : Weibull :=
  { w with tFault := if tFault < 0 then sample else tFault, start := start }

/-- The two fault criteria, `StaticFaults` and `WeibullFaults`. -/
inductive Criterion where
  | static (iterationFaults globalRankFaults : List ℤ)
  | weibull (w : Weibull)
  deriving DecidableEq

/-- What arrives on a worker when a task with this criterion is sent, `StaticFaults.hpp` l.22-26
and `WeibullFaults.hpp` l.33-40. -/
def Criterion.sent : Criterion → Criterion
  | .static iF rF => .static iF rF
  | .weibull w => .weibull w.sent

/-- The process: its rank in the world and whether it is the master of its group. -/
structure Proc where
  rank : ℤ
  master : Bool

/-- `faultCriterion_->failNow(combiStep_, -1.0, globalRank)`. -/
def Criterion.failNow (c : Criterion) (p : Proc) (now : ℚ) (ncombi : ℤ) : Outcome Bool :=
  match c with
  | .static iF rF => Verif.failNow iF rF ncombi p.rank
  | .weibull w => .ok (w.failNow p.master now ncombi)

/-- A task on a worker: `combiStep_` and its fault criterion. -/
structure Held where
  combiStep : ℕ
  crit : Criterion

/-- `decideToKill`, `TaskExample.hpp` l.221-248: `combiStep_ != 0 && failNow(combiStep_, …)`.
`combiStep_` stays below `2 ^ 31`, so the conversion to `int` keeps its value. -/
def Held.decideToKill (h : Held) (p : Proc) (now : ℚ) : Outcome Bool :=
  if h.combiStep ≠ 0 then h.crit.failNow p now h.combiStep else .ok false

/-- The tasks of a worker by ID. The worker keeps a list; by C41 the IDs in it differ. -/
abbrev Tasks := ℕ → Option Held

/-- What happens to the tasks of a process, by ID.

* `receive`: `receiveAndInitializeTask` (`RUN_FIRST`, `ADD_TASK`, `RECOMPUTE`,
  `RESCHEDULE_ADD_TASK`), `ProcessGroupWorker.cpp`;
* `run`: `Task::run` called for one task at a time, with the time at which the decision is taken;
* `remove`: `RESCHEDULE_REMOVE_TASK`;
* `reset`: `RESET_TASKS`, after the communicators were rebuilt. -/
inductive Event where
  | receive (id : ℕ) (crit : Criterion)
  | run (id : ℕ) (now : ℚ)
  | remove (id : ℕ)
  | reset
  deriving DecidableEq

/-- One event. `none` means that the process is killed (`Sim_FT_kill_me`). A task that arrives has
`combiStep_ = 0`: the default constructor of the task sets it and `serialize` does not contain it,
`TaskExample.hpp` l.184, l.209-219. `run` ends with `decideToKill(); ++combiStep_`, l.129-130. -/
def step (p : Proc) (S : Tasks) : Event → Outcome (Option Tasks)
  | .receive id c => .ok (some (Function.update S id (some ⟨0, c.sent⟩)))
  | .run id now =>
    match S id with
    | none => .stuck
    | some h => (h.decideToKill p now).bind fun dead =>
        .ok (if dead then none
          else some (Function.update S id (some { h with combiStep := h.combiStep + 1 })))
  | .remove id => .ok (some (Function.update S id none))
  | .reset => .ok (some fun _ => none)

/-- The life of a process: the position of the event in which it is killed, `none` if it survives
them all. `i` counts the events before. -/
def life (p : Proc) : Tasks → ℕ → List Event → Outcome (Option ℕ)
  | _, _, [] => .ok none
  | S, i, e :: es => (step p S e).bind fun
    | none => .ok (some i)
    | some S' => life p S' (i + 1) es

end Verif.FaultSchedule

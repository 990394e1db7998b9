import Verif.Model.History
import Verif.Model.GroupStatus

/-!
# Simulations in which process groups fail

The loop of `/repo/examples/combi_example_faults/combi_example_faults.cpp` l.125-191 (the same in
`/repo/tests/test_ftolerance.cpp`) on the workers: signals `RUN_NEXT`, `COMBINE`, `ADD_TASK`,
`RESET_TASKS`, `RECOMPUTE`, `RECOVER_COMM` and `UPDATE_COMBI_PARAMETERS` of
`/repo/src/manager/ProcessGroupWorker.cpp` l.149-292, for the variant `sparseGridReduce`, the one the
example uses.

Simplifications: as in `Verif.Model.History`, one process of each group is modelled, the grids of the
tasks are seen as hierarchical coefficients, and `setZero`, which tasks implement, zeroes all values.
Which group gets which task is decided by the manager (`Verif.Model.TaskLists`); here every choice is
allowed. A group that fails is without effect until it is erased or restored.
-/

namespace Verif.FaultHistory

variable {K : Type}

/-- The groups that take part, and the combination coefficients in `combiParameters_` of the workers
(by level). -/
structure State (K : Type) where
  n : ℕ
  groups : ℕ → Verif.Group K
  coeffs : List ℕ → K

/-- What happens after the initialisation. -/
inductive Step (K : Type)
  /-- `RUN_NEXT`: all tasks are run, and have any values afterwards. -/
  | run (v : ℕ → ℕ → ℕ → K)
  /-- `COMBINE`. -/
  | combine
  /-- Failed groups are erased, if they could not be restored. -/
  | erase (failed : List ℕ)
  /-- A failed group is restored with processes from the reserve, `RESET_TASKS`. -/
  | restore (g : ℕ) (w : ℕ → K)
  /-- `ADD_TASK`: a task with this coefficient and level. -/
  | add (c : K) (level : List ℕ) (target : ℕ)
  /-- The first part of `RECOMPUTE`: a task with this coefficient and level, with the last combined
  solution. -/
  | refill (c : K) (level : List ℕ) (target : ℕ)
  /-- The second part of `RECOMPUTE`: the last task of the group is run. -/
  | runLast (target : ℕ) (v : ℕ → K)
  /-- `UPDATE_COMBI_PARAMETERS`. -/
  | update (c : List ℕ → K)

/-- The groups that have not failed, in order: `recoverCommunicators`, `ProcessManager.cpp` l.326-337. -/
def alive (n : ℕ) (failed : List ℕ) : List ℕ := (List.range n).filter fun g => g ∉ failed

/-- `recoverCommunicators`, `ProcessManager.cpp` l.302-338, if the groups could not be restored: they
are erased, and the others get new numbers. `none`: no group is left, `MPI_Abort`. The communicator for
the reduction is made anew from the groups that are left (`Verif.Model.Recovery`). -/
def State.erase (failed : List ℕ) (s : State K) : Option (State K) :=
  let a := alive s.n failed
  if a = [] then none
  else some { s with n := a.length, groups := fun i => s.groups (a.getD i 0) }

/-- Values of all tasks, as in `Setup.run`. -/
def Group.run (v : ℕ → ℕ → K) (g : Verif.Group K) : Verif.Group K :=
  { g with tasks := g.tasks.mapIdx fun k t => (t.1, { t.2 with data := ⟨t.2.data.len, v k⟩ }) }

/-- `RESET_TASKS`, l.177-182, on a group with processes from the reserve. A process from the reserve is
taken to have been at the same place in another group before: its sparse grid has the same subspaces
and sizes, with any values. -/
def Group.restore (w : ℕ → K) (g : Verif.Group K) : Verif.Group K :=
  ⟨{ g.dsg with data := ⟨g.dsg.data.len, w⟩ }, []⟩

/-- A grid with zeros. -/
def zeroGrid [Zero K] (x : Dfg K) : Dfg K := { x with data := ⟨x.data.len, fun _ => 0⟩ }

/-- `ADD_TASK`, l.168-176: the task is initialised (`x` is the grid that `init` makes) and set to
zero. -/
def Group.add [Zero K] (c : K) (x : Dfg K) (g : Verif.Group K) : Verif.Group K :=
  { g with tasks := g.tasks ++ [(c, zeroGrid x)] }

/-- `RECOMPUTE`, l.273-288, up to the run: the task is initialised, set to zero and filled by
`fillDFGFromDSGU` (`SparseGridWorker.hpp` l.627-656). -/
def Group.refill [Zero K] (c : K) (x : Dfg K) (g : Verif.Group K) : Option (Verif.Group K) := do
  let x ← extractFromUniformSG true (zeroGrid x) g.dsg
  return { g with tasks := g.tasks ++ [(c, x)] }

/-- `RECOMPUTE`, l.284-286: the last task is run. `none`: there is none. -/
def Group.runLast (v : ℕ → K) (g : Verif.Group K) : Option (Verif.Group K) := do
  let t ← g.tasks.getLast?
  return { g with tasks := g.tasks.dropLast ++ [(t.1, { t.2 with data := ⟨t.2.data.len, v⟩ })] }

/-- One step. `init` is the grid that `Task::init` makes for a level.

`UPDATE_COMBI_PARAMETERS`, l.676-723, replaces `combiParameters_`. The combination multiplies each grid
by `t->getCoefficient()` (`SparseGridWorker.hpp` l.1003-1016), the coefficient that the task was
constructed with (`Task.hpp` l.61, l.212, l.384); nothing assigns it. -/
def State.step [Ring K] (init : List ℕ → Dfg K) (maxChunk : ℕ) (s : State K) :
    Step K → Option (State K)
  | .run v => some { s with groups := fun g => Group.run (v g) (s.groups g) }
  | .combine => do
      let S ← combineSparseGridReduce maxChunk s.n s.groups
      return { s with groups := S }
  | .erase failed => s.erase failed
  | .restore g w => some { s with groups := Function.update s.groups g (Group.restore w (s.groups g)) }
  | .add c level target =>
      some { s with groups :=
        Function.update s.groups target (Group.add c (init level) (s.groups target)) }
  | .refill c level target => do
      let g ← Group.refill c (init level) (s.groups target)
      return { s with groups := Function.update s.groups target g }
  | .runLast target v => do
      let g ← Group.runLast v (s.groups target)
      return { s with groups := Function.update s.groups target g }
  | .update c => some { s with coeffs := c }

/-- Initialisation with tasks, `runfirst` without faults, followed by any number of steps. -/
def simulate [Ring K] (init : List ℕ → Dfg K) (maxChunk : ℕ) (levels : List (List ℕ)) (n : ℕ)
    (tasks : ℕ → List (K × Dfg K)) (coeffs : List ℕ → K) (steps : List (Step K)) :
    Option (State K) := do
  let s ← setUp .sparseGridReduce levels n tasks
  steps.foldlM (State.step init maxChunk) ⟨n, s.groups, coeffs⟩

/-! ### A fault in the first run -/

/-- The loop at the beginning of `initDsgus`, `ProcessManager.cpp` l.127-135, and of `combine`
(`waitForAllGroupsToWait`, l.375-386): `polls k` are the statuses that are read in round `k`, and the
loop ends in the first round in which all groups wait. `none`: not within `rounds` rounds. -/
def waitLoop (polls : ℕ → List GroupStatus.Status) : (k rounds : ℕ) → Option ℕ
  | _, 0 => none
  | k, rounds + 1 => if (polls k).all (· == .wait) then some k else waitLoop polls (k + 1) rounds

end Verif.FaultHistory

import Verif.Model.FileIO
import Mathlib.Data.List.Basic

/-!
# Which group holds which task

The functions of `ProcessManager` that hand tasks to process groups or take them away
(`src/manager/ProcessManager.cpp`), the manager's list per group (`ProcessGroupManager::tasks_`), and
the list on the workers of the group (`TaskWorker::tasks_`).

Simplifications: a task is its id and its level vector, which is what is kept when it is sent
(`src/task/Task.hpp:378-387`). Every group works through the signals in the order in which they were
sent, so the list on its workers is the effect of the signals sent so far, `Group.worker`; when the
group is idle (see `Verif/Props/GroupStatus.lean`), all of them have taken effect. Which group `wait`
returns depends on which group is done first; every choice is allowed. Groups do not fail during one of
these functions; a group may have failed before.
-/

namespace Verif.TaskLists

/-- A task. -/
structure Task where
  id : ℕ
  level : List ℤ
  deriving DecidableEq, Repr

/-- The signals that change the task list on the workers. -/
inductive Cmd where
  /-- RUN_FIRST, ADD_TASK, RECOMPUTE, RESCHEDULE_ADD_TASK. -/
  | append (t : Task)
  /-- RESCHEDULE_REMOVE_TASK. -/
  | remove (id : ℕ)
  /-- RESET_TASKS. -/
  | reset
  deriving DecidableEq, Repr

/-- Removes the first element with the property. -/
def removeFirst (p : Task → Bool) : List Task → List Task
  | [] => []
  | t :: rest => if p t then rest else t :: removeFirst p rest

/-- The effect of a signal on the task list of the workers: `receiveAndInitializeTask` appends
(`ProcessGroupWorker.cpp:651-673`, `TaskWorker.hpp:110-115`); RESCHEDULE_REMOVE_TASK erases the first
task with the id (l.384-411, `TaskWorker.hpp:120-124`); RESET_TASKS clears (`TaskWorker.hpp:53`). -/
def workerStep (l : List Task) : Cmd → List Task
  | .append t => l ++ [t]
  | .remove id => removeFirst (fun t => t.id == id) l
  | .reset => []

/-- A process group: the manager's list (`ProcessGroupManager::tasks_`), the signals sent, and whether
the status is FAIL. -/
structure Group where
  container : List Task
  sent : List Cmd
  failed : Bool
  deriving DecidableEq, Repr

/-- The list on the workers once the signals have taken effect. -/
def Group.worker (g : Group) : List Task := g.sent.foldl workerStep []

/-- `ProcessManager`: its groups and its list of tasks. -/
structure Manager where
  groups : List Group
  tasks : List Task
  deriving DecidableEq, Repr

/-- `storeTaskReferenceAndSendTaskToProcessGroup`, `ProcessGroupManager.cpp:23-54`: nothing happens
when the group is not waiting. -/
def Group.storeAndSend (g : Group) (t : Task) : Group :=
  if g.failed then g
  else { g with container := g.container ++ [t], sent := g.sent ++ [.append t] }

/-- Hands `t` to the group with index `i`; `stuck` if there is none. -/
def assign (t : Task) (i : ℕ) (m : Manager) : Outcome Manager :=
  match m.groups[i]? with
  | none => .stuck
  | some g => .ok { m with groups := m.groups.set i (g.storeAndSend t) }

/-- A loop that hands each task to the group that `wait` returns. -/
def assignAll : List Task → List ℕ → Manager → Outcome Manager
  | [], _, m => .ok m
  | _ :: _, [], _ => .stuck
  | t :: ts, i :: is, m => (assign t i m).bind (assignAll ts is)

/-- `runfirst`, `ProcessManager.cpp:29-59`. `order` is the sorted list of tasks (`sortTasks`, l.17-26),
`choice` what `wait` returns for each of them. -/
def runfirst (order : List Task) (choice : List ℕ) (m : Manager) : Outcome Manager :=
  if order.length < m.groups.length then .error
  else assignAll order choice { m with tasks := order }

/-- The search for a task in l.185-193 and l.263-271. -/
def findTask (tasks : List Task) (id : ℕ) : Option Task := tasks.find? fun t => t.id == id

/-- `redistribute`, l.182-214, and `recompute`, l.259-298: every task is searched by id and handed to
the group that `wait` (or `waitAvoid`) returns. -/
def redistribute : List ℕ → List ℕ → Manager → Outcome Manager
  | [], _, m => .ok m
  | _ :: _, [], _ => .stuck
  | id :: ids, i :: is, m =>
    match findTask m.tasks id with
    | none => .stuck
    | some t => (assign t i m).bind (redistribute ids is)

/-- The loop of `reInitializeGroup` for one group, l.217-246: the list on the workers is cleared, every
task that is not to be ignored is sent again in the order of the manager's list, and the others are
erased from the manager's list (`removeTask`, `ProcessGroupManager.hpp:434-447`). -/
def Group.reInitialize (ignore : List ℕ) (g : Group) : Group :=
  let keep := g.container.filter fun t => !(ignore.contains t.id)
  let drop := g.container.filter fun t => ignore.contains t.id
  { g with
    sent := g.sent ++ [.reset] ++ keep.map Cmd.append
    container := drop.foldl (fun l t => removeFirst (fun u => u == t) l) g.container }

/-- `reInitializeGroup`. The groups were recovered before: their status is WAIT again
(`recoverCommunicators`, l.322-325). -/
def reInitializeGroups (recovered : List ℕ) (ignore : List ℕ) (m : Manager) : Manager :=
  { m with groups := m.groups.mapIdx fun i g =>
      if i ∈ recovered then ({ g with failed := false } : Group).reInitialize ignore else g }

/-- `recoverCommunicators` when the groups could not be restored, l.327-336: the failed groups are
erased. `error`: all groups have failed (l.303-306). -/
def eraseFailed (m : Manager) : Outcome Manager :=
  if m.groups.all (fun g => g.failed) then .error
  else .ok { m with groups := m.groups.filter fun g => !g.failed }

/-- `getGroupFaultIDs`, l.167-180: the ids of the tasks of the failed groups. -/
def faultIDs (m : Manager) : List ℕ :=
  (m.groups.filter fun g => g.failed).flatMap fun g => g.container.map Task.id

/-- The map from level vectors to groups, l.584-589, as the function that searches it: `insert` keeps
the first group. -/
def sourceOf (groups : List Group) (level : List ℤ) : Option ℕ :=
  groups.findIdx? fun g => g.container.any fun t => t.level == level

/-- `rescheduleRemoveTask`, `ProcessGroupManager.cpp:784-807`: the first task with the level is searched
in the manager's list, its id is sent, the group sends the task with that id back, the task is erased
from the manager's list. `stuck`: there is no such task (a null pointer is returned), or the group has
none with the id and the manager waits for ever. -/
def Group.reschedRemove (g : Group) (level : List ℤ) : Outcome (Group × Task) :=
  match g.container.find? fun t => t.level == level with
  | none => .stuck
  | some t =>
    match g.worker.find? fun u => u.id == t.id with
    | none => .stuck
    | some u =>
      .ok ({ g with
        container := removeFirst (fun u => u.level == level) g.container
        sent := g.sent ++ [.remove t.id] }, u)

/-- The loop of `reschedule`, l.592-605. `source` is the map built before the loop; a level that is not
in it raises an exception (`at`). -/
def reschedLoop (source : List ℤ → Option ℕ) : List (List ℤ × ℕ) → Manager → Outcome Manager
  | [], m => .ok m
  | (level, target) :: rest, m =>
    match source level with
    | none => .error
    | some i =>
      match m.groups[i]? with
      | none => .stuck
      | some g =>
        (g.reschedRemove level).bind fun r =>
          (assign r.2 target { m with groups := m.groups.set i r.1 }).bind (reschedLoop source rest)

/-- `reschedule`, l.583-613. `moves` is what the rescheduler returned. -/
def reschedule (moves : List (List ℤ × ℕ)) (m : Manager) : Outcome Manager :=
  (reschedLoop (sourceOf m.groups) moves m).bind fun m' =>
    .ok { m' with tasks := m'.groups.flatMap Group.container }

end Verif.TaskLists

import Verif.Model.CombinedValues
import Verif.Model.Coordinates

/-!
# Interpolated values for the manager and in files

`interpolateValues`, `writeInterpolatedValuesPerGrid` and `writeInterpolatedValuesSingleFile` of the manager
(`/repo/src/manager/ProcessManager.cpp` l.459-508, `/repo/src/manager/ProcessGroupManager.cpp` l.704-757),
what the groups do (`/repo/src/manager/ProcessGroupWorker.cpp` l.82-128, l.334-367, l.617-645,
`/repo/src/manager/InterpolationWorker.hpp` l.10-92) and the HDF5 files
(`/repo/src/io/H5InputOutput.hpp` l.15-58).

Assertions are compiled in. The order in which a group receives the arguments of a command and the waiting
for the status of the groups are the subject of C43 and C40; here every group gets its command with the
arguments. A simulation time which is not a number is `none`. Times of measurements are left out.
-/

namespace Verif

open Interpolation

/-! ### HDF5 files -/

/-- A data set: its name, its values and the attribute `simulation_time`. -/
structure H5Dataset (K : Type) where
  name : String
  values : List K
  time : Option K

/-- A file: groups with data sets. -/
abbrev H5File (K : Type) := List (String × List (H5Dataset K))

/-- Files by name. -/
abbrev H5Files (K : Type) := String → Option (H5File K)

/-- What `writeValuesToH5File`, `H5InputOutput.hpp` l.15-43, leaves in the file. The file is opened with
`Overwrite`, which empties an existing file, so that the group is always created. -/
def h5Content {K : Type} (groupName dataSetName : String) (values : List K) (time : Option K) : H5File K :=
  [(groupName, [⟨dataSetName, values, time⟩])]

/-- A file is written. -/
def h5Write {K : Type} (fs : H5Files K) (w : String × H5File K) : H5Files K :=
  fun name => if name = w.1 then some w.2 else fs name

/-- Files are written one after the other. -/
def h5WriteAll {K : Type} (fs : H5Files K) (ws : List (String × H5File K)) : H5Files K := ws.foldl h5Write fs

/-- `readValuesFromH5File`, `H5InputOutput.hpp` l.46-62: the first data set of the first group. The names
are looked up in alphabetical order; for the files written here there is one group with one data set. -/
def h5Read {K : Type} (fs : H5Files K) (name : String) : Outcome (List K) :=
  match fs name with
  | none => .error
  | some ((_, d :: _) :: _) => .ok d.values
  | some _ => .error

/-! ### The manager -/

/-- The commands, with the arguments that belong to them. -/
inductive InterpCommand (K : Type) where
  /-- `INTERPOLATE_VALUES` -/
  | values (coords : List K)
  /-- `INTERPOLATE_VALUES_AND_SEND_BACK` -/
  | sendBack (coords : List K)
  /-- `INTERPOLATE_VALUES_AND_WRITE_SINGLE_FILE` -/
  | singleFile (coords : List K) (filenamePrefix : String)

/-- The coordinates in a command. -/
def InterpCommand.coords {K : Type} : InterpCommand K → List K
  | .values cs => cs
  | .sendBack cs => cs
  | .singleFile cs _ => cs

section

variable {K : Type} [Field K] [LinearOrder K]

/-- The assertions about serialized coordinates. -/
def coordsInRange (serial : List K) : Bool := serial.all fun x => decide (0 ≤ x ∧ x ≤ 1)

/-- `ProcessGroupManager::interpolateValues`, `ProcessGroupManager.cpp` l.704-740: the command that the
group gets. `numValues` is the size of `values`, `request` whether a request was passed. -/
def groupCommand (serial : List K) (numValues : ℕ) (request : Bool) (filenamePrefix : String) :
    Outcome (InterpCommand K) :=
  if 2 ^ 31 - 1 ≤ serial.length ∨ coordsInRange serial = false then .stuck
  else if request = false ∧ numValues = 0 ∧ filenamePrefix = "" then .ok (.values serial)
  else if request = true ∧ numValues ≠ 0 ∧ filenamePrefix = "" then .ok (.sendBack serial)
  else if request = false ∧ numValues = 0 ∧ filenamePrefix ≠ "" then .ok (.singleFile serial filenamePrefix)
  else .error

/-- The loop over all groups but the last in `ProcessManager::interpolateValues`, l.470-474, and
`writeInterpolatedValuesSingleFile`, l.502-505, and the call for the last group before it. Without groups,
`pgroups_[pgroups_.size() - 1]` is undefined. The result are the commands in the order of the groups. -/
def commandsFor (n : ℕ) (serial : List K) (numValues : ℕ) (request : Bool) (filenamePrefix : String) :
    Outcome (List (InterpCommand K)) :=
  if n = 0 then .stuck
  else (groupCommand serial numValues request filenamePrefix).bind fun last =>
    (gather (fun _ => groupCommand serial 0 false "") (List.range (n - 1))).bind fun others =>
      .ok (others ++ [last])

/-! ### The groups -/

/-- `receiveAndBroadcastInterpolationCoords`, `ProcessGroupWorker.cpp` l.82-128. -/
def receiveCoords (dim : ℕ) (serial : List K) : Outcome (List (List K)) :=
  if serial.length = 0 ∨ coordsInRange serial = false then .stuck else deserializeCoords serial dim

variable [FloorRing K]

/-- `interpolateValues` on `n` groups of `p` processes (`InterpolationWorker.hpp` l.10-50), where every
group has received coordinates. The reduction over the groups needs equally many values in all groups. -/
def interpolateReceived (n p : ℕ) (cart : ℕ → List ℕ) (S : ℕ → List (GroupTask K))
    (coords : ℕ → List (List K)) : Outcome (List K) :=
  let m := (coords 0).length
  if 2 ^ 31 ≤ m ∨ (List.range n).any (fun g => (coords g).length ≠ m) then .stuck
  else (gather (fun g => (gather (fun r => localValues ((S g).map fun t => t.evalOn (cart r)) (coords g))
      (List.range p)).bind fun vs => .ok (allreduce m vs)) (List.range n)).bind fun gs =>
    .ok (allreduce m gs)

/-- All groups carry out their commands up to the interpolation; `dim` is `combiParameters_.getDim()`. A
group without a command would make the others wait. -/
def interpolateCommands (n p : ℕ) (cart : ℕ → List ℕ) (S : ℕ → List (GroupTask K)) (dim : ℕ)
    (cmds : List (InterpCommand K)) : Outcome (List K) :=
  if cmds.length ≠ n then .stuck
  else (gather (fun g => match cmds[g]? with
      | some c => receiveCoords dim c.coords
      | none => .stuck) (List.range n)).bind fun cs =>
    interpolateReceived n p cart S fun g => cs.getD g []

/-- `ProcessManager::interpolateValues`, l.459-480. The vector of values is filled with `nan` before the
master of the last group sends values back (`ProcessGroupWorker.cpp` l.340-352); more values than expected
are an error of `MPI_Irecv`. Without such a group, the manager waits forever. -/
def managerInterpolateValues (nan : K) (n p : ℕ) (cart : ℕ → List ℕ) (S : ℕ → List (GroupTask K)) (dim : ℕ)
    (coords : List (List K)) : Outcome (List K) :=
  (serializeCoords coords).bind fun serial =>
    (commandsFor n serial coords.length true "").bind fun cmds =>
      (interpolateCommands n p cart S dim cmds).bind fun vals =>
        match cmds[n - 1]? with
        | some (.sendBack _) =>
            if vals.length ≤ coords.length then
              .ok (vals ++ List.replicate (coords.length - vals.length) nan)
            else .stuck
        | _ => .stuck

/-! ### Files with interpolated values -/

/-- A task with its number and its time. -/
structure OutputTask (K : Type) where
  id : ℕ
  time : Option K
  task : GroupTask K

/-- The file of `writeInterpolatedValuesSingleFile`, `InterpolationWorker.hpp` l.70-92, lines 78-90, as
written by the process with rank `r` in group `g` of `n` groups: only the master of the last group writes
(`OTHER_OUTPUT_GROUP_EXCLUSIVE_SECTION`, `/repo/src/mpi/MPISystem.hpp` l.34-36). The master is rank 0 of the
group. `tasks.front()` of an empty list is undefined. -/
def singleFileWrite (n g r : ℕ) (tasks : List (OutputTask K)) (vals : List K) (filenamePrefix : String)
    (step : ℕ) : Outcome (List (String × H5File K)) :=
  if g = n - 1 ∧ r = 0 then
    if vals.length = 0 then .stuck
    else match tasks with
      | [] => .stuck
      | t :: _ => .ok [(filenamePrefix ++ "_values_" ++ Nat.repr step ++ ".h5",
          h5Content "all_grids" ("interpolated_" ++ Nat.repr step) vals t.time)]
  else .ok []

/-- The results of all processes of `n` groups, in the order of the groups and ranks. -/
def gatherAll {β : Type} (n p : ℕ) (f : ℕ → ℕ → Outcome (List β)) : Outcome (List β) :=
  (gather (fun g => (gather (f g) (List.range p)).bind fun l => .ok l.flatten) (List.range n)).bind fun l =>
    .ok l.flatten

/-- The tasks without numbers and times. -/
def plainTasks (T : ℕ → List (OutputTask K)) (g : ℕ) : List (GroupTask K) := (T g).map (·.task)

/-- `ProcessManager::writeInterpolatedValuesSingleFile`, l.492-508: the files written. A group with the
command `INTERPOLATE_VALUES` only interpolates. -/
def managerWriteSingleFile (n p : ℕ) (cart : ℕ → List ℕ) (T : ℕ → List (OutputTask K)) (dim : ℕ)
    (coords : List (List K)) (filenamePrefix : String) (step : ℕ) : Outcome (List (String × H5File K)) :=
  (serializeCoords coords).bind fun serial =>
    (commandsFor n serial 0 false filenamePrefix).bind fun cmds =>
      (interpolateCommands n p cart (plainTasks T) dim cmds).bind fun vals =>
        gatherAll n p fun g r => match cmds[g]? with
          | some (.singleFile _ name) => singleFileWrite n g r (T g) vals name step
          | _ => .ok []

/-- `writeInterpolatedValuesSingleFile` on all workers, without a manager (`ProcessGroupWorker.cpp`
l.635-645, as in `/repo/examples/combi_workers_only/combi_example_worker_only.cpp` l.217). -/
def workersWriteSingleFile (n p : ℕ) (cart : ℕ → List ℕ) (T : ℕ → List (OutputTask K))
    (coords : List (List K)) (filenamePrefix : String) (step : ℕ) : Outcome (List (String × H5File K)) :=
  (groupInterpolateValues n p cart (plainTasks T) coords).bind fun vals =>
    gatherAll n p fun g r => singleFileWrite n g r (T g) vals filenamePrefix step

/-- `DistributedFullGrid::getInterpolatedValues`, `/repo/src/fullgrid/DistributedFullGrid.hpp`
l.1215-1228, on the `p` processes of a group. -/
def taskValues (p : ℕ) (cart : ℕ → List ℕ) (t : GroupTask K) (coords : List (List K)) : Outcome (List K) :=
  if 2 ^ 31 ≤ coords.length then .stuck
  else (gather (fun r => gather (fun i => match coords[i]? with
      | some x => evalLocal (t.evalOn (cart r)).dims x (t.evalOn (cart r)).data
      | none => .stuck) (List.range coords.length)) (List.range p)).bind fun vs =>
    .ok (allreduce coords.length vs)

/-- The loop of `writeInterpolatedValuesPerGrid`, `InterpolationWorker.hpp` l.53-67, in a group of `p`
processes, from task number `i` on: what the process with rank `r` writes. -/
def perGridLoop (p r : ℕ) (cart : ℕ → List ℕ) (coords : List (List K)) (filenamePrefix : String)
    (step : ℕ) : ℕ → List (OutputTask K) → Outcome (List (String × H5File K))
  | _, [] => .ok []
  | i, t :: ts => (taskValues p cart t.task coords).bind fun vals =>
      (perGridLoop p r cart coords filenamePrefix step (i + 1) ts).bind fun ws =>
        .ok (if i % p = r then
          (filenamePrefix ++ "_task_" ++ Nat.repr t.id ++ ".h5",
            h5Content "run_" ("interpolated_" ++ Nat.repr step) vals t.time) :: ws
          else ws)

/-- `ProcessManager::writeInterpolatedValuesPerGrid`, l.482-490, with `ProcessGroupManager.cpp` l.742-757
(where only the size is checked) and the groups. -/
def managerWritePerGrid (n p : ℕ) (cart : ℕ → List ℕ) (T : ℕ → List (OutputTask K)) (dim : ℕ)
    (coords : List (List K)) (filenamePrefix : String) (step : ℕ) : Outcome (List (String × H5File K)) :=
  (serializeCoords coords).bind fun serial =>
    if 2 ^ 31 - 1 ≤ serial.length then .stuck
    else gatherAll n p fun g r => (receiveCoords dim serial).bind fun cs =>
      perGridLoop p r cart cs filenamePrefix step 0 (T g)

end

end Verif

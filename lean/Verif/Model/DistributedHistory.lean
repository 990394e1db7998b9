import Verif.Model.DistributedCombine
import Verif.Model.History

/-!
# A whole simulation on process groups of any size

`/repo/src/manager/ProcessGroupWorker.cpp` l.160-167 (`RUN_NEXT`), l.368-411, l.466-472, l.528-564,
`/repo/src/manager/ProcessManager.cpp` l.583-613, `/repo/src/manager/SparseGridWorker.hpp` l.627-656,
on all processes of all groups. The processes with the same position in their groups have sparse grids
and communicators with each other, which are set up once (`Verif.Model.History`); the processes of one
group hierarchize and dehierarchize their grids together (`Verif.Model.DistributedCombine`). Between the
steps the grids have nodal values. Simplifications: every task has one grid, and a step is finished on
all processes before the next one begins (C40).
-/

namespace Verif

variable {K : Type}

/-- The tasks of the groups, and what was set up at every position. The tasks in the setups are not
used: a setup gets the tasks of the groups before every step. -/
structure Simulation (K : Type) where
  tasks : ℕ → List (GroupTask K)
  setups : List ℕ → Setup K

/-- The setup of position `c` with what the processes there have of the tasks. -/
def loadTasks (c : List ℕ) (tasks : ℕ → List (GroupTask K)) (s : Setup K) : Setup K :=
  { s with groups := fun g => ⟨(s.groups g).dsg, (tasks g).map fun t => t.onProcess c⟩ }

/-- `initCombinedDSGVector`, `ProcessGroupWorker.cpp` l.466-472, at all positions. -/
def setUpPositions [Ring K] (layout : List ℕ) (variant : CombinationVariant) (levels : List (List ℕ))
    (n : ℕ) (tasks : ℕ → List (GroupTask K)) : Option (Simulation K) :=
  let result := fun c => setUp variant levels n fun g => (tasks g).map fun t => t.onProcess c
  if (groupProcesses layout).all fun c => (result c).isSome then
    some ⟨tasks, fun c => (result c).getD ⟨fun _ => ⟨Dsg.empty levels, []⟩, [], fun _ => none⟩⟩
  else none

/-- What happens after the initialisation. A run may compute any new values for a task from what the
processes of the group have of it. -/
inductive GroupStep (K : Type)
  | run (solve : ℕ → ℕ → GroupTask K → List ℕ → Buf K)
  | combine
  | move (source k target : ℕ)

/-- `runAllTasks`, `TaskWorker.hpp` l.129-141, on all groups: `solve g k` is what task `k` of group `g`
does. -/
def Simulation.run (solve : ℕ → ℕ → GroupTask K → List ℕ → Buf K) (s : Simulation K) : Simulation K :=
  { s with tasks := fun g => (s.tasks g).mapIdx fun k t => { t with data := solve g k t } }

/-- The data of a task on a process; empty if the task was lost. -/
def dataOf [Zero K] (t : Option (K × Dfg K)) : Buf K := (t.map fun y => y.2.data).getD ⟨0, fun _ => 0⟩

/-- `combineAtOnce`, l.537-564, on all processes, with the sparse grids and communicators that were set
up before. -/
def Simulation.combine [Field K] (layout : List ℕ) (P : CombineParams) (variant : CombinationVariant)
    (maxChunk n : ℕ) (junk junk' : ℕ → ℕ → List ℕ → ℕ → ℕ → ℕ → K) (s : Simulation K) :
    Option (Simulation K) :=
  (onProcessGroups n fun g => groupHierarchize P (junk g) (s.tasks g)).bind fun hs =>
    let result := fun c => (loadTasks c hs (s.setups c)).combine variant maxChunk n
    if (groupProcesses layout).all fun c => (result c).isSome then
      let ts := fun g => (hs g).zipIdx.map fun x =>
        { x.1 with data := fun c => dataOf ((result c).bind fun S => (S.groups g).tasks[x.2]?) }
      (onProcessGroups n fun g => groupDehierarchize P (junk' g) (ts g)).map fun ts' =>
        ⟨ts', fun c => (result c).getD (s.setups c)⟩
    else none

/-- One task that is moved in `reschedule`, `ProcessManager.cpp` l.583-613: task `k` of group `source`
is removed there (`ProcessGroupWorker.cpp` l.387-411) and added to group `target` (l.368-386), where all
processes of the group allocate their parts, take the values from their sparse grids and dehierarchize
(`fillDFGFromDSGU`, `SparseGridWorker.hpp` l.627-656). -/
def Simulation.move [Field K] (layout : List ℕ) (P : CombineParams) (junk : List ℕ → ℕ → ℕ → ℕ → K)
    (source k target : ℕ) (s : Simulation K) : Option (Simulation K) :=
  ((s.tasks source)[k]?).bind fun t =>
    let removed := Function.update s.tasks source ((s.tasks source).eraseIdx k)
    let result := fun c => Group.addMoved (t.onProcess c) ⟨((s.setups c).groups target).dsg, []⟩
    if (groupProcesses layout).all fun c => (result c).isSome then
      let data := fun c => dataOf ((result c).bind fun G => G.tasks[0]?)
      if P.sel.length = t.dims.length ∧ P.bases.length = t.dims.length ∧
          P.lmin.length = t.dims.length then
        (distributedDehierarchize (distDims t.dims P.bases (effectiveLMin P.boundary P.lmin)) junk
          (selectedDims P.sel) data).map fun d =>
            ⟨Function.update removed target (removed target ++ [{ t with data := d }]),
              fun c => ⟨Function.update (s.setups c).groups target
                ((result c).getD ((s.setups c).groups target)), (s.setups c).comms,
                (s.setups c).outgroup⟩⟩
      else none
    else none

/-- The contents of the scratch buffers for hierarchizing and dehierarchizing in a step: group, task,
process, and the place in the buffer as in `Verif.Model.DistributedGrid`. -/
structure Scratch (K : Type) where
  hier : ℕ → ℕ → List ℕ → ℕ → ℕ → ℕ → K
  dehier : ℕ → ℕ → List ℕ → ℕ → ℕ → ℕ → K

def Simulation.step [Field K] (layout : List ℕ) (P : CombineParams) (variant : CombinationVariant)
    (maxChunk n : ℕ) (s : Simulation K) : GroupStep K × Scratch K → Option (Simulation K)
  | (.run solve, _) => some (s.run solve)
  | (.combine, junk) => s.combine layout P variant maxChunk n junk.hier junk.dehier
  | (.move source k target, junk) => s.move layout P (junk.dehier target 0) source k target

/-- Initialisation, followed by any number of steps. -/
def simulate [Field K] (layout : List ℕ) (P : CombineParams) (variant : CombinationVariant)
    (maxChunk : ℕ) (levels : List (List ℕ)) (n : ℕ) (tasks : ℕ → List (GroupTask K))
    (steps : List (GroupStep K × Scratch K)) : Option (Simulation K) :=
  (setUpPositions layout variant levels n tasks).bind fun s =>
    steps.foldlM (Simulation.step layout P variant maxChunk n) s

end Verif

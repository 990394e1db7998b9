import Verif.Model.CombineAtOnce
import Verif.Model.DistributedGrid

/-!
# One complete combination on process groups of any size

`/repo/src/manager/ProcessGroupWorker.cpp` l.528-564 (`combineAtOnce`, `dehierarchizeAllTasks`) with
`/repo/src/manager/TaskWorker.hpp` l.29-48, l.86-107, on all processes of all groups. All groups have
the same layout. Processes with the same position in their groups combine with each other
(`theMPISystem()->getGlobalReduceComm()`), processes of the same group exchange slices. Simplifications:
every task has one grid, timers and the counter `currentCombi_` are left out, and the three steps are
modelled one after the other on all processes (the messages of a step are matched within the step).
-/

namespace Verif

variable {K : Type}

/-- One dimension of a component grid: level, boundary flag, decomposition. -/
structure CompDim where
  level : ℕ
  boundary : ℕ
  dec : List ℕ

/-- The part of a process, bounds as in the constructor of the grid (`DistributedFullGrid.hpp`
l.650-656). -/
def CompDim.onProcess (d : CompDim) (a : ℕ) : LocalDim :=
  let lo := (lowerBound1d d.dec a).getD 0
  ⟨d.level, d.boundary, lo, (upperBound1d d.dec (poleLength d.level d.boundary) a).getD 0 - lo⟩

/-- A task of a process group: coefficient, grid, and the data of all processes of the group. -/
structure GroupTask (K : Type) where
  coeff : K
  dims : List CompDim
  data : List ℕ → Buf K

/-- What a process has of a task. -/
def GroupTask.onProcess (t : GroupTask K) (c : List ℕ) : K × Dfg K :=
  (t.coeff, ⟨List.zipWith CompDim.onProcess t.dims c, t.data c⟩)

/-- What `hierarchize` uses of a grid and of its other arguments. -/
def distDims (dims : List CompDim) (bases : List Basis) (lmin : List ℕ) : List DistDim :=
  (dims.zip (bases.zip lmin)).map fun x => ⟨⟨x.2.1, x.1.boundary, x.1.level, x.2.2⟩, x.1.dec⟩

/-- A loop over the tasks of a group which transforms the data of their grids. -/
def mapGroupTasks (f : ℕ → GroupTask K → Option (List ℕ → Buf K)) :
    (i : ℕ) → (tasks : List (GroupTask K)) → Option (List (GroupTask K))
  | _, [] => some []
  | i, t :: ts => (f i t).bind fun d => (mapGroupTasks f (i + 1) ts).map fun r =>
      { t with data := d } :: r

/-- `hierarchizeFullGrids`, `TaskWorker.hpp` l.86-107, on all processes of a group; `none` also if the
number of dimensions does not match (assertions, `DistributedHierarchization.hpp` l.1132-1134). -/
def groupHierarchize [Field K] (P : CombineParams) (junk : ℕ → List ℕ → ℕ → ℕ → ℕ → K)
    (tasks : List (GroupTask K)) : Option (List (GroupTask K)) :=
  mapGroupTasks (fun i t =>
    if P.sel.length = t.dims.length ∧ P.bases.length = t.dims.length ∧
        P.lmin.length = t.dims.length then
      distributedHierarchize (distDims t.dims P.bases (effectiveLMin P.boundary P.lmin)) (junk i)
        (selectedDims P.sel) t.data
    else none) 0 tasks

/-- `dehierarchizeFullGrids`, `TaskWorker.hpp` l.29-48, on all processes of a group. -/
def groupDehierarchize [Field K] (P : CombineParams) (junk : ℕ → List ℕ → ℕ → ℕ → ℕ → K)
    (tasks : List (GroupTask K)) : Option (List (GroupTask K)) :=
  mapGroupTasks (fun i t =>
    if P.sel.length = t.dims.length ∧ P.bases.length = t.dims.length ∧
        P.lmin.length = t.dims.length then
      distributedDehierarchize (distDims t.dims P.bases (effectiveLMin P.boundary P.lmin)) (junk i)
        (selectedDims P.sel) t.data
    else none) 0 tasks

/-- The same on all groups. -/
def onProcessGroups (n : ℕ) (f : ℕ → Option (List (GroupTask K))) :
    Option (ℕ → List (GroupTask K)) :=
  ((List.range n).mapM f).map fun r g => r.getD g []

/-- All processes of a group. -/
def groupProcesses (layout : List ℕ) : List (List ℕ) :=
  (List.range layout.prod).map (getVectorIndex layout)

/-- A combination: the processes with position `c` in the `n` groups combine with each other, for all
positions. Data of a task that the combination has lost would be empty. -/
def combinePositions [Ring K] (layout : List ℕ) (variant : CombinationVariant) (maxChunk : ℕ)
    (levels : List (List ℕ)) (n : ℕ) (tasks : ℕ → List (GroupTask K)) :
    Option (ℕ → List (GroupTask K)) :=
  let result := fun c => combineVariant variant maxChunk levels n fun g =>
    (tasks g).map fun t => t.onProcess c
  if (groupProcesses layout).all fun c => (result c).isSome then
    some fun g => (tasks g).zipIdx.map fun x => { x.1 with data := fun c =>
      (((result c).bind fun S => (S g).tasks[x.2]?).map fun y => y.2.data).getD ⟨0, x.1.data c |>.val⟩ }
  else none

/-- `combineAtOnce`, l.537-564, on `n` groups with the given layout. -/
def distributedCombineAtOnce [Field K] (layout : List ℕ) (P : CombineParams)
    (variant : CombinationVariant) (maxChunk : ℕ) (levels : List (List ℕ)) (n : ℕ)
    (junk junk' : ℕ → ℕ → List ℕ → ℕ → ℕ → ℕ → K) (tasks : ℕ → List (GroupTask K)) :
    Option (ℕ → List (GroupTask K)) :=
  (onProcessGroups n fun g => groupHierarchize P (junk g) (tasks g)).bind fun hs =>
    (combinePositions layout variant maxChunk levels n hs).bind fun ts =>
      onProcessGroups n fun g => groupDehierarchize P (junk' g) (ts g)

end Verif

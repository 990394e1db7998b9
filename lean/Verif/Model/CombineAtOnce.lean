import Verif.Model.CombineVariants
import Verif.Model.PoleLoop

/-!
# One complete combination

`/repo/src/manager/ProcessGroupWorker.cpp` l.528-564 (`combineAtOnce`, `dehierarchizeAllTasks`) with
`/repo/src/manager/TaskWorker.hpp` l.29-48, l.86-107. Simplifications: every process group has one
process (`hierarchizeGrid` is the transform of a grid on one process), every task has one grid, timers
and the counter `currentCombi_` are left out.
-/

namespace Verif

variable {K : Type}

/-- The minimum levels that are used: zero in all dimensions if any dimension has no boundary points,
`TaskWorker.hpp` l.33-45, l.90-103. -/
def effectiveLMin (boundary lmin : List ℕ) : List ℕ :=
  if boundary.any fun b => b == 0 then List.replicate lmin.length 0 else lmin

/-- The hierarchized dimensions in ascending order, `DistributedHierarchization.hpp` l.1136-1137. -/
def selectedDims (sel : List Bool) : List ℕ :=
  (List.range sel.length).filter fun k => sel.getD k false

/-- What `hierarchize` uses of a grid and of its other arguments. -/
def gridDims (dims : List LocalDim) (bases : List Basis) (lmin : List ℕ) : List GridDim :=
  (dims.zip (bases.zip lmin)).map fun x => ⟨x.2.1, x.1.boundary, x.1.level, x.2.2⟩

/-- A loop over the tasks which transforms the data of their grids; the transform may depend on the
number of the task (through the contents of scratch buffers). -/
def mapTasks (f : ℕ → Dfg K → Option (Buf K)) : (i : ℕ) → (tasks : List (K × Dfg K)) →
    Option (List (K × Dfg K))
  | _, [] => some []
  | i, t :: ts => (f i t.2).bind fun d => (mapTasks f (i + 1) ts).map fun r =>
      (t.1, ⟨t.2.dims, d⟩) :: r

/-- The parameters of the combination, from `CombiParameters`. -/
structure CombineParams where
  boundary : List ℕ
  sel : List Bool
  bases : List Basis
  lmin : List ℕ

/-- `hierarchizeFullGrids`, `TaskWorker.hpp` l.86-107: `none` also if the number of dimensions does not
match (assertions, `DistributedHierarchization.hpp` l.1132-1134). -/
def hierarchizeFullGrids [Field K] (P : CombineParams) (junk : ℕ → ℕ → ℕ → ℕ → K)
    (tasks : List (K × Dfg K)) : Option (List (K × Dfg K)) :=
  mapTasks (fun i g =>
    if P.sel.length = g.dims.length ∧ P.bases.length = g.dims.length ∧
        P.lmin.length = g.dims.length then
      hierarchizeGrid (gridDims g.dims P.bases (effectiveLMin P.boundary P.lmin)) (junk i)
        (selectedDims P.sel) g.data
    else none) 0 tasks

/-- `dehierarchizeFullGrids`, `TaskWorker.hpp` l.29-48. -/
def dehierarchizeFullGrids [Field K] (P : CombineParams) (junk : ℕ → ℕ → ℕ → ℕ → K)
    (tasks : List (K × Dfg K)) : Option (List (K × Dfg K)) :=
  mapTasks (fun i g =>
    if P.sel.length = g.dims.length ∧ P.bases.length = g.dims.length ∧
        P.lmin.length = g.dims.length then
      dehierarchizeGrid (gridDims g.dims P.bases (effectiveLMin P.boundary P.lmin)) (junk i)
        (selectedDims P.sel) g.data
    else none) 0 tasks

/-- The same on all groups. -/
def onGroups (n : ℕ) (f : ℕ → Option (List (K × Dfg K))) : Option (ℕ → List (K × Dfg K)) :=
  ((List.range n).mapM f).map fun r g => r.getD g []

/-- `combineAtOnce`, l.537-564, on `n` groups: hierarchize, combine (`reduceLocalAndGlobal` and
`distributeCombinedSolutionToTasks`, or `collectReduceDistribute`), dehierarchize. `junk g i`,
`junk' g i` are the contents of the scratch buffers of group `g` for task `i`. -/
def combineAtOnce [Field K] (P : CombineParams) (variant : CombinationVariant) (maxChunk : ℕ)
    (levels : List (List ℕ)) (n : ℕ) (junk junk' : ℕ → ℕ → ℕ → ℕ → ℕ → K)
    (tasks : ℕ → List (K × Dfg K)) : Option (ℕ → List (K × Dfg K)) :=
  (onGroups n fun g => hierarchizeFullGrids P (junk g) (tasks g)).bind fun hs =>
    (combineVariant variant maxChunk levels n hs).bind fun S =>
      onGroups n fun g => dehierarchizeFullGrids P (junk' g) (S g).tasks

end Verif

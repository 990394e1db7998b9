import Verif.Model.DistributedCombine

/-!
# Combination of tasks with several grids

`/repo/src/manager/SparseGridWorker.hpp` l.364-370, l.614-625, l.707-749, l.998-1055, l.1202-1213 and
`/repo/src/manager/TaskWorker.hpp` l.29-48, l.86-107, l.145, with `combineAtOnce`
(`/repo/src/manager/ProcessGroupWorker.cpp` l.528-564). A task may have several grids (species), numbered from
zero, `getDistributedFullGrid(g)`; each number has its own sparse grid (`combinedUniDSGVector_`).

Simplifications as in `Verif.Model.CombineVariants` and `Verif.Model.DistributedCombine`. `none` stands for
failed assertions, for access to a grid that a task does not have, and for collective calls that do not match.
-/

namespace Verif

variable {K : Type}

/-! ### One position of the groups -/

/-- A process of a group: its sparse grids and its tasks (coefficient and local parts of the grids). -/
structure GridsGroup (K : Type) where
  dsgs : List (Dsg K)
  tasks : List (K × List (Dfg K))

/-- The grids with number `g` of the tasks. -/
def gridTasks (g : ℕ) (tasks : List (K × List (Dfg K))) : Option (List (K × Dfg K)) :=
  tasks.mapM fun t => (t.2[g]?).map fun x => (t.1, x)

/-- The sparse grids of one group up to the exchange of sizes in `initCombinedUniDSGVector`, l.722-746. -/
def initGrids [Zero K] (variant : CombinationVariant) (levels : List (List ℕ)) (numGrids : ℕ)
    (tasks : List (K × List (Dfg K))) : Option (List (Dsg K)) :=
  (List.range numGrids).mapM fun g => (gridTasks g tasks).bind (initDsg variant levels)

/-- `reduceSubspaceSizesBetweenGroups`, l.1034-1055, for the sparse grids with one number on all groups: how
the sizes of a group change, and the communicators, given by their members and subspaces (none for
`sparseGridReduce`, which uses the given communicator of all groups). If only a part of the groups uses the
outgroup communicator, the collective calls do not match. -/
def exchangeGridSizes (variant : CombinationVariant) (numSubspaces n : ℕ) (sizes : List (List ℕ)) :
    Option ((List ℕ → List ℕ) × List (List ℕ × List ℕ)) :=
  match variant with
  | .sparseGridReduce => some (outgroupSizes sizes (List.range numSubspaces), [])
  | .subspaceReduce => (getSubspaceVote numSubspaces sizes).map fun votes =>
      (id, (subspacesByVote votes).map fun kv => (ranksOfVote kv.1, kv.2))
  | _ => do
    let votes ← getSubspaceVote numSubspaces sizes
    let shared := (subspacesForMany votes).1
    let comms ← (List.range n).mapM fun g => setOutgroupCommunicator numSubspaces sizes g
    let members := (List.range n).filter fun g => (comms.getD g none).isSome
    if members = [] ∨ members = List.range n then
      some (outgroupSizes sizes shared, if members = [] then [] else [(members, shared)])
    else none

/-- `initCombinedUniDSGVector` on `n` groups: the groups, and the communicators of each number. -/
def startGrids [Zero K] (variant : CombinationVariant) (levels : List (List ℕ)) (numGrids n : ℕ)
    (tasks : ℕ → List (K × List (Dfg K))) :
    Option ((ℕ → GridsGroup K) × List (List (List ℕ × List ℕ))) := do
  let dsgs ← (List.range n).mapM fun m => initGrids variant levels numGrids (tasks m)
  let ex ← (List.range numGrids).mapM fun g => exchangeGridSizes variant levels.length n
    (dsgs.map fun ds => (ds.getD g (Dsg.empty levels)).sizes)
  return (fun m => ⟨ex.zipIdx.map fun e =>
    let d := (dsgs.getD m []).getD e.2 (Dsg.empty levels)
    (afterSizes d (e.1.1 d.sizes) []).dsg, tasks m⟩, ex.map (·.2))

/-- `zeroDsgsData`, l.1202-1213. -/
def GridsGroup.zeroData [Zero K] (S : GridsGroup K) : Option (GridsGroup K) :=
  (S.dsgs.mapM Dsg.createOrZero).map fun ds => { S with dsgs := ds }

/-- The body of the inner loop of the local reduction, l.1010-1012. -/
def addGrid [Ring K] (t : K × List (Dfg K)) (ds : List (Dsg K)) (g : ℕ) : Option (List (Dsg K)) :=
  (ds[g]?).bind fun d => (t.2[g]?).bind fun x =>
    (addDistributedFullGrid true d x t.1).map fun d' => ds.set g d'

/-- The local reduction: for all tasks, for all grids, l.1008-1014. -/
def GridsGroup.addTasks [Ring K] (S : GridsGroup K) : Option (GridsGroup K) :=
  (S.tasks.foldlM (fun ds t => (List.range S.dsgs.length).foldlM (addGrid t) ds) S.dsgs).map
    fun ds => { S with dsgs := ds }

/-- The body of the inner loop in `distributeCombinedSolutionToTasks`, l.619-623. -/
def extractGrid (ds : List (Dsg K)) (t : K × List (Dfg K)) (g : ℕ) : Option (K × List (Dfg K)) :=
  (ds[g]?).bind fun d => (t.2[g]?).bind fun x =>
    (extractFromUniformSG true x d).map fun x' => (t.1, t.2.set g x')

/-- `distributeCombinedSolutionToTasks`, l.614-625. -/
def GridsGroup.extractTasks (S : GridsGroup K) : Option (GridsGroup K) :=
  (S.tasks.mapM fun t => (List.range S.dsgs.length).foldlM (extractGrid S.dsgs) t).map
    fun ts => { S with tasks := ts }

/-- The global reduction of the sparse grids with one number, l.1017-1028. -/
def globalReduce [Ring K] (variant : CombinationVariant) (maxChunk n : ℕ) (comms : List (List ℕ × List ℕ))
    (S : ℕ → Group K) : Option (ℕ → Group K) :=
  match variant with
  | .sparseGridReduce =>
    (sparseGridReduce allreduceCall maxChunk ((List.range n).map fun g => (S g).dsg.data)).map
      fun bs g => (bs[g]?).elim (S g) (S g).setData
  | .chunkedOutgroupSparseGridReduce => none
  | _ => comms.foldlM (fun S c => subspaceReduce maxChunk c.1 (fun _ => c.2) S) S

/-- A process seen as one whose tasks have only the grid with number `g`. -/
def GridsGroup.only [Zero K] (g : ℕ) (S : GridsGroup K) : Group K :=
  ⟨S.dsgs.getD g (Dsg.empty []), (gridTasks g S.tasks).getD []⟩

/-- The global reduction of the sparse grids with number `g` on all groups, l.1016-1030. -/
def reduceGrid [Ring K] (variant : CombinationVariant) (maxChunk n : ℕ)
    (comms : List (List (List ℕ × List ℕ))) (S : ℕ → GridsGroup K) (g : ℕ) : Option (ℕ → GridsGroup K) :=
  (globalReduce variant maxChunk n (comms.getD g []) fun m => (S m).only g).map fun R m =>
    { S m with dsgs := (S m).dsgs.set g (R m).dsg }

/-- The same operation on `n` groups. -/
def forGridsGroups (n : ℕ) (f : GridsGroup K → Option (GridsGroup K)) (S : ℕ → GridsGroup K) :
    Option (ℕ → GridsGroup K) :=
  ((List.range n).mapM fun m => f (S m)).map fun r m => r.getD m (S m)

/-- `collectReduceDistribute`, l.364-452: fails for more than one grid (l.370). The combination of the only
grid is `outgroupVariant`. -/
def combineOnlyGrid [Ring K] (maxChunk : ℕ) (levels : List (List ℕ)) (numGrids n : ℕ)
    (tasks : ℕ → List (K × List (Dfg K))) : Option (ℕ → GridsGroup K) :=
  if numGrids = 1 ∧ (List.range n).all fun m => (gridTasks 0 (tasks m)).isSome then
    (combineVariant .chunkedOutgroupSparseGridReduce maxChunk levels n
      fun m => (gridTasks 0 (tasks m)).getD []).map fun R m => ⟨[(R m).dsg],
        List.zipWith (fun (t : K × List (Dfg K)) (x : K × Dfg K) => (t.1, t.2.set 0 x.2)) (tasks m)
          (R m).tasks⟩
  else none

/-- Initialisation of the sparse grids and one combination, `reduceLocalAndGlobal` l.998-1031 and
`distributeCombinedSolutionToTasks`, or `collectReduceDistribute`. -/
def combineGrids [Ring K] (variant : CombinationVariant) (maxChunk : ℕ) (levels : List (List ℕ))
    (numGrids n : ℕ) (tasks : ℕ → List (K × List (Dfg K))) : Option (ℕ → GridsGroup K) :=
  if variant = .chunkedOutgroupSparseGridReduce then combineOnlyGrid maxChunk levels numGrids n tasks
  else do
    let start ← startGrids variant levels numGrids n tasks
    let S ← forGridsGroups n (fun S => S.zeroData.bind GridsGroup.addTasks) start.1
    let S ← (List.range numGrids).foldlM (reduceGrid variant maxChunk n start.2) S
    forGridsGroups n GridsGroup.extractTasks S

/-! ### All processes -/

/-- A task of a process group: coefficient, and grids with the data of all processes of the group. -/
structure GridsTask (K : Type) where
  coeff : K
  grids : List (List CompDim × (List ℕ → Buf K))

/-- Grid number `g` of a task, `getDistributedFullGrid(g)`. -/
def GridsTask.grid (t : GridsTask K) (g : ℕ) : Option (GroupTask K) :=
  (t.grids[g]?).map fun x => ⟨t.coeff, x.1, x.2⟩

/-- What a process has of a task. -/
def GridsTask.onProcess (t : GridsTask K) (c : List ℕ) : K × List (Dfg K) :=
  (t.coeff, t.grids.map fun x => ⟨List.zipWith CompDim.onProcess x.1 c, x.2 c⟩)

/-- The number of grids of a task that the loops of the class `TaskWorker` use, `TaskWorker.hpp` l.145: it is
never changed. -/
def numGridsPerTask : ℕ := 1

/-- The loop over the grids of a task in `hierarchizeFullGrids` and `dehierarchizeFullGrids`; `f g` transforms
grid number `g`. -/
def transformGrids (f : ℕ → GroupTask K → Option (List ℕ → Buf K)) (t : GridsTask K) :
    Option (GridsTask K) :=
  (List.range numGridsPerTask).foldlM (fun (t : GridsTask K) g => (t.grid g).bind fun x =>
    (f g x).map fun d => { t with grids := t.grids.set g (x.dims, d) }) t

/-- A loop over the tasks of a group. -/
def mapGridsTasks (f : ℕ → GridsTask K → Option (GridsTask K)) :
    (i : ℕ) → (tasks : List (GridsTask K)) → Option (List (GridsTask K))
  | _, [] => some []
  | i, t :: ts => (f i t).bind fun t' => (mapGridsTasks f (i + 1) ts).map fun r => t' :: r

/-- `hierarchizeFullGrids`, `TaskWorker.hpp` l.86-107, on all processes of a group; `junk i g` are the contents of
the scratch buffers for grid `g` of task `i`. -/
def gridsHierarchize [Field K] (P : CombineParams) (junk : ℕ → ℕ → List ℕ → ℕ → ℕ → ℕ → K)
    (tasks : List (GridsTask K)) : Option (List (GridsTask K)) :=
  mapGridsTasks (fun i => transformGrids fun g t =>
    if P.sel.length = t.dims.length ∧ P.bases.length = t.dims.length ∧
        P.lmin.length = t.dims.length then
      distributedHierarchize (distDims t.dims P.bases (effectiveLMin P.boundary P.lmin)) (junk i g)
        (selectedDims P.sel) t.data
    else none) 0 tasks

/-- `dehierarchizeFullGrids`, `TaskWorker.hpp` l.29-48, on all processes of a group. -/
def gridsDehierarchize [Field K] (P : CombineParams) (junk : ℕ → ℕ → List ℕ → ℕ → ℕ → ℕ → K)
    (tasks : List (GridsTask K)) : Option (List (GridsTask K)) :=
  mapGridsTasks (fun i => transformGrids fun g t =>
    if P.sel.length = t.dims.length ∧ P.bases.length = t.dims.length ∧
        P.lmin.length = t.dims.length then
      distributedDehierarchize (distDims t.dims P.bases (effectiveLMin P.boundary P.lmin)) (junk i g)
        (selectedDims P.sel) t.data
    else none) 0 tasks

/-- The same on all groups. -/
def onGridsGroups (n : ℕ) (f : ℕ → Option (List (GridsTask K))) : Option (ℕ → List (GridsTask K)) :=
  ((List.range n).mapM f).map fun r g => r.getD g []

/-- A combination on all positions, as in `combinePositions`. -/
def combineGridsPositions [Ring K] (layout : List ℕ) (variant : CombinationVariant) (maxChunk : ℕ)
    (levels : List (List ℕ)) (numGrids n : ℕ) (tasks : ℕ → List (GridsTask K)) :
    Option (ℕ → List (GridsTask K)) :=
  let result := fun c => combineGrids variant maxChunk levels numGrids n fun m =>
    (tasks m).map fun t => t.onProcess c
  if (groupProcesses layout).all fun c => (result c).isSome then
    some fun m => (tasks m).zipIdx.map fun x => { x.1 with grids := x.1.grids.zipIdx.map fun y =>
      (y.1.1, fun c => (((result c).bind fun S => ((S m).tasks[x.2]?).bind fun t => t.2[y.2]?).map
        fun d => d.data).getD ⟨0, (y.1.2 c).val⟩) }
  else none

/-- `combineAtOnce`, `ProcessGroupWorker.cpp` l.537-564, on `n` groups with the given layout, for tasks with
`numGrids` grids (`combiParameters_.getNumGrids()`). -/
def gridsCombineAtOnce [Field K] (layout : List ℕ) (P : CombineParams) (variant : CombinationVariant)
    (maxChunk : ℕ) (levels : List (List ℕ)) (numGrids n : ℕ)
    (junk junk' : ℕ → ℕ → ℕ → List ℕ → ℕ → ℕ → ℕ → K) (tasks : ℕ → List (GridsTask K)) :
    Option (ℕ → List (GridsTask K)) :=
  (onGridsGroups n fun m => gridsHierarchize P (junk m) (tasks m)).bind fun hs =>
    (combineGridsPositions layout variant maxChunk levels numGrids n hs).bind fun ts =>
      onGridsGroups n fun m => gridsDehierarchize P (junk' m) (ts m)

end Verif

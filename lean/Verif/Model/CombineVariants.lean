import Verif.Model.Combine

/-!
# The four variants of the combination between process groups

`/repo/src/manager/SparseGridWorker.hpp` l.364-452, l.704-749, l.998-1055, with
`/repo/src/sparsegrid/AnyDistributedSparseGrid.cpp` l.154-275. As in `Verif.Model.Combine`, the
processes of one "global reduce" communicator are modelled, one per group.
-/

namespace Verif

variable {K : Type}

/-- `CombinationVariant`, `/repo/src/utils/Types.hpp`. -/
inductive CombinationVariant
  | sparseGridReduce | subspaceReduce | outgroupSparseGridReduce | chunkedOutgroupSparseGridReduce
  deriving DecidableEq

/-- The sparse grid of one group up to the exchange of sizes in `initCombinedUniDSGVector`,
l.722-746. Simplification: the levels are not reset (`clearLevels == false`); the set of levels is a
parameter. -/
def initDsg [Zero K] (variant : CombinationVariant) (levels : List (List ℕ))
    (tasks : List (K × Dfg K)) : Option (Dsg K) := do
  let d ← tasks.foldlM (fun d t => registerDistributedFullGrid d t.2) (Dsg.empty levels)
  if variant = .chunkedOutgroupSparseGridReduce then return d else d.createKahanBuffer

/-- `initCombinedUniDSGVector` on all `n` groups up to l.746, with the tasks of the groups. -/
def initDsgs [Zero K] (variant : CombinationVariant) (levels : List (List ℕ)) (n : ℕ)
    (tasks : ℕ → List (K × Dfg K)) : Option (List (Dsg K)) :=
  (List.range n).mapM fun g => initDsg variant levels (tasks g)

/-- State after `reduceSubspaceSizesBetweenGroups`, l.1034-1055, of a group with new sizes. -/
def afterSizes (d : Dsg K) [Zero K] (sizes : List ℕ) (tasks : List (K × Dfg K)) : Group K :=
  ⟨({ d with sizes := sizes } : Dsg K).deleteSubspaceData, tasks⟩

/-- Variant `sparseGridReduce`: `reduceSubspaceSizes` (`CombiCom.hpp` l.420-434) makes all sizes the
maximum over the groups; then `reduceLocalAndGlobal` l.998-1031 and
`distributeCombinedSolutionToTasks` l.614-625. `maxChunk` is the result of
`getGlobalReduceChunkSize`. -/
def sparseGridReduceVariant [Ring K] (maxChunk : ℕ) (levels : List (List ℕ)) (n : ℕ)
    (tasks : ℕ → List (K × Dfg K)) (dsgs : List (Dsg K)) : Option (ℕ → Group K) :=
  combineSparseGridReduce maxChunk n fun g =>
    let d := dsgs.getD g (Dsg.empty levels)
    afterSizes d (outgroupSizes (dsgs.map (·.sizes)) (List.range levels.length) d.sizes) (tasks g)

/-- Variant `subspaceReduce`: one communicator for each set of groups that share subspaces,
`setSubspaceCommunicators` (its results on the groups are the parts of this list, see C22). -/
def subspaceReduceVariant [Ring K] (maxChunk : ℕ) (levels : List (List ℕ)) (n : ℕ)
    (tasks : ℕ → List (K × Dfg K)) (dsgs : List (Dsg K)) : Option (ℕ → Group K) := do
  let votes ← getSubspaceVote levels.length (dsgs.map (·.sizes))
  combineAllocated maxChunk n ((subspacesByVote votes).map fun kv => (ranksOfVote kv.1, kv.2))
    fun g =>
      let d := dsgs.getD g (Dsg.empty levels)
      afterSizes d d.sizes (tasks g)

/-- Variants `outgroupSparseGridReduce` and `chunkedOutgroupSparseGridReduce`: one communicator for
all subspaces that are shared by several groups, `setOutgroupCommunicator`; then
`reduceLocalAndGlobal` and `distributeCombinedSolutionToTasks`, or `collectReduceDistribute`
l.364-452. If only a part of the groups uses the communicator, which contains all of them, the
collective calls do not match. -/
def outgroupVariant [Ring K] (chunked : Bool) (maxChunk : ℕ) (levels : List (List ℕ)) (n : ℕ)
    (tasks : ℕ → List (K × Dfg K)) (dsgs : List (Dsg K)) : Option (ℕ → Group K) := do
  let sizes := dsgs.map (·.sizes)
  let votes ← getSubspaceVote levels.length sizes
  let shared := (subspacesForMany votes).1
  let comms ← (List.range n).mapM fun g => setOutgroupCommunicator levels.length sizes g
  let members := (List.range n).filter fun g => (comms.getD g none).isSome
  let S := fun g =>
    let d := dsgs.getD g (Dsg.empty levels)
    afterSizes d (outgroupSizes sizes shared d.sizes) (tasks g)
  if members = [] ∨ members = List.range n then
    if chunked then collectReduceDistribute maxChunk n (fun g => comms.getD g none) S
    else combineAllocated maxChunk n (if members = [] then [] else [(members, shared)]) S
  else none

/-- Initialisation of the sparse grids and one combination. -/
def combineVariant [Ring K] (variant : CombinationVariant) (maxChunk : ℕ) (levels : List (List ℕ))
    (n : ℕ) (tasks : ℕ → List (K × Dfg K)) : Option (ℕ → Group K) :=
  (initDsgs variant levels n tasks).bind fun dsgs =>
    match variant with
    | .sparseGridReduce => sparseGridReduceVariant maxChunk levels n tasks dsgs
    | .subspaceReduce => subspaceReduceVariant maxChunk levels n tasks dsgs
    | .outgroupSparseGridReduce => outgroupVariant false maxChunk levels n tasks dsgs
    | .chunkedOutgroupSparseGridReduce => outgroupVariant true maxChunk levels n tasks dsgs

end Verif

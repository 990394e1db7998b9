import Verif.Model.CombineVariants

/-!
# Many combinations, and tasks that move between groups

`/repo/src/manager/ProcessGroupWorker.cpp` l.368-411, l.466-472, l.528-564,
`/repo/src/manager/ProcessManager.cpp` l.583-613, `/repo/src/manager/SparseGridWorker.hpp` l.627-656.

The sparse grids and the communicators are set up once and used for all combinations. As in
`Verif.Model.Combine`, one process of each group is modelled. Simplification: the grids of the tasks
are seen as hierarchical coefficients, that is, between hierarchization and dehierarchization (which
are inverse, C25).
-/

namespace Verif

variable {K : Type}

/-- The groups, and the communicators between them: with members and subspaces for subspace reduce
and outgroup sparse grid reduce, and on each group for the chunked variant. -/
structure Setup (K : Type) where
  groups : ℕ → Group K
  comms : List (List ℕ × List ℕ)
  outgroup : ℕ → Option (List ℕ)

/-- `initCombinedDSGVector`, `ProcessGroupWorker.cpp` l.466-472: registration of the tasks, and
`reduceSubspaceSizesBetweenGroups`, `SparseGridWorker.hpp` l.1034-1055, as in the definitions of
`Verif.Model.CombineVariants`. -/
def setUp [Ring K] (variant : CombinationVariant) (levels : List (List ℕ)) (n : ℕ)
    (tasks : ℕ → List (K × Dfg K)) : Option (Setup K) := do
  let dsgs ← initDsgs variant levels n tasks
  let sizes := dsgs.map (·.sizes)
  let groups := fun (sizesOf : List ℕ → List ℕ) (g : ℕ) =>
    afterSizes (dsgs.getD g (Dsg.empty levels)) (sizesOf (dsgs.getD g (Dsg.empty levels)).sizes)
      (tasks g)
  if variant = .sparseGridReduce then
    return ⟨groups (outgroupSizes sizes (List.range levels.length)), [], fun _ => none⟩
  let votes ← getSubspaceVote levels.length sizes
  if variant = .subspaceReduce then
    return ⟨groups id, (subspacesByVote votes).map fun kv => (ranksOfVote kv.1, kv.2), fun _ => none⟩
  let shared := (subspacesForMany votes).1
  let comms ← (List.range n).mapM fun g => setOutgroupCommunicator levels.length sizes g
  let members := (List.range n).filter fun g => (comms.getD g none).isSome
  if members = [] ∨ members = List.range n then
    return ⟨groups (outgroupSizes sizes shared), if members = [] then [] else [(members, shared)],
      fun g => comms.getD g none⟩
  else none

/-- One combination, `combineAtOnce` l.528-564. -/
def Setup.combine [Ring K] (variant : CombinationVariant) (maxChunk n : ℕ) (s : Setup K) :
    Option (Setup K) := do
  let S ← match variant with
    | .sparseGridReduce => combineSparseGridReduce maxChunk n s.groups
    | .subspaceReduce => combineAllocated maxChunk n s.comms s.groups
    | .outgroupSparseGridReduce => combineAllocated maxChunk n s.comms s.groups
    | .chunkedOutgroupSparseGridReduce => collectReduceDistribute maxChunk n s.outgroup s.groups
  return { s with groups := S }

/-- All tasks are run: the grid of task `k` of group `g` gets new values `v g k`. -/
def Setup.run (v : ℕ → ℕ → ℕ → K) (s : Setup K) : Setup K :=
  { s with groups := fun g => { s.groups g with
      tasks := (s.groups g).tasks.mapIdx fun k t => (t.1, { t.2 with data := ⟨t.2.data.len, v g k⟩ }) } }

/-- `RESCHEDULE_REMOVE_TASK`, l.387-411, `removeTask` of `TaskWorker.hpp` l.120-124: task `k` of the
group is removed (it is sent to the manager, without its grid). -/
def Group.removeTask (k : ℕ) (g : Group K) : Group K := { g with tasks := g.tasks.eraseIdx k }

/-- `RESCHEDULE_ADD_TASK`, l.368-386: the task is initialised with a grid of the same level, the
residuals are allocated again, the grid is set to zero and filled by `fillDFGFromDSGU`
(`SparseGridWorker.hpp` l.627-656) with everything allocated. `setZero`, which tasks implement, is
taken to zero all values. -/
def Group.addMoved [Zero K] (t : K × Dfg K) (g : Group K) : Option (Group K) := do
  let d ← g.dsg.createKahanBuffer
  let x ← extractFromUniformSG true { t.2 with data := ⟨t.2.data.len, fun _ => (0 : K)⟩ } d
  return ⟨d, g.tasks ++ [(t.1, x)]⟩

/-- One task that is moved in `reschedule`, `ProcessManager.cpp` l.583-613: task `k` of group
`source` is removed there and added to group `target`. -/
def Setup.move [Zero K] (source k target : ℕ) (s : Setup K) : Option (Setup K) := do
  let t ← (s.groups source).tasks[k]?
  let S := Function.update s.groups source ((s.groups source).removeTask k)
  let g ← (S target).addMoved t
  return { s with groups := Function.update S target g }

/-- What happens after the initialisation. -/
inductive Step (K : Type)
  | run (v : ℕ → ℕ → ℕ → K)
  | combine
  | move (source k target : ℕ)

def Setup.step [Ring K] (variant : CombinationVariant) (maxChunk n : ℕ) (s : Setup K) :
    Step K → Option (Setup K)
  | .run v => some (s.run v)
  | .combine => s.combine variant maxChunk n
  | .move source k target => s.move source k target

/-- Initialisation, followed by any number of steps. -/
def history [Ring K] (variant : CombinationVariant) (maxChunk : ℕ) (levels : List (List ℕ)) (n : ℕ)
    (tasks : ℕ → List (K × Dfg K)) (steps : List (Step K)) : Option (Setup K) := do
  let s ← setUp variant levels n tasks
  steps.foldlM (Setup.step variant maxChunk n) s

end Verif

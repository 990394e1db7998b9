import Verif.Model.Reduce

/-!
# The combination step between process groups

`/repo/src/manager/SparseGridWorker.hpp` l.364-452 and l.998-1031, with the subspace reduction of
`/repo/src/combicom/CombiCom.hpp` l.274-397.

One process of each group is modelled: the processes with the same position in their groups, which
form a "global reduce" communicator. A state is a function from group number to group. There is one
grid per task (`numGrids == 1`). Collective calls are matched in order; calls that do not match
(different numbers of calls or of elements) are `none`, as is undefined behaviour.
-/

namespace Verif

variable {K : Type}

/-- A process of a group: its sparse grid and its tasks (coefficient and local part of the grid). -/
structure Group (K : Type) where
  dsg : Dsg K
  tasks : List (K × Dfg K)

/-- "local reduce": all tasks are added, l.397-401, l.433-437, l.1008-1014. -/
def Group.addTasks [Ring K] (fully : Bool) (g : Group K) : Option (Group K) := do
  let d ← g.tasks.foldlM (fun d t => addDistributedFullGrid fully d t.2 t.1) g.dsg
  return { g with dsg := d }

/-- "distribute": all tasks are overwritten, l.413-417, l.444-448,
`distributeCombinedSolutionToTasks` l.614-625. -/
def Group.extractTasks (fully : Bool) (g : Group K) : Option (Group K) := do
  let ts ← g.tasks.mapM fun t => (extractFromUniformSG fully t.2 g.dsg).map fun x => (t.1, x)
  return { g with tasks := ts }

/-- The same operation on several groups. -/
def forGroups (f : ℕ → Group K → Option (Group K)) :
    (members : List ℕ) → (S : ℕ → Group K) → Option (ℕ → Group K)
  | [], S => some S
  | m :: ms, S => (f m (S m)).bind fun r => forGroups f ms (Function.update S m r)

/-- One block of a datatype in `getReductionDatatypes`, `CombiCom.hpp` l.293-296: displacement from
the data of the first subspace and length, both converted to `int`. -/
def datatypeBlock (d : Dsg K) (p0 : ℕ) (s : ℕ) : Option (ℤ × ℤ) := do
  let n ← d.sizes[s]?
  let p ← d.ptr[s]?
  return (Int.bmod ((p : ℤ) - p0) (2 ^ 32), Int.bmod (n : ℤ) (2 ^ 32))

/-- The elements addressed by the datatype of a chunk, l.284-303, when applied at the data of the
first subspace of the chunk (l.373). -/
def datatypePositions (d : Dsg K) (chunk : List ℕ) : Option (List ℕ) := do
  let s0 ← chunk.head?
  let p0 ← d.ptr[s0]?
  let blocks ← chunk.mapM (datatypeBlock d p0)
  if blocks.all fun b => decide (0 ≤ b.2 ∧ 0 ≤ (p0 : ℤ) + b.1 ∧ (p0 : ℤ) + b.1 + b.2 ≤ d.data.len) then
    some (blocks.flatMap fun b => (List.range b.2.toNat).map fun k => ((p0 : ℤ) + b.1).toNat + k)
  else none

/-- `getReductionDatatypes`, l.275-311; `maxChunk` is the result of `getGlobalReduceChunkSize`. -/
def getReductionDatatypes (d : Dsg K) (maxChunk : ℕ) (subs : List ℕ) : Option (List (List ℕ)) :=
  (getChunkedSubspaces (fun s => d.sizes.getD s 0) maxChunk subs).mapM (datatypePositions d)

/-- A process with other values in its sparse grid. -/
def Group.setData (g : Group K) (b : Buf K) : Group K := { g with dsg := { g.dsg with data := b } }

/-- `MPI_Allreduce` with the operation `addIndexedElements` (l.179-216) on one element of a
derived datatype: the `k`-th elements addressed by the members are summed up and stored on all of
them. `ps` are the addressed elements on the members. Simplification: in-place reductions of MPI are
taken to combine the elements of the datatype in the order of its type map. -/
def allreduceIndexed [AddCommMonoid K] (members : List ℕ) (ps : List (List ℕ)) (S : ℕ → Group K) :
    Option (ℕ → Group K) :=
  if ps.all fun p => decide (p.length = (ps.headD []).length) then
    some fun g => ((members.zip ps).lookup g).elim (S g) fun pos =>
      (S g).setData ⟨(S g).dsg.data.len, fun i =>
        if i ∈ pos then
          ((members.zip ps).map fun m => (S m.1).dsg.data.val (m.2.getD (pos.idxOf i) 0)).sum
        else (S g).dsg.data.val i⟩
  else none

/-- `distributedGlobalSubspaceReduce`, l.334-397, on one communicator with `MPI_Allreduce`; `subsOf`
are the subspaces that a process reduces: those of the communicator, or the allocated ones. -/
def subspaceReduce [AddCommMonoid K] (maxChunk : ℕ) (members : List ℕ)
    (subsOf : Group K → List ℕ) (S : ℕ → Group K) : Option (ℕ → Group K) := do
  let dts ← members.mapM fun g => getReductionDatatypes (S g).dsg maxChunk (subsOf (S g))
  if dts.all fun d => decide (d.length = (dts.headD []).length) then
    (List.range (dts.headD []).length).foldlM
      (fun S k => allreduceIndexed members (dts.map fun d => d.getD k []) S) S
  else none

/-- `getIngroupSubspaces`, `AnyDistributedSparseGrid.cpp` l.63-88; `comm` are the subspaces of the
outgroup communicator, if there is one. -/
def getIngroupSubspaces (sizes : List ℕ) (comm : Option (List ℕ)) : List ℕ :=
  (List.range sizes.length).filter fun i => decide (sizes.getD i 0 > 0 ∧ i ∉ comm.getD [])

/-- One chunk of `collectReduceDistribute` before the reduction, l.383-401. The assertions (and the
debug check of l.385-395) are left out. -/
def Group.collectChunk [Ring K] (chunk : List ℕ) (g : Group K) : Option (Group K) := do
  let d ← g.dsg.allocateDifferentSubspaces chunk
  ({ g with dsg := d } : Group K).addTasks false

/-- The loop over the chunks of ingroup subspaces, l.427-449, and `deleteSubspaceData`, l.450. -/
def Group.ingroupPhase [Ring K] (maxChunk : ℕ) (comm : Option (List ℕ)) (g : Group K) :
    Option (Group K) := do
  let chunks := getChunkedSubspaces (fun s => g.dsg.sizes.getD s 0) maxChunk
    (getIngroupSubspaces g.dsg.sizes comm)
  let g ← chunks.foldlM (fun g c => (g.collectChunk c).bind fun g => g.extractTasks false) g
  return { g with dsg := g.dsg.deleteSubspaceData }

/-- One chunk of outgroup subspaces on all members of the outgroup communicator up to the reduction,
l.381-404; `chunkOf` are the chunks of the members. -/
def outgroupReduce [Ring K] (maxChunk : ℕ) (members : List ℕ) (chunkOf : ℕ → List ℕ)
    (S : ℕ → Group K) : Option (ℕ → Group K) := do
  let S ← forGroups (fun m g => g.collectChunk (chunkOf m)) members S
  subspaceReduce maxChunk members (fun g => g.dsg.sel) S

/-- One chunk of outgroup subspaces on all members of the outgroup communicator, l.381-418. -/
def outgroupRound [Ring K] (maxChunk : ℕ) (members : List ℕ) (chunkOf : ℕ → List ℕ)
    (S : ℕ → Group K) : Option (ℕ → Group K) :=
  (outgroupReduce maxChunk members chunkOf S).bind
    (forGroups (fun _ g => g.extractTasks false) members)

/-- `collectReduceDistribute`, l.364-452, on `n` groups; `comm g` are the subspaces of the outgroup
communicator on group `g`, if it has one. The copies to the extra sparse grid and the minimum and
maximum coefficients are left out. -/
def collectReduceDistribute [Ring K] (maxChunk : ℕ) (n : ℕ) (comm : ℕ → Option (List ℕ))
    (S : ℕ → Group K) : Option (ℕ → Group K) := do
  let members := (List.range n).filter fun g => (comm g).isSome
  let chunks := fun g => getChunkedSubspaces (fun s => (S g).dsg.sizes.getD s 0) maxChunk
    ((comm g).getD [])
  let rounds := (chunks (members.headD 0)).length
  if members.all fun g => decide ((chunks g).length = rounds) then do
    let S ← if members = [] then some S else
      (List.range rounds).foldlM
        (fun S k => outgroupRound maxChunk members (fun g => (chunks g).getD k []) S) S
    forGroups (fun m g => g.ingroupPhase maxChunk (comm m)) (List.range n) S
  else none

/-- `zeroDsgsData`, l.1202-1210. -/
def Dsg.createOrZero [Zero K] (d : Dsg K) : Option (Dsg K) := do
  let d ← if d.data.len = 0 then d.createSubspaceData else some d
  return { d with data := ⟨d.data.len, fun _ => 0⟩, kahan := ⟨d.kahan.len, fun _ => 0⟩ }

/-- Zeroing and local reduce in `reduceLocalAndGlobal`, l.1006-1014. -/
def Group.collectAll [Ring K] (g : Group K) : Option (Group K) := do
  let d ← g.dsg.createOrZero
  ({ g with dsg := d } : Group K).addTasks true

/-- `reduceLocalAndGlobal`, l.998-1031, for subspace reduce and outgroup sparse grid reduce, followed
by `distributeCombinedSolutionToTasks`, l.614-625. `comms` are the communicators, given by their
members, and their subspaces. Simplification: the communicators are processed in one global order
(every group has an ordered part of that list, see C22). -/
def combineAllocated [Ring K] (maxChunk : ℕ) (n : ℕ) (comms : List (List ℕ × List ℕ))
    (S : ℕ → Group K) : Option (ℕ → Group K) := do
  let S ← forGroups (fun _ g => g.collectAll) (List.range n) S
  let S ← comms.foldlM (fun S c => subspaceReduce maxChunk c.1 (fun _ => c.2) S) S
  forGroups (fun _ g => g.extractTasks true) (List.range n) S

/-- `reduceLocalAndGlobal`, l.998-1031, for sparse grid reduce, followed by
`distributeCombinedSolutionToTasks`. -/
def combineSparseGridReduce [Ring K] (maxChunk : ℤ) (n : ℕ) (S : ℕ → Group K) :
    Option (ℕ → Group K) := do
  let S ← forGroups (fun _ g => g.collectAll) (List.range n) S
  let bs ← sparseGridReduce allreduceCall maxChunk ((List.range n).map fun g => (S g).dsg.data)
  let S : ℕ → Group K := fun g => (bs[g]?).elim (S g) (S g).setData
  forGroups (fun _ g => g.extractTasks true) (List.range n) S

end Verif

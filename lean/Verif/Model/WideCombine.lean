import Verif.Model.CombineVariants
import Verif.Model.ThirdLevel

/-!
# The combination of several systems by files

`/repo/src/manager/ProcessGroupWorker.cpp` l.492-527, l.848-889 and l.974-1010, with
`/repo/src/manager/SparseGridWorker.hpp` l.364-613, l.784-803, l.859-996, l.1086-1113 and l.1202-1216, for
the variant `chunkedOutgroupSparseGridReduce`.

As in `Verif.Model.Combine`, the processes of one "global reduce" communicator are modelled, one per
group, here in each of several systems; the processes with the same position in their groups read and
write the same part of the files (C35-C37, C57). There is one grid per task. Hierarchization and
dehierarchization are left out, as are tokens and the removal of files. `none` stands for exceptions,
undefined behaviour and collective calls that do not match.
-/

namespace Verif

variable {K : Type}

/-! ### The extra sparse grid -/

/-- One subspace in `copyDataFrom`, `DistributedSparseGridUniform.hpp` l.484-489; `buf` is the data of
`dst`. -/
def copySubspace (src dst : Dsg K) (buf : Buf K) (i : ℕ) : Option (Buf K) := do
  let a ← src.sizes[i]?
  let b ← dst.sizes[i]?
  let p ← src.ptr[i]?
  let q ← dst.ptr[i]?
  (List.range (min a b)).foldlM (fun buf j => (src.data.get? (p + j)).bind fun x => buf.set? (q + j) x)
    buf

/-- `copyDataFrom` for a list of subspaces, l.474-490. -/
def Dsg.copyDataFrom (d other : Dsg K) (subs : List ℕ) : Option (Dsg K) := do
  let buf ← subs.foldlM (copySubspace other d) d.data
  return { d with data := buf }

/-- The subspaces that are copied, `SparseGridWorker.hpp` l.464-469 and l.483-488. -/
def subspacesToCopy (dsg extra : Dsg K) : List ℕ :=
  dsg.sel.filter fun i => decide (extra.sizes.getD i 0 ≠ 0)

/-- `copyFromPartialDsgToExtraDSG`, l.453-475: the new extra sparse grid. -/
def copyFromPartialDsgToExtraDSG (dsg extra : Dsg K) : Option (Dsg K) :=
  if extra.data.len = 0 then none else extra.copyDataFrom dsg (subspacesToCopy dsg extra)

/-- `copyFromExtraDsgToPartialDSG`, l.477-495: the group with the new sparse grid. -/
def Group.copyFromExtra (extra : Dsg K) (g : Group K) : Option (Group K) := do
  let d ← g.dsg.copyDataFrom extra (subspacesToCopy g.dsg extra)
  return { g with dsg := d }

/-! ### Sizes -/

/-- `reduceSubspaceSizesBetweenGroups`, l.1034-1055, for an outgroup variant: `setOutgroupCommunicator`
on all groups: sizes and communicators (given by their subspaces) after it. -/
def exchangeOutgroup (numSubspaces : ℕ) (sizes : List (List ℕ)) :
    Option (List (List ℕ) × List (Option (List ℕ))) := do
  let votes ← getSubspaceVote numSubspaces sizes
  let comms ← (List.range sizes.length).mapM fun g => setOutgroupCommunicator numSubspaces sizes g
  return (sizes.map (outgroupSizes sizes (subspacesForMany votes).1), comms)

/-- `maxReduceSubspaceSizesInOutputGroup`, l.785-803, when there is an extra sparse grid: the new sizes
of it on output group `o`. -/
def maxReduceInOutputGroup (o : ℕ) (sizes : List (List ℕ)) (extra : List ℕ) : List ℕ :=
  (List.range extra.length).map fun i => ((sizes.set o extra).map fun s => s.getD i 0).foldl max 0

/-- A system: number of groups, output group, and tasks of the groups. -/
structure WideSystem (K : Type) where
  n : ℕ
  o : ℕ
  tasks : ℕ → List (K × Dfg K)

/-- Sparse grids and their sizes after `initCombinedUniDSGVector`, and the sizes that
`reduceExtraSubspaceSizesFileBased`, `ProcessGroupWorker.cpp` l.974-985, writes to a file. -/
structure WideSizes (K : Type) where
  dsgs : List (Dsg K)
  sizes : List (List ℕ)
  written : List ℕ

/-- `initCombinedUniDSGVector`, and `reduceExtraSubspaceSizesFileBased` up to the file. The extra sparse
grid gets the sizes of the output group (`setExtraSparseGrid`, l.1104-1109). -/
def wideSizes [Zero K] (levels : List (List ℕ)) (sys : WideSystem K) : Option (WideSizes K) := do
  let dsgs ← initDsgs .chunkedOutgroupSparseGridReduce levels sys.n sys.tasks
  let ex ← exchangeOutgroup levels.length (dsgs.map (·.sizes))
  let own ← ex.1[sys.o]?
  return ⟨dsgs, ex.1, maxReduceInOutputGroup sys.o ex.1 own⟩

/-- State of a system: groups, outgroup communicators (given by their subspaces), and extra sparse grid
of the output group. -/
structure WideState (K : Type) where
  groups : ℕ → Group K
  comm : ℕ → Option (List ℕ)
  extra : Dsg K

/-- The extra sparse grid, `setExtraSparseGrid` l.1101-1112, with sizes `sizes`, after `zeroDsgsData`,
l.1211-1216. The levels are reset. -/
def extraGrid [Zero K] (levels : List (List ℕ)) (sizes : List ℕ) : Option (Dsg K) := do
  let d ← (Dsg.empty levels : Dsg K).createKahanBuffer
  ({ d with levels := [], sizes := sizes } : Dsg K).createOrZero

/-- The rest of `reduceExtraSubspaceSizesFileBased`, `ProcessGroupWorker.cpp` l.1000-1009, with
`reduceExtraSubspaceSizes`, `SparseGridWorker.hpp` l.917-996; `others` are the sizes in the files of the
other systems. The communicators are set twice. -/
def wideStart [Zero K] (levels : List (List ℕ)) (sys : WideSystem K) (w : WideSizes K)
    (others : List (List ℕ)) : Option (WideState K) := do
  let extraSizes ← match reduceExtraSubspaceSizes
      (maxReduceInOutputGroup sys.o w.sizes w.written) others with
    | .ok r => some r.1
    | _ => none
  let own ← w.sizes[sys.o]?
  let ex ← exchangeOutgroup levels.length (w.sizes.set sys.o (List.zipWith max own extraSizes))
  let ex ← exchangeOutgroup levels.length ex.1
  let extra ← extraGrid levels extraSizes
  return ⟨fun g => afterSizes (w.dsgs.getD g (Dsg.empty levels)) (ex.1.getD g []) (sys.tasks g),
    fun g => ex.2.getD g none, extra⟩

/-! ### Collecting and writing -/

/-- One chunk of outgroup subspaces in `collectReduceDistribute<true>` on the output group `o` and
`collectReduceDistribute<false>` on the others, l.381-418. -/
def outgroupRoundKeep [Ring K] (o maxChunk : ℕ) (members : List ℕ) (chunkOf : ℕ → List ℕ)
    (st : (ℕ → Group K) × Dsg K) : Option ((ℕ → Group K) × Dsg K) := do
  let S ← outgroupReduce maxChunk members chunkOf st.1
  let extra ← if o ∈ members then copyFromPartialDsgToExtraDSG (S o).dsg st.2 else some st.2
  let S ← forGroups (fun _ g => g.extractTasks false) members S
  return (S, extra)

/-- One chunk of ingroup subspaces in `collectReduceDistribute<true>`, l.427-449. -/
def Group.ingroupRoundKeep [Ring K] (st : Group K × Dsg K) (chunk : List ℕ) :
    Option (Group K × Dsg K) := do
  let g ← st.1.collectChunk chunk
  let extra ← copyFromPartialDsgToExtraDSG g.dsg st.2
  let g ← g.extractTasks false
  return (g, extra)

/-- The loop over the chunks of ingroup subspaces on the output group, l.427-450. -/
def Group.ingroupPhaseKeep [Ring K] (maxChunk : ℕ) (comm : Option (List ℕ)) (g : Group K)
    (extra : Dsg K) : Option (Group K × Dsg K) := do
  let chunks := getChunkedSubspaces (fun s => g.dsg.sizes.getD s 0) maxChunk
    (getIngroupSubspaces g.dsg.sizes comm)
  let r ← chunks.foldlM Group.ingroupRoundKeep (g, extra)
  return ({ r.1 with dsg := r.1.dsg.deleteSubspaceData }, r.2)

/-- The outgroup communicators of the groups match: all or no groups have one. -/
def commsMatch (n : ℕ) (comm : ℕ → Option (List ℕ)) : Bool :=
  (List.range n).all (fun g => (comm g).isSome) || (List.range n).all (fun g => (comm g).isNone)

/-- `collectReduceDistribute`, l.364-452, in `combineSystemWideAndWrite`,
`ProcessGroupWorker.cpp` l.500-514, with output group `o`. -/
def collectReduceDistributeKeep [Ring K] (maxChunk n o : ℕ) (st : WideState K) :
    Option (WideState K) := do
  let members := (List.range n).filter fun g => (st.comm g).isSome
  let chunks := fun g => getChunkedSubspaces (fun s => (st.groups g).dsg.sizes.getD s 0) maxChunk
    ((st.comm g).getD [])
  let rounds := (chunks (members.headD 0)).length
  if commsMatch n st.comm ∧ members.all (fun g => decide ((chunks g).length = rounds)) then do
    let r ← if members = [] then some (st.groups, st.extra) else
      (List.range rounds).foldlM
        (fun x k => outgroupRoundKeep o maxChunk members (fun g => (chunks g).getD k []) x)
        (st.groups, st.extra)
    let p ← (r.1 o).ingroupPhaseKeep maxChunk (st.comm o) r.2
    let S ← forGroups (fun m g => g.ingroupPhase maxChunk (st.comm m))
      ((List.range n).filter fun g => g ≠ o) r.1
    return ⟨Function.update S o p.1, st.comm, p.2⟩
  else none

/-! ### Reading and distributing -/

/-- `readDSGsFromDiskAndReduce`, l.836-857, for the values of this process in one file: they are added to
the extra sparse grid. A file of the wrong size is an exception (C36). -/
def addFile [Add K] (b f : Buf K) : Option (Buf K) :=
  if f.len = b.len then some ⟨b.len, fun i => b.val i + f.val i⟩ else none

/-- The datatype in `asyncBcastOutgroupDsgData<., true>`, `CombiCom.hpp` l.611-628: chunks of up to
`std::numeric_limits<int>::max()` elements (`getGlobalReduceChunkSize` of the largest `uint32_t`), of which
there has to be one. -/
def bcastDatatype (d : Dsg K) : Option (List ℕ) :=
  match getReductionDatatypes d (2 ^ 31 - 1) d.sel with
  | some [p] => some p
  | _ => none

/-- `MPI_Ibcast` from `root` of one element of a derived datatype: the `k`-th elements addressed by the
members become the one of the root. `ps` are the elements addressed on the members. -/
def bcastIndexed (root : ℕ) (members : List ℕ) (ps : List (List ℕ)) (S : ℕ → Group K) :
    Option (ℕ → Group K) := do
  let rootPos ← (members.zip ps).lookup root
  if ps.all fun p => decide (p.length = rootPos.length) then
    some fun g => ((members.zip ps).lookup g).elim (S g) fun pos =>
      (S g).setData ⟨(S g).dsg.data.len, fun i =>
        if i ∈ pos then (S root).dsg.data.val (rootPos.getD (pos.idxOf i) 0)
        else (S g).dsg.data.val i⟩
  else none

/-- One chunk in `distributeChunkedBroadcasts` on a group before the broadcast, l.544-549. -/
def Group.prepareBroadcast [Zero K] (isOutput : Bool) (extra : Dsg K) (chunk : List ℕ) (g : Group K) :
    Option (Group K) := do
  let d ← g.dsg.allocateDifferentSubspaces chunk
  let g : Group K := { g with dsg := d }
  if isOutput then g.copyFromExtra extra else some g

/-- One chunk in `distributeChunkedBroadcasts`, l.543-577. -/
def broadcastRound [Zero K] (o n : ℕ) (extra : Dsg K) (chunkOf : ℕ → List ℕ) (S : ℕ → Group K) :
    Option (ℕ → Group K) := do
  let S ← forGroups (fun m g => g.prepareBroadcast (decide (m = o)) extra (chunkOf m)) (List.range n) S
  let ps ← (List.range n).mapM fun g => bcastDatatype (S g).dsg
  let S ← bcastIndexed o (List.range n) ps S
  forGroups (fun _ g => g.extractTasks false) (List.range n) S

/-- One chunk of subspaces that only the output group has, l.602-609. -/
def Group.updateRound [Zero K] (extra : Dsg K) (g : Group K) (chunk : List ℕ) : Option (Group K) := do
  let d ← g.dsg.allocateDifferentSubspaces chunk
  let g ← ({ g with dsg := d } : Group K).copyFromExtra extra
  g.extractTasks false

/-- The subspaces that are broadcast, l.508-531. -/
def subspacesToBroadcast (extra : Dsg K) (comm : Option (List ℕ)) : List ℕ :=
  (List.range extra.sizes.length).filter fun i =>
    decide (extra.sizes.getD i 0 > 0 ∧ i ∈ comm.getD [])

/-- The subspaces of the extra sparse grid that only the output group has, l.585-593. -/
def subspacesOfOutputGroup (extra : Dsg K) (sizes : List ℕ) (comm : Option (List ℕ)) : List ℕ :=
  (List.range sizes.length).filter fun i =>
    decide (i ∈ getIngroupSubspaces sizes comm ∧ extra.sizes.getD i 0 > 0)

/-- `distributeChunkedBroadcasts`, l.503-613. A group without outgroup communicator does not broadcast and
waits for an undefined request (l.551-563); the assertions (l.538-541) are left out. -/
def distributeChunkedBroadcasts [Zero K] (maxChunk n o : ℕ) (st : WideState K) :
    Option (ℕ → Group K) := do
  let subs := subspacesToBroadcast st.extra (st.comm o)
  let chunks := fun g => getChunkedSubspaces (fun s => (st.groups g).dsg.sizes.getD s 0) maxChunk subs
  let rounds := (chunks o).length
  if (List.range n).all fun g => decide ((chunks g).length = rounds ∧ (rounds ≠ 0 → (st.comm g).isSome)) then do
    let S ← (List.range rounds).foldlM
      (fun S k => broadcastRound o n st.extra (fun g => (chunks g).getD k []) S) st.groups
    let own := getChunkedSubspaces (fun s => (S o).dsg.sizes.getD s 0) maxChunk
      (subspacesOfOutputGroup st.extra (S o).dsg.sizes (st.comm o))
    let g ← own.foldlM (Group.updateRound st.extra) (S o)
    return Function.update S o g
  else none

/-- `combineReadDistributeSystemWide`, `ProcessGroupWorker.cpp` l.848-889 and l.908-930: the output group reads
the files of the other systems, then all groups distribute. -/
def wideDistribute [Ring K] (maxChunk n o : ℕ) (files : List (Buf K)) (st : WideState K) :
    Option (ℕ → Group K) := do
  let data ← files.foldlM addFile st.extra.data
  distributeChunkedBroadcasts maxChunk n o
    { st with extra := { st.extra with data := data } }

/-- One combination of `k` systems that have their sizes: every system collects and writes, then reads the
files of the others and distributes; `order s` are the other systems in the order in which system `s` reads
their files. -/
def wideExchange [Ring K] (maxChunk k : ℕ) (sys : ℕ → WideSystem K) (order : ℕ → List ℕ)
    (states : List (WideState K)) : Option (List (ℕ → Group K)) := do
  let collected ← (List.range k).mapM fun s => do
    let st ← states[s]?
    collectReduceDistributeKeep maxChunk (sys s).n (sys s).o st
  (List.range k).mapM fun s => do
    let st ← collected[s]?
    let files ← (order s).mapM fun t => collected[t]?.map fun st => st.extra.data
    wideDistribute maxChunk (sys s).n (sys s).o files st

/-- Sizes, and one combination of `k` systems; `order s` are the other systems in the order in which system
`s` reads their files. -/
def wideCombine [Ring K] (maxChunk : ℕ) (levels : List (List ℕ)) (k : ℕ) (sys : ℕ → WideSystem K)
    (order : ℕ → List ℕ) : Option (List (ℕ → Group K)) := do
  let sizes ← (List.range k).mapM fun s => wideSizes levels (sys s)
  let states ← (List.range k).mapM fun s => do
    let own ← sizes[s]?
    let others ← (order s).mapM fun t => sizes[t]?.map WideSizes.written
    wideStart levels (sys s) own others
  wideExchange maxChunk k sys order states

end Verif

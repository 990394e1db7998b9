import Verif.Model.WideCombine

/-!
# The combination of several systems with allocated sparse grids

`/repo/src/manager/ProcessManager.hpp` l.505-528 and l.652-697, `/repo/src/manager/ProcessGroupWorker.cpp`
l.475-527, l.725-788, l.848-936, l.974-1034 and `/repo/src/manager/SparseGridWorker.hpp` l.785-857, l.859-996,
l.998-1055, l.1086-1160, for the variants in which the sparse grids of the groups stay allocated: two
systems that exchange their values over the third-level manager, or two or three that exchange them by
files.

As in `Verif.Model.WideCombine`, the processes of one "global reduce" communicator are modelled, one per
group, in each of the systems, with one grid per task. Hierarchization and dehierarchization, tokens, the
removal of files and the messages to the managers are left out. The values of the sparse grid are zeroed
at the end of the exchange of sizes (`zeroDsgsData`) and again at the start of `reduceLocalAndGlobal`; only
the latter is modelled for the combined grids. `none` stands for exceptions, undefined behaviour and
collective calls that do not match.
-/

namespace Verif

variable {K : Type}

/-! ### Copies between sparse grids -/

/-- `getAllocatedDataSize`, `DistributedSparseGridUniform.hpp` l.704-711. -/
def Dsg.allocatedDataSize (d : Dsg K) (i : ℕ) : ℕ := if i ∈ d.sel then d.sizes.getD i 0 else 0

/-- One subspace in `copyDataFrom` of a whole grid, l.467-474; `buf` is the data of `dst`. -/
def copyAllocatedSubspace (src dst : Dsg K) (buf : Buf K) (i : ℕ) : Option (Buf K) := do
  let p ← src.ptr[i]?
  let q ← dst.ptr[i]?
  (List.range (min (src.allocatedDataSize i) (dst.allocatedDataSize i))).foldlM
    (fun buf j => (src.data.get? (p + j)).bind fun x => buf.set? (q + j) x) buf

/-- `copyDataFrom` of a whole grid, l.458-475. -/
def Dsg.copyAll (d other : Dsg K) : Option (Dsg K) := do
  let buf ← (List.range d.sizes.length).foldlM (copyAllocatedSubspace other d) d.data
  return { d with data := buf }

/-! ### Sizes -/

/-- `reduceSubspaceSizesBetweenGroups`, `SparseGridWorker.hpp` l.1034-1055: sizes and outgroup communicators
(given by their subspaces) after it. `reduceSubspaceSizes`, `CombiCom.hpp` l.420-434, makes all sizes the maximum
over the groups. The variant with one communicator per set of groups cannot be used with several systems
(`startSingleBroadcastDSGs` throws, l.1130-1133) and is not modelled here. -/
def exchangeSizes (variant : CombinationVariant) (numSubspaces : ℕ) (sizes : List (List ℕ)) :
    Option (List (List ℕ) × List (Option (List ℕ))) :=
  match variant with
  | .sparseGridReduce => some (sizes.map (outgroupSizes sizes (List.range numSubspaces)),
      sizes.map fun _ => none)
  | .subspaceReduce => none
  | _ => exchangeOutgroup numSubspaces sizes

/-- Sparse grids, sizes and communicators after `initCombinedUniDSGVector`. -/
structure LinkSizes (K : Type) where
  dsgs : List (Dsg K)
  sizes : List (List ℕ)
  comms : List (Option (List ℕ))

/-- `initCombinedUniDSGVector`, l.707-783. -/
def linkSizes [Zero K] (variant : CombinationVariant) (levels : List (List ℕ)) (sys : WideSystem K) :
    Option (LinkSizes K) := do
  let dsgs ← initDsgs variant levels sys.n sys.tasks
  let ex ← exchangeSizes variant levels.length (dsgs.map (·.sizes))
  return ⟨dsgs, ex.1, ex.2⟩

/-- State of a system: groups, outgroup communicators (given by their subspaces), and extra sparse grid
of the group that communicates with the other systems, if there is one. -/
structure LinkState (K : Type) where
  groups : ℕ → Group K
  comm : ℕ → Option (List ℕ)
  extra : Option (Dsg K)

/-- The groups with new sizes. -/
def LinkSizes.groupsWith [Zero K] (levels : List (List ℕ)) (sys : WideSystem K) (w : LinkSizes K)
    (sizes : List (List ℕ)) (g : ℕ) : Group K :=
  afterSizes (w.dsgs.getD g (Dsg.empty levels)) (sizes.getD g []) (sys.tasks g)

/-- `reduceSubspaceSizesThirdLevel`, `ProcessGroupWorker.cpp` l.908-936, on the third-level group, after the
sizes `reduced` have come back, and `waitForThirdLevelSizeUpdate`, l.1013-1021, on the others. If there is an
extra sparse grid, it gets these sizes; else all groups of the system get them (`broadcastSubspaceSizes`,
`CombiCom.hpp` l.474-486, with the outgroup communicators as they are). -/
def linkResize [Zero K] (hasExtra : Bool) (levels : List (List ℕ)) (sys : WideSystem K) (w : LinkSizes K)
    (reduced : List ℕ) : Option (LinkState K) :=
  if hasExtra then do
    let extra ← extraGrid levels reduced
    return ⟨w.groupsWith levels sys w.sizes, fun g => w.comms.getD g none, some extra⟩
  else
    return ⟨w.groupsWith levels sys (w.sizes.map fun _ => reduced), fun g => w.comms.getD g none, none⟩

/-- The same with the sizes `remote` of the other system: the manager of the system computes (C49) the minimum
of the sizes if there is an extra sparse grid, and else the maximum. -/
def linkStart [Zero K] (hasExtra : Bool) (levels : List (List ℕ)) (sys : WideSystem K) (w : LinkSizes K)
    (remote : List ℕ) : Option (LinkState K) := do
  let own ← w.sizes[sys.o]?
  linkResize hasExtra levels sys w
    (if hasExtra then List.zipWith min own remote else List.zipWith max own remote)

/-- `reduceExtraSubspaceSizesFileBased`, `ProcessGroupWorker.cpp` l.974-1010: what a system writes. -/
def linkWritten (sys : WideSystem K) (w : LinkSizes K) : Option (List ℕ) := do
  let own ← w.sizes[sys.o]?
  return maxReduceInOutputGroup sys.o w.sizes own

/-- The rest of `reduceExtraSubspaceSizesFileBased`, with `reduceExtraSubspaceSizes`, `SparseGridWorker.hpp`
l.917-996; `others` are the sizes in the files of the other systems. -/
def linkStartFiles [Zero K] (variant : CombinationVariant) (levels : List (List ℕ)) (sys : WideSystem K)
    (w : LinkSizes K) (others : List (List ℕ)) : Option (LinkState K) := do
  let written ← linkWritten sys w
  let extraSizes ← match reduceExtraSubspaceSizes (maxReduceInOutputGroup sys.o w.sizes written) others with
    | .ok r => some r.1
    | _ => none
  let own ← w.sizes[sys.o]?
  let ex ← exchangeSizes variant levels.length (w.sizes.set sys.o (List.zipWith max own extraSizes))
  let ex ← exchangeSizes variant levels.length ex.1
  let extra ← extraGrid levels extraSizes
  return ⟨w.groupsWith levels sys ex.1, fun g => ex.2.getD g none, some extra⟩

/-! ### Combination within the system -/

/-- `MPI_Reduce` to `root`, or `MPI_Allreduce`, of one element of a derived datatype. -/
def reduceIndexed [AddCommMonoid K] (root : Option ℕ) (members : List ℕ) (ps : List (List ℕ))
    (S : ℕ → Group K) : Option (ℕ → Group K) :=
  match root with
  | none => allreduceIndexed members ps S
  | some r => (allreduceIndexed members ps S).map fun S' => Function.update S r (S' r)

/-- `distributedGlobalSubspaceReduce`, `CombiCom.hpp` l.334-397, on the outgroup communicator. -/
def subspaceReduceTo [AddCommMonoid K] (root : Option ℕ) (maxChunk : ℕ) (members : List ℕ)
    (subsOf : ℕ → List ℕ) (S : ℕ → Group K) : Option (ℕ → Group K) := do
  let dts ← members.mapM fun g => getReductionDatatypes (S g).dsg maxChunk (subsOf g)
  if dts.all fun d => decide (d.length = (dts.headD []).length) then
    (List.range (dts.headD []).length).foldlM
      (fun S k => reduceIndexed root members (dts.map fun d => d.getD k []) S) S
  else none

/-- The calls in `distributedGlobalSparseGridReduce`, l.116-165: `MPI_Reduce` to `root`, or `MPI_Allreduce`. -/
def reduceWhole [AddCommMonoid K] (root : Option ℕ) (maxChunk : ℤ) (ds : List (Buf K)) :
    Option (List (Buf K)) :=
  match root with
  | none => sparseGridReduce allreduceCall maxChunk ds
  | some r => sparseGridReduce (reduceCall r) maxChunk ds

/-- `distributedGlobalSparseGridReduce`, l.116-165, on all groups. -/
def sparseGridReduceTo [AddCommMonoid K] (root : Option ℕ) (maxChunk : ℤ) (n : ℕ) (S : ℕ → Group K) :
    Option (ℕ → Group K) := do
  let bs ← reduceWhole root maxChunk ((List.range n).map fun g => (S g).dsg.data)
  return fun g => (bs[g]?).elim (S g) (S g).setData

/-- `reduceLocalAndGlobal`, `SparseGridWorker.hpp` l.998-1031, with `globalReduceRankThatCollects` `root`
(`none` for `MPI_PROC_NULL`). -/
def linkCollect [Ring K] (variant : CombinationVariant) (root : Option ℕ) (maxChunk n : ℕ)
    (st : LinkState K) : Option (ℕ → Group K) := do
  let S ← forGroups (fun _ g => g.collectAll) (List.range n) st.groups
  match variant with
  | .sparseGridReduce => sparseGridReduceTo root maxChunk n S
  | .outgroupSparseGridReduce =>
    if (List.range n).all (fun g => (st.comm g).isNone) then some S
    else if commsMatch n st.comm then
      subspaceReduceTo root maxChunk (List.range n) (fun g => (st.comm g).getD []) S
    else none
  | _ => none

/-! ### Combination with the other systems -/

/-- What the third-level group sends (`combineThirdLevel`, `ProcessGroupWorker.cpp` l.736-760) and the output
group writes (`writeDSGsToDisk`, `SparseGridWorker.hpp` l.1137-1160): the data of the extra sparse grid, after
a copy, or of the sparse grid itself. -/
def linkOutgoing (d : Dsg K) (extra : Option (Dsg K)) : Option (Dsg K) :=
  match extra with
  | none => some d
  | some e => e.copyAll d

/-- The exchange of the data of this process over the third-level manager (C48): the system that receives
first adds the data of the other to its own and sends the sum back. Sizes have to be equal; without any data
both wait forever (`C48_violated_empty`). -/
def exchangeOverManager [Add K] (firstSends : Bool) (a b : Buf K) : Option (Buf K) :=
  if a.len = 0 then none else if firstSends then addFile b a else addFile a b

/-- `asyncBcastDsgData`, `CombiCom.hpp` l.583-600, with wait: the whole data of group `o` to all groups. More
than `INT_MAX` elements are an exception (l.589-593). -/
def bcastWhole (n o : ℕ) (S : ℕ → Group K) : Option (ℕ → Group K) :=
  if (S o).dsg.data.len < 2 ^ 31 - 1 ∧
      (List.range n).all fun g => decide ((S g).dsg.data.len = (S o).dsg.data.len) then
    some fun g => if g < n then (S g).setData (S o).dsg.data else S g
  else none

/-- The datatype in `asyncBcastOutgroupDsgData`, l.611-628, for the subspaces of the communicator. -/
def bcastDatatypeOf (d : Dsg K) (subs : List ℕ) : Option (List ℕ) :=
  match getReductionDatatypes d (2 ^ 31 - 1) subs with
  | some [p] => some p
  | _ => none

/-- `asyncBcastOutgroupDsgData`, l.611-640, with wait. -/
def bcastOutgroup (n o : ℕ) (comm : ℕ → Option (List ℕ)) (S : ℕ → Group K) : Option (ℕ → Group K) :=
  if (List.range n).all (fun g => (comm g).isNone) then some S
  else if commsMatch n comm then do
    let ps ← (List.range n).mapM fun g => bcastDatatypeOf (S g).dsg ((comm g).getD [])
    bcastIndexed o (List.range n) ps S
  else none

/-- `startSingleBroadcastDSGs`, `SparseGridWorker.hpp` l.1118-1135, `updateFullFromCombinedSparseGrids`,
`ProcessGroupWorker.cpp` l.725-734, and the counterpart on the other groups, l.1023-1034. -/
def linkDistribute [Zero K] (variant : CombinationVariant) (n o : ℕ) (comm : ℕ → Option (List ℕ))
    (S : ℕ → Group K) : Option (ℕ → Group K) := do
  let S ← match variant with
    | .sparseGridReduce => bcastWhole n o S
    | .outgroupSparseGridReduce => bcastOutgroup n o comm S
    | _ => none
  forGroups (fun _ g => g.extractTasks true) (List.range n) S

/-- What is received is the new data of the extra sparse grid, which is copied to the sparse grid, or of
the sparse grid itself, l.761-770. -/
def linkIncoming (d : Dsg K) (extra : Option (Dsg K)) (b : Buf K) : Option (Dsg K) :=
  match extra with
  | none => some { d with data := b }
  | some e => d.copyAll { e with data := b }

/-- `readDSGsFromDiskAndReduce`, `SparseGridWorker.hpp` l.831-857, for one file: extra sparse grid and sparse
grid after it. The copy is skipped if the sparse grid has no data (l.848-851). -/
def readAndReduce [Add K] (s : Dsg K × Dsg K) (f : Buf K) : Option (Dsg K × Dsg K) := do
  let b ← addFile s.1.data f
  let e : Dsg K := { s.1 with data := b }
  if s.2.data.len = 0 then return (e, s.2) else do
    let d ← s.2.copyAll e
    return (e, d)

/-- Two systems combine over the third-level manager: sizes (`unifySubspaceSizesThirdLevel`,
`ProcessManager.hpp` l.652-697) and one combination (`combineThirdLevel`, l.505-528). `firstSends`: the
manager asks the first system for its data first (C48). -/
def linkCombine [Ring K] (variant : CombinationVariant) (hasExtra firstSends : Bool) (maxChunk : ℕ)
    (levels : List (List ℕ)) (sys : ℕ → WideSystem K) : Option (List (ℕ → Group K)) := do
  let sizes ← (List.range 2).mapM fun s => linkSizes variant levels (sys s)
  let states ← (List.range 2).mapM fun s => do
    let w ← sizes[s]?
    let remote ← sizes[1 - s]?
    linkStart hasExtra levels (sys s) w (← remote.sizes[(sys (1 - s)).o]?)
  let collected ← (List.range 2).mapM fun s => do
    let st ← states[s]?
    linkCollect variant none maxChunk (sys s).n st
  let out ← (List.range 2).mapM fun s => do
    let st ← states[s]?
    let S ← collected[s]?
    linkOutgoing (S (sys s).o).dsg st.extra
  let sum ← exchangeOverManager firstSends (← out[0]?).data (← out[1]?).data
  (List.range 2).mapM fun s => do
    let st ← states[s]?
    let S ← collected[s]?
    let e ← out[s]?
    let d ← linkIncoming (S (sys s).o).dsg (st.extra.map fun _ => e) sum
    linkDistribute variant (sys s).n (sys s).o st.comm
      (Function.update S (sys s).o { S (sys s).o with dsg := d })

/-- Sizes, and one combination of `k` systems through files (`combineSystemWideAndWrite`,
`ProcessGroupWorker.cpp` l.492-527, and `combineReadDistributeSystemWide`, l.848-930), in a variant in which the
sparse grids stay allocated; `order s` are the other systems in the order in which system `s` reads their
files. -/
def linkFiles [Ring K] (variant : CombinationVariant) (maxChunk : ℕ) (levels : List (List ℕ)) (k : ℕ)
    (sys : ℕ → WideSystem K) (order : ℕ → List ℕ) : Option (List (ℕ → Group K)) := do
  let sizes ← (List.range k).mapM fun s => linkSizes variant levels (sys s)
  let written ← (List.range k).mapM fun s => do
    let w ← sizes[s]?
    linkWritten (sys s) w
  let states ← (List.range k).mapM fun s => do
    let w ← sizes[s]?
    let others ← (order s).mapM fun t => written[t]?
    linkStartFiles variant levels (sys s) w others
  let collected ← (List.range k).mapM fun s => do
    let st ← states[s]?
    linkCollect variant (some (sys s).o) maxChunk (sys s).n st
  let out ← (List.range k).mapM fun s => do
    let st ← states[s]?
    let S ← collected[s]?
    linkOutgoing (S (sys s).o).dsg st.extra
  (List.range k).mapM fun s => do
    let st ← states[s]?
    let S ← collected[s]?
    let e ← out[s]?
    let files ← (order s).mapM fun t => out[t]?.map fun d => d.data
    let r ← files.foldlM readAndReduce (e, (S (sys s).o).dsg)
    linkDistribute variant (sys s).n (sys s).o st.comm
      (Function.update S (sys s).o { S (sys s).o with dsg := r.2 })

end Verif

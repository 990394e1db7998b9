import Verif.Model.DistributedCombine
import Verif.Model.MachineKernels

/-!
# One complete combination in the arithmetic of a machine

As `Verif.Model.DistributedCombine` for the variant `sparseGridReduce`, but with the additions,
subtractions and multiplications of a machine: `/repo/src/manager/ProcessGroupWorker.cpp` l.528-564,
`/repo/src/manager/SparseGridWorker.hpp` l.998-1031, `/repo/src/combicom/CombiCom.hpp` l.116-165 and
`/repo/src/sparsegrid/DistributedSparseGridUniform.hpp` l.814-866. Simplification: the numbers are real
(`CombiDataType` may be complex).
-/

namespace Verif

variable {K : Type}

/-- The order in which `MPI_SUM` adds the numbers of the groups: MPI may bracket and permute them. -/
inductive SumOrder
  | one (g : ℕ)
  | add (a b : SumOrder)

/-- The groups in the order of addition. -/
def SumOrder.groups : SumOrder → List ℕ
  | one g => [g]
  | add a b => a.groups ++ b.groups

/-- The sum in this order with the addition of a machine; `x g` is the number of group `g`. -/
def SumOrder.eval (plus : K → K → K) (x : ℕ → K) : SumOrder → K
  | one g => x g
  | add a b => plus (a.eval plus x) (b.eval plus x)

/-- An order for `n` groups: every group occurs once. -/
def SumOrder.Valid (n : ℕ) (o : SumOrder) : Prop := o.groups.Perm (List.range n)

/-- `MPI_Allreduce` with `MPI_SUM` on `count` elements from `offset`, `CombiCom.hpp` l.135-145; `order g i` is
the order in which MPI adds the elements `i` for the result of process `g`. (It is recommended, not required, that
all processes get the same result.) -/
def allreduceCallWith [Zero K] (plus : K → K → K) (order : ℕ → ℕ → SumOrder) (ds : List (Buf K))
    (offset count : ℕ) : List (Buf K) :=
  ds.zipIdx.map fun p => ⟨p.1.len, fun i =>
    if offset ≤ i ∧ i < offset + count then
      (order p.2 i).eval plus fun g => (ds.map fun e => e.val i).getD g 0
    else p.1.val i⟩

/-- "local reduce", `SparseGridWorker.hpp` l.1008-1014. -/
def Group.addTasksWith (A : Adder K) (mul : K → K → K) (g : Group K) : Option (Group K) := do
  let d ← g.tasks.foldlM (fun d t => addDistributedFullGridWith A mul true d t.2 t.1) g.dsg
  return { g with dsg := d }

/-- Zeroing and local reduce in `reduceLocalAndGlobal`, l.1006-1014. -/
def Group.collectAllWith [Zero K] (A : Adder K) (mul : K → K → K) (g : Group K) : Option (Group K) := do
  let d ← g.dsg.createOrZero
  ({ g with dsg := d } : Group K).addTasksWith A mul

/-- `reduceLocalAndGlobal`, l.998-1031, for sparse grid reduce, followed by
`distributeCombinedSolutionToTasks`, l.614-625. -/
def combineSparseGridReduceWith [AddCommMonoid K] (A : Adder K) (mul : K → K → K) (order : ℕ → ℕ → SumOrder)
    (maxChunk : ℤ) (n : ℕ) (S : ℕ → Group K) : Option (ℕ → Group K) := do
  let S ← forGroups (fun _ g => g.collectAllWith A mul) (List.range n) S
  let bs ← sparseGridReduce (allreduceCallWith A.add order) maxChunk
    ((List.range n).map fun g => (S g).dsg.data)
  let S : ℕ → Group K := fun g => (bs[g]?).elim (S g) (S g).setData
  forGroups (fun _ g => g.extractTasks true) (List.range n) S

/-- Initialisation of the sparse grids and one combination of the processes with the same position, see
`combineVariant` and `sparseGridReduceVariant`. -/
def combineRounded [AddCommMonoid K] (A : Adder K) (mul : K → K → K) (order : ℕ → ℕ → SumOrder)
    (maxChunk : ℕ) (levels : List (List ℕ)) (n : ℕ) (tasks : ℕ → List (K × Dfg K)) :
    Option (ℕ → Group K) :=
  (initDsgs .sparseGridReduce levels n tasks).bind fun dsgs =>
    combineSparseGridReduceWith A mul order maxChunk n fun g =>
      let d := dsgs.getD g (Dsg.empty levels)
      afterSizes d (outgroupSizes (dsgs.map (·.sizes)) (List.range levels.length) d.sizes) (tasks g)

/-- A combination on all positions `c`, see `combinePositions`. -/
def combinePositionsRounded [AddCommMonoid K] (A : Adder K) (mul : K → K → K)
    (order : List ℕ → ℕ → ℕ → SumOrder) (layout : List ℕ) (maxChunk : ℕ) (levels : List (List ℕ)) (n : ℕ)
    (tasks : ℕ → List (GroupTask K)) : Option (ℕ → List (GroupTask K)) :=
  let result := fun c => combineRounded A mul (order c) maxChunk levels n fun g =>
    (tasks g).map fun t => t.onProcess c
  if (groupProcesses layout).all fun c => (result c).isSome then
    some fun g => (tasks g).zipIdx.map fun x => { x.1 with data := fun c =>
      (((result c).bind fun S => (S g).tasks[x.2]?).map fun y => y.2.data).getD ⟨0, x.1.data c |>.val⟩ }
  else none

/-- `hierarchizeFullGrids`, `TaskWorker.hpp` l.86-107, see `groupHierarchize`. -/
def groupHierarchizeWith [Field K] (ar : Arith K) (P : CombineParams)
    (junk : ℕ → List ℕ → ℕ → ℕ → ℕ → K) (tasks : List (GroupTask K)) : Option (List (GroupTask K)) :=
  mapGroupTasks (fun i t =>
    if P.sel.length = t.dims.length ∧ P.bases.length = t.dims.length ∧
        P.lmin.length = t.dims.length then
      distributedHierarchizeWith ar (distDims t.dims P.bases (effectiveLMin P.boundary P.lmin)) (junk i)
        (selectedDims P.sel) t.data
    else none) 0 tasks

/-- `dehierarchizeFullGrids`, `TaskWorker.hpp` l.29-48, see `groupDehierarchize`. -/
def groupDehierarchizeWith [Field K] (ar : Arith K) (P : CombineParams)
    (junk : ℕ → List ℕ → ℕ → ℕ → ℕ → K) (tasks : List (GroupTask K)) : Option (List (GroupTask K)) :=
  mapGroupTasks (fun i t =>
    if P.sel.length = t.dims.length ∧ P.bases.length = t.dims.length ∧
        P.lmin.length = t.dims.length then
      distributedDehierarchizeWith ar (distDims t.dims P.bases (effectiveLMin P.boundary P.lmin)) (junk i)
        (selectedDims P.sel) t.data
    else none) 0 tasks

/-- `combineAtOnce`, `ProcessGroupWorker.cpp` l.537-564, on `n` groups with the given layout. -/
def roundedCombineAtOnce [Field K] (A : Adder K) (mul : K → K → K) (order : List ℕ → ℕ → ℕ → SumOrder)
    (layout : List ℕ) (P : CombineParams) (maxChunk : ℕ) (levels : List (List ℕ)) (n : ℕ)
    (junk junk' : ℕ → ℕ → List ℕ → ℕ → ℕ → ℕ → K) (tasks : ℕ → List (GroupTask K)) :
    Option (ℕ → List (GroupTask K)) :=
  (onProcessGroups n fun g => groupHierarchizeWith (Arith.machine A) P (junk g) (tasks g)).bind fun hs =>
    (combinePositionsRounded A mul order layout maxChunk levels n hs).bind fun ts =>
      onProcessGroups n fun g => groupDehierarchizeWith (Arith.machine A) P (junk' g) (ts g)

end Verif

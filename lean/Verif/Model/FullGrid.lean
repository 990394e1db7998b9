import Mathlib.Data.List.Basic
import Mathlib.Data.Nat.Log
import Mathlib.Data.Nat.Factorization.Defs

/-!
# Indexing and decomposition of distributed full grids

Models `src/fullgrid/Tensor.hpp`, `src/utils/DecompositionUtils.hpp`, the index functions of
`src/fullgrid/DistributedFullGrid.hpp` and `src/mpi/MPICartesianUtils.hpp`.
Indices are unbounded; the code uses a 32-bit `IndexType`. `Verif.Model.IndexRange` and C90 give the
conditions under which both agree.
-/

namespace Verif

/-! ### `TensorIndexer` -/

/-- The loop of the constructor, `Tensor.hpp` l.25-28. -/
def offsetsLoop : (extents : List ℕ) → (nrElements : ℕ) → List ℕ
  | [], _ => []
  | e :: es, nr => nr :: offsetsLoop es (nr * e)

/-- `localOffsets_`, `Tensor.hpp` l.20-30. -/
def tensorOffsets (extents : List ℕ) : List ℕ := offsetsLoop extents 1

/-- `size`, `Tensor.hpp` l.53-62. -/
def tensorSize (extents : List ℕ) : ℕ := if extents = [] then 0 else extents.foldl (· * ·) 1

/-- `sequentialIndex`, `Tensor.hpp` l.64-67: inner product with the offsets. -/
def sequentialIndex (extents index : List ℕ) : ℕ :=
  (List.zipWith (· * ·) index (tensorOffsets extents)).foldl (· + ·) 0

/-- The loop of `getVectorIndex`, `Tensor.hpp` l.72-79, over the reversed offsets. -/
def vectorIndexLoop : (revOffsets : List ℕ) → (index : ℕ) → (acc : List ℕ) → List ℕ
  | [], _, acc => acc
  | o :: os, index, acc => vectorIndexLoop os (index % o) (index / o :: acc)

/-- `getVectorIndex`, `Tensor.hpp` l.69-81. -/
def getVectorIndex (extents : List ℕ) (index : ℕ) : List ℕ :=
  vectorIndexLoop (tensorOffsets extents).reverse index []

/-! ### Decompositions, `src/utils/DecompositionUtils.hpp` -/

/-- ceiling of `a / b` -/
def ceilDiv' (a b : ℕ) : ℕ := (a + b - 1) / b

/-- `getDefaultDecomposition` in one dimension, l.20-38; `none` is the exception of l.22-25.
Simplification: exact arithmetic for the `double` computation. -/
def getDefaultDecomposition1d (numPoints procs : ℕ) (forward : Bool) : Option (List ℕ) :=
  if procs > numPoints then none
  else some ((List.range procs).map fun j =>
    if forward then ceilDiv' (numPoints * j) procs else numPoints * j / procs)

/-- `downsampleDecomposition` in one dimension, l.69-89. `boundary` is the boundary flag.
Simplification: exact arithmetic for the `double` computation; `2^levelDiff` for the tables. -/
def downsampleDecomposition1d (dec : List ℕ) (refLevel newLevel boundary : ℕ) : List ℕ :=
  let levelDiff := refLevel - newLevel
  if boundary > 0 then dec.map fun d => ceilDiv' d (2 ^ levelDiff)
  else
    let leftProtrusion : ℤ := 2 ^ levelDiff - 1
    dec.map fun (d : ℕ) => (max 0 (-((-((d : ℤ) - leftProtrusion)) / (2 ^ levelDiff : ℤ)))).toNat

/-- `getNumDofNodal`, `src/utils/LevelSetUtils.hpp` l.11-21; `none` is the exception. -/
def getNumDofNodal (l boundary : ℕ) : Option ℕ :=
  if l > 0 then some (2 ^ l + boundary - 1)
  else if boundary = 0 then none else some boundary

/-- `getNumDofHierarchical`, `src/utils/LevelSetUtils.hpp` l.43-50 (for `l > 0`). -/
def getNumDofHierarchical (l boundary : ℕ) : ℕ :=
  if l = 1 then 1 + boundary else 2 ^ (l - 1)

/-! ### Bounds and owners -/

/-- `getLowerBounds(r)` in one dimension, `DistributedFullGrid.hpp` l.893-903:
`decomposition[coord]` -/
def lowerBound1d (dec : List ℕ) (c : ℕ) : Option ℕ := dec[c]?

/-- `getUpperBounds(r)` in one dimension, l.913-933: the lower bound of the next process, or
the number of points for the last process. -/
def upperBound1d (dec : List ℕ) (numPoints c : ℕ) : Option ℕ :=
  if c + 1 < dec.length then lowerBound1d dec (c + 1) else some numPoints

/-- `std::lower_bound`: number of leading elements less than `v` (the result of the binary
search for a sorted range). -/
def stdLowerBound (dec : List ℕ) (v : ℕ) : ℕ := (dec.takeWhile (· < v)).length

/-- `getNeighbor1dFromAxisIndex`, l.958-978: partition index in the dimension; `none` is the
result `-1`. -/
def getNeighborPartition1d (dec : List ℕ) (numPoints : ℕ) (idx : ℤ) : Option ℤ :=
  if idx < 0 then none
  else if idx > (numPoints : ℤ) - 1 then none
  else some ((stdLowerBound dec (idx.toNat + 1) : ℤ) - 1)

/-- `getPartitionCoords` in one dimension, l.1058-1066: last `i` with `idx >= dec[i]`,
initially `-1`. -/
def getPartitionCoord1d (dec : List ℕ) (idx : ℕ) : ℤ :=
  (List.range dec.length).foldl (fun acc i => if idx ≥ dec.getD i 0 then (i : ℤ) else acc) (-1)

/-- One dimension of a distributed grid: decomposition and number of points. -/
structure Dim1 where
  dec : List ℕ
  numPoints : ℕ
deriving Repr

/-- Global sizes of a grid. -/
def globalSizes (g : List Dim1) : List ℕ := g.map (·.numPoints)

/-- `getLowerBounds` of the process with cartesian coordinates `c`, l.893-903. -/
def lowerBounds (g : List Dim1) (c : List ℕ) : List ℕ :=
  List.zipWith (fun d ci => (lowerBound1d d.dec ci).getD 0) g c

/-- `getUpperBounds` of the process with cartesian coordinates `c`, l.913-933. -/
def upperBounds (g : List Dim1) (c : List ℕ) : List ℕ :=
  List.zipWith (fun d ci => (upperBound1d d.dec d.numPoints ci).getD 0) g c

/-- Local sizes, l.654: upper minus lower bounds. -/
def localSizes (g : List Dim1) (c : List ℕ) : List ℕ :=
  List.zipWith (· - ·) (upperBounds g c) (lowerBounds g c)

/-- Componentwise comparison `a <= b` / `a < b` of `IndexVector.hpp` l.44-86. -/
def vecLeB (a b : List ℕ) : Bool := (List.zipWith (fun x y => decide (x ≤ y)) a b).all id
def vecLtB (a b : List ℕ) : Bool := (List.zipWith (fun x y => decide (x < y)) a b).all id

/-- `isGlobalIndexHere`, l.823-826. -/
def isGlobalIndexHere (g : List Dim1) (c idx : List ℕ) : Bool :=
  vecLeB (lowerBounds g c) idx && vecLtB idx (upperBounds g c)

/-- `getGlobalLinearIndex(locLinIndex)`, l.784-797. -/
def getGlobalLinearIndex (g : List Dim1) (c : List ℕ) (locLin : ℕ) : ℕ :=
  let locAxis := getVectorIndex (localSizes g c) locLin
  sequentialIndex (globalSizes g) (lowerBounds g c) + sequentialIndex (globalSizes g) locAxis

/-- `getLocalLinearIndex(globLinIndex)`, l.806-820; `-1` if not on this process. -/
def getLocalLinearIndex (g : List Dim1) (c : List ℕ) (globLin : ℕ) : ℤ :=
  let globAxis := getVectorIndex (globalSizes g) globLin
  if isGlobalIndexHere g c globAxis then
    (sequentialIndex (localSizes g c) globAxis : ℤ) -
      sequentialIndex (globalSizes g) (lowerBounds g c)
  else -1

/-! ### Process grid, `src/mpi/MPICartesianUtils.hpp` -/

/-- `partitionCoords_`, l.33-44: entry at the sequential index of the coordinates of rank `i`
is `i`. `cartCoords` is the result of `MPI_Cart_coords` per rank. The vector is initially 0. -/
def fillPartitionCoords (procs : List ℕ) (cartCoords : List (List ℕ)) : List ℕ :=
  (List.range cartCoords.length).foldl
    (fun v i => v.set (sequentialIndex procs (cartCoords.getD i [])) i)
    (List.replicate (tensorSize procs) 0)

/-- `getRankFromPartitionCoords`, l.100-109. -/
def getRankFromPartitionCoords (procs : List ℕ) (pc : List ℕ) (coords : List ℕ) : Option ℕ :=
  pc[sequentialIndex procs coords]?

/-- `getPartitionCoordsOfRank`, l.80-87: position of the rank, as a vector index. -/
def getPartitionCoordsOfRank (procs : List ℕ) (pc : List ℕ) (r : ℕ) : List ℕ :=
  getVectorIndex procs (pc.idxOf r)

/-! ### Levels of 1-d points -/

/-- `__builtin_ctz`: number of trailing zero bits, for positive arguments. -/
def ctz (n : ℕ) : ℕ := if n = 0 then 0 else if n % 2 = 1 then 0 else ctz (n / 2) + 1
decreasing_by omega

/-- `getLevel`, l.984-1016: `lmax` is the grid's level, `b` the boundary flag. As in the code
the difference is a signed integer. -/
def getLevel (lmax b idx : ℕ) : ℤ :=
  let i := if b = 0 then idx + 1 else idx
  if i = 0 then 0 else (lmax : ℤ) - ctz i

/-- `getLeftPredecessor`, l.1019-1029. -/
def getLeftPredecessor (lmax b idx : ℕ) : ℤ :=
  let l := getLevel lmax b idx
  if l = 0 then -1
  else (idx : ℤ) - 2 ^ ((lmax : ℤ) - l).toNat

/-- `getRightPredecessor`, l.1032-1051; `n` is the global size in this dimension. -/
def getRightPredecessor (lmax b n idx : ℕ) : ℤ :=
  let l := getLevel lmax b idx
  if l = 0 then -1
  else
    let r := (idx : ℤ) + 2 ^ ((lmax : ℤ) - l).toNat
    if b = 1 ∧ r = n then n
    else if r > (n : ℤ) - 1 then -1 else r

/-- `getStrideForThisLevel`, l.1811-1817. -/
def strideForLevel (lmax b l : ℕ) : ℕ :=
  if l = 1 ∧ b > 0 then 2 ^ (lmax - 1) else 2 ^ (lmax - l + 1)

/-- `offsetForThisLevel`, l.1824-1839. -/
def offsetForLevel (lmax b l : ℕ) : ℕ :=
  if b > 0 then (if l = 1 then 0 else 2 ^ (lmax - l)) else 2 ^ (lmax - l) - 1

/-- `getLocalStartForThisLevel`, l.1820-1855; `first` is the first global index of this
process. -/
def localStartForLevel (lmax b first l : ℕ) : ℕ :=
  let stride := strideForLevel lmax b l
  let offset := offsetForLevel lmax b l
  let k := if first < offset then 0 else (first - offset + stride - 1) / stride
  k * stride + offset - first

/-- `getNumPointsOnThisPartition`, l.1858-1864. -/
def numPointsOnPartition (localSize localStart stride : ℕ) : ℕ :=
  if (localSize : ℤ) - 1 < localStart then 0 else (localSize - 1 - localStart) / stride + 1

/-- `get1dIndicesLocal`, l.1343-1363. -/
def get1dIndicesLocal (lmax b first localSize l : ℕ) : List ℕ :=
  if l > lmax then []
  else
    let stride := strideForLevel lmax b l
    let start := localStartForLevel lmax b first l
    (List.range (numPointsOnPartition localSize start stride)).map fun k => start + k * stride

/-! ### Points of a subspace -/

/-- `getFGPointsOfSubspaceRecursive`, l.1791-1808. `revDims` are the pairs (offset, 1-d
indices) from dimension `d` down to 0. -/
def fgPointsRec : (revDims : List (ℕ × List ℕ)) → (sum : ℕ) → List ℕ
  | [], sum => [sum]
  | (o, idxs) :: ds, sum => idxs.flatMap fun idx => fgPointsRec ds (sum + o * idx)

/-- One dimension of the local part of a grid: level, boundary flag, first global index and
local size. -/
structure LocalDim where
  level : ℕ
  boundary : ℕ
  first : ℕ
  size : ℕ
deriving Repr

/-- `getFGPointsOfSubspace`, l.1282-1304. -/
def getFGPointsOfSubspace (g : List LocalDim) (l : List ℕ) : List ℕ :=
  if (List.zipWith (fun li d => decide (li > d.level)) l g).any id then []
  else
    let oneD := List.zipWith (fun d li => get1dIndicesLocal d.level d.boundary d.first d.size li) g l
    let num := (oneD.map List.length).foldl (· * ·) 1
    if num > 0 then
      fgPointsRec ((tensorOffsets (g.map (·.size))).zip oneD).reverse 0
    else []

end Verif

import Verif.Model.Kahan
import Mathlib.Algebra.Ring.Defs
import Mathlib.Logic.Function.Basic
import Verif.Model.LevelSets
import Verif.Model.FullGrid

/-!
# Storage of the distributed sparse grid

`src/sparsegrid/DistributedSparseGridUniform.hpp`, `src/sparsegrid/AnyDistributedSparseGrid.cpp`
and the transfer from and to full grids in `src/fullgrid/DistributedFullGrid.hpp`.

A `std::vector<FG_ELEMENT>` is a `Buf`: a length and contents; an access at or behind the length
is undefined behaviour and makes the model return `none`. Pointers into such a vector are offsets
from its beginning. Values are elements of an arbitrary ring (exact arithmetic). A `std::set` of
subspace indices is its ascending list of elements.
-/

namespace Verif

/-- A vector of values. -/
structure Buf (K : Type) where
  len : ℕ
  val : ℕ → K

namespace Buf
variable {K : Type}

/-- reading element `i` -/
def get? (b : Buf K) (i : ℕ) : Option K := if i < b.len then some (b.val i) else none

/-- writing element `i` -/
def set? (b : Buf K) (i : ℕ) (x : K) : Option (Buf K) :=
  if i < b.len then some ⟨b.len, Function.update b.val i x⟩ else none

end Buf

/-- `getAccumulatedDataSize`, `AnyDistributedSparseGrid.cpp` l.23-31 (`size_t`, unbounded here);
an index outside the sizes is undefined behaviour. -/
def accumulatedDataSize (sizes : List ℕ) : (subset : List ℕ) → Option ℕ
  | [] => some 0
  | i :: is => do
    let s ← sizes[i]?
    let t ← accumulatedDataSize sizes is
    return s + t

/-- The pointer loop of `createSubspaceData` (l.61-67) and `createKahanBuffer` (l.90-96),
`DistributedSparseGridUniform.hpp`: `offset` has type `SubspaceSizeType = uint32_t`
(`Types.hpp`) and wraps around. `i` is the loop counter. -/
def pointersLoop (sel : List ℕ) : (offset i : ℕ) → (sizes : List ℕ) → List ℕ
  | _, _, [] => []
  | offset, i, s :: ss =>
    offset :: pointersLoop sel (if i ∈ sel then (offset + s) % 2 ^ 32 else offset) (i + 1) ss

/-- The members of `DistributedSparseGridUniform` and its data container (l.140-155). -/
structure Dsg (K : Type) where
  /-- `levels_` -/
  levels : List (List ℕ)
  /-- `subspacesDataSizes_` -/
  sizes : List ℕ
  /-- `subspacesWithData_` -/
  sel : List ℕ
  /-- `subspacesData_` -/
  data : Buf K
  /-- `subspaces_` -/
  ptr : List ℕ
  /-- `kahanData_` -/
  kahan : Buf K
  /-- `kahanDataBegin_` -/
  kptr : List ℕ

/-- Construction (l.415-436): levels only, all sizes zero, no data. -/
def Dsg.empty {K : Type} [Zero K] (levels : List (List ℕ)) : Dsg K :=
  ⟨levels, List.replicate levels.length 0, [], ⟨0, fun _ => 0⟩, [], ⟨0, fun _ => 0⟩, []⟩

/-- An empty selection means all subspaces (l.47-52 and l.78-83). -/
def Dsg.selectDefault {K : Type} (d : Dsg K) : Dsg K :=
  if d.sel = [] then { d with sel := List.range d.sizes.length } else d

/-- `createKahanBuffer`, l.77-98. Simplification: the `memset` of l.87 is taken to zero the
buffer exactly, which holds if `sizeof(FG_ELEMENT) == sizeof(FG_ELEMENT*)`; see `kahanMemset`. -/
def Dsg.createKahanBuffer {K : Type} [Zero K] (d : Dsg K) : Option (Dsg K) := do
  let d := d.selectDefault
  let n ← accumulatedDataSize d.sizes d.sel
  return { d with kahan := ⟨n, fun _ => 0⟩, kptr := pointersLoop d.sel 0 0 d.sizes }

/-- `createSubspaceData`, l.46-74. -/
def Dsg.createSubspaceData {K : Type} [Zero K] (d : Dsg K) : Option (Dsg K) := do
  let d := d.selectDefault
  let n ← accumulatedDataSize d.sizes d.sel
  let d' : Dsg K := { d with data := ⟨n, fun _ => 0⟩, ptr := pointersLoop d.sel 0 0 d.sizes }
  if d'.kahan.len = 0 then d'.createKahanBuffer else some d'

/-- `allocateDifferentSubspaces`, l.130-137. -/
def Dsg.allocateDifferentSubspaces {K : Type} [Zero K] (d : Dsg K) (sel : List ℕ) :
    Option (Dsg K) := do
  let d ← ({ d with sel := sel } : Dsg K).createSubspaceData
  d.createKahanBuffer

/-- `deleteSubspaceData`, l.101-107. Null pointers are modelled by removing the pointers. -/
def Dsg.deleteSubspaceData {K : Type} (d : Dsg K) : Dsg K :=
  { d with data := ⟨0, d.data.val⟩, kahan := ⟨0, d.kahan.val⟩, ptr := [], kptr := [] }

/-- `setDataSize`, l.686-702; an index outside the sizes is undefined behaviour. -/
def Dsg.setDataSize {K : Type} (d : Dsg K) (i newSize : ℕ) : Option (Dsg K) := do
  let s ← d.sizes[i]?
  let d := if newSize ≠ s then d.deleteSubspaceData else d
  return { d with sizes := d.sizes.set i newSize }

/-- The bytes written by the `memset` in `createKahanBuffer`, l.87:
`kahanData_.size() * sizeof(FG_ELEMENT*)`, against the bytes of the buffer,
`kahanData_.size() * sizeof(FG_ELEMENT)`. -/
def kahanMemset (n sizeofElement sizeofPointer : ℕ) : ℕ × ℕ := (n * sizeofPointer, n * sizeofElement)

/-! ### Looking up a subspace -/

/-- `std::lower_bound(levels_.begin() + start, levels_.end(), l)` as distance from the beginning:
the first position whose level vector is not lexicographically smaller. -/
def lowerBoundFrom (levels : List (List ℕ)) (start : ℕ) (l : List ℕ) : ℕ :=
  start + ((levels.drop start).takeWhile fun k => decide (k < l)).length

/-- `getIndexInRange`, l.575-591. Advancing the iterator before the beginning or behind the end
is undefined behaviour (`none`). -/
def getIndexInRange (levels : List (List ℕ)) (l : List ℕ) (lowerBound : ℤ) : Option ℤ :=
  if lowerBound < 0 ∨ (levels.length : ℤ) < lowerBound then none
  else
    let found := lowerBoundFrom levels lowerBound.toNat l
    some (if levels[found]? = some l then (found : ℤ) else -1)

/-- `getIndex`, l.594-599. -/
def getIndex (levels : List (List ℕ)) (l : List ℕ) : Option ℤ := getIndexInRange levels l 0

/-- The look-ups in the loops of `registerDistributedFullGrid` (l.780-785),
`addDistributedFullGrid` (l.826-832) and `extractFromUniformSG`: the result of each look-up is
the hint of the next. -/
def lookups (levels : List (List ℕ)) : (hint : ℤ) → (queries : List (List ℕ)) → Option (List ℤ)
  | _, [] => some []
  | hint, q :: qs => do
    let i ← getIndexInRange levels q hint
    let is ← lookups levels i qs
    return i :: is

/-- `std::lower_bound` on the positions `first, ..., first + len - 1`, as libstdc++ and libc++ implement
it; `none`: a position outside of the levels is read. -/
def lowerBoundSearch (levels : List (List ℕ)) (l : List ℕ) : (first : ℤ) → (len : ℕ) → Option ℤ
  | first, 0 => some first
  | first, len + 1 =>
    let half := (len + 1) / 2
    let middle := first + half
    if middle < 0 then none
    else (levels[middle.toNat]?).bind fun m =>
      if m < l then lowerBoundSearch levels l (middle + 1) (len + 1 - half - 1)
      else lowerBoundSearch levels l first half
  termination_by _ len => len

/-- `getIndexInRange`, l.575-591, with iterators as positions, as in the common standard libraries: starting
one before the beginning, after a miss, is undefined only if that position is read. The loops below use
this function. -/
def getIndexFlat (levels : List (List ℕ)) (l : List ℕ) (lowerBound : ℤ) : Option ℤ :=
  (lowerBoundSearch levels l lowerBound ((levels.length : ℤ) - lowerBound).toNat).map fun found =>
    if 0 ≤ found ∧ levels[found.toNat]? = some l then found else -1

/-- The look-ups of `lookups`, with iterators as positions. -/
def lookupsFlat (levels : List (List ℕ)) : (hint : ℤ) → (queries : List (List ℕ)) → Option (List ℤ)
  | _, [] => some []
  | hint, q :: qs => do
    let i ← getIndexFlat levels q hint
    let is ← lookupsFlat levels i qs
    return i :: is

/-! ### Registering, adding and extracting full grids -/

/-- The local part of a `DistributedFullGrid`: its dimensions and its data. -/
structure Dfg (K : Type) where
  dims : List LocalDim
  data : Buf K

/-- levels of the grid -/
def Dfg.levels {K : Type} (g : Dfg K) : List ℕ := g.dims.map (·.level)

/-- The number of local points of a subspace, l.787-790: the product of
`dfg.getNumPointsOnThisPartition(level[d], d)` (`DistributedFullGrid.hpp` l.1843-1864). -/
def numPointsOfSubspace (dims : List LocalDim) (level : List ℕ) : ℕ :=
  (List.zipWith (fun d l =>
    numPointsOnPartition d.size (localStartForLevel d.level d.boundary d.first l)
      (strideForLevel d.level d.boundary l)) dims level).foldl (· * ·) 1

/-- Body of the loop in `registerDistributedFullGrid`, l.784-801. Simplification: the loop is
run by one thread; with several, each one runs an ascending part of it. -/
def registerStep {K : Type} (g : Dfg K) (st : Dsg K × ℤ) (level : List ℕ) :
    Option (Dsg K × ℤ) := do
  let index ← getIndexFlat st.1.levels level st.2
  if index > -1 then
    let s ← st.1.sizes[index.toNat]?
    if s = 0 then
      let d ← st.1.setDataSize index.toNat (numPointsOfSubspace g.dims level)
      return (d, index)
    else return (st.1, index)
  else return (st.1, index)

/-- `registerDistributedFullGrid`, l.774-803. -/
def registerDistributedFullGrid {K : Type} (d : Dsg K) (g : Dfg K) : Option (Dsg K) := do
  let r ← (getDownSet g.levels).foldlM (registerStep g) (d, 0)
  return r.1

/-- `shouldBeCopied`, l.833-836 (and `DistributedFullGrid.hpp` l.1323-1326): `sparseGridFullyAllocated`
is the template parameter. -/
def shouldBeCopied {K : Type} (fully : Bool) (d : Dsg K) (sIndex : ℤ) : Option Bool :=
  if sIndex > -1 then do
    let s ← d.sizes[sIndex.toNat]?
    return decide (s > 0) && (fully || decide (sIndex.toNat ∈ d.sel))
  else some false

/-- Loop over the points of a subspace in `addDistributedFullGrid`, l.851-862: Kahan summation
into `s` (data) and `k` (residuals), at the running positions `sp`, `kp`, with the operations `A` and `mul` of
the machine. -/
def addPointsWith {K : Type} (A : Adder K) (mul : K → K → K) (coeff : K) (x : Buf K) :
    (s k : Buf K) → (sp kp : ℕ) → (points : List ℕ) → Option (Buf K × Buf K)
  | s, k, _, _, [] => some (s, k)
  | s, k, sp, kp, p :: ps => do
    let xv ← x.get? p
    let summand := mul coeff xv
    let kv ← k.get? kp
    let sv ← s.get? sp
    let r := kahanStep A (sv, kv) summand
    let k ← k.set? kp r.2
    let s ← s.set? sp r.1
    addPointsWith A mul coeff x s k (sp + 1) (kp + 1) ps

/-- Body of the loop in `addDistributedFullGrid`, l.831-865. -/
def addStepWith {K : Type} (A : Adder K) (mul : K → K → K) (fully : Bool) (g : Dfg K) (coeff : K)
    (st : Dsg K × ℤ) (level : List ℕ) : Option (Dsg K × ℤ) := do
  let sIndex ← getIndexFlat st.1.levels level st.2
  let b ← shouldBeCopied fully st.1 sIndex
  if b then
    let sp ← st.1.ptr[sIndex.toNat]?
    let kp ← st.1.kptr[sIndex.toNat]?
    let r ← addPointsWith A mul coeff g.data st.1.data st.1.kahan sp kp (getFGPointsOfSubspace g.dims level)
    return ({ st.1 with data := r.1, kahan := r.2 }, sIndex)
  else return (st.1, sIndex)

/-- `addDistributedFullGrid`, l.814-866. Simplification: run by one thread. -/
def addDistributedFullGridWith {K : Type} (A : Adder K) (mul : K → K → K) (fully : Bool) (d : Dsg K)
    (g : Dfg K) (coeff : K) : Option (Dsg K) := do
  let r ← (getDownSet g.levels).foldlM (addStepWith A mul fully g coeff) (d, 0)
  return r.1

/-- `addDistributedFullGrid` without rounding. -/
def addDistributedFullGrid {K : Type} [Ring K] (fully : Bool) (d : Dsg K) (g : Dfg K)
    (coeff : K) : Option (Dsg K) :=
  addDistributedFullGridWith (Adder.exact K) (fun a b => a * b) fully d g coeff

/-- Loop over the points of a subspace in `extractFromUniformSG`, `DistributedFullGrid.hpp`
l.1331-1334. -/
def extractPoints {K : Type} (s : Buf K) : (x : Buf K) → (sp : ℕ) → (points : List ℕ) →
    Option (Buf K)
  | x, _, [] => some x
  | x, sp, p :: ps => do
    let v ← s.get? sp
    let x ← x.set? p v
    extractPoints s x (sp + 1) ps

/-- Body of the loop in `extractFromUniformSG`, `DistributedFullGrid.hpp` l.1321-1338. The
returned count `numCopied` is left out. -/
def extractStep {K : Type} (fully : Bool) (d : Dsg K) (st : Dfg K × ℤ) (level : List ℕ) :
    Option (Dfg K × ℤ) := do
  let sIndex ← getIndexFlat d.levels level st.2
  let b ← shouldBeCopied fully d sIndex
  if b then
    let sp ← d.ptr[sIndex.toNat]?
    let x ← extractPoints d.data st.1.data sp (getFGPointsOfSubspace st.1.dims level)
    return ({ st.1 with data := x }, sIndex)
  else return (st.1, sIndex)

/-- `extractFromUniformSG`, `DistributedFullGrid.hpp` l.1308-1340. Simplification: run by one
thread. -/
def extractFromUniformSG {K : Type} (fully : Bool) (g : Dfg K) (d : Dsg K) : Option (Dfg K) := do
  let r ← (getDownSet g.levels).foldlM (extractStep fully d) (g, 0)
  return r.1

/-! ### Minimum and maximum -/

/-- `std::numeric_limits<double>::min()`: the smallest positive normal number. -/
def dblMin : ℚ := 1 / 2 ^ 1022

/-- `std::numeric_limits<double>::max()`. -/
def dblMax : ℚ := (2 - 1 / 2 ^ 52) * 2 ^ 1023

/-- One subspace in `accumulateMinMaxCoefficients`, l.744-760: `(min, max)` are the stored
coefficients, `first :: rest` its data. An empty subspace is skipped. -/
def accumulateMinMax (mm : ℚ × ℚ) : (data : List ℚ) → ℚ × ℚ
  | [] => mm
  | x :: xs => (min mm.1 (xs.foldl min x), max mm.2 (xs.foldl max x))

/-- The stored coefficients after calls with the given contents of the subspace; the
initialisation is in l.733-738. -/
def minMaxAfter (calls : List (List ℚ)) : ℚ × ℚ := calls.foldl accumulateMinMax (dblMax, dblMin)

/-! ### Subspace communicators -/

/-- The contribution of one rank in `getSubspaceVote`, `AnyDistributedSparseGrid.cpp` l.125-143;
`none` is the exception of l.130. -/
def ownVote (rank : ℕ) (sizes : List ℕ) : Option (List ℕ) :=
  if rank ≥ 256 then none else some (sizes.map fun s => if s > 0 then 1 <<< rank else 0)

/-- `getSubspaceVote`, l.125-152: the result of the `MPI_Allreduce` with `MPI_BOR` on all ranks of
the communicator; `sizes` are the subspace sizes on the ranks. Simplification: the reduction over
the bytes of the boost integers is taken as the bitwise or of the numbers. -/
def getSubspaceVote (n : ℕ) (sizes : List (List ℕ)) : Option (List ℕ) := do
  let votes ← ((List.range sizes.length).zip sizes).mapM fun p => ownVote p.1 p.2
  return votes.foldl (List.zipWith (· ||| ·)) (List.replicate n 0)

/-- `subspaceVote[i] != 0 && (subspaceVote[i] & (subspaceVote[i] - 1)) != 0`, l.173, l.235. -/
def manyBits (v : ℕ) : Bool := decide (v ≠ 0) && decide (v &&& (v - 1) ≠ 0)

/-- `subspacesByVote[v].push_back(i)` for a `std::map`, as list of pairs ascending in the key. -/
def mapPushBack (v i : ℕ) : List (ℕ × List ℕ) → List (ℕ × List ℕ)
  | [] => [(v, [i])]
  | (w, is) :: m =>
    if v < w then (v, [i]) :: (w, is) :: m
    else if v = w then (w, is ++ [i]) :: m
    else (w, is) :: mapPushBack v i m

/-- The map `subspacesByVote`, l.231-238. -/
def subspacesByVote (votes : List ℕ) : List (ℕ × List ℕ) :=
  (List.range votes.length).foldl
    (fun m i => match votes[i]? with
      | some v => if manyBits v then mapPushBack v i m else m
      | none => m) []

/-- The ranks in a vote, l.250-254. -/
def ranksOfVote (v : ℕ) : List ℕ := (List.range 256).filter fun r => v &&& (1 <<< r) ≠ 0

/-- `setSubspaceCommunicators`, l.221-275, on rank `rank`: the list `subspacesByComm_`, with a
communicator given by its members. `numSubspaces` is the number of subspaces. -/
def setSubspaceCommunicators (numSubspaces : ℕ) (sizes : List (List ℕ)) (rank : ℕ) :
    Option (List (List ℕ × List ℕ)) := do
  let votes ← getSubspaceVote numSubspaces sizes
  return ((subspacesByVote votes).filter fun kv => decide (rank ∈ ranksOfVote kv.1)).map
    fun kv => (ranksOfVote kv.1, kv.2)

/-- The collective `MPI_Comm_create` calls on any rank, in order: the groups passed (l.241-259). -/
def commCreateCalls (numSubspaces : ℕ) (sizes : List (List ℕ)) : Option (List (List ℕ)) := do
  let votes ← getSubspaceVote numSubspaces sizes
  return (subspacesByVote votes).map fun kv => ranksOfVote kv.1

/-- `subspacesForMany` and the or of their votes, `setOutgroupCommunicator` l.167-177. -/
def subspacesForMany (votes : List ℕ) : List ℕ × ℕ :=
  (List.range votes.length).foldl
    (fun m i => match votes[i]? with
      | some v => if manyBits v then (m.1 ++ [i], m.2 ||| v) else m
      | none => m) ([], 0)

/-- `setOutgroupCommunicator`, l.154-219, on rank `rank`: the subspaces assigned to the (given)
communicator, or none if this rank does not use it. -/
def setOutgroupCommunicator (numSubspaces : ℕ) (sizes : List (List ℕ)) (rank : ℕ) :
    Option (Option (List ℕ)) := do
  let votes ← getSubspaceVote numSubspaces sizes
  let m := subspacesForMany votes
  return if rank ∈ ranksOfVote m.2 then some m.1 else none

/-- The subspace sizes on rank `rank` after `setOutgroupCommunicator` (l.193-208): sizes of the
subspaces shared by several ranks are replaced by the maximum over the ranks. -/
def outgroupSizes (sizes : List (List ℕ)) (shared : List ℕ) (own : List ℕ) : List ℕ :=
  (List.range own.length).map fun i =>
    if i ∈ shared then (sizes.map fun s => s.getD i 0).foldl max 0 else own.getD i 0

end Verif

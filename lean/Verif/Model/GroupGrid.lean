import Verif.Model.FullGrid
import Verif.Model.FileIO
import Mathlib.Algebra.Order.Group.Unbundled.Abs
import Mathlib.Data.Rat.Defs

/-!
# Operations of a process group on its distributed grid

`/repo/src/fullgrid/DistributedFullGrid.hpp`: gathering (l.1230-1279), plot files (l.1406-1469), copying
and sending boundary layers (l.1544-1651, l.1875-1899, l.1913-1938), corners (l.1680-1726) and norms
(l.1365-1404).

The processes of the group are their cartesian coordinates; the data of the group is a function from
coordinates to local buffers. MPI calls with illegal arguments, messages longer than the receive buffer,
failed assertions and reads outside of a buffer are `none`.
-/

namespace Verif.GroupGrid

/-! ### Subarrays -/

/-- The positions of a subarray in the order of its elements: the first dimension is fastest
(`MPI_ORDER_FORTRAN`). -/
def subarrayPositions : (sizes subsizes starts : List ℕ) → List ℕ
  | n :: ns, s :: ss, t :: ts =>
    (subarrayPositions ns ss ts).flatMap fun r => (List.range s).map fun i => t + i + n * r
  | _, _, _ => [0]

/-- `MPI_Type_create_subarray`: every subsize is between 1 and the size, and the subarray is inside. -/
def createSubarray (sizes subsizes starts : List ℕ) : Option (List ℕ) :=
  if sizes.length = subsizes.length ∧ sizes.length = starts.length ∧
      (List.zipWith (fun n st => decide (1 ≤ st.1 ∧ st.1 ≤ n ∧ st.2 + st.1 ≤ n)) sizes
        (subsizes.zip starts)).all id
  then some (subarrayPositions sizes subsizes starts) else none

/-- Sending a subarray: the message. -/
def pack {K : Type} (buf : List K) (pos : List ℕ) : Option (List K) := pos.mapM fun p => buf[p]?

/-- Receiving a message into a subarray. -/
def receive {K : Type} (buf : List K) (pos : List ℕ) (msg : List K) : Option (List K) :=
  if msg.length ≤ pos.length ∧ (pos.all fun p => decide (p < buf.length)) = true then
    some ((pos.zip msg).foldl (fun b pv => b.set pv.1 pv.2) buf)
  else none

/-! ### Gathering and plot files -/

/-- One of the receives of `gatherFullGrid`, l.1249-1268. `sizes` are those of the full grid. -/
def gatherFrom {K : Type} (g : List Dim1) (data : List ℕ → List K) (sizes : List ℕ) (fg : List K)
    (c : List ℕ) : Option (List K) := do
  let pos ← createSubarray sizes (List.zipWith (· - ·) (upperBounds g c) (lowerBounds g c))
    (lowerBounds g c)
  receive fg pos (data c)

/-- `gatherFullGrid`, l.1230-1279: what the root has in its full grid. `cs` are the processes in the order
in which their messages are received; `fg` is the buffer of the full grid before. -/
def gatherFullGrid {K : Type} (g : List Dim1) (cs : List (List ℕ)) (data : List ℕ → List K)
    (sizes : List ℕ) (fg : List K) : Option (List K) :=
  cs.foldlM (gatherFrom g data sizes) fg

/-- The values in the plot file, l.1408-1415 and l.1453-1457 (also `writePlotFileVTK`, l.1475-1482 and
l.1531-1535): every process writes its data through the file view
given by `getSizesSubsizesStartsOfSubtensor`, l.834-841. `file` are the values in the file before,
as many as the grid has. -/
def plotValues {K : Type} (g : List Dim1) (cs : List (List ℕ)) (data : List ℕ → List K) (file : List K) :
    Option (List K) :=
  cs.foldlM (fun file c => do
    let pos ← createSubarray (globalSizes g) (localSizes g c) (lowerBounds g c)
    receive file pos (data c)) file

/-- A 32 bit integer in little endian bytes. -/
def le32 (n : ℕ) : List ℕ := [n % 256, n / 256 % 256, n / 65536 % 256, n / 16777216 % 256]

/-- The bytes that rank 0 writes in front of the values, l.1444-1449: the dimension as one byte, and six
integers from the vector of the sizes; reading past its end is undefined. -/
def plotHeader (sizes : List ℕ) : Outcome (List ℕ) :=
  if sizes.length < 6 then .stuck
  else .ok (sizes.length % 256 :: (sizes.take 6).flatMap le32)

/-- The byte at which the values begin, l.1452. -/
def plotOffset (sizes : List ℕ) : ℕ := (1 + sizes.length) * 4

/-- Reading a little endian 32 bit integer. -/
def readInt (bytes : List ℕ) (at_ : ℕ) : Option ℕ := do
  let a ← bytes[at_]?
  let b ← bytes[at_ + 1]?
  let c ← bytes[at_ + 2]?
  let d ← bytes[at_ + 3]?
  some (a + 256 * b + 65536 * c + 16777216 * d)

/-- `readPlotFile`, `/repo/tools/errorCalc.cpp` l.119-126: dimension and sizes. The values are read from
byte `(1 + dim) * 4`. -/
def readHeader (bytes : List ℕ) : Option (List ℕ) := do
  let dim ← readInt bytes 0
  (List.range dim).mapM fun i => readInt bytes (4 * (1 + i))

/-- `read_ndarray_from_file`, `/repo/tools/plot_raw_slice.py` l.11-31: `np.reshape` takes the last index as
the fastest one. -/
def rawSliceIndex (sizes index : List ℕ) : ℕ := sequentialIndex sizes.reverse index.reverse

/-! ### Boundary layers -/

/-- `MPI_Cart_shift`: source and destination, `none` for `MPI_PROC_NULL`. -/
def cartShift (procs : List ℕ) (periodic : Bool) (d disp : ℕ) (c : List ℕ) :
    Option (List ℕ) × Option (List ℕ) :=
  let p := procs.getD d 0
  let x := c.getD d 0
  if periodic then (some (c.set d ((x + (p - disp % p)) % p)), some (c.set d ((x + disp) % p)))
  else (if disp ≤ x then some (c.set d (x - disp)) else none,
    if x + disp < p then some (c.set d (x + disp)) else none)

/-- The processes in each dimension. -/
def procsOf (g : List Dim1) : List ℕ := g.map fun d => d.dec.length

/-- `getUpwardSubarray`, l.1875-1899: the last layer in dimension `d`. -/
def upwardSubarray (g : List Dim1) (c : List ℕ) (d : ℕ) : Option (List ℕ) :=
  let lower := (lowerBounds g c).modify d (· + ((localSizes g c).getD d 0 - 1))
  let extents := List.zipWith (· - ·) (upperBounds g c) lower
  if extents.getD d 0 = 1 then
    createSubarray (localSizes g c) extents (List.zipWith (· - ·) lower (lowerBounds g c))
  else none

/-- `getDownwardSubarray`, l.1913-1938: the first layer in dimension `d`. -/
def downwardSubarray (g : List Dim1) (c : List ℕ) (d : ℕ) : Option (List ℕ) :=
  let upper := (upperBounds g c).modify d (· - ((localSizes g c).getD d 0 - 1))
  let extents := List.zipWith (· - ·) upper (lowerBounds g c)
  if extents.getD d 0 = 1 then
    createSubarray (localSizes g c) extents (List.zipWith (· - ·) (lowerBounds g c) (lowerBounds g c))
  else none

/-- `MPI_Sendrecv` on all processes: what process `c` receives (`some none`: nothing). `none`: its send or
its receive is not matched. -/
def sendrecv {K : Type} (dest source : List ℕ → Option (List ℕ)) (msg : List ℕ → Option (List K))
    (c : List ℕ) : Option (Option (List K)) := do
  match dest c with
    | none => some ()
    | some r => if source r = some c then some () else none
  match source c with
    | none => some none
    | some r => if dest r = some c then (msg r).map some else none

/-- `getHighestAndLowestNeighbor`, l.1544-1561: lowest and highest; the first assertion (the condition of
the second one is never true). -/
def highestAndLowest (g : List Dim1) (periodic : Bool) (d : ℕ) (c : List ℕ) :
    Option (Option (List ℕ) × Option (List ℕ)) :=
  let s := cartShift (procsOf g) periodic d ((procsOf g).getD d 0 - 1) c
  if (lowerBounds g c).getD d 0 ≠ 0 ∧ s.2 ≠ none then none else some s

/-- `writeLowerBoundaryToUpperBoundary`, l.1563-1583: the data of process `c` afterwards. A process that
sends to itself must not send what it overwrites. -/
def writeLowerToUpper {K : Type} (g : List Dim1) (periodic : Bool) (data : List ℕ → List K) (d : ℕ)
    (c : List ℕ) : Option (List K) := do
  let down ← downwardSubarray g c d
  let up ← upwardSubarray g c d
  let s ← highestAndLowest g periodic d c
  let msg ← sendrecv (fun c => (cartShift (procsOf g) periodic d ((procsOf g).getD d 0 - 1) c).2)
    (fun c => (cartShift (procsOf g) periodic d ((procsOf g).getD d 0 - 1) c).1)
    (fun r => do pack (data r) (← downwardSubarray g r d)) c
  match msg with
    | none => some (data c)
    | some m =>
      if s.1 = some c ∧ ∃ p ∈ down, p ∈ up then none
      else receive (data c) up m

/-- `exchangeGhostLayerUpward`, l.1585-1644: the extents and the receive buffer of process `c`. `b` is the
boundary flag of dimension `d`. -/
def exchangeGhostLayerUpward {K : Type} (g : List Dim1) (periodic : Bool) (b : ℕ)
    (data : List ℕ → List K) (d : ℕ) (c : List ℕ) : Option (List ℕ × List K) := do
  let _ ← upwardSubarray g c d
  let s := cartShift (procsOf g) periodic d 1 c
  if b = 1 ∧ (s.1 = none ∨ s.2 = none) then none
  else if b = 2 ∧ (lowerBounds g c).getD d 0 = 0 ∧ s.1 ≠ none then none
  else if b = 2 ∧ (upperBounds g c).getD d 0 = (globalSizes g).getD d 0 ∧ s.2 ≠ none then none
  else do
    let extents := if s.1 = none then (localSizes g c).map fun _ => 0 else (localSizes g c).set d 1
    let msg ← sendrecv (fun c => (cartShift (procsOf g) periodic d 1 c).2)
      (fun c => (cartShift (procsOf g) periodic d 1 c).1)
      (fun r => do pack (data r) (← upwardSubarray g r d)) c
    match msg with
      | none => some (extents, [])
      | some m =>
        -- the buffer has `extents.prod` entries
        if m.length = extents.prod then some (extents, m) else none

/-! ### Corners -/

/-- `getCornersGlobalVectorIndicesRecursive`, l.1680-1696; the argument is the rest of the dimensions. -/
def cornersRec : (sizes : List ℕ) → (indicesSoFar : List (List ℕ)) → List (List ℕ)
  | [], acc => acc
  | n :: ns, acc => cornersRec ns (acc.flatMap fun v => [v ++ [0], v ++ [n - 1]])

/-- `getCornersGlobalVectorIndices`, l.1698-1707. -/
def corners (sizes : List ℕ) : List (List ℕ) := cornersRec sizes [[]]

/-- What process `c` contributes for a corner in `getCornersValues`, l.1712-1721. -/
def cornerValue {K : Type} [Zero K] (g : List Dim1) (data : List ℕ → List K) (c x : List ℕ) : Option K :=
  if isGlobalIndexHere g c x then
    (data c)[sequentialIndex (localSizes g c) (List.zipWith (· - ·) x (lowerBounds g c))]?
  else some 0

/-- `getCornersValues`, l.1709-1726, with the `MPI_Allreduce` over the processes `cs`. -/
def getCornersValues {K : Type} [AddMonoid K] (g : List Dim1) (cs : List (List ℕ))
    (data : List ℕ → List K) : Option (List K) :=
  (corners (globalSizes g)).mapM fun x =>
    (cs.mapM fun c => cornerValue g data c x).map List.sum

/-! ### Norms -/

/-- `isGlobalLinearIndexOnBoundary`, l.1654-1673, and the count of l.1388. `bs` are the boundary flags. -/
def countBoundary (g : List Dim1) (bs : List ℕ) (globalLinear : ℕ) : ℕ :=
  (List.zipWith (fun (b : ℕ) (xn : ℕ × ℕ) => decide (b = 2 ∧ (xn.1 = 0 ∨ xn.1 = xn.2 - 1))) bs
    ((getVectorIndex (globalSizes g) globalLinear).zip (globalSizes g))).count true

/-- The maximum norm, l.1370-1379. -/
def maxNorm (cs : List (List ℕ)) (data : List ℕ → List ℚ) : ℚ :=
  (cs.map fun c => (data c).foldl (fun m v => max m |v|) 0).foldl max (-1)

/-- The local sum for `p > 0`, l.1383-1395. The table of `oneOverPowOfTwo` has the entry of every number of
dimensions below 29. -/
def localPowerSum (g : List Dim1) (bs : List ℕ) (p : ℕ) (c : List ℕ) (buf : List ℚ) : ℚ :=
  (List.range buf.length).foldl (fun res i =>
    res + |buf.getD i 0| ^ p * (1 / 2 ^ countBoundary g bs (getGlobalLinearIndex g c i))) 0

/-- The `p`-th power of `getLpNorm(p)`, l.1396-1402. `levels` are the levels of the grid; the grid spacing
is `1 / 2 ^ l`, `getInnerNodalBasisFunctionIntegral` l.869-873. For `p = 1` this is the result. -/
def lpNormPow (g : List Dim1) (levels bs : List ℕ) (cs : List (List ℕ)) (data : List ℕ → List ℚ)
    (p : ℕ) : ℚ :=
  (cs.map fun c => localPowerSum g bs p c (data c)).sum *
    ((levels.map fun l => (1 / 2 ^ l : ℚ)).foldl (· * ·) 1) ^ p

/-- `norms[id] = v` for a `std::map` (in the order of the first assignments). -/
def setNorm (norms : List (ℕ × ℚ)) (id : ℕ) (v : ℚ) : List (ℕ × ℚ) :=
  if norms.any (·.1 == id) then norms.map fun q => if q.1 = id then (id, v) else q
  else norms ++ [(id, v)]

/-- `ProcessGroupManager::getLpNorms`, `/repo/src/manager/ProcessGroupManager.cpp` l.655-680: `container` are
the ids of the manager's tasks for this group, `msg` the norms sent by the group
(`ProcessGroupWorker.cpp` l.303-335). A message that is too long is an MPI error; the entries missing in a
shorter one are 0. -/
def groupNorms (container : List ℕ) (msg : List ℚ) (norms : List (ℕ × ℚ)) : Option (List (ℕ × ℚ)) :=
  if container.length < msg.length then none
  else some ((List.range container.length).foldl (fun acc j =>
    match container[j]? with
      | some id => setNorm acc id ((msg[j]?).getD 0)
      | none => acc) norms)

/-- The compensated summation of `ProcessManager::getLpNorm`, `/repo/src/manager/ProcessManager.cpp`
l.438-447. -/
def kahanSum (summands : List ℚ) : ℚ :=
  (summands.foldl (fun (acc : ℚ × ℚ) s =>
    let y := s - acc.2
    let t := acc.1 + y
    (t, (t - acc.1) - y)) (0, 0)).1

/-- `ProcessManager::getLpNorm`, l.434-449, with the norms of all groups, l.424-432. The sum of the entries
of the map does not depend on their order. -/
def managerLpNorm (coeff : ℕ → ℚ) (groups : List (List ℕ × List ℚ)) : Option ℚ := do
  let norms ← groups.foldlM (fun acc (g : List ℕ × List ℚ) => groupNorms g.1 g.2 acc) []
  some (kahanSum (norms.map fun q => q.2 * coeff q.1))

end Verif.GroupGrid

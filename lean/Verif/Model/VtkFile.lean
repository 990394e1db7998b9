import Verif.Model.FullGrid
import Mathlib.Algebra.Field.Basic

/-!
# VTK plot files

`DFGPlotFileWriter` (`/repo/src/vtk/DFGPlotFileWriter.hpp`) and `writeVTKPlotFilesOfAllTasks`
(`/repo/src/manager/InterpolationWorker.hpp` l.91-106). Every process writes its part of a grid into a file of
its own, as an image: a box of indices (extent), the coordinates of index 0 (origin), the distance of the points
(spacing) and the values.

Simplifications: exact arithmetic in a field `K`; a division by zero is infinity, `none` in `VtkPiece.spacing`;
no overflow in the conversions to `int`; the library VTK writes what it is given. Failed assertions and reads
outside of a vector are `none`. `writeMasterFile` (l.194-258) is not called (l.113-121) and not modelled, just
like `globalExtent_`, which only `writeMasterFile` reads.
-/

namespace Verif.VtkFile

variable {K : Type}

/-- The content of a `.vti` file. -/
structure VtkPiece (K : Type) where
  /-- first and last index in three dimensions -/
  extent : List (ℕ × ℕ)
  origin : List K
  /-- `none` is infinity -/
  spacing : List (Option K)
  values : List K

/-- `resize(3, x)` of a vector. -/
def resize3 {α : Type} (x : α) (l : List α) : List α := (l ++ List.replicate (3 - l.length) x).take 3

/-- `setLocalExtent`, l.297-315, with the assertion of `getGlobalLinearIndex`
(`/repo/src/fullgrid/DistributedFullGrid.hpp` l.785). -/
def localExtent (g : List Dim1) (c : List ℕ) : Option (List (ℕ × ℕ)) :=
  let n := tensorSize (localSizes g c)
  if n = 0 then none
  else
    let minExtend := resize3 0 (getVectorIndex (globalSizes g) (getGlobalLinearIndex g c 0))
    let maxExtend := resize3 0 (getVectorIndex (globalSizes g) (getGlobalLinearIndex g c (n - 1)))
    some (minExtend.zip maxExtend)

/-- `1./(x-1.)`, l.322. -/
def spacing1 [Field K] [DecidableEq K] (n : ℕ) : Option K :=
  if (n : K) - 1 = 0 then none else some (1 / ((n : K) - 1))

/-- `setSpacing`, l.317-326. -/
def spacing [Field K] [DecidableEq K] (sizes : List ℕ) : List (Option K) :=
  resize3 (some 0) (sizes.map spacing1)

/-- The elements of the data in the order of the loops in `writePieceFile`, l.143-172. -/
def readOrder (localOffsets nrLocalPoints : List ℕ) : Option (List ℕ) :=
  match nrLocalPoints, localOffsets with
  | [n0], _ => some (List.range n0)
  | [n0, n1], [_, o1] =>
    some ((List.range n1).flatMap fun i => (List.range n0).map fun j => o1 * i + j)
  | [n0, n1, n2], [_, o1, o2] =>
    some ((List.range n2).flatMap fun k => (List.range n1).flatMap fun i =>
      (List.range n0).map fun j => o2 * k + o1 * i + j)
  | _, _ => none

/-- The constructor (l.83-96) and `writePieceFile` (l.133-190) on process `c` with data `u`. `isReal`: the
elements of the grid are `double`; for other types l.123-127 is called. -/
def writePieceFile [Field K] [DecidableEq K] (isReal : Bool) (g : List Dim1) (c : List ℕ) (u : List K) :
    Option (VtkPiece K) :=
  if isReal = true ∧ g.length < 4 then do
    let extent ← localExtent g c
    let order ← readOrder (tensorOffsets (localSizes g c)) (localSizes g c)
    let values ← order.mapM fun i => u[i]?
    some ⟨extent, [0, 0, 0], spacing (globalSizes g), values⟩
  else none

/-- The name of a piece file: `setFilenamePrefixWithoutDirectory` (l.260-271),
`createPieceFilenameWithoutDirectory` (l.273-279) and l.105-107. -/
def pieceName (levels : List ℕ) (species rank : ℕ) : List Char :=
  "./vtk/dfg_l".toList ++ levels.flatMap (fun l => (Nat.repr l).toList ++ ['_']) ++
    's' :: (Nat.repr species).toList ++ '_' :: (Nat.repr rank).toList ++ ".vti".toList

/-- A task on a process group: level, decomposition, and for every of its grids the data of the processes. -/
structure VtkTask (K : Type) where
  levels : List ℕ
  grid : List Dim1
  data : ℕ → List ℕ → List K

/-- `writeVTKPlotFilesOfAllTasks` on all processes of a group; `cart` has the cartesian coordinates of the
ranks. Result: names and contents of the files. -/
def writeGroup [Field K] [DecidableEq K] (isReal : Bool) (numGrids : ℕ) (cart : List (List ℕ))
    (tasks : List (VtkTask K)) : Option (List (List Char × VtkPiece K)) := do
  let files ← tasks.mapM fun t => (List.range numGrids).mapM fun s => cart.zipIdx.mapM fun cr => do
    let p ← writePieceFile isReal t.grid cr.1 (t.data s cr.1)
    some (pieceName t.levels s cr.2, p)
  some (files.flatten.flatten)

/-- The files of all groups. -/
def writeAll [Field K] [DecidableEq K] (isReal : Bool) (numGrids : ℕ) (cart : List (List ℕ))
    (groups : List (List (VtkTask K))) : Option (List (List Char × VtkPiece K)) := do
  let files ← groups.mapM (writeGroup isReal numGrids cart)
  some files.flatten

/-! ### How VTK reads a file -/

namespace VtkPiece

/-- The number of points in the three dimensions. -/
def shape (p : VtkPiece K) : List ℕ := p.extent.map fun e => e.2 + 1 - e.1

/-- An image is valid if it has a value for every point of the extent. -/
def valid (p : VtkPiece K) : Bool := p.values.length == p.shape.foldr (· * ·) 1

/-- Position of a point in the values: the first dimension is the fastest. -/
def position : (extent : List (ℕ × ℕ)) → (x : List ℕ) → ℕ
  | e :: es, i :: is => i - e.1 + (e.2 + 1 - e.1) * position es is
  | _, _ => 0

/-- Is the point with these three indices inside of the extent? -/
def covers (p : VtkPiece K) (x : List ℕ) : Bool :=
  x.length == 3 && (List.zipWith (fun (e : ℕ × ℕ) i => decide (e.1 ≤ i) && decide (i ≤ e.2)) p.extent x).all id

/-- The value that is shown at a point. -/
def valueAt (p : VtkPiece K) (x : List ℕ) : Option K :=
  if p.valid && p.covers x then p.values[position p.extent x]? else none

/-- The coordinates of a point. -/
def coordsAt [Field K] (p : VtkPiece K) (x : List ℕ) : Option (List K) :=
  (List.zip p.origin (List.zip p.spacing x)).mapM fun q => do
    let h ← q.2.1
    some (q.1 + (q.2.2 : K) * h)

end VtkPiece

end Verif.VtkFile

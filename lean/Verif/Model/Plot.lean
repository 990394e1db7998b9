import Verif.Model.DistributedCombine

/-!
# Evaluating the combined solution on a full grid

`/repo/src/manager/SparseGridWorker.hpp` l.627-645 (`fillDFGFromDSGU`), l.751-783
(`interpolateAndPlotOnLevel`) and `/repo/src/manager/ProcessGroupWorker.cpp` l.573-582
(`parallelEvalUniform`), on all processes of a group. Simplification: the values are what the grid holds
when it is written (for the contents of the files see `Verif.Model.GroupGrid`).

The grid usually has subspaces which the sparse grid does not have. `extractFromUniformSG` leaves their points
alone (see `getIndexFlat` in `Verif.Model.Storage` for the look-ups).
-/

namespace Verif

variable {K : Type}

/-- `fillDFGFromDSGU`, `SparseGridWorker.hpp` l.627-645, on all processes of a group: the grid with
dimensions `dims` and data `data` is filled from the sparse grids `dsg` and dehierarchized. `none` also if
the number of dimensions does not match (assertions, `DistributedHierarchization.hpp`). -/
def fillGrid [Field K] (layout : List ℕ) (P : CombineParams) (dims : List CompDim)
    (dsg : List ℕ → Dsg K) (junk : List ℕ → ℕ → ℕ → ℕ → K) (data : List ℕ → Buf K) :
    Option (List ℕ → Buf K) :=
  let filled := fun c => extractFromUniformSG true ⟨List.zipWith CompDim.onProcess dims c, data c⟩ (dsg c)
  if ((groupProcesses layout).all fun c => (filled c).isSome) = true ∧ P.sel.length = dims.length ∧
      P.bases.length = dims.length ∧ P.lmin.length = dims.length then
    distributedDehierarchize (distDims dims P.bases (effectiveLMin P.boundary P.lmin)) junk
      (selectedDims P.sel) fun c => ((filled c).map fun x => x.data).getD (data c)
  else none

/-- The constructor of the grid, `DistributedFullGrid.hpp` l.1973-1982: all values are zero. -/
def zeroGrid [Zero K] (dims : List CompDim) (c : List ℕ) : Buf K :=
  ⟨((List.zipWith CompDim.onProcess dims c).map (·.size)).prod, fun _ => 0⟩

/-- The loop over the grids in `interpolateAndPlotOnLevel`, l.768-782: `dsgs` are the sparse grids of the
group, one per grid of the tasks; the results are the values which are written. -/
def plotGrids [Field K] (layout : List ℕ) (P : CombineParams) (dims : List CompDim)
    (junk : ℕ → List ℕ → ℕ → ℕ → ℕ → K) : (g : ℕ) → (dsgs : List (List ℕ → Dsg K)) →
    (data : List ℕ → Buf K) → Option (List (List ℕ → Buf K))
  | _, [], _ => some []
  | g, dsg :: dsgs, data => (fillGrid layout P dims dsg (junk g) data).bind fun x =>
      (plotGrids layout P dims junk (g + 1) dsgs x).map fun r => x :: r

/-- `interpolateAndPlotOnLevel`, l.758-783. -/
def interpolateAndPlotOnLevel [Field K] (layout : List ℕ) (P : CombineParams) (dims : List CompDim)
    (junk : ℕ → List ℕ → ℕ → ℕ → ℕ → K) (dsgs : List (List ℕ → Dsg K)) :
    Option (List (List ℕ → Buf K)) :=
  plotGrids layout P dims junk 0 dsgs (zeroGrid dims)

/-- The name of the file of grid `g`, l.771-780: `endsWith` l.752-755, `insert` at the first dot. -/
def plotFileName (filename : List Char) (g : ℕ) : List Char :=
  if ".vtk".toList <:+ filename then filename
  else if '.' ∈ filename then
    filename.takeWhile (· ≠ '.') ++ '_' :: (Nat.repr g).toList ++ filename.dropWhile (· ≠ '.')
  else filename

/-- The grid of `parallelEvalUniform`, `ProcessGroupWorker.cpp` l.573-582: `ref` is the grid of the
parameters (`getLMax`, `getDecomposition`, `getBoundary`). -/
def levalGrid (ref : List CompDim) (leval : List ℕ) : List CompDim :=
  List.zipWith (fun r l => ⟨l, r.boundary, downsampleDecomposition1d r.dec r.level l r.boundary⟩) ref leval

/-- The sparse grids of group `g` after a complete combination (`combineAtOnce`, see
`distributedCombineAtOnce`), on the processes of the group. Dehierarchizing the tasks does not change
them. -/
def combinedSparseGrid [Field K] (layout : List ℕ) (P : CombineParams) (variant : CombinationVariant)
    (maxChunk : ℕ) (levels : List (List ℕ)) (n : ℕ) (junk : ℕ → ℕ → List ℕ → ℕ → ℕ → ℕ → K)
    (tasks : ℕ → List (GroupTask K)) (g : ℕ) : Option (List ℕ → Dsg K) :=
  (onProcessGroups n fun g => groupHierarchize P (junk g) (tasks g)).bind fun hs =>
    let result := fun c => combineVariant variant maxChunk levels n fun g =>
      (hs g).map fun t => t.onProcess c
    if (groupProcesses layout).all fun c => (result c).isSome then
      some fun c => ((result c).map fun S => (S g).dsg).getD (Dsg.empty levels)
    else none

/-- A complete combination followed by `parallelEvalUniform` on group `g`, for tasks with one grid. -/
def combineAndPlot [Field K] (layout : List ℕ) (P : CombineParams) (variant : CombinationVariant)
    (maxChunk : ℕ) (levels : List (List ℕ)) (n : ℕ) (junk : ℕ → ℕ → List ℕ → ℕ → ℕ → ℕ → K)
    (junk' : ℕ → List ℕ → ℕ → ℕ → ℕ → K) (tasks : ℕ → List (GroupTask K)) (g : ℕ)
    (ref : List CompDim) (leval : List ℕ) : Option (List (List ℕ → Buf K)) :=
  (combinedSparseGrid layout P variant maxChunk levels n junk tasks g).bind fun dsg =>
    interpolateAndPlotOnLevel layout P (levalGrid ref leval) junk' [dsg]

end Verif

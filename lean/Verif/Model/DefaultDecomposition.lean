import Verif.Model.FullGrid
import Verif.Model.PoleLoop

/-!
# Where the decompositions of the component grids come from
-/

namespace Verif

/-- The decomposition of a component grid of level `l` in one dimension: `initializeTask`,
`/repo/src/manager/ProcessGroupWorker.cpp` l.666-673, downsamples the decomposition of the parameters
(`given`, for the level `lmax`), and the constructor of the grid,
`/repo/src/fullgrid/DistributedFullGrid.hpp` l.637-650, uses the default decomposition for `p` processes
if there is none. `none` is the exception of `getDefaultDecomposition` and the assertion of l.638-640.
Simplification: all dimensions of `given` are set or none. -/
def componentDecomposition1d (given : Option (List ℕ)) (lmax l b p : ℕ) (forward : Bool) :
    Option (List ℕ) :=
  match given with
  | some dec => some (downsampleDecomposition1d dec lmax l b)
  | none =>
    if b = 1 ∧ forward = true then none
    else getDefaultDecomposition1d (poleLength l b) p forward

/-- `getStandardDecomposition` in one dimension, `/repo/src/utils/DecompositionUtils.hpp` l.43-66;
`none` is the exception. -/
def getStandardDecomposition1d (l p : ℕ) : Option (List ℕ) :=
  if p = 1 then some [0]
  else if p = 2 then some [0, 2 ^ l / p + 1]
  else if p = 3 then some [0, 2 ^ l / p + 1, 2 * 2 ^ l / p + 1]
  else if p = 4 then some [0, 2 ^ l / p + 1, 2 * 2 ^ l / p + 1, 3 * 2 ^ l / p + 1]
  else none

end Verif

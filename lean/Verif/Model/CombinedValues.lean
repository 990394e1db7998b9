import Verif.Model.DistributedCombine
import Verif.Model.InterpolateValues

/-!
# Values of the combined solution on process groups

`interpolateValues` (`/repo/src/manager/InterpolationWorker.hpp` l.10-50) is called with the task worker
(`ProcessGroupWorker.cpp` l.617-623) whose tasks a combination has changed before. Here the grids of the
tasks of `Model/DistributedCombine` are handed to the model of `interpolateValues`.
-/

namespace Verif

open Interpolation

/-- What a process with the coordinate `a` knows about one dimension when it interpolates
(`DistributedFullGrid.hpp` l.650-656 for the bounds). -/
def CompDim.evalDim (d : CompDim) (a : ℕ) : EvalDim where
  level := d.level
  boundary := d.boundary
  globalSize := poleLength d.level d.boundary
  lower := (lowerBound1d d.dec a).getD 0
  size := (upperBound1d d.dec (poleLength d.level d.boundary) a).getD 0 - (lowerBound1d d.dec a).getD 0
  coord := a

/-- The task as seen by the process with the coordinates `c`: coefficient, grid and data of the process. -/
def GroupTask.evalOn {K : Type} (t : GroupTask K) (c : List ℕ) : EvalTask K K :=
  ⟨t.coeff, List.zipWith CompDim.evalDim t.dims c, (List.range (t.data c).len).map (t.data c).val⟩

/-- `interpolateValues` with the tasks of `n` groups of `p` processes; `cart` are the coordinates of the
ranks. -/
def groupInterpolateValues {K : Type} [Field K] [LinearOrder K] [FloorRing K] (n p : ℕ)
    (cart : ℕ → List ℕ) (S : ℕ → List (GroupTask K)) (coords : List (List K)) : Outcome (List K) :=
  interpolateValues n p (fun g r => (S g).map fun t => t.evalOn (cart r)) coords

end Verif

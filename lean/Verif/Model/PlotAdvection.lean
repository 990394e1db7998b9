import Verif.Model.Evaluation

/-!
# The plot of the error of the advection example

`/repo/examples/distributed_advection/plot_error_advection.py` on a file that `writePlotFile` wrote
(`/repo/src/fullgrid/DistributedFullGrid.hpp` l.1406-1469).

Numbers are real numbers without rounding; exceptions of Python are `error`. The lines of the header are
given by their numbers; that they are read as they were written is not modelled.
-/

namespace Verif.PlotAdvection

open Verif.Evaluation

/-- A file with its header, l.12-30: the dimension, the extents, the size of a value in bytes, the
values. -/
structure RawFile where
  dimensionality : ℕ
  extents : List ℕ
  typeSize : ℕ
  data : List ℝ

/-- `writePlotFile` for two dimensions, l.1415-1416 and l.1430-1446 of `DistributedFullGrid.hpp`: in the order
of Fortran the first index is the fastest one. `u i j` is the value of the point with these indices; the
values are of type `double`. -/
def writeFile (n0 n1 : ℕ) (u : ℕ → ℕ → ℝ) : RawFile :=
  ⟨2, [n0, n1], 8, (List.range n1).flatMap fun j => (List.range n0).map fun i => u i j⟩

/-- `np.reshape` for two dimensions, l.31: the last index is the fastest one. -/
def reshape (n0 n1 : ℕ) (data : List ℝ) : List (List ℝ) :=
  (List.range n0).map fun i => (data.drop (i * n1)).take n1

/-- `read_ndarray_from_file`, l.12-32, with the assertion l.51. -/
def readArray (f : RawFile) : Outcome (ℕ × ℕ × List (List ℝ)) :=
  if f.extents.length ≠ f.dimensionality then .error
  else if f.typeSize ≠ 8 then .error
  else if f.data.length ≠ f.extents.foldl (· * ·) 1 then .error
  else match f.extents with
    | [n0, n1] => .ok (n0, n1, reshape n0 n1 f.data)
    | _ => .error

/-- `coordinate_shift_velocity1`, l.56-57. -/
noncomputable def shiftVelocity (coord t : ℝ) : ℝ := shifted coord t - 0.5

/-- `analytic_sln`, l.54 and l.59-62. -/
noncomputable def analyticSln (x y t : ℝ) : ℝ :=
  Real.exp ((1 / (1 / 3 * 1 / 3)) * (-(shiftVelocity x t) ^ 2 - (shiftVelocity y t) ^ 2))

/-- `analytic_data`, l.64-65. -/
noncomputable def analyticData (n0 n1 : ℕ) (t : ℝ) : List (List ℝ) :=
  (List.range n0).map fun i : ℕ => (List.range n1).map fun j : ℕ =>
    analyticSln ((i : ℝ) / (n0 : ℝ)) ((j : ℝ) / (n1 : ℝ)) t

/-- The difference of two arrays of the same shape, l.68 with `relative = False`. -/
def arrayDiff (a b : List (List ℝ)) : List (List ℝ) := List.zipWith (List.zipWith (· - ·)) a b

/-- The script, l.35-68: `time` is the second argument of the command line if there is one. It is a
text, which cannot be subtracted from a number. -/
noncomputable def plotError (f : RawFile) (time : Option String) : Outcome (List (List ℝ)) :=
  match readArray f with
  | .ok (n0, n1, fg) =>
    match time with
    | some _ => .error
    | none => .ok (arrayDiff (analyticData n0 n1 1) fg)
  | .error => .error
  | .stuck => .stuck

/-- `np.max(diff_a_fg)`, l.69; an error for an array without elements. -/
noncomputable def reportedMax (d : List (List ℝ)) : Outcome ℝ :=
  match d.flatten with
  | [] => .error
  | x :: xs => .ok (xs.foldl max x)

end Verif.PlotAdvection

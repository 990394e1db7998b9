import Verif.Model.InterpolationOutput
import Mathlib.Analysis.SpecialFunctions.Exp
import Mathlib.Analysis.SpecialFunctions.Pow.Real

/-!
# Errors and norms of interpolated values

The errors that the advection example prints (`/repo/examples/distributed_advection/advection_example.cpp`
l.49-92; the relative errors are computed the same way in
`/repo/examples/distributed_third_level/combi_example.cpp` l.77-98), the reference
function (`/repo/examples/distributed_advection/TaskAdvection.hpp` l.9-27), the estimate of the variance
(`/repo/examples/distributed_advection/get_mc_variance.cpp` l.62-93) and the scripts that work on the HDF5
files: `/repo/tools/hdf5_reduce_datasets.py` and `/repo/tools/hdf5_interpolation_norms.py`.

Numbers are real numbers without rounding. A failed assertion of C++ is `stuck`; a failed assertion and every
other exception of Python is `error`. A quotient with divisor 0 is `none` (not a number, or infinite).
Names of files are compared as they are written; two names of one file are not considered.
-/

namespace Verif.Evaluation

open Verif

/-! ### The reference functions -/

/-- `fmod(x, 1.0)`: what is left after cutting towards zero; it has the sign of `x`. -/
noncomputable def fmodOne (x : ℝ) : ℝ := if 0 ≤ x then Int.fract x else -Int.fract (-x)

/-- `std::fmod(1.0 + std::fmod(coords[d] - t, 1.0), 1.0)`, `TaskAdvection.hpp` l.15; the same in
`hdf5_interpolation_norms.py` l.37. -/
noncomputable def shifted (x t : ℝ) : ℝ := fmodOne (1 + fmodOne (x - t))

/-- The loop of `TestFn::operator()`, `TaskAdvection.hpp` l.14-19, from the exponent `e` on; `bad` is the
outcome of a failed assertion. -/
noncomputable def gaussLoop (bad : Outcome ℝ) (t : ℝ) : ℝ → List ℝ → Outcome ℝ
  | e, [] => .ok e
  | e, x :: xs =>
      if 0 ≤ shifted x t ∧ shifted x t ≤ 1 then gaussLoop bad t (e - (shifted x t - 0.5) ^ 2) xs else bad

/-- `TestFn::operator()`, `TaskAdvection.hpp` l.12-23, with `sigmaSquaredInv_` of l.26. -/
noncomputable def testFn (coords : List ℝ) (t : ℝ) : Outcome ℝ :=
  (gaussLoop .stuck t 0 coords).bind fun e => .ok (Real.exp (e * (1 / ((1 / 3) * (1 / 3)))))

/-- `gaussian_function`, `hdf5_interpolation_norms.py` l.30-45. That the coordinates are overwritten has no
effect, they are not used again. -/
noncomputable def gaussianFunction (coords : List ℝ) (t : ℝ) : Outcome ℝ :=
  (gaussLoop .error t 0 coords).bind fun e => .ok (Real.exp (e * (1 / ((1 / 3) * (1 / 3)))))

/-- `paraboloid_function`, `hdf5_interpolation_norms.py` l.12-18; the same as `ParaboloidFn` in
`/repo/tests/TaskConstParaboloid.hpp` l.19-28. -/
def paraboloidFunction {K : Type} [Field K] (coords : List K) : K :=
  coords.foldl (fun result x => result * (x * (x - 1))) (if coords.length % 2 = 1 then 1 else -1)

/-- `hyperplane_function`, `hdf5_interpolation_norms.py` l.21-27; the same as `TestFnCount` in
`/repo/tests/TaskCount.hpp` l.19-26 with the time as number of runs. -/
def hyperplaneFunction {K : Type} [Field K] (coords : List K) (t : K) : K :=
  (coords.zipIdx.foldl (fun result a => result + a.1 * 10 ^ a.2) 0) * t

/-! ### The errors printed by the example -/

/-- A division of floating point numbers. -/
noncomputable def quot (a b : ℝ) : Option ℝ := if b = 0 then none else some (a / b)

/-- The sums of `managerMonteCarlo`, `advection_example.cpp` l.67-68. -/
structure Sums where
  l0Error : ℝ
  l1Error : ℝ
  l2Error : ℝ
  l0Reference : ℝ
  l1Reference : ℝ
  l2Reference : ℝ

/-- The body of the loop, `advection_example.cpp` l.71-78. -/
noncomputable def Sums.add (s : Sums) (analyticalSln value : ℝ) : Sums where
  l0Reference := max analyticalSln s.l0Reference
  l1Reference := s.l1Reference + analyticalSln
  l2Reference := s.l2Reference + analyticalSln ^ 2
  l0Error := max |analyticalSln - value| s.l0Error
  l1Error := s.l1Error + |analyticalSln - value|
  l2Error := s.l2Error + |analyticalSln - value| ^ 2

/-- The loop, `advection_example.cpp` l.70-79; `values[i]` behind the end is undefined. -/
noncomputable def sumsLoop (time : ℝ) (s : Sums) : List (List ℝ) → List ℝ → Outcome Sums
  | [], _ => .ok s
  | x :: xs, values => (testFn x time).bind fun a => match values with
      | [] => .stuck
      | v :: vs => sumsLoop time (s.add a v) xs vs

/-- The three numbers in a line of output. -/
structure Printed where
  order0 : Option ℝ
  order1 : Option ℝ
  order2 : Option ℝ

/-- `managerMonteCarlo`, `advection_example.cpp` l.64-91: the two lines printed (without the time). `values`
is the result of `interpolateValues`, `numValues` the number of coordinates. -/
noncomputable def managerErrors (coords : List (List ℝ)) (values : List ℝ) (time : ℝ) :
    Outcome (Printed × Printed) :=
  (sumsLoop time ⟨0, 0, 0, 0, 0, 0⟩ coords values).bind fun s =>
    .ok (⟨some s.l0Error, quot s.l1Error coords.length, quot s.l2Error coords.length⟩,
      ⟨quot s.l0Error s.l0Reference, quot s.l1Error s.l1Reference,
        quot (Real.sqrt s.l2Error) (Real.sqrt s.l2Reference)⟩)

/-- The sums of the reference, `get_mc_variance.cpp` l.71-80: maximum, mean and mean square. -/
noncomputable def referenceLine (coords : List (List ℝ)) (time : ℝ) : Outcome Printed :=
  (sumsLoop time ⟨0, 0, 0, 0, 0, 0⟩ coords (List.replicate coords.length 0)).bind fun s =>
    .ok ⟨some s.l0Reference, quot s.l1Reference coords.length, quot s.l2Reference coords.length⟩

/-- The estimate of the variance, `get_mc_variance.cpp` l.87-91. -/
def varianceOf {K : Type} [Field K] (l2Values : List K) : K :=
  (List.zipWith (· * ·) l2Values l2Values).sum / l2Values.length -
    l2Values.sum / l2Values.length * (l2Values.sum / l2Values.length)

/-! ### The script for sums -/

/-- The only data set of the only group: `hdf5_reduce_datasets.py` l.31-41, `hdf5_interpolation_norms.py`
l.84-94 and l.107-114. -/
def onlyDataset {K : Type} (f : H5File K) : Outcome (H5Dataset K) :=
  match f with
  | [(_, [d])] => .ok d
  | _ => .error

/-- One pass of the loop, `hdf5_reduce_datasets.py` l.28-59, without the name: what is accumulated, with the
time of the first file. -/
def reduceStep {K : Type} [Field K] [DecidableEq K] (acc : Option (List K × K)) (f : H5File K) :
    Outcome (Option (List K × K)) :=
  (onlyDataset f).bind fun d => match acc, d.time with
    | _, none => .error
    | none, some t => .ok (some (d.values, t))
    | some (vs, t0), some t =>
        if d.values.length = vs.length ∧ t = t0 then .ok (some (List.zipWith (· + ·) vs d.values, t0))
        else .error

/-- The loop over the files, `hdf5_reduce_datasets.py` l.28-65. -/
def reduceLoop {K : Type} [Field K] [DecidableEq K] (fs : H5Files K) (acc : Option (List K × K)) :
    List String → Outcome (Option (List K × K))
  | [] => .ok acc
  | name :: names => match fs name with
      | none => .error
      | some f => (reduceStep acc f).bind fun acc' => reduceLoop fs acc' names

/-- The last part of a path: `values_file.split("/")[-1]`. -/
def lastPart (path : List Char) : List Char := (path.reverse.takeWhile (· ≠ '/')).reverse

/-- `values_file.split("/")[-1].split(".")[0]`, `hdf5_reduce_datasets.py` l.63. -/
def stem (path : List Char) : List Char := (lastPart path).takeWhile (· ≠ '.')

/-- The name that is accumulated, `hdf5_reduce_datasets.py` l.62-65. -/
def nameLoop (acc : List Char) : List (List Char) → List Char
  | [] => acc
  | path :: paths => nameLoop (if acc = [] then stem path else acc ++ "_and_".toList ++ stem path) paths

/-- The name of the result, `hdf5_reduce_datasets.py` l.69. -/
def resultName (names : List String) : String :=
  String.ofList (nameLoop [] (names.map String.toList) ++ ".h5".toList)

/-- `hdf5_reduce_datasets.py`: the file that is written. Without files there is nothing to write, and
`create_dataset` raises an exception. The last file is still open for reading when the result is created,
which is an error if they have the same name. -/
def reduceDatasets {K : Type} [Field K] [DecidableEq K] (fs : H5Files K) (names : List String) :
    Outcome (String × H5File K) :=
  (reduceLoop fs none names).bind fun acc =>
    if names.getLast? = some (resultName names) then .error
    else match acc with
      | none => .error
      | some (vs, t) => .ok (resultName names, h5Content "summed_values" "values" vs (some t))

/-! ### The script for norms -/

/-- The orders of norms. -/
inductive Order where
  | inf
  | one
  | two

/-- `np.linalg.norm` of a vector; there is no maximum of an empty vector. -/
noncomputable def npNorm (v : List ℝ) : Order → Outcome ℝ
  | .inf => match v with
      | [] => .error
      | a :: as => .ok (as.foldl (fun m b => max m |b|) |a|)
  | .one => .ok (v.map fun a => |a|).sum
  | .two => .ok (Real.sqrt (v.map fun a => a ^ 2).sum)

/-- The solutions to choose from. -/
inductive Solution where
  | advection
  | paraboloid
  | hyperplane

/-- The reference value of a solution at a point, `hdf5_interpolation_norms.py` l.119-127. -/
noncomputable def Solution.value (t : ℝ) : Solution → List ℝ → Outcome ℝ
  | .advection, xs => gaussianFunction xs t
  | .paraboloid, xs => .ok (paraboloidFunction xs)
  | .hyperplane, xs => .ok (hyperplaneFunction xs t)

/-- The reference values at a list of points. -/
noncomputable def Solution.values (t : ℝ) (s : Solution) : List (List ℝ) → Outcome (List ℝ)
  | [] => .ok []
  | x :: xs => (s.value t x).bind fun a => (s.values t xs).bind fun as => .ok (a :: as)

/-- The arguments of `hdf5_interpolation_norms.py`. -/
structure Arguments where
  valuesFile : String
  solution : Option Solution
  coordinates : Option String
  relative : Bool

/-- The error of order `p`, `hdf5_interpolation_norms.py` l.130-137. -/
noncomputable def errorOf (relative : Bool) (error reference : List ℝ) (numSamples : ℕ) (p : Order) :
    Outcome (Option ℝ) :=
  (npNorm error p).bind fun e =>
    if relative then (npNorm reference p).bind fun exact => .ok (quot e exact)
    else match p with
      | .inf => .ok (some e)
      | _ => .ok (quot e numSamples)

/-- The norm of order `p`, `hdf5_interpolation_norms.py` l.144-147. -/
noncomputable def normOf (values : List ℝ) (numSamples : ℕ) (p : Order) : Outcome (Option ℝ) :=
  (npNorm values p).bind fun e => match p with
    | .inf => .ok (some e)
    | _ => .ok (quot e numSamples)

/-- What is computed for the three orders, in the order of the loop. -/
def threeOrders (f : Order → Outcome (Option ℝ)) : Outcome Printed :=
  (f .inf).bind fun a => (f .one).bind fun b => (f .two).bind fun c => .ok ⟨a, b, c⟩

/-- `hdf5_interpolation_norms.py` l.72-148: whether errors are printed, and the numbers. `files` are the
files with numbers and `coordFiles` those with points. The test for `--relative` without `--solution`
(l.74-75) asks whether the options are known, which they are, so that it never raises an exception. -/
noncomputable def interpolationNorms (files : H5Files ℝ) (coordFiles : H5Files (List ℝ)) (a : Arguments) :
    Outcome (Bool × Printed) :=
  match files a.valuesFile with
  | none => .error
  | some f => (onlyDataset f).bind fun d => match d.time with
      | none => .error
      | some t => match a.solution with
          | none => (threeOrders (normOf d.values d.values.length)).bind fun r => .ok (false, r)
          | some s => match a.coordinates with
              | none => .error
              | some c => match coordFiles c with
                  | none => .error
                  | some cf => (onlyDataset cf).bind fun cd =>
                      if d.values.length = cd.values.length then
                        (s.values t cd.values).bind fun reference =>
                          (threeOrders (errorOf a.relative (List.zipWith (· - ·) d.values reference) reference
                            d.values.length)).bind fun r => .ok (true, r)
                      else .error

end Verif.Evaluation

import Verif.Model.FileIO
import Mathlib.Analysis.Complex.Norm

/-!
# Error norms of the Python interface to GENE

`/repo/examples/gene_distributed/gene_python_interface/ErrorNorms.py`.

An array of numpy is its shape and its values at all indices; values are complex numbers without rounding.
`error` is an exception of Python, or a division by zero (where numpy gives `nan` or `inf` and a warning).
Not modelled: `species_index`, `L1AverageRelativeError`, `L2AverageErrorGeneField`, and arrays with more than six axes in
`L1AverageErrorGene`.
-/

namespace Verif.ErrorNorms

/-- An array: numbers of entries for all axes, and the values (used only at indices within the shape). -/
structure NDArray where
  shape : List ℕ
  val : List ℕ → ℂ

/-- All indices of a shape, the last axis fastest. -/
def indices : List ℕ → List (List ℕ)
  | [] => [[]]
  | n :: s => (List.range n).flatMap fun i => (indices s).map (i :: ·)

/-- `a.flatten()` -/
def NDArray.flatten (a : NDArray) : List ℂ := (indices a.shape).map a.val

/-- `a.size` -/
def NDArray.size (a : NDArray) : ℕ := a.shape.prod

/-- `len(a)`: the first axis only; an array without axes has no length. -/
def NDArray.len (a : NDArray) : Outcome ℕ :=
  match a.shape with
  | [] => .error
  | n :: _ => .ok n

/-- `x - y` for arrays with one axis; a single entry is used for all entries of the other one. -/
def sub (x y : List ℂ) : Outcome (List ℂ) :=
  if x.length = y.length then .ok (List.zipWith (· - ·) x y)
  else match x, y with
    | [a], y => .ok (y.map (a - ·))
    | x, [b] => .ok (x.map (· - b))
    | _, _ => .error

/-- `np.linalg.norm(x, 1)` for arrays with one axis. -/
noncomputable def norm1 (x : List ℂ) : ℝ := (x.map (‖·‖)).sum

/-- `np.linalg.norm(x, 2)` for arrays with one axis. -/
noncomputable def norm2 (x : List ℂ) : ℝ := Real.sqrt (x.map (‖·‖ ^ 2)).sum

/-- `np.linalg.norm(x, np.inf)` for arrays with one axis; there is no maximum without entries. -/
noncomputable def normInf (x : List ℂ) : Outcome ℝ :=
  if x.length = 0 then .error else .ok ((x.map (‖·‖)).foldr max 0)

/-- `np.linalg.norm(a, 1)`: for one axis the sum of absolute values, for two axes the largest one of the sums
over columns, an exception otherwise. -/
noncomputable def matrixNorm1 (a : NDArray) : Outcome ℝ :=
  match a.shape with
  | [_] => .ok (norm1 a.flatten)
  | [m, n] =>
    if n = 0 then .error
    else .ok (((List.range n).map fun j => ((List.range m).map fun i => ‖a.val [i, j]‖).sum).foldr max 0)
  | _ => .error

open Classical in
/-- A quotient. -/
noncomputable def divide (x y : ℝ) : Outcome ℝ := if y = 0 then .error else .ok (x / y)

/-- `L2Error`, l.10-14. -/
noncomputable def l2Error (a r : NDArray) : Outcome ℝ :=
  (sub a.flatten r.flatten).bind fun d => .ok (norm2 d)

/-- `L2RelativeError`, l.16-17. -/
noncomputable def l2RelativeError (a r : NDArray) : Outcome ℝ :=
  (l2Error a r).bind fun e => divide e (norm2 r.flatten)

/-- `L1Error`, l.19-20. -/
noncomputable def l1Error (a r : NDArray) : Outcome ℝ :=
  (sub a.flatten r.flatten).bind fun d => .ok (norm1 d)

/-- `L1RelativeError`, l.22-23. -/
noncomputable def l1RelativeError (a r : NDArray) : Outcome ℝ :=
  (l1Error a r).bind fun e => (matrixNorm1 r).bind fun n => (divide e n).bind fun q =>
    a.len.bind fun k => divide q k

/-- `L2AverageError`, l.25-26. -/
noncomputable def l2AverageError (a r : NDArray) : Outcome ℝ :=
  (l2Error a r).bind fun e => a.len.bind fun k => divide e (Real.sqrt k)

/-- `L1AverageError`, l.31-33. -/
noncomputable def l1AverageError (a r : NDArray) : Outcome ℝ :=
  if a.size = r.size then (l1Error a r).bind fun e => divide e a.size else .error

/-- `LInfError`, l.35-36. -/
noncomputable def lInfError (a r : NDArray) : Outcome ℝ :=
  (sub a.flatten r.flatten).bind normInf

/-- `LInfRelativeError`, l.38-39. -/
noncomputable def lInfRelativeError (a r : NDArray) : Outcome ℝ :=
  (lInfError a r).bind fun e => (normInf r.flatten).bind fun n => divide e n

/-- `a[l:-h, ...]`: numbers of entries left out at the beginning and at the end of each axis. -/
def NDArray.cut (a : NDArray) (cuts : List (ℕ × ℕ)) : Outcome NDArray :=
  if a.shape.length = cuts.length then
    .ok ⟨List.zipWith (fun n c => n - c.1 - c.2) a.shape cuts,
      fun idx => a.val (List.zipWith (fun i c => i + c.1) idx cuts)⟩
  else .error

/-- `[:,:-1,1:-1,:-1,:,:]`, l.47. -/
def cutsL1 : List (ℕ × ℕ) := [(0, 0), (0, 1), (1, 1), (0, 1), (0, 0), (0, 0)]

/-- `[:,:-1,1:-1,:-1,1:-1,:]`, l.52-53. -/
def cutsL2 : List (ℕ × ℕ) := [(0, 0), (0, 1), (1, 1), (0, 1), (1, 1), (0, 0)]

/-- `L1AverageErrorGene`, l.41-47. -/
noncomputable def l1AverageErrorGene (a r : NDArray) : Outcome ℝ :=
  if a.size = r.size then
    (a.cut cutsL1).bind fun ap => (r.cut cutsL1).bind fun re =>
      (l1Error ap re).bind fun e => divide e ap.size
  else .error

/-- `L2AverageErrorGene`, l.49-54: the size of `ap[:,:,:,:,0,0]` has the first four axes; an exception if there
is no entry 0 on the others. -/
noncomputable def l2AverageErrorGene (a r : NDArray) : Outcome ℝ :=
  (a.cut cutsL2).bind fun ap => (r.cut cutsL2).bind fun re =>
    (l2Error ap re).bind fun e =>
      if 0 ∈ ap.shape.drop 4 then .error else divide e (Real.sqrt ((ap.shape.take 4).prod : ℕ))

end Verif.ErrorNorms

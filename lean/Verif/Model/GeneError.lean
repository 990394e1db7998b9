import Verif.Model.FileIO
import Mathlib.Analysis.Complex.Norm

/-!
# Checkpoints of GENE and the error between two files

`saveCheckpoint` in `/repo/examples/gene_distributed/src/GeneTask.cpp` l.388-473, which is used by
`tools/convertFGtoCP.cpp`, and the tool `/repo/examples/gene_distributed/tools/errorCalcNew.cpp`.

Simplifications: files are records of what is written one after the other; sizes are natural numbers; values
are exact complex numbers, `GeneComplex` and `CombiDataType` are the same. The overload of
`createMultiArrayRef` for grids is not in `src/fullgrid/MultiArray.hpp` any more; it has the sizes of the grid,
reversed (comment l.14-19).
-/

namespace Verif.GeneError

/-- Position of an element in an array whose last index is the fastest one. -/
def rowIndex (shape q : List ℕ) : ℕ := (shape.zip q).foldl (fun acc sq => acc * sq.1 + sq.2) 0

/-- The indices in the order of the nested loops over all dimensions. -/
def indices : (shape : List ℕ) → List (List ℕ)
  | [] => [[]]
  | s :: ss => (List.range s).flatMap fun i => (indices ss).map fun q => i :: q

/-- Nested loops which copy the elements with indices in `small` out of an array with sizes `shape`,
`GeneTask.cpp` l.420-433 and `errorCalcNew.cpp` l.248-260. `none`: an access behind the end. -/
def crop {α : Type} (shape small : List ℕ) (data : List α) : Option (List α) :=
  (indices small).mapM fun q => data[rowIndex shape q]?

/-- A file with a checkpoint: time, time step, resolution (x, y, z, v, w, species) and values. -/
structure Checkpoint where
  time : ℝ
  dt : ℝ
  res : List ℕ
  data : List ℂ

/-- A plot file: dimensions, resolution and values. -/
structure PlotFile where
  dim : ℕ
  res : List ℕ
  data : List ℂ

/-- `saveCheckpoint`, `GeneTask.cpp` l.388-473, for a grid with the given levels and values; the flags of the
boundary are as asserted in l.394-399. -/
noncomputable def saveCheckpoint (levels : List ℕ) (fg : List ℂ) : Outcome Checkpoint :=
  match levels with
  | [lx, ly, lz, lv, lw, ls] =>
    if ly = 1 ∧ ls = 1 then
      match crop [1, 2 ^ lw + 1, 2 ^ lv + 1, 2 ^ lz + 1, 1, 2 ^ lx + 1]
          [1, 2 ^ lw, 2 ^ lv, 2 ^ lz, 1, 2 ^ lx] fg with
      | some d => .ok ⟨0, 0, [2 ^ lx, 1, 2 ^ lz, 2 ^ lv, 2 ^ lw, 1], d⟩
      | none => .stuck
    else .stuck
  | _ => .stuck

/-- Reading `n` values into a new array; what is missing stays zero. -/
def readValues (n : ℕ) (data : List ℂ) : List ℂ := data.take n ++ List.replicate (n - data.length) 0

/-- `readCheckpoint`, `errorCalcNew.cpp` l.125-191. The size is an `int`. -/
def readCheckpoint (f : Checkpoint) : Outcome (List ℂ × List ℕ) :=
  if f.res.length = 6 ∧ f.res[5]? = some 1 ∧ f.res.prod < 2 ^ 31 then
    .ok (readValues f.res.prod f.data, f.res)
  else .stuck

/-- `readPlotFile`, l.194-274. -/
def readPlotFile (f : PlotFile) : Outcome (List ℂ × List ℕ) :=
  match f.res with
  | [x, y, z, v, w, s] =>
    if f.dim = 6 ∧ 0 < w ∧ 0 < v ∧ 0 < z then
      let tmp := readValues f.res.prod f.data
      let offsetY := if 1 < y then 1 else 0
      match crop [s, w, v, z, y, x] [s, w - 1, v - 1, z - 1, y - offsetY, x] tmp with
      | some d => .ok (d, [x, y - offsetY, z - 1, v - 1, w - 1, s])
      | none => .stuck
    else .stuck
  | _ => .stuck

/-- `l2Norm`, l.116-122. -/
noncomputable def l2Norm (data : List ℂ) : ℝ := √(data.map fun d => ‖d‖ * ‖d‖).sum

/-- The error, l.74-103. `error`: a norm is zero, so that 0 is multiplied by infinity. -/
noncomputable def errorOf (data1 data2 : List ℂ) : Outcome ℝ :=
  if l2Norm data1 = 0 ∨ l2Norm data2 = 0 then .error
  else
    let d1 := data1.map fun d => d * ((1 / l2Norm data1 : ℝ) : ℂ)
    let d2 := data2.map fun d => d * ((1 / l2Norm data2 : ℝ) : ℂ)
    .ok √(List.zipWith (fun a b => (‖a‖ - ‖b‖) * (‖a‖ - ‖b‖)) d1 d2).sum

/-- A file of one of the two kinds. -/
inductive File where
  | checkpoint (f : Checkpoint)
  | plot (f : PlotFile)

/-- Reading a file as the letter of the mode says, l.52-68. `error`: a file of the other kind is misread. -/
def readFile (c : Char) (f : File) : Outcome (List ℂ × List ℕ) :=
  if c = 'g' then
    match f with
    | .checkpoint f => readCheckpoint f
    | .plot _ => .error
  else if c = 'f' then
    match f with
    | .checkpoint _ => .error
    | .plot f => readPlotFile f
  else .stuck

/-- `main`, l.31-113, with the first two letters of the mode. -/
noncomputable def main (mode1 mode2 : Char) (left right : File) : Outcome ℝ :=
  (readFile mode1 left).bind fun a => (readFile mode2 right).bind fun b =>
    if a.1.length = b.1.length ∧ a.2 = b.2 then errorOf a.1 b.1 else .stuck

end Verif.GeneError

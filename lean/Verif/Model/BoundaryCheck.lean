import Verif.Model.GeneTask
import Mathlib.Analysis.Complex.Norm

/-!
# The check of the boundary in z of a combined grid

`/repo/examples/gene_distributed/tools/testBoundaryZ.cpp`. Values are complex numbers without rounding and without
`NaN`. Reading the file and the text of the messages are not modelled: a message is the point that it names. The
program always returns 0.
-/

namespace Verif.BoundaryCheck

open Verif.GeneTask (Vec Arr points)

/-- `tol`, l.23. -/
noncomputable def tol : ℝ := 1 / 1000000000000000

open Classical in
/-- The comparison l.40-42 at the point `q` (with z index 0). -/
noncomputable def differs (s : Vec) (a : Arr ℂ) (q : Vec) : Bool :=
  decide (tol < ‖a { q with z := s.z - 1 } - a { q with z := 0, x := (q.x + 1) % (s.x - 1) }‖)

/-- `testBoundaryZ`, l.22-58: the species and points of the messages. `stuck`: `fgShape[5] - 1` or `fgShape[3] - 1`
wraps around for a grid without points. -/
noncomputable def testBoundaryZ (nspec : ℕ) (s : Vec) (fg : ℕ → Arr ℂ) : Outcome (List (ℕ × Vec)) :=
  if s.x = 0 ∨ s.z = 0 then .stuck
  else
    .ok ((List.range nspec).flatMap fun n =>
      ((points ⟨s.w, s.v, 1, s.y, s.x - 1⟩).filter (differs s (fg n))).map fun q => (n, q))

end Verif.BoundaryCheck

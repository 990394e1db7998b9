import Verif.Model.FileIO
import Mathlib.Analysis.SpecialFunctions.Pow.Real

/-!
# The load model for anisotropic grids

`/repo/src/loadmodel/AnisotropyLoadModel.hpp` l.22-70. Levels are natural numbers (`levelSum` does not overflow),
`real` is exact (`ℝ`).
-/

namespace Verif.AnisotropyLoad

/-- The value of the model for grids that are refined alike in all dimensions, l.27-36; `N` is `2 ^ lsum`. -/
noncomputable def isotropic (lsum : ℕ) : ℝ :=
  1.252e-05 * ((2 : ℝ) ^ (lsum : ℝ)) ^ (1.076 : ℝ) + 0.01308

/-- The polynomial of the shares, l.57-66. -/
noncomputable def polynomial (s1 s2 s3 : ℝ) : ℝ :=
  2.6451 + (-10.7883 * s1 + -0.8959 * s2 + -0.4814 * s3) +
    (15.3450 * s1 * s1 + 1.0204 * s2 * s1 + 2.9396 * s3 * s1 + 2.3668 * s2 * s2 + -1.1119 * s3 * s2 +
      0.3434 * s3 * s3)

/-- `eval`, l.22-70. `stuck`: there is no `s[3]`; `error`: the shares are 0/0. -/
noncomputable def eval (l : List ℕ) : Outcome ℝ :=
  match (l[0]? : Option ℕ), (l[2]? : Option ℕ), (l[3]? : Option ℕ) with
  | some (l0 : ℕ), some (l2 : ℕ), some (l3 : ℕ) =>
    if l.sum = 0 then .error
    else .ok (isotropic l.sum * polynomial ((l0 : ℝ) / (l.sum : ℕ)) ((l2 : ℝ) / (l.sum : ℕ)) ((l3 : ℝ) / (l.sum : ℕ)))
  | _, _, _ => .stuck

end Verif.AnisotropyLoad

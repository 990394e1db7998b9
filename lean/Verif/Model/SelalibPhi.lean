import Verif.Model.CombiScheme
import Mathlib.Data.Int.Cast.Basic

/-!
# Combining the potentials of a six-dimensional run of SeLaLib

`/repo/examples/selalib_distributed/postprocessing/combine_selalib_phi.cpp`: every component grid of a scheme
in six dimensions writes the electric potential on the grid of its first three dimensions, with the
coordinates reversed. The program adds the hierarchical surpluses of the potentials, with the coefficients
of the scheme in six dimensions, into a sparse grid in three dimensions, and dehierarchizes them on the
finest grid in three dimensions.

Simplifications: surpluses are given per subspace (one value of type `K` stands for the surpluses at the
points of the subspace; for the storage see `Verif.Model.Storage`, for the transforms
`Verif.Model.DistributedCombine`); the sums are exact; the files are not modelled.
-/

namespace Verif.SelalibPhi

variable {K : Type}

/-- `{lmax[2], lmax[1], lmax[0]}`, l.36-37 and l.70; `none`: a position behind the end. -/
def reversedX : List ℕ → Option (List ℕ)
  | a :: b :: c :: _ => some [c, b, a]
  | _ => none

/-- The subspaces of the sparse grid, l.64-65: `DistributedSparseGridUniform.hpp` l.417-421 and l.542-552. -/
def sparseLevels (lminX lmaxX : List ℕ) : List (List ℕ) :=
  createTruncatedHierarchicalLevels lmaxX (toInt lminX)

/-- `addDistributedFullGrid`, l.136, `DistributedSparseGridUniform.hpp` l.814-866: of the subspaces of the
grid, those of the sparse grid are added (every one occurs once, `C01_downSet_nodup`), the others are
skipped. Their size is not 0, since `combinedFullGrid`, which is registered, has all of them. -/
def addGrid [Ring K] (sparse : List (List ℕ)) (g : List ℕ) (coeff : K) (u acc : List ℕ → K) : List ℕ → K :=
  fun k => if k ∈ getDownSet g ∧ k ∈ sparse then acc k + coeff * u k else acc k

/-- The loop over the component grids, l.69-140; `i` is the number of the grid and `u i` are the surpluses of
the potential of grid `i`. `none`: an access behind the end, or the assertions of l.123-125 fail. -/
def addGrids [Ring K] (sparse : List (List ℕ)) (lmaxX : List ℕ) (u : ℕ → List ℕ → K) :
    (i : ℕ) → (levels : List (List ℕ)) → (coeffs : List ℤ) → (acc : List ℕ → K) → Option (List ℕ → K)
  | _, [], _, acc => some acc
  | _, _ :: _, [], _ => none
  | i, l :: ls, c :: cs, acc => do
    let g ← reversedX l
    if leVec g lmaxX = true then
      addGrids sparse lmaxX u (i + 1) ls cs (addGrid sparse g (c : K) (u i) acc)
    else none

/-- The program for one kind of file, l.29-148: the surpluses on the combined grid, which is created with
zeros (`DistributedFullGrid.hpp` l.1973-1982) and filled by `extractFromUniformSG` (l.143,
`DistributedFullGrid.hpp` l.1308-1340). `none` also if the assertion on the number of dimensions fails
(l.31), and if the coefficients are not computed in `fuel` steps (see C05). -/
def combinePhi [Ring K] (fuel : ℕ) (lmin lmax : List ℕ) (u : ℕ → List ℕ → K) : Option (List ℕ → K) :=
  if lmax.length / 2 = 3 ∧ lmin.length = lmax.length then do
    let lmaxX ← reversedX lmax
    let lminX ← reversedX lmin
    let s ← createClassicalCombischeme fuel lmin lmax
    let sparse := sparseLevels lminX lmaxX
    let acc ← addGrids sparse lmaxX u 0 s.combiSpaces s.coefficients fun _ => 0
    return fun k => if k ∈ getDownSet lmaxX ∧ k ∈ sparse then acc k else 0
  else none

end Verif.SelalibPhi

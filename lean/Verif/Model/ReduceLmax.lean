import Verif.Model.LevelSets

/-!
# Leaving the highest subspaces out of the sparse grid

`/repo/src/manager/SparseGridWorker.hpp` l.708-730, the beginning of `initCombinedUniDSGVector`: the levels of
the sparse grid in which tasks are combined.
-/

namespace Verif

/-- The loop in l.717-719: entry by entry the maximum of `lmin` and the difference of `lmax` and `reduce`
(`reduceCombinationDimsLmax_`, `CombiParameters.hpp` l.521-532). Dimensions for which `reduce` has no entry
keep `lmax`; `none`: `reduce` has more entries than `lmax` or `lmin`, which is undefined behaviour. The code
has signed numbers; where the difference is negative both give `lmin`. -/
def reduceLmax : (lmin lmax reduce : List ℕ) → Option (List ℕ)
  | _, lmax, [] => some lmax
  | a :: lmin, b :: lmax, r :: reduce => (reduceLmax lmin lmax reduce).map fun l => max a (b - r) :: l
  | _, _, _ :: _ => none

/-- The levels of the sparse grids, l.722-730 and `createLevels`, `DistributedSparseGridUniform.hpp`
l.541-551. Left out: the exception if there are more levels than `SubspaceIndexType` can count. -/
def combinedLevels (lmin lmax reduce : List ℕ) : Option (List (List ℕ)) :=
  (reduceLmax lmin lmax reduce).map fun l =>
    createTruncatedHierarchicalLevels l (toInt lmin)

end Verif

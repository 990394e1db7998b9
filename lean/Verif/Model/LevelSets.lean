import Mathlib.Data.List.Range
import Mathlib.Data.List.Sublists

/-!
# Level sets (`src/utils/LevelSetUtils.cpp`, `src/utils/LevelSetUtils.hpp`)

Level vectors (`combigrid::LevelVector`, a `std::vector<int32_t>`,
`src/utils/Types.hpp`) are modelled as `List ℕ`. Simplification: levels are
unbounded natural numbers, the code uses `int32_t`.
-/

namespace Verif

/-- `combigrid::levelSum` (`src/utils/LevelVector.hpp`): sum of the entries. -/
def levelSum (l : List ℕ) : ℕ := l.sum

/-- `getDownSetRecursively`, `src/utils/LevelSetUtils.cpp` l.6-25. `rest` are the
entries of `l` from position `fixedDimensions.size()` on; the returned list are
the vectors pushed to `downSet` in order. Simplification: the omp critical section
is irrelevant since the recursion is sequential. -/
def getDownSetRec : (rest : List ℕ) → (fixedDimensions : List ℕ) → List (List ℕ)
  | [], fixed => [fixed]
  | m :: rest, fixed =>
    -- `for (LevelType i = 1; i <= l[d]; ++i)`
    (List.range' 1 m).flatMap fun i => getDownSetRec rest (fixed ++ [i])

/-- `getDownSet`, `src/utils/LevelSetUtils.cpp` l.27-32. -/
def getDownSet (l : List ℕ) : List (List ℕ) := getDownSetRec l []

/-- `getAllKOutOfDDimensions`, `src/utils/LevelSetUtils.cpp` l.36-53: all selections
of `k` out of the dimensions `0, ..., d-1`. Simplification: the
`std::prev_permutation` enumeration of the selector is replaced by Mathlib's
enumeration of sublists of length `k`; the order of the selections differs, the
caller only takes a conjunction over them. -/
def allKOutOfD (k d : ℕ) : List (List ℕ) := (List.range d).sublistsLen k

/-- the sum of selected entries, `src/utils/LevelSetUtils.cpp` l.91-95
(`partlsum`, `partlminsum`). An index outside the vector would be undefined
behaviour in C++; `allKOutOfD` only selects positions below the dimension. -/
def partSum (l : List ℤ) (sel : List ℕ) : ℤ := (sel.map fun i => l.getD i 0).sum

/-- a level vector as vector of integers -/
def toInt (l : List ℕ) : List ℤ := l.map Nat.cast

/-- The check in `createTruncatedHierarchicalLevelsRec`,
`src/utils/LevelSetUtils.cpp` l.85-103: for every `k = 2..d` and every selection of
`k` dimensions, `partlsum <= partlminsum + n`. The entries of `lmin` may be negative
(they are for the adaptive scheme with different level differences). -/
def pleaseAdd (n : ℕ) (lmin : List ℤ) (l : List ℕ) : Bool :=
  (List.range' 2 (lmin.length - 1)).all fun k =>
    (allKOutOfD k lmin.length).all fun sel =>
      !(decide (partSum (toInt l) sel > partSum lmin sel + n))

/-- `createTruncatedHierarchicalLevelsRec`, `src/utils/LevelSetUtils.cpp` l.63-113.
`pre` are the entries of the vector `l` already set (`l[0..dim-1]`), `rest` the
entries of `lmax` from `dim` on (nonempty in the code; the check of l.83
`dim == dimensionality-1` becomes `rest` has one entry). Simplification: the code
overwrites one shared vector `l`; all its entries have been set when it is pushed. -/
def createTruncRec (n : ℕ) (lmin : List ℤ) : (rest pre : List ℕ) → List (List ℕ)
  | [], _ => []
  | [m], pre =>
    -- `for (ldim = 1; ldim <= levelSum(lmin) + n - lsum; ++ldim)`
    (List.range' 1 (lmin.sum + n - levelSum pre).toNat).flatMap fun ldim =>
      if ldim > m then [] else
        if pleaseAdd n lmin (pre ++ [ldim]) then [pre ++ [ldim]] else []
  | m :: m' :: rest, pre =>
    (List.range' 1 (lmin.sum + n - levelSum pre).toNat).flatMap fun ldim =>
      if ldim > m then [] else createTruncRec n lmin (m' :: rest) (pre ++ [ldim])

/-- componentwise difference `lmax - lmin` (`operator-` in
`src/utils/LevelVector.hpp`/`IndexVector.hpp`). -/
def levelDiff (lmax : List ℕ) (lmin : List ℤ) : List ℤ :=
  List.zipWith (fun (a : ℕ) (b : ℤ) => (a : ℤ) - b) lmax lmin

/-- `*std::min_element` of a vector; 0 for an empty one (undefined behaviour in
C++: dereferencing `end()`; the dimension is asserted positive by the callers). -/
def minElement : List ℤ → ℤ
  | [] => 0
  | a :: l => l.foldl min a

/-- `createTruncatedHierarchicalLevels`, `src/utils/LevelSetUtils.cpp` l.115-141.
`lmin` may have negative entries; `lmin <= lmax` is asserted (l.121-123), so `n` is not
negative and `toNat` does not change it. -/
def createTruncatedHierarchicalLevels (lmax : List ℕ) (lmin : List ℤ) : List (List ℕ) :=
  let n := minElement (levelDiff lmax lmin)
  let rlmin := lmax.map fun a : ℕ => (a : ℤ) - n
  createTruncRec n.toNat rlmin lmax []

/-! ### `HypercubeDownSetGenerator`, `src/utils/LevelSetUtils.hpp` l.92-139 -/

/-- Initial `currentLevel_`: all ones, last entry 0 (l.94-98). -/
def hypercubeStart (upTo : List ℕ) : List ℕ :=
  List.replicate (upTo.length - 1) 1 ++ [0]

/-- `isFinished` (l.131-134): every entry equals `levelUpTo_[0]` (sic). -/
def hypercubeFinished (upTo cur : List ℕ) : Bool :=
  cur.all fun c => c == upTo.headD 0

/-- The loop of `getNextLevel` (l.118-126) over reversed vectors: increase the
last entry that can be increased, resetting the ones behind it to 1. -/
def hypercubeIncr : (upToRev curRev : List ℕ) → List ℕ
  | u :: us, c :: cs => if c < u then (c + 1) :: cs else 1 :: hypercubeIncr us cs
  | _, _ => []

/-- `getNextLevel`, l.114-129: the new `currentLevel_`, which is also returned. -/
def hypercubeNext (upTo cur : List ℕ) : List ℕ :=
  if hypercubeFinished upTo cur then cur
  else (hypercubeIncr upTo.reverse cur.reverse).reverse

/-- The levels returned by `m` calls of `getNextLevel` on state `cur`. -/
def hypercubeRun (upTo : List ℕ) : (m : ℕ) → (cur : List ℕ) → List (List ℕ)
  | 0, _ => []
  | m + 1, cur => hypercubeNext upTo cur :: hypercubeRun upTo m (hypercubeNext upTo cur)

/-- `getTotalNumberOfLevels`, l.110-112. -/
def hypercubeTotal (upTo : List ℕ) : ℕ := upTo.prod

end Verif

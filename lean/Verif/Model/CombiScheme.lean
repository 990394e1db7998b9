import Verif.Model.LevelSets
import Mathlib.Data.Nat.Choose.Basic
import Mathlib.Data.List.Sort
import Mathlib.Algebra.Order.Round
import Mathlib.Data.Rat.Floor

/-!
# Combination schemes (`src/combischeme/CombiMinMaxScheme.{hpp,cpp}`,
`src/combischeme/CombiThirdLevelScheme.cpp`)

Coefficients are integers in the code's formulas and are modelled as `ℤ` (the code
stores them as `double`, exact for integers below 2^53).
-/

namespace Verif

/-- componentwise `a <= b` (`operator<=`, `src/utils/IndexVector.hpp` l.44-51); the code
asserts equal sizes, the model demands them. -/
def leVec : List ℕ → List ℕ → Bool
  | [], [] => true
  | a :: as, b :: bs => decide (a ≤ b) && leVec as bs
  | _, _ => false

/-- Data members of `CombiMinMaxScheme` (`CombiMinMaxScheme.hpp` l.132-156). -/
structure Scheme where
  n : ℕ
  effDim : ℕ
  lmin : List ℕ
  lmax : List ℕ
  levels : List (List ℕ)
  combiSpaces : List (List ℕ)
  coefficients : List ℤ
  deriving Repr, DecidableEq

/-- Constructor, `CombiMinMaxScheme.hpp` l.28-51: `effDim_` counts the dimensions with
`lmax_i ≠ lmin_i`. -/
def Scheme.mk' (lmin lmax : List ℕ) : Scheme where
  n := 0
  effDim := lmax.length - ((List.zipWith (fun a b : ℕ => (a : ℤ) - b) lmax lmin).filter (· == 0)).length
  lmin := lmin
  lmax := lmax
  levels := []
  combiSpaces := []
  coefficients := []

/-! ### `createClassicalCombischeme`, `CombiMinMaxScheme.cpp` l.5-64 -/

/-- One iteration of the loop l.16-22: state `(lmaxtmp, lmintmp, dummyDims)`.
`lmax_[i]` is in range (`i < lmax_.size()`). -/
def removeDummyStep (lmin lmax : List ℕ) (st : List ℕ × List ℕ × List ℕ) (i : ℕ) :
    List ℕ × List ℕ × List ℕ :=
  if (lmax.getD i 0 : ℤ) - lmin.getD i 0 = 0 then
    (st.1.eraseIdx (i - st.2.2.length), st.2.1.eraseIdx (i - st.2.2.length), st.2.2 ++ [i])
  else st

/-- The loop l.16-22. -/
def removeDummies (lmin lmax : List ℕ) : List ℕ × List ℕ × List ℕ :=
  (List.range lmax.length).foldl (removeDummyStep lmin lmax) (lmax, lmin, [])

/-- `c`, l.30-38: `cv[effDim_-1]` if all entries of `cv` are equal, else the minimum. -/
def classicalC (effDim : ℕ) (lmaxtmp lmintmp : List ℕ) : ℤ :=
  let cv := levelDiff lmaxtmp (toInt lmintmp)
  if cv.all (fun x => x == cv.headD 0) then cv.getD (effDim - 1) 0 else minElement cv

/-- Re-insertion of the fixed dimensions into one level vector, l.45-48: for
`i < dummyDims.size()`, insert `lmax_[i]` (sic: not `lmax_[dummyDims[i]]`) at position
`dummyDims[i]`. -/
def insertDummies (dummyDims lmax l : List ℕ) : List ℕ :=
  (List.range dummyDims.length).foldl
    (fun l i => l.insertIdx (dummyDims.getD i 0) (lmax.getD i 0)) l

/-- `lmin_` after l.39-41 and l.49. -/
def classicalLmin (c : ℤ) (dummyDims lmax : List ℕ) : List ℕ :=
  (List.range dummyDims.length).foldl
    (fun l i => l.set (dummyDims.getD i 0) (lmax.getD i 0))
    (lmax.map fun a : ℕ => ((a : ℤ) - c).toNat)

/-- `computeCombiCoeffsClassical`, l.140-148. The loop counter `DimType i` is a `uint8_t`:
it wraps around at 256. `fuel` bounds the number of iterations; `none` = not terminated
within `fuel` iterations. -/
def coeffLoop (n effDim : ℕ) (spaces : List (List ℕ)) : (fuel i : ℕ) → List ℤ → Option (List ℤ)
  | fuel, i, acc =>
    if h : i < spaces.length then
      match fuel with
      | 0 => none
      | fuel + 1 =>
        let p := n - levelSum spaces[i]
        coeffLoop n effDim spaces fuel ((i + 1) % 256)
          (acc ++ [(-1) ^ p * ((effDim - 1).choose p : ℤ)])
    else some acc

/-- `combiSpaces_` of the classical scheme, l.53-58. -/
def classicalSpaces (n effDim : ℕ) (lmin : List ℕ) (levels : List (List ℕ)) : List (List ℕ) :=
  levels.flatMap fun l =>
    (List.range effDim).flatMap fun p =>
      if leVec lmin l && decide (levelSum l + p = n) then [l] else []

/-- `createClassicalCombischeme`, l.5-64, on a freshly constructed scheme. `none` = the
coefficient loop has not terminated within `fuel` iterations. -/
def createClassicalCombischeme (fuel : ℕ) (lmin lmax : List ℕ) : Option Scheme :=
  let s := Scheme.mk' lmin lmax
  let (lmaxtmp, lmintmp, dummyDims) := removeDummies lmin lmax
  if lmintmp = [] then
    -- l.24-28: `combiSpaces_` stays empty here
    some { s with levels := [lmin], coefficients := [1] }
  else
    let c := classicalC s.effDim lmaxtmp lmintmp
    let lmin' := classicalLmin c dummyDims lmax
    let levels := (createTruncatedHierarchicalLevels lmaxtmp (toInt lmintmp)).map
      (insertDummies dummyDims lmax)
    let n := levelSum lmin' + c.toNat
    let spaces := classicalSpaces n s.effDim lmin' levels
    (coeffLoop n s.effDim spaces fuel 0 []).map fun coeffs =>
      { s with n := n, lmin := lmin', levels := levels, combiSpaces := spaces,
               coefficients := coeffs }

/-! ### `createAdaptiveCombischeme`, `CombiMinMaxScheme.cpp` l.75-97, 118-138 -/

/-- The coefficient computed for entry `i` (l.120-128): sum over the current entries
`nbr` of the list with `combiSpaces_[i] <= nbr <= combiSpaces_[i] + 1`. -/
def adaptiveCoeff (spaces : List (List ℕ)) (l : List ℕ) : ℤ :=
  (spaces.map fun nbr =>
    if leVec l nbr && leVec nbr (l.map (· + 1)) then
      (-1 : ℤ) ^ (List.zipWith (· - ·) nbr l).sum else 0).sum

/-- One iteration of the loop l.119-132; `combiSpaces_[i]` is overwritten by the zero vector
if the coefficient is zero. -/
def adaptiveStep (dim : ℕ) (st : List (List ℕ) × List ℤ) (i : ℕ) : List (List ℕ) × List ℤ :=
  let coeff := adaptiveCoeff st.1 (st.1.getD i [])
  (if coeff = 0 then st.1.set i (List.replicate dim 0) else st.1, st.2 ++ [coeff])

/-- `computeCombiCoeffsAdaptive`, l.118-138. -/
def computeCombiCoeffsAdaptive (dim : ℕ) (spaces : List (List ℕ)) : List (List ℕ) × List ℤ :=
  let st := (List.range spaces.length).foldl (adaptiveStep dim) (spaces, [])
  (st.1.filter (fun l => l != List.replicate dim 0), st.2.filter (· != 0))

/-- `*std::max_element` of the level differences (via `getFurthestCorner`, l.66-73;
`n_ = sum(lmin_) + max(ldiff)`). -/
def maxElement : List ℕ → ℕ
  | [] => 0
  | a :: l => l.foldl max a

/-- The grids entering the coefficient computation, l.88-91. -/
def adaptiveSpaces (n : ℕ) (lmin : List ℕ) (levels : List (List ℕ)) : List (List ℕ) :=
  levels.filter fun l => leVec lmin l && decide (levelSum l ≤ n)

/-- `createAdaptiveCombischeme`, l.75-97. `rlmin = lmax - n` may have negative entries. -/
def createAdaptiveCombischeme (lmin lmax : List ℕ) : Scheme :=
  let s := Scheme.mk' lmin lmax
  let ldiff := List.zipWith (· - ·) lmax lmin
  let n_ := levelSum lmin + maxElement ldiff
  let n := n_ - levelSum lmin
  let levels := createTruncatedHierarchicalLevels lmax (lmax.map fun a : ℕ => (a : ℤ) - n)
  let r := computeCombiCoeffsAdaptive lmax.length (adaptiveSpaces n_ lmin levels)
  { s with n := n_, levels := levels, combiSpaces := r.1, coefficients := r.2 }

/-- `makeFaultTolerant`, `CombiMinMaxScheme.cpp` l.103-116. -/
def makeFaultTolerant (s : Scheme) : Scheme :=
  if s.lmin = s.lmax then s
  else
    let extra := s.levels.flatMap fun l =>
      (List.range' s.effDim 2).flatMap fun p =>
        if leVec s.lmin l && decide (levelSum l + p = s.n) then [l] else []
    { s with combiSpaces := s.combiSpaces ++ extra,
             coefficients := s.coefficients ++ extra.map fun _ => 0 }

/-- `createDownSet`, `CombiMinMaxScheme.hpp` l.117-128, as a set (the code stores it as an
ascending vector): the levels below the grids whose coefficient is exactly 1. -/
def inCreateDownSet (s : Scheme) (k : List ℕ) : Prop :=
  ∃ lc ∈ s.combiSpaces.zip s.coefficients, lc.2 = 1 ∧ k ∈ getDownSet lc.1

/-! ### Work distribution -/

/-- The 1-d factor in `getCombiDegreesOfFreedom`, `CombiMinMaxScheme.hpp` l.223-237.
Simplification: `powerOfTwo[l]` is the exact power (see C59 for the table). -/
def numDof1d (level boundary : ℕ) : ℕ :=
  if level > 0 then 2 ^ level + boundary - 1 else boundary

/-- `getCombiDegreesOfFreedom`, `CombiMinMaxScheme.hpp` l.223-237. -/
def getCombiDegreesOfFreedom (level boundary : List ℕ) : ℕ :=
  (List.zipWith numDof1d level boundary).prod

/-- `getAssignedLevels`, `CombiMinMaxScheme.hpp` l.492-522: the task numbers given to a
group (levels and coefficients are looked up at the same index). -/
def getAssignedTasks (pgNumbers : List ℕ) (group : ℕ) : List ℕ :=
  (List.range pgNumbers.length).filter fun taskNo => pgNumbers.getD taskNo 0 == group

/-- `getRoundRobinLevels`, `CombiMinMaxScheme.hpp` l.524-545: the loop
`for (taskNo = group; taskNo < size; taskNo += totalNumGroups)`. `fuel` is an upper bound
on the number of iterations (the loop only terminates if `totalNumGroups > 0`). -/
def roundRobinLoop (size numGroups : ℕ) : (fuel taskNo : ℕ) → List ℕ
  | 0, _ => []
  | fuel + 1, taskNo =>
    if taskNo < size then taskNo :: roundRobinLoop size numGroups fuel (taskNo + numGroups) else []

def getRoundRobinTasks (size numGroups group : ℕ) : List ℕ :=
  roundRobinLoop size numGroups (size + 1) group

/-- Search for the group with the lowest load (l.573-580): the first minimum;
`loads[g]` is the load of group `g`, `best` the best group so far. -/
def minGroupLoop (loads : List ℕ) : (gs : List ℕ) → (best : Option (ℕ × ℕ)) → Option (ℕ × ℕ)
  | [], best => best
  | g :: gs, best =>
    let better := match best with
      | none => true
      | some (_, minLoad) => decide (loads.getD g 0 < minLoad)
    minGroupLoop loads gs (if better then some (g, loads.getD g 0) else best)

/-- The group chosen by l.573-580; group 0 initially. (`minLoad` starts at the largest
`long long`; loads are assumed below it.) -/
def minGroup (loads : List ℕ) : ℕ :=
  ((minGroupLoop loads (List.range loads.length) none).map Prod.fst).getD 0

/-- The loop l.569-586 as seen by the whole system: loads per group and the assignment
(task, group) in order. -/
def loadBalanceLoop (dof : ℕ → ℕ) : (tasks : List ℕ) → (loads : List ℕ) → List ℕ × List (ℕ × ℕ)
  | [], loads => (loads, [])
  | t :: ts, loads =>
    let g := minGroup loads
    let r := loadBalanceLoop dof ts (loads.set g (loads.getD g 0 + dof t))
    (r.1, (t, g) :: r.2)

/-- `getLoadBalancedLevels`, `CombiMinMaxScheme.hpp` l.547-591: tasks of one group.
`order` is the order of the task numbers after `std::sort` by descending load (l.563-567);
every group computes the same order. -/
def getLoadBalancedTasks (dof : ℕ → ℕ) (order : List ℕ) (numGroups group : ℕ) : List ℕ :=
  ((loadBalanceLoop dof order (List.replicate numGroups 0)).2.filter (·.2 == group)).map Prod.fst

/-! ### Third level scheme, `src/combischeme/CombiThirdLevelScheme.cpp` -/

/-- `std::round` for a nonnegative rational (round half away from zero). -/
def roundNonneg (q : ℚ) : ℤ := ⌊q + 1 / 2⌋

/-- An iterator range `[b, e)` of a vector of size `scheme.length`; `none` is undefined
behaviour (range outside of the vector or `e < b`). -/
def slice {α : Type*} (scheme : List α) (b e : ℤ) : Option (List α) :=
  if 0 ≤ b ∧ b ≤ e ∧ e ≤ scheme.length then
    some ((scheme.drop b.toNat).take (e - b).toNat) else none

/-- The loop of `decomposeScheme`, l.46-56 (for the levels; the coefficients are split
with the same indices). -/
def decomposeLoop {α : Type*} (scheme : List α) :
    (fracs : List ℚ) → (scanned : ℚ) → (begin_ : ℤ) → Option (List (List α))
  | [], _, _ => some []
  | f :: fs, scanned, b =>
    let e := roundNonneg ((scheme.length : ℚ) * (scanned + f))
    do
      let part ← slice scheme b e
      let rest ← decomposeLoop scheme fs (scanned + f) e
      return part :: rest

/-- `decomposeScheme`, l.31-66. Simplification: exact arithmetic for the fractions. The
asserts on the sum of fractions are not part of the function (they vanish with NDEBUG);
`fracSumAccepted` models the first. -/
def decomposeScheme {α : Type*} (scheme : List α) (fracs : List ℚ) : Option (List (List α)) :=
  decomposeLoop scheme fracs 0 0

/-- the check of l.38-39 -/
def fracSumAccepted (fracs : List ℚ) : Bool := decide (|fracs.sum - 1| < 1 / 1000)

/-- `createThirdLevelScheme`, l.7-29. -/
def createThirdLevelScheme {α : Type*} (scheme : List α) (systemNumber numSystems : ℕ)
    (fracs : List ℚ) : Option (List α) :=
  if numSystems < 2 then some scheme
  else do
    let parts ← decomposeScheme scheme fracs
    parts[systemNumber]?

end Verif

import Verif.Model.FileIO
import Verif.Model.CombiScheme
import Mathlib.Data.Nat.Choose.Basic

/-!
# The script that writes combination schemes

`/repo/tools/generate_combischeme_json.py`: the classes `ClassicDiagonalActiveSet` (l.11-39) and
`combinationSchemeArbitrary` (l.42-114), and the assignment of the grids to process groups (l.158-168).

Simplifications: the dimensions of `lmin` and `lmax` agree; the binomial coefficients, floating-point numbers
in the script, are integers. The order in which Python goes through the set of the active grids is an argument.
-/

namespace Verif.SchemeGenerator

/-! ### Dictionaries -/

/-- A Python dictionary from levels to numbers: the keys in the order of insertion and their values. -/
structure Dict where
  keys : List (List ℕ)
  val : List ℕ → ℤ

namespace Dict

/-- `{}` -/
def empty : Dict := ⟨[], fun _ => 0⟩

/-- `d[k] = v` -/
def set (d : Dict) (k : List ℕ) (v : ℤ) : Dict :=
  ⟨if k ∈ d.keys then d.keys else d.keys ++ [k], fun l => if l = k then v else d.val l⟩

/-- `del d[k]` -/
def del (d : Dict) (k : List ℕ) : Dict := ⟨d.keys.erase k, d.val⟩

/-- `d[k] -= x`; `none`: `KeyError` -/
def sub (d : Dict) (k : List ℕ) (x : ℤ) : Option Dict :=
  if k ∈ d.keys then some (d.set k (d.val k - x)) else none

end Dict

/-! ### The active set -/

/-- `itertools.product` -/
def product : List (List ℕ) → List (List ℕ)
  | [] => [[]]
  | r :: rs => r.flatMap fun x => (product rs).map fun l => x :: l

/-- `numpy.argmax`: the first position of the largest entry. -/
def argmax (l : List ℤ) : ℕ := l.idxOf (l.foldl max (l.headD 0))

/-- `getLevelMinima`, l.23-27. -/
def levelMinima (lmin lmax : List ℕ) : List ℕ :=
  let maxInd := argmax (List.zipWith (fun (a b : ℕ) => (a : ℤ) - b) lmax lmin)
  lmin.set maxInd (lmax.getD maxInd 0)

/-- `getActiveSet`, l.29-39. -/
def activeSet (lmin lmax : List ℕ) (diagonalIndex : ℤ) : List (List ℕ) :=
  let levelSum : ℤ := (levelMinima lmin lmax).sum + diagonalIndex
  (product (lmax.map fun x => List.range (x + 1))).filter fun grid =>
    decide ((grid.sum : ℤ) = levelSum) && leVec lmin grid

/-! ### The scheme -/

/-- `getDownSet`, l.47-50. -/
def downSet (l : List ℕ) : List (List ℕ) := product (l.map fun x => List.range (x + 1))

/-- The ranges of l.68-69. -/
def levelRanges (lmin lmax : List ℕ) : List (List ℕ) :=
  List.zipWith (fun a b => (List.range (b + 1 - a)).map fun i => i + a) lmin lmax

/-- One grid of the binomial formula, l.75-77. -/
def binomialStep (lmin : List ℕ) (firstDifference : ℤ) (q : ℕ) (d : Dict) (grid : List ℕ) : Dict :=
  if decide ((grid.sum : ℤ) = (lmin.sum : ℤ) + firstDifference - q) && leVec lmin grid then
    d.set grid ((-1) ^ q * ((lmin.length - 1).choose q : ℤ))
  else d

/-- The binomial formula, l.68-77. -/
def binomialScheme (lmin lmax : List ℕ) (firstDifference : ℤ) : Dict :=
  (List.range lmin.length).foldl (fun d q =>
    (product (levelRanges lmin lmax)).foldl (binomialStep lmin firstDifference q) d) .empty

/-- One subspace is counted, l.88-91. -/
def countOne (d : Dict) (s : List ℕ) : Dict :=
  if s ∈ d.keys then d.set s (d.val s + 1) else d.set s 1

/-- `dictOfSubspaces`, l.84-91. -/
def countSubspaces (scheme : Dict) : Dict :=
  scheme.keys.foldl (fun d l => (downSet l).foldl countOne d) .empty

/-- `dictOfSubspaces[l] -= diff` for all `l` in a list, l.110-111. -/
def subAll (diff : ℤ) : List (List ℕ) → Dict → Option Dict
  | [], d => some d
  | l :: ls, d => (d.sub l diff).bind (subAll diff ls)

/-- What the loop does with one subspace, l.96-111; `none`: `KeyError`. -/
def correct (st : Dict × Dict) (s : List ℕ) : Option (Dict × Dict) :=
  let scheme := st.1
  let counts := st.2
  let currentCount := counts.val s
  if currentCount ≠ 1 then
    let diff := currentCount - 1
    let scheme :=
      if s ∈ scheme.keys then
        let scheme := scheme.set s (scheme.val s - diff)
        if scheme.val s = 0 then scheme.del s else scheme
      else scheme.set s (-diff)
    (subAll diff (downSet s) counts).map fun counts => (scheme, counts)
  else some (scheme, counts)

/-- `set(dictOfSubspaces.values()) != set([1])`, l.94. -/
def unfinished (counts : Dict) : Bool := counts.keys.isEmpty || counts.keys.any fun k => counts.val k ≠ 1

/-- The loop l.94-111; `stuck`: it needs more than `fuel` rounds. -/
def correctLoop : (fuel : ℕ) → Dict × Dict → Outcome Dict
  | 0, _ => .stuck
  | fuel + 1, st =>
    if unfinished st.2 then
      match st.2.keys.foldlM correct st with
      | none => .error
      | some st => correctLoop fuel st
    else .ok st.1

/-- `updateDict`, l.59-111. `active`: the active set in the order in which Python goes through it. The test
`uniformLevelDifference` of l.64-65 is true for every list that is not empty. -/
def updateDict (fuel : ℕ) (lmin lmax : List ℕ) (active : List (List ℕ)) : Outcome Dict :=
  match lmin, lmax with
  | a :: _, b :: _ =>
    let firstDifference : ℤ := (b : ℤ) - a
    let uniform := List.zipWith (fun (a b : ℕ) => decide ((b : ℤ) - a = firstDifference)) lmin lmax
    if !uniform.isEmpty && decide ((lmin.length : ℤ) ≤ firstDifference) then
      .ok (binomialScheme lmin lmax firstDifference)
    else
      let scheme := active.foldl (fun d l => d.set l 1) Dict.empty
      correctLoop fuel (scheme, countSubspaces scheme)
  | _, _ => .error

/-! ### The assignment to groups -/

/-- The keys of `numGridsOfSize`, l.126-132. -/
def gridSizes (scheme : Dict) : List ℕ :=
  scheme.keys.foldl (fun l k => if k.sum ∈ l then l else l ++ [k.sum]) []

/-- One grid is assigned, l.165-168. -/
def assignOne (groups : ℕ) (scheme : Dict) (st : (ℕ → Dict) × ℕ) (key : List ℕ) : (ℕ → Dict) × ℕ :=
  (fun g => if g = st.2 then (st.1 g).set key (scheme.val key) else st.1 g, (st.2 + 1) % groups)

/-- The assignment, l.158-168: the dictionary of each group. -/
def assign (groups : ℕ) (scheme : Dict) : ℕ → Dict :=
  ((gridSizes scheme).foldl (fun st size =>
    scheme.keys.foldl (fun st key => if key.sum = size then assignOne groups scheme st key else st) st)
    (fun _ => .empty, 0)).1

end Verif.SchemeGenerator

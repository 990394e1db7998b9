import Verif.Model.SchemeGenerator
import Std.Data.String.ToInt

/-!
# Combination schemes in files

Writing a scheme (`/repo/tools/generate_combischeme_json.py` l.170-180), reading it
(`CombiMinMaxSchemeFromFile`, `/repo/src/combischeme/CombiMinMaxScheme.hpp` l.176-221, with the checks of the
base class l.29-40), and what a group does with it (`getAssignedLevels` l.492-522, `getLoadBalancedLevels`
l.547-591, `/repo/examples/combi_workers_only/combi_example_worker_only.cpp` l.86-107).

Assertions are compiled in. The text of the file is not modelled: a file is the property tree which
`read_json` makes of it, in which an element of a list has no name, the entries of a dictionary have their
keys as names, in the order of the file, and a number is its text. Rank 0 reads the file and broadcasts it
(`/repo/src/io/BroadcastParameters.cpp` l.16-26, l.39-48), so all processes have the same tree.
-/

namespace Verif.SchemeFile

/-- What is read of the value of an entry: its text, if it is a number, and the texts of its elements, if it is
a list. -/
structure Field where
  data : String
  elements : List String
  deriving DecidableEq

/-- An element of the list in the file: names and values of its entries. -/
abbrev Component := List (String × Field)

/-- A file: the names of the elements (empty for the elements of a list) and the elements. -/
abbrev SchemeTree := List (String × Component)

/-! ### Reading -/

/-- `get_value<int>()`: the type has 32 bits (`/repo/src/utils/Types.hpp` l.36-38, l.61). `none`: exception.
Simplification: texts which are not JSON numbers (`String.toInt?` allows underscores) do not occur. -/
def getInt (s : String) : Option ℤ :=
  match s.toInt? with
  | none => none
  | some v => if -2 ^ 31 ≤ v ∧ v < 2 ^ 31 then some v else none

/-- The loop l.193-196: the element `i` is written to `lvl[i]`. `stuck`: there is no `lvl[i]`. -/
def fillLevel : (i : ℕ) → List String → List ℤ → Outcome (List ℤ)
  | _, [], lvl => .ok lvl
  | i, t :: ts, lvl =>
    match getInt t with
    | none => .error
    | some v => if i < lvl.length then fillLevel (i + 1) ts (lvl.set i v) else .stuck

/-- `operator<=`, `/repo/src/utils/IndexVector.hpp` l.44-52, for vectors of the same length; `false` (a failed
assertion) for others. -/
def leVecZ : List ℤ → List ℤ → Bool
  | [], [] => true
  | a :: as, b :: bs => decide (a ≤ b) && leVecZ as bs
  | _, _ => false

/-- The members of the class, filled by the constructor. -/
structure FileScheme (K : Type) where
  coefficients : List K
  combiSpaces : List (List ℤ)
  groupNumbers : List ℤ
  deriving DecidableEq

section
variable {K : Type} (readReal : String → Option K)

/-- One entry of a component, l.187-206. `readReal`: `get_value<real>()`, `none`: exception. -/
def readField (dim : ℕ) (lmin lmax : List ℤ) (s : FileScheme K) (c : String × Field) :
    Outcome (FileScheme K) :=
  if c.1 = "coeff" then
    match readReal c.2.data with
    | none => .error
    | some x => .ok { s with coefficients := s.coefficients ++ [x] }
  else if c.1 = "level" then
    (fillLevel 0 c.2.elements (List.replicate dim 0)).bind fun lvl =>
      if leVecZ lvl lmax && leVecZ lmin lvl then .ok { s with combiSpaces := s.combiSpaces ++ [lvl] }
      else .stuck
  else if c.1 = "group_no" then
    match getInt c.2.data with
    | none => .error
    | some g => .ok { s with groupNumbers := s.groupNumbers ++ [g] }
  else .stuck

/-- The entries of a component, l.186-207. -/
def readFields (dim : ℕ) (lmin lmax : List ℤ) : Component → FileScheme K → Outcome (FileScheme K)
  | [], s => .ok s
  | c :: cs, s => (readField readReal dim lmin lmax s c).bind (readFields dim lmin lmax cs)

/-- One component, l.185-212. -/
def readComponent (dim : ℕ) (lmin lmax : List ℤ) (s : FileScheme K) (c : String × Component) :
    Outcome (FileScheme K) :=
  if c.1 ≠ "" then .stuck
  else (readFields readReal dim lmin lmax c.2 s).bind fun s =>
    if s.coefficients.length = s.combiSpaces.length ∧
        (s.groupNumbers.length = s.combiSpaces.length ∨ s.groupNumbers.length = 0) then .ok s
    else .stuck

/-- The components, l.184-213. -/
def readComponents (dim : ℕ) (lmin lmax : List ℤ) : SchemeTree → FileScheme K → Outcome (FileScheme K)
  | [], s => .ok s
  | c :: cs, s => (readComponent readReal dim lmin lmax s c).bind (readComponents dim lmin lmax cs)

/-- The checks in the constructor of the base class, l.29-40. -/
def boundsOk (dim : ℕ) (lmin lmax : List ℤ) : Bool :=
  decide (0 < dim) && decide (lmax.length = dim) && lmax.all (fun l => decide (0 < l)) &&
    decide (lmin.length = dim) && lmin.all (fun l => decide (0 < l)) && leVecZ lmin lmax

/-- The constructor, l.178-216. `none`: `read_json` could not read the file. -/
def readScheme (dim : ℕ) (lmin lmax : List ℤ) (file : Option SchemeTree) : Outcome (FileScheme K) :=
  if boundsOk dim lmin lmax then
    match file with
    | none => .error
    | some t => (readComponents readReal dim lmin lmax t ⟨[], [], []⟩).bind fun s =>
      if 0 < s.coefficients.length ∧ s.coefficients.length = s.combiSpaces.length then .ok s else .stuck
  else .stuck

end

/-! ### The grids of a group -/

/-- `levels`, `coeffs` and `taskNumbers` of a group. -/
structure GroupGrids (K : Type) where
  levels : List (List ℤ)
  coeffs : List K
  taskNumbers : List ℕ
  deriving DecidableEq

section
variable {K : Type}

/-- The three `push_back` with `taskNo`, l.515-518 and l.583-586; `none`: index out of range. -/
def pushGrid (s : FileScheme K) (r : GroupGrids K) (taskNo : ℕ) : Option (GroupGrids K) :=
  match s.coefficients[taskNo]?, s.combiSpaces[taskNo]? with
  | some x, some l => some ⟨r.levels ++ [l], r.coeffs ++ [x], r.taskNumbers ++ [taskNo]⟩
  | _, _ => none

/-- The loop over some task numbers. -/
def pushGrids (s : FileScheme K) : List ℕ → GroupGrids K → Option (GroupGrids K)
  | [], r => some r
  | t :: ts, r => (pushGrid s r t).bind (pushGrids s ts)

/-- `std::minmax_element`, l.510-511: the smallest group number. -/
def minNumber : List ℤ → Option ℤ
  | [] => none
  | g :: gs => some (gs.foldl min g)

/-- `getAssignedLevels`, l.492-522. -/
def getAssignedLevels (s : FileScheme K) (myGroup : ℤ) : Outcome (GroupGrids K) :=
  if s.combiSpaces.length = s.coefficients.length ∧ s.groupNumbers.length = s.coefficients.length then
    if s.groupNumbers.isEmpty then .error
    else if minNumber s.groupNumbers ≠ some 0 then .stuck
    else
      match pushGrids s ((List.range s.groupNumbers.length).filter fun t =>
          decide (s.groupNumbers[t]? = some myGroup)) ⟨[], [], []⟩ with
      | none => .stuck
      | some r => .ok r
  else .stuck

/-- `getLoadBalancedLevels`, l.547-591, on the assignment of `Verif.getLoadBalancedTasks`. `order`: the task
numbers after `std::sort`. -/
def getLoadBalancedLevels (s : FileScheme K) (boundary : List ℕ) (order : List ℕ) (numGroups myGroup : ℕ) :
    Outcome (GroupGrids K) :=
  if s.combiSpaces.length = s.coefficients.length ∧ numGroups ≤ s.combiSpaces.length then
    match pushGrids s (getLoadBalancedTasks
        (fun t => getCombiDegreesOfFreedom ((s.combiSpaces.getD t []).map Int.toNat) boundary)
        order numGroups myGroup) ⟨[], [], []⟩ with
    | none => .stuck
    | some r => .ok r
  else .stuck

/-- What a process of group `myGroup` does, `combi_example_worker_only.cpp` l.86-107. -/
def workerStart (readReal : String → Option K) (dim : ℕ) (lmin lmax : List ℤ) (file : Option SchemeTree)
    (boundary order : List ℕ) (numGroups myGroup : ℕ) : Outcome (GroupGrids K) :=
  (readScheme readReal dim lmin lmax file).bind fun s =>
    (if 0 < s.groupNumbers.length then getAssignedLevels s myGroup
      else getLoadBalancedLevels s boundary order numGroups myGroup).bind fun r =>
    if r.levels.isEmpty then .stuck
    else if r.levels.length = r.coeffs.length ∧ r.levels.length = r.taskNumbers.length then .ok r
    else .stuck

end

/-! ### Writing -/

/-- `{"coeff": coeff, "level": list(level), "group_no": group_no}`, `generate_combischeme_json.py` l.173.
`coeffText`: how Python writes a coefficient, an integer or a floating-point number with an integer value. -/
def dumpComponent (coeffText : ℤ → String) (group : ℕ) (level : List ℕ) (coeff : ℤ) : Component :=
  [("coeff", ⟨coeffText coeff, []⟩), ("level", ⟨"", level.map fun l : ℕ => (l : ℤ).repr⟩),
    ("group_no", ⟨(group : ℤ).repr, []⟩)]

/-- `schemeList`, l.170-174: group after group, the grids of each in the order of its dictionary. -/
def dumpScheme (coeffText : ℤ → String) (groups : ℕ) (assignment : ℕ → SchemeGenerator.Dict) : SchemeTree :=
  (List.range groups).flatMap fun g =>
    (assignment g).keys.map fun level => ("", dumpComponent coeffText g level ((assignment g).val level))

end Verif.SchemeFile

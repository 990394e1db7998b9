import Verif.Model.OrderedMap
import Verif.Model.FileIO
import Mathlib.Data.List.Lex
import Mathlib.Algebra.Group.Defs

/-!
# Combination parameters

`/repo/src/manager/CombiParameters.hpp`, `/repo/src/mpi/MPIUtils.hpp` l.17-106,
`/repo/src/manager/ProcessGroupWorker.cpp` l.711-723 (`updateCombiParameters`),
`/repo/src/manager/ProcessManager.cpp` l.342-356 (`restoreCombischeme`).

`std::map` is `OMap`; maps with level vectors as keys are ordered lexicographically (inside of
namespace `std` the componentwise `operator<` of `IndexVector.hpp` is not found). Coefficients are
elements of a type `R`.
-/

namespace Verif

/-- `CombiParameters`, l.479-541. The basis functions (pointers to polymorphic objects) are represented
by a number for their class, the combination variant by a number. -/
structure CombiParams (R : Type) where
  dim : ℕ
  lmin : List ℤ
  lmax : List ℤ
  boundary : List ℕ
  levels : OMap ℕ (List ℤ)
  coeffs : OMap ℕ R
  levelsToIDs : OMap (List ℤ) ℕ
  combiDictionary : OMap (List ℤ) R
  hierarchizationDims : List Bool
  hierarchicalBases : List ℕ
  procs : List ℤ
  decomposition : List (List ℤ)
  forwardDecomposition : Bool
  numberOfCombinations : ℕ
  numGridsPerTask : ℕ
  combinationVariant : ℕ
  reduceCombinationDimsLmin : List ℤ
  reduceCombinationDimsLmax : List ℤ
  chunkSize : ℕ
  thirdLevelHost : String
  thirdLevelPort : ℕ
  thirdLevelPG : ℕ
  deriving DecidableEq

namespace CombiParams

variable {R : Type}

/-- The default constructor (with empty containers; the numbers are not initialised by the code and
overwritten before they are read). -/
def empty : CombiParams R :=
  ⟨0, [], [], [], [], [], [], [], [], [], [], [], false, 0, 0, 0, [], [], 0, "", 0, 0⟩

/-- `getCoeff`, l.242-248. -/
def getCoeff [Zero R] (p : CombiParams R) (taskID : ℕ) : R :=
  match p.coeffs.find taskID with
  | none => 0
  | some c => c

/-- `getLevel`, l.310-318; an empty vector for an unknown task. -/
def getLevel (p : CombiParams R) (taskID : ℕ) : List ℤ :=
  match p.levels.find taskID with
  | none => []
  | some l => l

/-- `getID`, l.323: `operator[]` of the map, which inserts the number 0 for an unknown level. The first
result is the number, the second one the parameters with the changed map. -/
def getID (p : CombiParams R) (level : List ℤ) : ℕ × CombiParams R :=
  match p.levelsToIDs.find level with
  | some i => (i, p)
  | none => (0, { p with levelsToIDs := p.levelsToIDs.set level 0 })

/-- `getNumLevels`, l.345. -/
def getNumLevels (p : CombiParams R) : ℕ := p.levels.length

/-- `getCoeffs`, l.253-258. -/
def getCoeffs (p : CombiParams R) : List ℕ × List R := (p.coeffs.map Prod.fst, p.coeffs.map Prod.snd)

/-- `getCombiDict()[level]` as read by a user of the dictionary, l.333. -/
def dictCoeff (p : CombiParams R) (level : List ℤ) : Option R := p.combiDictionary.find level

/-- `setCoeff`, l.270-274, with its assertion. `levels_[taskID]` of an unknown task would be an empty
vector. -/
def setCoeff (p : CombiParams R) (taskID : ℕ) (coeff : R) : Outcome (CombiParams R) :=
  if (p.coeffs.find taskID).isNone then .stuck
  else
    let level := p.getLevel taskID
    .ok { p with
      coeffs := p.coeffs.set taskID coeff
      levels := if (p.levels.find taskID).isNone then p.levels.set taskID [] else p.levels
      combiDictionary := p.combiDictionary.set level coeff }

/-- One round of the loop of `setLevelsCoeffs`, l.298-303. -/
def setLevelCoeff (p : CombiParams R) (taskID : ℕ) (level : List ℤ) (coeff : R) : CombiParams R :=
  { p with
    coeffs := p.coeffs.set taskID coeff
    levels := p.levels.set taskID level
    levelsToIDs := p.levelsToIDs.set level taskID
    combiDictionary := p.combiDictionary.set level coeff }

/-- The loop of `setLevelsCoeffs`, l.298-303. -/
def setLevelsCoeffsLoop (p : CombiParams R) : List (ℕ × List ℤ × R) → CombiParams R
  | [] => p
  | (i, l, c) :: rest => setLevelsCoeffsLoop (p.setLevelCoeff i l c) rest

/-- `setLevelsCoeffs`, l.279-305. An empty list of tasks fails (l.282-286 or l.295), lists of
different lengths fail the assertions of l.288 and l.292, equal task numbers the one of l.289-291. -/
def setLevelsCoeffs (p : CombiParams R) (taskIDs : List ℕ) (levels : List (List ℤ)) (coeffs : List R) :
    Outcome (CombiParams R) :=
  if taskIDs = [] then .stuck
  else if taskIDs.length ≠ coeffs.length ∨ coeffs.length ≠ levels.length then .stuck
  else if ¬ taskIDs.Nodup then .stuck
  else .ok (setLevelsCoeffsLoop p (taskIDs.zip (levels.zip coeffs)))

end CombiParams

/-! ### Archives -/

/-- A token of a text archive. Doubles are written with enough digits, so that reading gives the same
number (finite numbers only). -/
inductive Tok (R : Type) where
  | nat (n : ℕ)
  | int (n : ℤ)
  | real (r : R)
  | str (s : String)
  deriving DecidableEq, Repr

/-- How a type is written to and read from an archive. -/
structure Ser (R α : Type) where
  save : α → List (Tok R)
  load : List (Tok R) → Option (α × List (Tok R))

namespace Ser

variable {R α β : Type}

def nat : Ser R ℕ where
  save n := [.nat n]
  load
    | .nat n :: rest => some (n, rest)
    | _ => none

def int : Ser R ℤ where
  save n := [.int n]
  load
    | .int n :: rest => some (n, rest)
    | _ => none

def real : Ser R R where
  save r := [.real r]
  load
    | .real r :: rest => some (r, rest)
    | _ => none

def str : Ser R String where
  save s := [.str s]
  load
    | .str s :: rest => some (s, rest)
    | _ => none

def bool : Ser R Bool where
  save b := [.nat (if b then 1 else 0)]
  load
    | .nat n :: rest => some (n ≠ 0, rest)
    | _ => none

def pair (a : Ser R α) (b : Ser R β) : Ser R (α × β) where
  save x := a.save x.1 ++ b.save x.2
  load toks := do
    let (x, r1) ← a.load toks
    let (y, r2) ← b.load r1
    pure ((x, y), r2)

/-- `n` items one after the other -/
def loadItems (a : Ser R α) : ℕ → List (Tok R) → Option (List α × List (Tok R))
  | 0, toks => some ([], toks)
  | n + 1, toks => do
    let (x, r1) ← a.load toks
    let (xs, r2) ← loadItems a n r1
    pure (x :: xs, r2)

/-- Vectors and maps: the number of items, then the items. -/
def list (a : Ser R α) : Ser R (List α) where
  save xs := .nat xs.length :: xs.flatMap a.save
  load
    | .nat n :: rest => loadItems a n rest
    | _ => none

end Ser

namespace CombiParams

variable {R : Type}

/-- `serialize` writing, l.547-569: the twenty fields in the order of the code. -/
def save (p : CombiParams R) : List (Tok R) :=
  Ser.nat.save p.dim ++ (Ser.list Ser.int).save p.lmin ++ (Ser.list Ser.int).save p.lmax ++
  (Ser.list Ser.nat).save p.boundary ++
  (Ser.list (Ser.pair Ser.nat (Ser.list Ser.int))).save p.levels ++
  (Ser.list (Ser.pair Ser.nat Ser.real)).save p.coeffs ++
  (Ser.list Ser.bool).save p.hierarchizationDims ++ (Ser.list Ser.nat).save p.hierarchicalBases ++
  (Ser.list Ser.int).save p.procs ++ (Ser.list (Ser.list Ser.int)).save p.decomposition ++
  Ser.bool.save p.forwardDecomposition ++ Ser.nat.save p.numberOfCombinations ++
  Ser.nat.save p.numGridsPerTask ++ Ser.nat.save p.combinationVariant ++ Ser.nat.save p.chunkSize ++
  (Ser.list Ser.int).save p.reduceCombinationDimsLmin ++
  (Ser.list Ser.int).save p.reduceCombinationDimsLmax ++ Ser.str.save p.thirdLevelHost ++
  Ser.nat.save p.thirdLevelPort ++ Ser.nat.save p.thirdLevelPG

/-- `serialize` reading into an existing object, l.547-569. -/
def load (p : CombiParams R) (toks : List (Tok R)) : Option (CombiParams R × List (Tok R)) := do
  let (dim, t) ← Ser.nat.load toks
  let (lmin, t) ← (Ser.list Ser.int).load t
  let (lmax, t) ← (Ser.list Ser.int).load t
  let (boundary, t) ← (Ser.list Ser.nat).load t
  let (levels, t) ← (Ser.list (Ser.pair Ser.nat (Ser.list Ser.int))).load t
  let (coeffs, t) ← (Ser.list (Ser.pair Ser.nat Ser.real)).load t
  let (hierarchizationDims, t) ← (Ser.list Ser.bool).load t
  let (hierarchicalBases, t) ← (Ser.list Ser.nat).load t
  let (procs, t) ← (Ser.list Ser.int).load t
  let (decomposition, t) ← (Ser.list (Ser.list Ser.int)).load t
  let (forwardDecomposition, t) ← Ser.bool.load t
  let (numberOfCombinations, t) ← Ser.nat.load t
  let (numGridsPerTask, t) ← Ser.nat.load t
  let (combinationVariant, t) ← Ser.nat.load t
  let (chunkSize, t) ← Ser.nat.load t
  let (reduceLmin, t) ← (Ser.list Ser.int).load t
  let (reduceLmax, t) ← (Ser.list Ser.int).load t
  let (thirdLevelHost, t) ← Ser.str.load t
  let (thirdLevelPort, t) ← Ser.nat.load t
  let (thirdLevelPG, t) ← Ser.nat.load t
  pure ({ p with
    dim := dim, lmin := lmin, lmax := lmax, boundary := boundary, levels := levels, coeffs := coeffs,
    hierarchizationDims := hierarchizationDims, hierarchicalBases := hierarchicalBases,
    procs := procs, decomposition := decomposition, forwardDecomposition := forwardDecomposition,
    numberOfCombinations := numberOfCombinations, numGridsPerTask := numGridsPerTask,
    combinationVariant := combinationVariant, chunkSize := chunkSize,
    reduceCombinationDimsLmin := reduceLmin, reduceCombinationDimsLmax := reduceLmax,
    thirdLevelHost := thirdLevelHost, thirdLevelPort := thirdLevelPort,
    thirdLevelPG := thirdLevelPG }, t)

/-- A transfer of the object to another process: `sendClass`/`receiveClass`, `MPIUtils.hpp` l.18-54,
and equally `broadcastClass` l.71-105. The receiver has a default constructed object. -/
def transfer (p : CombiParams R) : Outcome (CombiParams R) :=
  match empty.load p.save with
  | none => .error
  | some (q, _) => .ok q

/-- `updateCombiParameters` on the workers, `ProcessGroupWorker.cpp` l.711-723: the parameters as they
arrive on the process that talks to the manager (`isMaster`), and on the others of the group, which get
them from there. -/
def received (isMaster : Bool) (p : CombiParams R) : Outcome (CombiParams R) :=
  if isMaster then p.transfer else p.transfer.bind transfer

/-- The loop of `restoreCombischeme`, `ProcessManager.cpp` l.351-353, with the levels and coefficients of
the newly created scheme. -/
def restoreLoop (p : CombiParams R) : List (List ℤ × R) → Outcome (CombiParams R)
  | [] => .ok p
  | (l, c) :: rest =>
    let r := p.getID l
    (r.2.setCoeff r.1 c).bind fun q => restoreLoop q rest

end CombiParams

end Verif

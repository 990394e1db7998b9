import Verif.Model.SchemeGenerator
import Verif.Model.Selalib

/-!
# The preparation of the GENE examples

`/repo/examples/gene_distributed/preproc.py` (the script of `gene_distributed_linear` differs in the number of
points of the first dimension only), with `gene_python_interface/ActiveSetFactory.py` and
`gene_python_interface/combinationScheme.py`, and the part of
`/repo/examples/gene_distributed/src/manager.cpp` (l.276-359; `gene_distributed_linear/src/manager.cpp` l.192-267)
that reads its result.

A text is a list of characters. The folder `./basename<number>` is identified with its number; of the files in it
only `parameters` is modelled, and of the files in `./basename` only `spaces.dat`. The order in which Python goes
through a set is an argument. The texts of floating-point numbers are arguments. Not modelled: GENE itself, the
start script, the recovery functions of `combinationSchemeFaultTolerant`, which the script does not call.
-/

namespace Verif.GenePreparation

open SchemeGenerator (Dict correctLoop countSubspaces activeSet product)
open Selalib (decimal replaceFirstOccurrence)

/-! ### The scheme -/

/-- `combinationSchemeArbitrary.updateDict`, `combinationScheme.py` l.82-117. The statements after the first loop
are those of `/repo/tools/generate_combischeme_json.py` l.84-111. `active`: the active set in the order in which
Python goes through it. -/
def updateDict (fuel : ℕ) (active : List (List ℕ)) : Outcome Dict :=
  let scheme := active.foldl (fun d l => d.set l 1) Dict.empty
  correctLoop fuel (scheme, countSubspaces scheme)

/-- The dimensions with `lmax - lmin ≠ 0`, `ActiveSetFactory.py` l.139-148: their `lmin` and `lmax`. -/
def freeDims (lmin lmax : List ℕ) : List (ℕ × ℕ) := (lmin.zip lmax).filter fun p => p.2 ≠ p.1

/-- `getExtraGrids`, `ActiveSetFactory.py` l.136-157. `max()` of an empty array is an error. -/
def extraGrids (lmin lmax : List ℕ) (numExtraDiags : ℕ) : Outcome (List (List ℕ)) :=
  let eff := freeDims lmin lmax
  if numExtraDiags = 0 then .ok []
  else
    match (eff.map Prod.snd).max?, (eff.map Prod.fst).max? with
    | some lmaxEff, some lminEff =>
      .ok ((List.range numExtraDiags).flatMap fun j =>
        (product (lmax.map fun x => (List.range x).map (· + 1))).filter fun grid =>
          decide ((grid.sum : ℤ) = lmaxEff - lminEff + lmin.sum - (eff.length + j : ℕ)) && leVec lmin grid)
    | _, _ => .error

/-- `extendSchemeExtraLayers`, `combinationScheme.py` l.222-225. -/
def extendScheme (extra : List (List ℕ)) (d : Dict) : Dict := extra.foldl (fun d g => d.set g 0) d

/-- The scheme, `preproc.py` l.141-147, with `combinationSchemeFaultTolerant.__init__`, `combinationScheme.py`
l.213-220 (which makes the same dictionary twice before it extends it). `σ`: the order in which Python goes
through a set. -/
def makeScheme (fuel : ℕ) (numFaults : ℤ) (σ : List (List ℕ) → List (List ℕ)) (lminp lmaxp : List ℕ) :
    Outcome Dict :=
  (updateDict fuel (σ (activeSet lminp lmaxp 0))).bind fun d =>
    if numFaults = 0 then .ok d
    else (extraGrids lminp lmaxp 2).bind fun extra => .ok (extendScheme (σ extra) d)

/-! ### The files -/

/-- `str` of an integer. -/
def intText (c : ℤ) : List Char := if c < 0 then '-' :: decimal c.natAbs else decimal c.natAbs

/-- `l0`, .., `l5`, `preproc.py` l.160-165; `IndexError` if there are less than six levels. -/
def levelsOf : List ℕ → Outcome (List ℕ)
  | l5 :: l4 :: l3 :: l2 :: l1 :: l0 :: _ => .ok [l0, l1, l2, l3, l4, l5]
  | _ => .error

/-- The line of a grid, l.168-170. -/
def spaceLine (id : ℕ) (levels : List ℕ) (coeff : ℤ) : List Char :=
  decimal id ++ ' ' :: (levels.flatMap fun l => decimal l ++ [' ']) ++ intText coeff ++ ['\n']

/-- The settings of `ctparam` that go to the parameter files, as texts where the script uses the text. `kymin n`:
the text of `2**n * kymin`. -/
structure Config where
  numspecies : List Char
  genelocal : List Char
  nonlinear : List Char
  shat : List Char
  lx : List Char
  kymin : ℤ → List Char
  dt : List Char
  combitime : List Char
  nsteps : ℕ
  ngroup : ℕ
  nprocs : ℕ
  p : List ℕ

/-- `str.replace(k, v)`: all occurrences; `skip`: the number of characters that belong to a replaced one. -/
def replaceEvery (k v : List Char) : (skip : ℕ) → List Char → List Char
  | _, [] => []
  | skip + 1, _ :: s => replaceEvery k v skip s
  | 0, c :: s =>
    if k.isPrefixOf (c :: s) then v ++ replaceEvery k v (k.length - 1) s else c :: replaceEvery k v 0 s

/-- A replacement: only the first occurrence (`replace(k, v, 1)`) or all, the name without `$`, the value. -/
structure Sub where
  first : Bool
  name : List Char
  value : List Char

def Sub.apply (s : List Char) (r : Sub) : List Char :=
  if r.first then replaceFirstOccurrence ('$' :: r.name) r.value s else replaceEvery ('$' :: r.name) r.value 0 s

/-- The replacements for a grid, l.181-214; `extra`: the number added to the points of the first dimension, 0 in
`gene_distributed` and 1 in `gene_distributed_linear`. -/
def gridSubs (C : Config) (extra : ℕ) (lmax1 : ℕ) (l0 l1 l2 l3 l4 : ℕ) : List Sub :=
  [⟨true, "nx0".toList, decimal (2 ^ l0 + extra)⟩,
    ⟨true, "nky0".toList, if C.nonlinear = "T".toList then decimal (2 ^ l1) else decimal (2 ^ l1 - 1)⟩,
    ⟨true, "nz0".toList, decimal (2 ^ l2)⟩, ⟨true, "nv0".toList, decimal (2 ^ l3)⟩,
    ⟨true, "nw0".toList, decimal (2 ^ l4)⟩, ⟨true, "nspec".toList, C.numspecies⟩,
    ⟨true, "GENE_local".toList, C.genelocal⟩, ⟨true, "GENE_nonlinear".toList, C.nonlinear⟩,
    ⟨true, "ps".toList, decimal (C.p.getD 5 0)⟩, ⟨true, "pv".toList, decimal (C.p.getD 3 0)⟩,
    ⟨true, "pw".toList, decimal (C.p.getD 4 0)⟩, ⟨true, "px".toList, decimal (C.p.getD 0 0)⟩,
    ⟨true, "py".toList, decimal (C.p.getD 1 0)⟩, ⟨true, "pz".toList, decimal (C.p.getD 2 0)⟩,
    ⟨false, "ngroup".toList, decimal C.ngroup⟩, ⟨false, "nprocs".toList, decimal C.nprocs⟩,
    ⟨false, "ntimesteps_combi".toList, decimal C.nsteps⟩, ⟨false, "istep_omega".toList, decimal 10⟩,
    ⟨false, "dt_max".toList, C.dt⟩] ++
  (if C.genelocal = "T".toList then [⟨false, "shat".toList, C.shat⟩] else []) ++
  [⟨false, "kymin".toList, C.kymin ((lmax1 : ℤ) - l1)⟩, ⟨false, "lx".toList, C.lx⟩,
    ⟨false, "read_cp".toList, "F".toList⟩, ⟨false, "write_cp".toList, "T".toList⟩,
    ⟨false, "combitime".toList, C.combitime⟩]

/-- The new text of the parameter file of a grid, l.179-214. -/
def adaptParameters (C : Config) (extra lmax1 : ℕ) (levels : List ℕ) (text : List Char) : List Char :=
  match levels with
  | l0 :: l1 :: l2 :: l3 :: l4 :: _ => (gridSubs C extra lmax1 l0 l1 l2 l3 l4).foldl Sub.apply text
  | _ => text

/-- The contents of `parameters` in the folders. -/
abbrev Folders := ℕ → Option (List Char)

/-- `cp -r ./template ./basename<id>`, l.173: into an existing folder the template is copied as a new folder
inside of it, and the file `parameters` stays. -/
def copyTemplate (template : List Char) (id : ℕ) (F : Folders) : Folders :=
  if (F id).isSome then F else Function.update F id (some template)

/-- The loop over the grids, l.152-220. -/
def gridLoop (C : Config) (extra lmax1 : ℕ) (template : List Char) :
    (id : ℕ) → List (List ℕ × ℤ) → (spaces : List Char) → Folders → Outcome (List Char × Folders)
  | _, [], spaces, F => .ok (spaces, F)
  | id, (l, c) :: rest, spaces, F =>
    (levelsOf l).bind fun levels =>
      let F := copyTemplate template id F
      let F := Function.update F id (some (adaptParameters C extra lmax1 levels ((F id).getD [])))
      gridLoop C extra lmax1 template (id + 1) rest (spaces ++ spaceLine id levels c) F

/-- The checks, l.86-94. -/
def levelsAccepted (lmin lmax leval : List ℤ) : Bool :=
  decide (lmin.length = lmax.length) && decide (lmax.length = leval.length) &&
    lmin.all (0 ≤ ·) && lmax.all (0 ≤ ·) && leval.all (0 ≤ ·) &&
    (lmin.zip lmax).all fun p => decide (p.1 ≤ p.2)

/-- `preproc.py`: the text of `spaces.dat` and the parameter files. `numpy.argmax` of an empty list and `p[5]` of a
short list are errors. -/
def preproc (fuel : ℕ) (C : Config) (extra : ℕ) (numFaults : ℤ) (σ : List (List ℕ) → List (List ℕ))
    (template : List Char) (lmin lmax leval : List ℤ) (F : Folders) : Outcome (List Char × Folders) :=
  if levelsAccepted lmin lmax leval then
    if C.p.length < 6 ∨ lmin = [] then .error
    else
      let lminp := (lmin.map Int.toNat).reverse
      let lmaxp := (lmax.map Int.toNat).reverse
      (makeScheme fuel numFaults σ lminp lmaxp).bind fun d =>
        gridLoop C extra ((lmax.map Int.toNat).getD 1 0) template 0 (d.keys.map fun l => (l, d.val l)) [] F
  else .error

/-! ### The manager -/

/-- `std::getline` until the end of the file; `cur`: the beginning of the current line. -/
def getLines : (cur : List Char) → List Char → List (List Char)
  | cur, [] => if cur = [] then [] else [cur]
  | cur, c :: s => if c = '\n' then cur :: getLines [] s else getLines (cur ++ [c]) s

/-- The value of digits. -/
def digitsValue (s : List Char) : ℕ := Nat.ofDigitChars 10 s 0

/-- `ss >> x` for an integer: the value and what is left; `none`: there is no number. Simplification: the numbers
fit into their types. -/
def readInteger (s : List Char) : Option (ℤ × List Char) :=
  let s := s.dropWhile (· == ' ')
  let negative := s.head? == some '-'
  let s := if negative then s.tail else s
  let digits := s.takeWhile Char.isDigit
  if digits = [] then none
  else some (if negative then -(digitsValue digits : ℤ) else digitsValue digits, s.dropWhile Char.isDigit)

/-- `manager.cpp` l.292-293. -/
def readLevels : (n : ℕ) → List Char → Option (List ℤ × List Char)
  | 0, s => some ([], s)
  | n + 1, s =>
    (readInteger s).bind fun (x, s) => (readLevels n s).map fun (xs, s) => (x :: xs, s)

/-- A line, l.287-298. Simplifications: a line that is too short leaves numbers without a value (`none`); the
coefficient, a `double`, is read as an integer. -/
def readLine (dim : ℕ) (line : List Char) : Option (ℤ × List ℤ × ℤ) :=
  (readInteger line).bind fun (id, s) =>
  (readLevels dim s).bind fun (l, s) =>
  (readInteger s).map fun (c, _) => (id, l, c)

/-- A task of the manager: level, coefficient, number of the folder. -/
structure GeneGrid where
  level : List ℤ
  coeff : ℤ
  folder : ℤ
  deriving DecidableEq

/-- The tasks, l.276-357. `spaces`: the text of `spaces.dat`; `scheme`: the scheme of l.302-306. Without the
file, `fileTaskIDs` is empty, and l.333 reads behind its end. -/
def managerTasks (dim : ℕ) (readspaces : Bool) (spaces : List Char) (scheme : Scheme) : Outcome (List GeneGrid) :=
  if readspaces then
    match (getLines [] spaces).mapM (readLine dim) with
    | none => .stuck
    | some lines => .ok (lines.map fun (id, l, c) => ⟨l, c, id⟩)
  else if scheme.combiSpaces = [] then .ok []
  else .stuck

end Verif.GenePreparation

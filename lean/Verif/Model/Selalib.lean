import Verif.Model.CombiScheme
import Verif.Model.FileIO
import Verif.Model.Kahan

/-!
# The Selalib example

`/repo/examples/selalib_distributed/src/SelalibFileTools.hpp` (parameter files of the tasks),
`/repo/examples/selalib_distributed/src/selalib_distributed.cpp` (with manager),
`/repo/examples/selalib_distributed/src/selalib_distributed_workers_only.cpp` and
`/repo/examples/selalib_distributed/postprocessing/combine_selalib_diagnostics.cpp`.

A text is a list of characters. The folder `./basename<number>` is identified with its number; of the files in it
only `param.nml` is modelled. Not modelled: Selalib itself, the other files of the template folder, the folder of
the diagnostics task.
-/

namespace Verif.Selalib

/-! ### Parameter files -/

/-- `replaceFirstOccurrence`, `SelalibFileTools.hpp` l.30-35: `std::string::find` and `std::string::replace`. -/
def replaceFirstOccurrence (toReplace replaceWith : List Char) : List Char → List Char
  | [] => if toReplace.isPrefixOf [] then replaceWith else []
  | c :: s =>
    if toReplace.isPrefixOf (c :: s) then replaceWith ++ (c :: s).drop toReplace.length
    else c :: replaceFirstOccurrence toReplace replaceWith s

/-- `std::to_string` of a number without sign. -/
def decimal (n : ℕ) : List Char := Nat.toDigits 10 n

/-- The last six decimals of `n`. -/
def sixDigits (n : ℕ) : List Char :=
  [100000, 10000, 1000, 100, 10, 1].map fun d => Nat.digitChar (n / d % 10)

/-- `std::to_string` of a `double`: `%f`, six digits after the point. Simplification: a tie is rounded up. -/
def fixedText (x : ℚ) : List Char :=
  let n := ⌊|x| * 1000000 + 1 / 2⌋.toNat
  (if x < 0 then ['-'] else []) ++ decimal (n / 1000000) ++ '.' :: sixDigits (n % 1000000)

/-- The settings of `ctparam` that go to the parameter files. -/
structure Settings where
  p : List ℕ
  nsteps : ℕ
  dt : ℚ
  nDiagnostics : ℕ
  nameDiagnostics : List Char

/-- The loop over the dimensions of `adaptParameterFile`, l.74-78; `d`: the next dimension. -/
def replaceDims : (d : ℕ) → List (ℕ × ℕ) → List Char → List Char
  | _, [], s => s
  | d, (r, p) :: rest, s =>
    replaceDims (d + 1) rest
      (replaceFirstOccurrence ("$p".toList ++ decimal (d + 1)) (decimal p)
        (replaceFirstOccurrence ("$nx".toList ++ decimal (d + 1)) (decimal r) s))

/-- `adaptParameterFile`, l.63-82: the contents of the new file. The assertion l.67 is a failure. -/
def adaptParameterFile (S : Settings) (template : List Char) (resolution : List ℕ) : Outcome (List Char) :=
  if resolution.length = S.p.length then
    let s := replaceFirstOccurrence "$nsteps".toList (decimal S.nsteps) template
    let s := replaceFirstOccurrence "$dt".toList (fixedText S.dt) s
    let s := replaceFirstOccurrence "$n_diagnostics".toList (decimal S.nDiagnostics) s
    let s := replaceFirstOccurrence "$name_diagnostics".toList S.nameDiagnostics s
    .ok (replaceDims 0 (resolution.zip S.p) s)
  else .stuck

/-- The contents of `param.nml` in the folders. -/
abbrev Folders := ℕ → Option (List Char)

/-- `resolutions`, l.116-119: `levels[i][d]` for the dimensions of the first level vector. Simplification: the
powers fit into an `int`. -/
def resolutionOf (dims : ℕ) (level : List ℕ) : Outcome (List ℕ) :=
  if dims ≤ level.length then .ok ((level.take dims).map fun l => 2 ^ l) else .stuck

/-- The loop of `createTaskFolders`, l.108-133. -/
def createLoop (S : Settings) (template : List Char) (dims : ℕ) :
    List (List ℕ × ℕ) → Folders → Outcome Folders
  | [], F => .ok F
  | (level, number) :: rest, F =>
    (resolutionOf dims level).bind fun res =>
    (adaptParameterFile S template res).bind fun text =>
    createLoop S template dims rest (Function.update F number (some text))

/-- `createTaskFolders`, l.98-135. -/
def createTaskFolders (S : Settings) (template : List Char) (levels : List (List ℕ)) (taskNumbers : List ℕ)
    (F : Folders) : Outcome Folders :=
  if levels.length = taskNumbers.length then
    createLoop S template (levels.headD []).length (levels.zip taskNumbers) F
  else .stuck

/-- `newRestartInfo`, l.53-54. -/
def restartInfo : List Char :=
  "restart = .true.\n        restart_filename = \"distribution_end-0000.h5\"".toList

/-- One folder in `setCheckpointRestart`, l.42-60. A file that cannot be opened has no contents. -/
def restartFolder (F : Folders) (i : ℕ) : Folders :=
  Function.update F i (some (replaceFirstOccurrence "restart = .false.".toList restartInfo ((F i).getD [])))

/-- `setCheckpointRestart`, l.37-61, from folder `i` on; `hasCheckpoint`: the folders with
`distribution_end-0000.h5`. -/
def setCheckpointRestart (hasCheckpoint : ℕ → Bool) : (i count : ℕ) → Folders → Outcome Folders
  | _, 0, F => .ok F
  | i, count + 1, F =>
    if hasCheckpoint i then setCheckpointRestart hasCheckpoint (i + 1) count (restartFolder F i) else .error

/-! ### The programs -/

/-- A task: `SelalibTask(levels[i], boundary, coeffs[i], .., path, ..)` with the number of its folder. -/
structure SelalibTask where
  level : List ℕ
  coeff : ℤ
  folder : ℕ
  deriving DecidableEq, Repr

/-- `haveResolution`: the assertion `levels.size() == 1` (`selalib_distributed.cpp` l.188,
`selalib_distributed_workers_only.cpp` l.176) and `adaptParameterFileFirstFolder`, `SelalibFileTools.hpp`
l.84-96. -/
def fullGridFolder (S : Settings) (template : List Char) (levels : List (List ℕ)) :
    Option (List ℕ) → Folders → Outcome Folders
  | none, F => .ok F
  | some resolution, F =>
    if levels.length = 1 then
      (adaptParameterFile S template resolution).bind fun text => .ok (Function.update F 0 (some text))
    else .stuck

/-- The files and tasks in `selalib_distributed.cpp` l.148-209 for the scheme `s`. With a resolution, the
coefficient of the task does not matter (it is not combined) and is left unchanged here. -/
def managerStart (S : Settings) (template : List Char) (s : Scheme) (restart : Bool) (hasCheckpoint : ℕ → Bool)
    (resolution : Option (List ℕ)) (F : Folders) : Outcome (Folders × List SelalibTask) :=
  (if restart then setCheckpointRestart hasCheckpoint 0 s.combiSpaces.length F
    else (createTaskFolders S template s.combiSpaces (List.range s.combiSpaces.length) F).bind
      (fullGridFolder S template s.combiSpaces resolution)).bind fun F =>
  .ok (F, (List.range s.combiSpaces.length).filterMap fun i =>
    (s.combiSpaces[i]?).bind fun l => (s.coefficients[i]?).map fun c => ⟨l, c, i⟩)

/-- The grids with the given numbers. -/
def groupGrids (s : Scheme) (taskNumbers : List ℕ) : List SelalibTask :=
  taskNumbers.filterMap fun i => (s.combiSpaces[i]?).bind fun l => (s.coefficients[i]?).map fun c => ⟨l, c, i⟩

/-- What the master of a group does with the files, `selalib_distributed_workers_only.cpp` l.163-183;
`taskNumbers`: the grids of the group (`getLoadBalancedLevels`). -/
def groupFiles (S : Settings) (template : List Char) (s : Scheme) (restart : Bool) (hasCheckpoint : ℕ → Bool)
    (resolution : Option (List ℕ)) (taskNumbers : List ℕ) (F : Folders) : Outcome Folders :=
  let tasks := groupGrids s taskNumbers
  if tasks.length = 0 then .stuck
  else if restart then setCheckpointRestart hasCheckpoint 0 tasks.length F
  else (createTaskFolders S template (tasks.map SelalibTask.level) taskNumbers F).bind
    (fullGridFolder S template (tasks.map SelalibTask.level) resolution)

/-- All groups, one after the other. Simplification: the files of two groups are not written at the same time.
-/
def groupsFiles (S : Settings) (template : List Char) (s : Scheme) (restart : Bool) (hasCheckpoint : ℕ → Bool)
    (resolution : Option (List ℕ)) : (groups : List (List ℕ)) → Folders → Outcome Folders
  | [], F => .ok F
  | g :: gs, F => (groupFiles S template s restart hasCheckpoint resolution g F).bind
      (groupsFiles S template s restart hasCheckpoint resolution gs)

/-- `selalib_distributed_workers_only.cpp` l.118-206: the numbers of the grids of each of `G` groups (the
assertions `CombiMinMaxScheme.hpp` l.560-562 are failures), the files, and the tasks of each group. -/
def workersStart (S : Settings) (template : List Char) (s : Scheme) (restart : Bool) (hasCheckpoint : ℕ → Bool)
    (resolution : Option (List ℕ)) (boundary order : List ℕ) (G : ℕ) (F : Folders) :
    Outcome (Folders × List (List SelalibTask)) :=
  let groups := (List.range G).map fun g => getLoadBalancedTasks
    (fun t => getCombiDegreesOfFreedom (s.combiSpaces.getD t []) boundary) order G g
  if s.combiSpaces.length = s.coefficients.length ∧ G ≤ s.combiSpaces.length then
    (groupsFiles S template s restart hasCheckpoint resolution groups F).bind fun F =>
    .ok (F, groups.map (groupGrids s))
  else .stuck

/-! ### Combining the diagnostics, `combine_selalib_diagnostics.cpp` -/

section
variable {K : Type}

/-- A line of a file: the parts between blanks; `none`: `std::stod` throws `std::invalid_argument`. -/
abbrev Line (K : Type) := List (Option K)

/-- `combinedValues` and `kahanValues`: the columns, with the trailing terms. -/
abbrev Table (K : Type) := List (List (K × K))

/-- The entry of one line in a column, l.76-86. -/
def addToColumn [Zero K] (A : Adder K) (numLines : ℕ) (summand : K) (col : List (K × K)) : List (K × K) :=
  if col.length < numLines then col ++ [(summand, 0)]
  else col.modify (numLines - 1) fun s => kahanStep A s summand

/-- One number, l.72-86. -/
def addNumber [Zero K] (A : Adder K) (numLines column : ℕ) (summand : K) (t : Table K) : Table K :=
  (if t.length < column + 1 then t ++ [[]] else t).modify column (addToColumn A numLines summand)

/-- The loop over the parts of a line, l.60-88. -/
def addLine [Zero K] (A : Adder K) (mul : K → K → K) (coeff : K) (numLines : ℕ) :
    (column : ℕ) → Line K → Table K → Table K
  | _, [], t => t
  | column, none :: rest, t => addLine A mul coeff numLines column rest t
  | column, some v :: rest, t =>
    addLine A mul coeff numLines (column + 1) rest (addNumber A numLines column (mul v coeff) t)

/-- The loop over the lines of a file, l.56-89. -/
def addLines [Zero K] (A : Adder K) (mul : K → K → K) (coeff : K) : (numLines : ℕ) → List (Line K) → Table K →
    Table K
  | _, [], t => t
  | numLines, l :: ls, t =>
    addLines A mul coeff (numLines + 1) ls (addLine A mul coeff (numLines + 1) 0 l t)

/-- The loop over the grids, l.47-90: `files i` is the file in folder `i`. -/
def addFiles [Zero K] (A : Adder K) (mul : K → K → K) (files : ℕ → Option (List (Line K))) :
    (i : ℕ) → (coeffs : List K) → Table K → Outcome (Table K)
  | _, [], t => .ok t
  | i, c :: cs, t =>
    match files i with
    | none => .error
    | some f => addFiles A mul files (i + 1) cs (addLines A mul c 0 f t)

/-- Line `j` of the output, l.94-96; `none`: index out of range. -/
def outputLine (t : Table K) (j : ℕ) : Option (List K) :=
  t.mapM fun col => (col[j]?).map Prod.fst

/-- `combine_selalib_diagnostics.cpp` l.44-99; `coeffs`: the coefficients of the scheme, as many as levels.
`combinedValues[0]` of an empty vector and `combinedValues[k][j]` out of range are failures. Simplification: the
numbers are not rounded to the 13 digits written. -/
def combineDiagnostics [Zero K] (A : Adder K) (mul : K → K → K) (files : ℕ → Option (List (Line K)))
    (coeffs : List K) : Outcome (List (List K)) :=
  (addFiles A mul files 0 coeffs []).bind fun t =>
    match t with
    | [] => .stuck
    | col :: _ =>
      match (List.range col.length).mapM (outputLine t) with
      | none => .stuck
      | some rows => .ok rows

end

end Verif.Selalib

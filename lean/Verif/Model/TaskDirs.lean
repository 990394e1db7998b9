import Mathlib.Data.Nat.Notation

/-!
# The directories of tasks

`SelalibTask`, `/repo/examples/selalib_distributed/src/SelalibTask.hpp`, with the paths of
`selalib_distributed.cpp` l.200-206, and `GeneTask`, `/repo/examples/gene_distributed/src/GeneTask.cpp`, with the
paths of `manager.cpp` l.331-334. Simplifications: one process; a directory is the list of names from the root; there
are no symbolic links; `dirs` says which directories exist (and can be entered). A failing `chdir` calls
`MPI_Abort`, here `none`.
-/

namespace Verif.TaskDirs

abbrev Name := List Char

/-- The parts of a path between slashes. -/
def splitPath : List Char → List Name
  | [] => [[]]
  | c :: cs =>
    if c = '/' then [] :: splitPath cs
    else match splitPath cs with
      | [] => [[c]]
      | w :: ws => (c :: w) :: ws

/-- One part of a path. -/
def enter (dirs : List Name → Bool) (cwd : List Name) (w : Name) : Option (List Name) :=
  if w = [] ∨ w = ['.'] then some cwd
  else
    let d := if w = ['.', '.'] then cwd.dropLast else cwd ++ [w]
    if dirs d then some d else none

/-- The parts of a path, one after the other. -/
def enterAll (dirs : List Name → Bool) : List Name → List Name → Option (List Name)
  | cwd, [] => some cwd
  | cwd, w :: ws => (enter dirs cwd w).bind fun d => enterAll dirs d ws

/-- `chdir` -/
def chdir (dirs : List Name → Bool) (cwd : List Name) (path : List Char) : Option (List Name) :=
  enterAll dirs (if path.head? = some '/' then [] else cwd) (splitPath path)

/-- `std::to_string` of a number that is not negative. -/
def number (i : ℕ) : List Char := Nat.toDigits 10 i

/-- The path of a task of Selalib, `selalib_distributed.cpp` l.200-204. -/
def selalibPath (basename : List Char) (i : ℕ) : List Char := ['.', '/'] ++ basename ++ number i

/-- What the process group does with a task of Selalib. -/
inductive Op where
  | init
  | run
  | diagnostics
  deriving DecidableEq

/-- Calls of Selalib between two calls of `changeDir`, `SelalibTask.hpp` l.120-130: the directory of the call and the
one afterwards. -/
def work (dirs : List Name → Bool) (path : List Char) (cwd : List Name) : Option (List Name × List Name) :=
  (chdir dirs cwd path).bind fun d => (chdir dirs d ['.', '.']).bind fun back => some (d, back)

/-- `init` l.137-167, `run` l.92-114 and `doDiagnostics` l.233-242: how often Selalib is called in the directory
of the task. `active`: the coefficient is not zero. -/
def numCalls (active : Bool) : Op → ℕ
  | .init => 2
  | .run => if active then 1 else 0
  | .diagnostics => 1

/-- Several calls for the same task. -/
def workTimes (dirs : List Name → Bool) (path : List Char) : ℕ → List Name →
    Option (List (List Name) × List Name)
  | 0, cwd => some ([], cwd)
  | n + 1, cwd => (work dirs path cwd).bind fun r =>
    (workTimes dirs path n r.2).bind fun s => some (r.1 :: s.1, s.2)

/-- A sequence of operations on the tasks of a process group: the calls of Selalib (task and directory), and the
directory afterwards. -/
def selalibOps (dirs : List Name → Bool) (basename : List Char) (active : ℕ → Bool) :
    List (Op × ℕ) → List Name → Option (List (ℕ × List Name) × List Name)
  | [], cwd => some ([], cwd)
  | (op, i) :: ops, cwd =>
    (workTimes dirs (selalibPath basename i) (numCalls (active i) op) cwd).bind fun r =>
      (selalibOps dirs basename active ops r.2).bind fun s =>
        some (r.1.map (fun d => (i, d)) ++ s.1, s.2)

/-- The path of a task of GENE, `manager.cpp` l.333. -/
def genePath (basename : List Char) (i : ℕ) : List Char := ['.', '.', '/'] ++ basename ++ number i

/-- `run` and `changeDir`, `GeneTask.cpp` l.98-136, for a sequence of tasks: the directories in which they are. -/
def geneRuns (dirs : List Name → Bool) (basename : List Char) : List ℕ → List Name → Option (List (List Name))
  | [], _ => some []
  | i :: is, cwd =>
    (chdir dirs cwd (genePath basename i)).bind fun d =>
      (geneRuns dirs basename is d).bind fun ds => some (d :: ds)

end Verif.TaskDirs

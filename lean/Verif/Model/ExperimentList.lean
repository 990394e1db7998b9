import Verif.Model.ErrorTable

/-!
# Lists of experiments

`/repo/examples/gene_distributed/run_list.py`: for every line of a file a directory with parameters.

Texts are lists of characters; a line is given by its words (`line.split()`). The time step is kept as text
(`float` is assumed to accept it). Numbers are not negative.
Exceptions of Python are `error`. Names have no slashes, so that a directory is given by its name; that
`mkdir` fails if the directory exists has no effect, since nobody looks at its result. Not modelled: what is
copied to the directories, and the runs.
-/

namespace Verif.ExperimentList

open Verif.ErrorTable (Text)

/-- The parameters of an experiment, l.96-110. -/
structure Experiment where
  basename : Text
  lmin : List ℕ
  lmax : List ℕ
  leval : List ℕ
  leval2 : List ℕ
  p : List ℕ
  ngroup : ℕ
  nprocs : ℕ
  ncombi : ℕ
  nsteps : ℕ
  dt : Text
  deriving DecidableEq, Repr

/-- `[int(x) for x in par[a:b]]`, l.99-103. -/
def slice (par : List Text) (a b : ℕ) : Option (List ℕ) := ((par.drop a).take (b - a)).mapM ErrorTable.toInt

/-- `int(par[i])`, l.105-112. -/
def item (par : List Text) (i : ℕ) : Option ℕ := par[i]?.bind ErrorTable.toInt

/-- l.90-112: the experiment of a line, `none` for an empty line. The last column is the wall time. -/
def readLine (par : List Text) : Outcome (Option Experiment) :=
  if par.length = 0 then .ok none
  else
    let e : Option Experiment := do
      let basename ← par[0]?
      let _ ← par[1]?
      let lmin ← slice par 2 8
      let lmax ← slice par 8 14
      let leval ← slice par 14 20
      let leval2 ← slice par 20 26
      let p ← slice par 26 32
      let ngroup ← item par 32
      let nprocs ← item par 33
      let ncombi ← item par 34
      let nsteps ← item par 35
      let dt ← par[36]?
      let _ ← item par 37
      some ⟨basename, lmin, lmax, leval, leval2, p, ngroup, nprocs, ncombi, nsteps, dt⟩
    match e with
    | some e => .ok (some e)
    | none => .error

/-- `'%s%s%s%s%s%s' % tuple(l)`, l.52-53. -/
def levelName (l : List ℕ) : Text := l.flatMap (Nat.toDigits 10)

/-- The name of the directory, l.49-55 (the two levels have six entries, see `readLine`). -/
def dirname (e : Experiment) : Text :=
  e.basename ++ '_' :: levelName e.lmin ++ '_' :: levelName e.lmax
    ++ '_' :: Nat.toDigits 10 (e.ncombi * e.nsteps) ++ '_' :: Nat.toDigits 10 e.nsteps

/-- The parameters in the files `ctparam` of the directories. -/
abbrev Dirs := List (Text × Experiment)

/-- The parameters in a directory. -/
def Dirs.find (ds : Dirs) (name : Text) : Option Experiment := ds.lookup name

/-- `createExperiment` and `setctparam`, l.16-43, l.46-81: the parameters of the directory are replaced. -/
def create (ds : Dirs) (e : Experiment) : Dirs :=
  (dirname e, e) :: ds.filter (fun d => d.1 != dirname e)

/-- The loop over lines, l.89-123. -/
def runList : Dirs → List (List Text) → Outcome Dirs
  | ds, [] => .ok ds
  | ds, par :: lines =>
    (readLine par).bind fun e =>
      match e with
      | none => runList ds lines
      | some e => runList (create ds e) lines

end Verif.ExperimentList

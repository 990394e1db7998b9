import Verif.Model.FileIO
import Mathlib.Data.Rat.Defs

/-!
# The table of errors of the advection example

`/repo/examples/distributed_advection/output_to_error_csv.py`, with the names of folders of
`/repo/examples/distributed_advection/generate_test_folders_and_submit.sh` and the levels that
`/repo/examples/distributed_advection/advection_example.cpp` prints.

Texts are lists of ASCII characters, lines are without their end. Exceptions of Python are `error`.
How `float` reads numbers is a parameter. Not modelled: the order of the rows in the table (`sort_values`)
and how it is written.
-/

namespace Verif.ErrorTable

abbrev Text := List Char

/-- The parts of a text between the characters with `p`, like `re.split`; there may be empty parts. -/
def splitAt (p : Char → Bool) : Text → List Text
  | [] => [[]]
  | c :: s =>
    if p c then [] :: splitAt p s
    else match splitAt p s with
      | [] => [[c]]
      | w :: ws => (c :: w) :: ws

/-- The characters of `\w`. -/
def isWordChar (c : Char) : Bool := c.isAlphanum || c == '_'

/-- `int` of a text; underscores and signs, which Python accepts too, are not modelled. -/
def toInt (w : Text) : Option ℕ :=
  if w ≠ [] ∧ w.all Char.isDigit = true then
    some (w.foldl (fun n c => 10 * n + (c.toNat - '0'.toNat)) 0)
  else none

/-- `functools.reduce(lambda a,b : int(a)+int(b), level)`, l.29, and `2**level_sum`, l.30: a list with
one element is not converted to a number, for an empty list there is no result. -/
def levelPoints (level : List Text) : Outcome ℕ :=
  if level.length < 2 then .error
  else match level.mapM toInt with
    | some ls => .ok (2 ^ ls.sum)
    | none => .error

/-- The loop over lines, l.24-31, from the number `dof` on. -/
def countDof : (dof : ℕ) → List Text → Outcome ℕ
  | dof, [] => .ok dof
  | dof, line :: lines =>
    if line.head? = some '[' then
      (levelPoints ((splitAt (fun c => !isWordChar c) line).filter (fun w => !w.isEmpty))).bind fun n =>
        countDof (dof + n) lines
    else countDof dof lines

/-- A row of the table. -/
structure Row where
  basis : Text
  dim : ℕ
  lmin : ℕ
  lmax : ℕ
  numbers : List ℚ
  dof : ℕ
  deriving DecidableEq, Repr

/-- l.43-46: the parts of the name of the folder. -/
def parameters (root : Text) : Outcome (List Text) :=
  let ps := splitAt (fun c => c == '_' || c == '-' || c == 'D') root
  match ps with
  | p0 :: p1 :: p2 :: rest =>
    if p2 = "periodic".toList then .ok (p0 :: (p1 ++ "_periodic".toList) :: rest)
    else .ok ps
  | _ => .error

/-- l.43-50: the row of a finished run; a table has nine columns. -/
def makeRow (root : Text) (numbers : List ℚ) (dof : ℕ) : Outcome Row :=
  (parameters root).bind fun ps =>
    match ps[1]?, ps[2]?.bind toInt, ps[4]?.bind toInt, ps[5]?.bind toInt with
    | some b, some d, some l, some m =>
      if numbers.length = 4 then .ok ⟨b, d, l, m, numbers, dof⟩ else .error
    | _, _, _, _ => .error

/-- l.35-40: the numbers in the last line if the run has come to time 1. -/
def finished (parse : Text → Option (List ℚ)) (lastLine : Text) : Option (List ℚ) :=
  match parse lastLine with
  | some (t :: ns) => if t = 1 then some (t :: ns) else none
  | _ => none

/-- The loop over files, l.18-52: for every file the name of its folder and its lines. `line` is the
variable of that name, which keeps its value from one file to the next; at first it does not exist. -/
def table (parse : Text → Option (List ℚ)) : (line : Option Text) → List (Text × List Text) →
    Outcome (List Row)
  | _, [] => .ok []
  | line, (root, lines) :: files =>
    (countDof 0 lines).bind fun dof =>
      match lines.getLast?.or line with
      | none => .error
      | some lastLine =>
        match finished parse lastLine with
        | none => table parse (some lastLine) files
        | some numbers =>
          (makeRow root numbers dof).bind fun r =>
            (table parse (some lastLine) files).bind fun rs => .ok (r :: rs)

/-- `operator<<` for level vectors, `/repo/src/utils/IndexVector.hpp` l.153-164, as in
`advection_example.cpp` l.172. -/
def levelText (l : List ℕ) : Text := '[' :: (l.flatMap fun n => Nat.toDigits 10 n ++ [' ']) ++ [']']

/-- The name of a folder, `generate_test_folders_and_submit.sh` l.20 and l.55, as `os.walk("./")` gives
it. -/
def folder (basis : Text) (dim lmin lmax : ℕ) : Text :=
  "./advection_".toList ++ basis ++ ['_'] ++ Nat.toDigits 10 dim ++ "D_".toList
    ++ Nat.toDigits 10 lmin ++ ['-'] ++ Nat.toDigits 10 lmax

end Verif.ErrorTable

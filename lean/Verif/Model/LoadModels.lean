import Verif.Model.FileIO
import Mathlib.Data.Nat.Digits.Defs
import Mathlib.Data.Rat.Defs
import Mathlib.Algebra.Ring.Rat
import Mathlib.Algebra.Field.Rat

/-!
# Load models that learn from durations

`/repo/src/loadmodel/AverageOfLastNLoadModel.cpp`, `/repo/src/loadmodel/AveragingLoadModel.{hpp,cpp}`,
`/repo/src/loadmodel/LinearLoadModel.cpp`, `/repo/src/utils/LevelVector.cpp` l.4-11. Level vectors are lists
of natural numbers, `real` is exact (`ℚ`).
-/

namespace Verif.LoadModels

/-! ### `AverageOfLastNLoadModel` -/

/-- `lastN_` and `levelVectorToLastNDurations_` (`none`: no such key). -/
structure LastN where
  n : ℕ
  table : List ℕ → Option (List ℕ)

/-- The constructor, l.7-15. -/
def LastN.create (n : ℕ) (tasks : List (List ℕ)) : LastN :=
  ⟨n, fun l => if l ∈ tasks then some [] else none⟩

/-- `addDurationInformation`, l.17-25; `operator[]` inserts an empty deque for a new key. `stuck`:
`pop_front` on an empty deque. -/
def LastN.add (m : LastN) (l : List ℕ) (duration : ℕ) : Outcome LastN :=
  let durations := (m.table l).getD []
  if m.n ≤ durations.length then
    match durations with
    | [] => .stuck
    | _ :: ds => .ok ⟨m.n, Function.update m.table l (some (ds ++ [duration]))⟩
  else .ok ⟨m.n, Function.update m.table l (some (durations ++ [duration]))⟩

/-- Conversion of an `unsigned long` to `int`: modulo `2 ^ 32`. -/
def toInt32 (x : ℤ) : ℤ := (x + 2 ^ 31) % 2 ^ 32 - 2 ^ 31

/-- `std::accumulate(begin, end, 0)`, l.31-32: the sum is kept in an `int`, because of the type of `0`;
each addition is done in `unsigned long`. -/
def accumulate (durations : List ℕ) : ℤ :=
  durations.foldl (fun (acc : ℤ) (d : ℕ) => toInt32 ((acc + (d : ℤ)) % 2 ^ 64)) 0

/-- `evalSpecificUOT`, l.27-35, in microseconds. `stuck`: without durations, 0/0 is converted to `long`.
Simplification: the quotient is exact before it is truncated. -/
def LastN.evalSpecificUOT (m : LastN) (l : List ℕ) : Outcome ℤ :=
  match (m.table l).getD [] with
  | [] => .stuck
  | durations => .ok ((accumulate durations).tdiv durations.length)

/-- `eval`, l.37-43. `error`: `at` throws for a missing key. -/
def LastN.eval (m : LastN) (ifNoHistory : List ℕ → ℚ) (l : List ℕ) : Outcome ℚ :=
  match m.table l with
  | none => .error
  | some [] => .ok (ifNoHistory l)
  | some _ => (m.evalSpecificUOT l).bind fun t => .ok (t : ℚ)

/-- Several calls of `addDurationInformation`. -/
def LastN.addAll (m : LastN) : List (List ℕ × ℕ) → Outcome LastN
  | [] => .ok m
  | (l, d) :: hist => (m.add l d).bind fun m => m.addAll hist

/-! ### `LinearLoadModel` -/

/-- `LinearLoadModel::eval`. -/
def linearLoad (l : List ℕ) : ℚ := l.foldl (fun r x => r * 2 ^ x) 1

/-! ### `AveragingLoadModel` -/

/-- A decimal number (`std::to_string`, `operator<<`). -/
def decimal (n : ℕ) : List Char :=
  if n = 0 then ['0'] else ((Nat.digits 10 n).map Nat.digitChar).reverse

/-- `toString` of a level vector, `LevelVector.cpp` l.4-11. -/
def levelString : List ℕ → List Char
  | [] => []
  | [a] => decimal a
  | a :: b :: l => decimal a ++ ',' :: levelString (b :: l)

/-- `getFilename`, l.17-19. -/
def getFilename (l : List ℕ) : List Char := "./l_".toList ++ levelString l ++ ".durations".toList

/-- `DurationInformation`: the duration, and what is written to the file after the first space, l.83-88. -/
structure Info where
  duration : ℕ
  rest : List Char

/-- The line of a duration, l.83-88. -/
def Info.line (i : Info) : List Char := decimal i.duration ++ ' ' :: i.rest

/-- The files of the directory; a file is a list of lines. -/
abbrev Files := List Char → Option (List (List Char))

/-- The value of the leading digits. -/
def parseDigits (cs : List Char) : ℕ :=
  (cs.takeWhile Char.isDigit).foldl (fun n c => 10 * n + (c.toNat - '0'.toNat)) 0

/-- `std::stoul`: it throws without leading digits, or if the value does not fit. Simplification: leading
white space and signs, which `stoul` accepts, are not (the code does not write them). -/
def stoul (cs : List Char) : Outcome ℕ :=
  if (cs.takeWhile Char.isDigit) = [] ∨ 2 ^ 64 ≤ parseDigits cs then .error else .ok (parseDigits cs)

/-- The loop of `getAverageOfFirstColumn`, l.14-22: sum (modulo `2 ^ 64`) and count. -/
def averageLoop : List (List Char) → ℕ → ℕ → Outcome (ℕ × ℕ)
  | [], sum, count => .ok (sum, count)
  | line :: lines, sum, count => (stoul (line.takeWhile (· ≠ ','))).bind fun v =>
      averageLoop lines ((sum + v) % 2 ^ 64) (count + 1)

/-- `getAverageOfFirstColumn`, `AveragingLoadModel.cpp` l.13-24. -/
def getAverageOfFirstColumn (lines : List (List Char)) : Outcome ℕ :=
  (averageLoop lines 0 0).bind fun r => if r.2 = 0 then .stuck else .ok (r.1 / r.2)

/-- `durationsOfLevels_` and `last_durations_avg_`. -/
structure Averaging where
  durations : List ℕ → Option (List Info)
  lastAvg : List ℕ → Option ℕ

/-- `addLevelVectorToLoadModel`, `AveragingLoadModel.cpp` l.26-49. `std::map::insert` keeps an existing entry. -/
def addLevel (s : Files × Averaging) (l : List ℕ) : Outcome (Files × Averaging) :=
  let durations := Function.update s.2.durations l (some ((s.2.durations l).getD []))
  match s.1 (getFilename l) with
  | some [] => .ok (s.1, ⟨durations, s.2.lastAvg⟩)
  | some lines => (getAverageOfFirstColumn lines).bind fun a =>
      .ok (s.1, ⟨durations, Function.update s.2.lastAvg l (some ((s.2.lastAvg l).getD a))⟩)
  | none => .ok (Function.update s.1 (getFilename l) (some []), ⟨durations, s.2.lastAvg⟩)

/-- The loop of the constructor. -/
def addLevels (s : Files × Averaging) : List (List ℕ) → Outcome (Files × Averaging)
  | [] => .ok s
  | l :: ls => (addLevel s l).bind fun s => addLevels s ls

/-- The constructor, l.35-44. -/
def Averaging.create (fs : Files) (levels : List (List ℕ)) : Outcome (Files × Averaging) :=
  addLevels (fs, ⟨fun _ => none, fun _ => none⟩) levels

/-- `writeDurationsToFile`, l.74-92: append the first `num` entries to the file (which is created if it
does not exist) and remove them from the deque. -/
def writeDurations (fs : Files) (l : List ℕ) (durations : List Info) (num : ℕ) : Files × List Info :=
  (Function.update fs (getFilename l)
    (some ((fs (getFilename l)).getD [] ++ (durations.take num).map Info.line)), durations.drop num)

/-- `addDurationInformation`, l.56-66, with `writeEveryNCombis_ = 50`. -/
def addDuration (s : Files × Averaging) (l : List ℕ) (i : Info) : Outcome (Files × Averaging) :=
  match s.2.durations l with
  | none => .error
  | some ds =>
    let r := if 50 < (ds ++ [i]).length then writeDurations s.1 l (ds ++ [i]) 50 else (s.1, ds ++ [i])
    if r.2.length < 51 then .ok (r.1, ⟨Function.update s.2.durations l (some r.2), s.2.lastAvg⟩)
    else .stuck

/-- Several calls of `addDurationInformation`. -/
def addDurations (s : Files × Averaging) : List (List ℕ × Info) → Outcome (Files × Averaging)
  | [] => .ok s
  | (l, i) :: hist => (addDuration s l i).bind fun s => addDurations s hist

/-- The destructor, l.48-54: the loop over the keys of the map (here: over a list of them). -/
def destroy (s : Files × Averaging) (keys : List (List ℕ)) : Files :=
  (keys.foldl (fun (s : Files × Averaging) l =>
    let ds := (s.2.durations l).getD []
    let r := writeDurations s.1 l ds ds.length
    (r.1, ⟨Function.update s.2.durations l (some r.2), s.2.lastAvg⟩)) s).1

/-- `eval`, l.104-127. -/
def Averaging.eval (m : Averaging) (l : List ℕ) : Outcome ℚ :=
  match m.durations l with
  | none => .error
  | some [] => match m.lastAvg l with
    | none => .ok (linearLoad l)
    | some a => .ok (a : ℚ)
  | some ds => .ok ((ds.foldl (fun r (i : Info) => r + (i.duration : ℚ)) 0) / (ds.length : ℚ))

end Verif.LoadModels

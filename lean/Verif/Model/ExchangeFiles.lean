import Verif.Model.FileIO
import Mathlib.Data.Nat.Digits.Defs

/-!
# Files exchanged between systems

`readReduce` and `removeReadingFiles` of `/repo/src/manager/SparseGridWorker.hpp`.
-/

namespace Verif

/-! ### Removing files -/

/-- `std::to_string` of a non-negative number. -/
def decimal (n : ℕ) : List Char :=
  if n = 0 then ['0'] else ((Nat.digits 10 n).map Nat.digitChar).reverse

/-- `".part" + std::to_string(n)` -/
def partSuffix (n : ℕ) : List Char := ['.', 'p', 'a', 'r', 't'] ++ decimal n

/-- `filenamePrefixesToRead[i] + "_" + std::to_string(0)` -/
def gridName (filePrefix : List Char) : List Char := filePrefix ++ ['_', '0']

/-- `removeReadingFiles` l.1057-1083 on the root of the output communicator, which exists
(`getOutputComm() != MPI_COMM_NULL`), for file part `part`. `files` are the pairs of file name prefixes
and token file names, `dir` the names of the files in the working directory (without subdirectories).
The paths of `directory_iterator(".")` are those names with `./` in front. -/
def removeReadingFiles (files : List (List Char × List Char)) (keepSparseGridFiles : Bool) (part : ℕ)
    (dir : List (List Char)) : List (List Char) :=
  files.foldl (fun dir f =>
    let dir := dir.filter fun name => decide (name ≠ f.2 ++ partSuffix part)
    if keepSparseGridFiles then dir
    else
      let dir := dir.filter fun name => decide (name ≠ gridName f.1)
      dir.filter fun name =>
        !decide (gridName f.1 ++ partSuffix part <:+: ['.', '/'] ++ name)) dir

/-! ### Waiting for files -/

/-- The inner loop of `readReduce`, l.878-908: `todo` are the remaining entries of
`indicesStillToReadReduce` after the iterator, `present t i` tells whether the token file `i` exists at
the `t`-th time that the root of the output communicator looks for a token file (the other processes
get the answer by a broadcast, `getFileExistsRootOnly`). The first file whose token exists is read
(`some i`), the result also has the number of looks so far. -/
def readReduceScan (present : ℕ → ℕ → Bool) : ℕ → List ℕ → Option ℕ × ℕ
  | t, [] => (none, t)
  | t, i :: todo => if present t i then (some i, t + 1) else readReduceScan present (t + 1) todo

/-- The outer loop of `readReduce`, l.875-911, for at most `passes` passes: the files that are read, in
order, and the files that still have to be read. -/
def readReduceWait (present : ℕ → ℕ → Bool) : ℕ → ℕ → List ℕ → List ℕ × List ℕ
  | 0, _, still => ([], still)
  | passes + 1, t, still =>
    if still = [] then ([], [])
    else
      match readReduceScan present t still with
      | (some i, t') =>
        let res := readReduceWait present passes t' (still.erase i)
        (i :: res.1, res.2)
      | (none, t') => readReduceWait present passes t' still

/-- `readReduce`, l.859-914 (with `overwrite == false`), for `n` files and at most `passes` passes of
the outer loop: the data of the process after reading, where `content i` are the values of file `i`
that belong to the process; `none` if not all files have been read by then. `readDSGsFromDiskAndReduce`
adds the values of a file to those of the process. -/
def readReduce {K : Type} [Add K] (present : ℕ → ℕ → Bool) (n passes : ℕ)
    (content : ℕ → ℕ → K) (data : ℕ → K) : Option (ℕ → K) :=
  let res := readReduceWait present passes 0 (List.range n)
  if res.2 = [] then some (res.1.foldl (fun d i => fun x => content i x + d x) data) else none

end Verif

import Verif.Model.Reduce

/-!
# Files with the data of several processes

`/repo/src/io/MPIInputOutput.hpp`, `/repo/src/io/FileInputOutput.cpp` and
`/repo/src/sparsegrid/DistributedSparseGridIO.hpp` (the variants without compression).
-/

namespace Verif

/-- How a function of the code ends: with a result, with a C++ exception (`throw`), or in a way that
gives no result at all (undefined behaviour, an endless loop, a failed assertion, or processes waiting
for each other in different collective operations). -/
inductive Outcome (β : Type) where
  | ok (x : β)
  | error
  | stuck
  deriving DecidableEq, Repr

namespace Outcome

/-- Sequencing of two steps. -/
def bind {β γ : Type} (x : Outcome β) (f : β → Outcome γ) : Outcome γ :=
  match x with
  | ok a => f a
  | error => error
  | stuck => stuck

end Outcome

/-- How values of a type `T` are laid out in memory and in a file (`getMPIDatatype`, native
representation): `size` is `sizeof(T)`, `enc x j` the byte `j` of `x`, `dec` reads a value. -/
structure Codec (α : Type) where
  size : ℕ
  enc : α → ℕ → UInt8
  dec : (ℕ → UInt8) → α
  size_pos : 0 < size
  dec_enc : ∀ x b, (∀ j < size, b j = enc x j) → dec b = x

/-- The contents of a file: its length and its bytes (those at `i < len` are meaningful). -/
structure DiskFile where
  len : ℕ
  byte : ℕ → UInt8

/-- An empty file. -/
def DiskFile.empty : DiskFile := ⟨0, fun _ => 0⟩

variable {α : Type}

/-- `getFileToWrite`, l.67-112: `prev` is the file of that name if there is one. `MPI_File_open` with
`MPI_MODE_CREATE | MPI_MODE_EXCL` succeeds only if there is none; then, if `replaceExistingFile`, the
file is deleted and created anew, otherwise it is opened as it is, with its contents. Other reasons
for which opening may fail (permissions, missing directory) are not modelled. -/
def getFileToWrite (prev : Option DiskFile) (replaceExistingFile : Bool) : DiskFile :=
  match prev with
  | none => DiskFile.empty
  | some f => if replaceExistingFile then DiskFile.empty else f

/-- `getPositionFromNumValues`, l.47-51 (`MPI_Exscan` with `MPI_SUM`; on rank 0 the result keeps its
initial value 0): the position of the first value of process `r`. -/
def getPositionFromNumValues (numValues : List ℕ) (r : ℕ) : ℕ :=
  (numValues.take r).sum

/-- Write `vals` to the file from value position `pos` on; bytes that were never written are zero. -/
def DiskFile.writeAt (c : Codec α) (f : DiskFile) (pos : ℕ) (vals : List α) : DiskFile :=
  if vals.length = 0 then f
  else
    ⟨max f.len (pos * c.size + vals.length * c.size), fun i =>
      if pos * c.size ≤ i ∧ i < pos * c.size + vals.length * c.size then
        (vals[(i - pos * c.size) / c.size]?).elim 0 fun x => c.enc x ((i - pos * c.size) % c.size)
      else if i < f.len then f.byte i
      else 0⟩

/-- The value at value position `p` of the file. -/
def DiskFile.value (c : Codec α) (f : DiskFile) (p : ℕ) : α :=
  c.dec fun j => f.byte (p * c.size + j)

/-- `writeValuesToFileAtPosition`, l.130-153: the count is converted to `int`; a negative one makes
`MPI_File_write_at_all` fail, which is only printed. (The function returns 0 then, which the callers
use in assertions only.) -/
def writeValuesToFileAtPosition (c : Codec α) (f : DiskFile) (vals : List α) (pos : ℕ) : DiskFile :=
  if toInt32 vals.length < 0 then f
  else f.writeAt c pos (vals.take (toInt32 vals.length).toNat)

/-- `writeValuesConsecutive`, l.219-227, run by all processes; `data` are the values of the processes
by rank, `order` is the order in which their parts reach the file. -/
def writeValuesConsecutive (c : Codec α) (prev : Option DiskFile) (replaceExistingFile : Bool)
    (order : List ℕ) (data : List (List α)) : DiskFile :=
  order.foldl
    (fun f r => writeValuesToFileAtPosition c f (data.getD r [])
      (getPositionFromNumValues (data.map List.length) r))
    (getFileToWrite prev replaceExistingFile)

/-- `readValuesFromFileAtPosition`, l.155-173: the values that arrive. The count is converted to `int`
(a negative one makes the read fail, which is only printed, like reading less than requested at the
end of the file). A broken value at the end of the file is not counted by `MPI_Get_count`. -/
def readValuesFromFileAtPosition (c : Codec α) (f : DiskFile) (numValues pos : ℕ) : List α :=
  let count := (toInt32 numValues).toNat
  (List.range (min count (f.len / c.size - pos))).map fun i => f.value c (pos + i)

/-- `checkFileSizeConsecutive`, l.195-212. (The sizes are 64 bit integers, here they are unbounded.) -/
def checkFileSizeConsecutive (c : Codec α) (f : DiskFile) (numValues : List ℕ) : Bool :=
  f.len == numValues.sum * c.size

/-- `readValuesConsecutive`, l.229-237, run by all processes; `old` is what is in the memory of the
processes, `file` the file of that name if there is one. -/
def readValuesConsecutive (c : Codec α) (file : Option DiskFile) (old : List (List α)) :
    Outcome (List (List α)) :=
  match file with
  | none => .error
  | some f =>
    if checkFileSizeConsecutive c f (old.map List.length) then
      .ok ((List.range old.length).map fun r =>
        let vals := old.getD r []
        let new := readValuesFromFileAtPosition c f vals.length
          (getPositionFromNumValues (old.map List.length) r)
        new ++ vals.drop new.length)
    else .error

/-! ### Read and reduce -/

/-- `buffer.resize(n)`; new elements are value-initialised (`z`). -/
def resizeBuffer (z : α) (buf : List α) (n : ℕ) : List α :=
  buf.take n ++ List.replicate (n - buf.length) z

/-- One collective read into a buffer: the rest of the buffer keeps what it had. -/
def readIntoBuffer (c : Codec α) (f : DiskFile) (n pos : ℕ) (buf : List α) : List α × ℕ :=
  let new := readValuesFromFileAtPosition c f n pos
  (new ++ buf.drop new.length, new.length)

/-- The first part of the body of the loop of `readReduceValuesConsecutive` l.252-259 and
`readMultipleReduceValuesConsecutive` l.300-312 on one process: `n` is `numValues`, `b` the current
`numElementsToBuffer`, `pos` the position in the file, `rc` is `readcount` and `bufs` are the buffers
(one per file). The results are the new `numElementsToBuffer`, the buffers and the increment of
`readcount`, which is the number of values read from the last file. -/
def readReducePass (c : Codec α) (z : α) (files : List DiskFile) (n b pos rc : ℕ)
    (bufs : List (List α)) : ℕ × List (List α) × ℕ :=
  let b' := if n - rc < b then n - rc else b
  let bufs' := if n - rc < b then bufs.map fun buf => resizeBuffer z buf b' else bufs
  let reads := List.zipWith (fun f buf => readIntoBuffer c f b' pos buf) files bufs'
  (b', reads.map Prod.fst, (reads.getLast?).elim 0 Prod.snd)

/-- The loop of `readReduceValuesConsecutive` l.251-266 and `readMultipleReduceValuesConsecutive`
l.299-319 on one process, see `readReducePass`; `vals` are the local values. `comb` combines the
buffers with the values from `writePointer` on. The second result is the number of times the body of
the loop was run, in which there is one collective read per file. If nothing is read, the loop does
not end. -/
def readReduceLoop (c : Codec α) (z : α) (files : List DiskFile)
    (comb : List (List α) → List α → Outcome (List α)) (n b pos rc : ℕ) (bufs : List (List α))
    (vals : List α) : Outcome (List α × ℕ) :=
  if hrc : rc < n then
    if hinc : (readReducePass c z files n b pos rc bufs).2.2 = 0 then .stuck
    else
      (comb (readReducePass c z files n b pos rc bufs).2.1 (vals.drop rc)).bind fun new =>
        (readReduceLoop c z files comb n (readReducePass c z files n b pos rc bufs).1
          (pos + (readReducePass c z files n b pos rc bufs).2.2)
          (rc + (readReducePass c z files n b pos rc bufs).2.2)
          (readReducePass c z files n b pos rc bufs).2.1 (vals.take rc ++ new)).bind fun res =>
            .ok (res.1, res.2 + 1)
  else .ok (vals, 0)
termination_by n - rc
decreasing_by omega

/-- `std::transform(buffer.cbegin(), buffer.cend(), writePointer, writePointer, reduceFunction)`,
l.261; writing past the local values is undefined. -/
def transform1 (op : α → α → α) (bufs : List (List α)) (vals : List α) : Outcome (List α) :=
  match bufs with
  | [buf] =>
    if vals.length < buf.length then .stuck
    else .ok (List.zipWith op buf vals ++ vals.drop buf.length)
  | _ => .stuck

/-- `transformN(reduceFunction, writePointer, buffers[0].cbegin(), buffers[0].cend(), writePointer,
buffers[1].cbegin())`, l.314-315; the buffers of further files are not used, with fewer than two files
`buffers[1]` is undefined. -/
def transform2 (op : α → α → α → α) (bufs : List (List α)) (vals : List α) : Outcome (List α) :=
  match bufs with
  | buf0 :: buf1 :: _ =>
    if vals.length < buf0.length ∨ buf1.length < buf0.length then .stuck
    else
      .ok (List.zipWith (fun a (p : α × α) => op a p.1 p.2) buf0 (vals.zip buf1) ++
        vals.drop buf0.length)
  | _ => .stuck

/-- What all processes do in `readReduceValuesConsecutive` and `readMultipleReduceValuesConsecutive`.
`b` is `numElementsToBuffer`; a negative one makes the constructor of `std::vector` throw. `readcount`
is an `int`, so that `2 ^ 31` values make it overflow. The processes must run the loop equally often,
as each pass has collective operations. -/
def readReduceAll (c : Codec α) (z : α) (files : List (Option DiskFile))
    (comb : List (List α) → List α → Outcome (List α)) (b : ℤ) (old : List (List α)) :
    Outcome (List (List α)) :=
  let counts := old.map List.length
  if files.any (fun f => f.elim true fun f => !checkFileSizeConsecutive c f counts) then .error
  else if b < 0 then .error
  else if counts.any (fun n => decide (2 ^ 31 ≤ n)) then .stuck
  else
    let fs := files.filterMap id
    let results := (List.range old.length).map fun r =>
      readReduceLoop c z fs comb (counts.getD r 0) b.toNat (getPositionFromNumValues counts r) 0
        (List.replicate fs.length (List.replicate b.toNat z)) (old.getD r [])
    let rec collect : List (Outcome (List α × ℕ)) → Outcome (List (List α × ℕ))
      | [] => .ok []
      | x :: xs => x.bind fun a => (collect xs).bind fun as => .ok (a :: as)
    (collect results).bind fun res =>
      if res.all (fun x => res.all fun y => x.2 == y.2) then .ok (res.map Prod.fst) else .stuck

/-- `readReduceValuesConsecutive`, l.239-267. -/
def readReduceValuesConsecutive (c : Codec α) (z : α) (file : Option DiskFile) (op : α → α → α)
    (b : ℤ) (old : List (List α)) : Outcome (List (List α)) :=
  readReduceAll c z [file] (transform1 op) b old

/-- `readMultipleReduceValuesConsecutive`, l.277-321. -/
def readMultipleReduceValuesConsecutive (c : Codec α) (z : α) (files : List (Option DiskFile))
    (op : α → α → α → α) (b : ℤ) (old : List (List α)) : Outcome (List (List α)) :=
  readReduceAll c z files (transform2 op) b old

/-! ### Concatenated output -/

/-- `MPI_Gatherv` of `char`s: the piece of process `r` is placed at `displacement[r]` of the receive
buffer; writing outside of it is undefined. -/
def gathervChars (bufLen : ℕ) (displacement : List ℕ) (pieces : List (List UInt8)) :
    Outcome (List UInt8) :=
  let rec go : List (ℕ × List UInt8) → List UInt8 → Outcome (List UInt8)
    | [], buf => .ok buf
    | (d, p) :: rest, buf =>
      if buf.length < d + p.length then .stuck
      else go rest (buf.take d ++ p ++ buf.drop (d + p.length))
  go (displacement.zip pieces) (List.replicate bufLen 0)

/-- `writeConcatenatedFileRootOnly`, `FileInputOutput.cpp` l.11-49: the file afterwards. The sizes are
`int`s: a total of more than `2 ^ 31 - 1` is an overflow in `std::accumulate` or
`std::exclusive_scan`. (`std::ofstream` truncates an existing file in any case, whether it was removed
before or not.) -/
def writeConcatenatedFileRootOnly (pieces : List (List UInt8)) : Outcome (List UInt8) :=
  let recvCounts := pieces.map List.length
  if 2 ^ 31 ≤ recvCounts.sum then .stuck
  else
    let displacement := (List.range recvCounts.length).map fun r => (recvCounts.take r).sum
    gathervChars recvCounts.sum displacement pieces

end Verif

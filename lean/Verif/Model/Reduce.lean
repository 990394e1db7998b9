import Verif.Model.Storage

/-!
# Reductions between process groups

`/repo/src/combicom/CombiCom.hpp` l.67-397.
-/

namespace Verif

/-! ### Size of the chunks -/

/-- Conversion of a `size_t` to `int`: the value modulo 2^32, in two's complement. (Before C++20 the
conversion of values out of range is implementation defined; all known compilers do this.) -/
def toInt32 (n : ℕ) : ℤ :=
  let m : ℕ := n % 2 ^ 32
  if m < 2 ^ 31 then m else (m : ℤ) - 2 ^ 32

/-- `std::numeric_limits<int>::max()` -/
def intMax : ℤ := 2 ^ 31 - 1

/-- `getGlobalReduceChunkSize`, l.86-98, for elements of `sizeofElement` bytes and `threads` OpenMP
threads. `MiBtoBytes` (l.73-75) and the products are of type `size_t`, 64 bit. The assertion
`chunkSize > 0` is left out. -/
def getGlobalReduceChunkSize (sizeofElement threads mib : ℕ) : ℤ :=
  if (mib : ℤ) > intMax ∨ mib = 0 then intMax
  else toInt32 ((2 ^ 20 * mib % 2 ^ 64) / sizeofElement * threads % 2 ^ 64)

/-! ### Reduction of a whole sparse grid -/

/-- The loop `while ((size - sentRecvd) / chunkSize > 0)`, l.136-145 (and l.148-164, the same loops for
`MPI_Reduce`): the pairs (offset, count) of the reduce calls of a process. `chunk` is a positive
`int`. -/
def reduceCallsFrom (size chunk : ℕ) (sent : ℕ) : List (ℕ × ℕ) :=
  if h : 0 < chunk ∧ 0 < (size - sent) / chunk then
    (sent, chunk) :: reduceCallsFrom size chunk (sent + chunk)
  else [(sent, size - sent)]
termination_by size - sent
decreasing_by
  have h' := Nat.div_pos_iff.1 h.2
  omega

/-- All reduce calls of `distributedGlobalSparseGridReduce`, l.116-165; `none` is the division by
zero. A negative chunk size is converted to `size_t` in the division, so that the quotient is zero,
and the last call has `size` converted to `int` as its count. -/
def reduceCalls (size : ℕ) (chunk : ℤ) : Option (List (ℕ × ℤ)) :=
  if chunk = 0 then none
  else if chunk < 0 then some [(0, toInt32 size)]
  else some ((reduceCallsFrom size chunk.toNat 0).map fun c => (c.1, toInt32 c.2))

variable {K : Type}

/-- `MPI_Allreduce` with `MPI_SUM` on `count` elements from `offset`: all processes end with the
elementwise sum. -/
def allreduceCall [AddCommMonoid K] (ds : List (Buf K)) (offset count : ℕ) : List (Buf K) :=
  ds.map fun d => ⟨d.len, fun i =>
    if offset ≤ i ∧ i < offset + count then (ds.map fun e => e.val i).sum else d.val i⟩

/-- `MPI_Reduce` with `MPI_SUM` to the process `root` (which passes `MPI_IN_PLACE`). -/
def reduceCall [AddCommMonoid K] (root : ℕ) (ds : List (Buf K)) (offset count : ℕ) :
    List (Buf K) :=
  ds.zipIdx.map fun p => ⟨p.1.len, fun i =>
    if p.2 = root ∧ offset ≤ i ∧ i < offset + count then (ds.map fun e => e.val i).sum
    else p.1.val i⟩

/-- `distributedGlobalSparseGridReduce`, l.116-165, on all processes of the communicator: `ds` are
their data. Collective calls are matched in order; `none` if the processes pass different counts or
make different numbers of calls, if a count is negative or a buffer too small. -/
def sparseGridReduce [AddCommMonoid K] (call : List (Buf K) → ℕ → ℕ → List (Buf K)) (chunk : ℤ)
    (ds : List (Buf K)) : Option (List (Buf K)) := do
  let calls ← ds.mapM fun d => reduceCalls d.len chunk
  match calls with
  | [] => some []
  | cs :: rest =>
    if rest.all (· = cs) then
      cs.foldlM (fun ds c =>
        if 0 ≤ c.2 ∧ ds.all (fun d => c.1 + c.2.toNat ≤ d.len) then some (call ds c.1 c.2.toNat)
        else none) ds
    else none

/-! ### Chunks of subspaces -/

/-- Insertion into a `std::set`, as ascending list. -/
def insertSet (x : ℕ) : List ℕ → List ℕ
  | [] => [x]
  | y :: ys => if x < y then x :: y :: ys else if x = y then y :: ys else y :: insertSet x ys

/-- The inner loop of `getChunkedSubspaces`, l.245-252, after the first iteration: `chunk` and `size`
are the current `chunkSubspaces` and `chunkDataSize` (`uint32_t`), the result are the chunk and the
remaining subspaces. `size i` is `dsg.getDataSize(i)`. The sum in the condition is of type `uint32_t`,
the comparison of type `size_t`. -/
def chunkLoop (size : ℕ → ℕ) (maxChunk : ℕ) : (chunk : List ℕ) → (acc : ℕ) → (rest : List ℕ) →
    List ℕ × List ℕ
  | chunk, _, [] => (chunk, [])
  | chunk, acc, s :: ss =>
    if size s ≠ 0 ∧ (acc + size s) % 2 ^ 32 < maxChunk then
      chunkLoop size maxChunk (insertSet s chunk) ((acc + size s) % 2 ^ 32) ss
    else (chunk, s :: ss)

theorem chunkLoop_length (size : ℕ → ℕ) (maxChunk : ℕ) (chunk : List ℕ) (acc : ℕ) (rest : List ℕ) :
    (chunkLoop size maxChunk chunk acc rest).2.length ≤ rest.length := by
  induction rest generalizing chunk acc with
  | nil => simp [chunkLoop]
  | cons s ss ih =>
    rw [chunkLoop]
    split
    · exact (ih _ _).trans (by simp)
    · exact le_refl _

/-- `getChunkedSubspaces`, l.232-257. -/
def getChunkedSubspaces (size : ℕ → ℕ) (maxChunk : ℕ) : (subspaces : List ℕ) → List (List ℕ)
  | [] => []
  | s :: ss =>
    (chunkLoop size maxChunk [s] (size s % 2 ^ 32) ss).1 ::
      getChunkedSubspaces size maxChunk (chunkLoop size maxChunk [s] (size s % 2 ^ 32) ss).2
termination_by l => l.length
decreasing_by
  have := chunkLoop_length size maxChunk [s] (size s % 2 ^ 32) ss
  rw [List.length_cons]
  omega

end Verif

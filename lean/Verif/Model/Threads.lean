import Verif.Model.Storage
import Verif.Model.PoleLoop

/-!
# Loops that are run by several threads

The loops with `#pragma omp parallel for`: `registerDistributedFullGrid`, `addDistributedFullGrid`
(`src/sparsegrid/DistributedSparseGridUniform.hpp` l.774-866), `extractFromUniformSG`
(`src/fullgrid/DistributedFullGrid.hpp` l.1308-1342), `hierarchizeWithBoundary`
(`src/hierarchization/DistributedHierarchization.hpp` l.894-963), the reduction operation
`addIndexedElements` (`src/combicom/CombiCom.hpp` l.179-216).

A thread reads and writes single elements of the shared memory; variables of its own (`firstprivate`,
`thread_local`, variables declared in the loop) are arguments of its code. The threads take steps in any order.
Two threads that are about to access the same element, at least one of them writing, are a data race, which is
undefined behaviour in C++. Simplifications: members that no thread writes (`levels_`, pointers, sizes in the
loops that do not change them) are constants; memory is sequentially consistent, which C++ guarantees for
programs without data races.
-/

namespace Verif.Threads

/-- The code of a thread: elements of the memory have addresses `A` and contain `V`, the result is an `R`.
`fail` is undefined behaviour of the thread itself. -/
inductive Code (A V R : Type) where
  | done (r : R)
  | read (a : A) (k : V → Code A V R)
  | write (a : A) (v : V) (k : Code A V R)
  | fail

namespace Code
variable {A V R S : Type}

/-- One piece of code after the other. -/
def bind : Code A V R → (R → Code A V S) → Code A V S
  | done r, f => f r
  | read a k, f => read a fun v => (k v).bind f
  | write a v k, f => write a v (k.bind f)
  | fail, _ => fail

/-- The code without its result. -/
def void (c : Code A V R) : Code A V Unit := c.bind fun _ => done ()

/-- The code run by one thread, with nobody else accessing the memory. -/
def run [DecidableEq A] : Code A V R → (A → V) → Option (R × (A → V))
  | done r, m => some (r, m)
  | read a k, m => (k (m a)).run m
  | write a v k, m => k.run (Function.update m a v)
  | fail, _ => none

/-- The next access to the memory; `true` if it is a write access. -/
def access : Code A V R → Option (A × Bool)
  | read a _ => some (a, false)
  | write a _ _ => some (a, true)
  | _ => none

/-- An optional value that is needed. -/
def ofOption : Option R → Code A V R
  | some r => done r
  | none => fail

end Code

section Team
variable {A V : Type}

/-- The threads of a parallel loop and their memory. -/
structure Team (A V : Type) where
  threads : List (Code A V Unit)
  mem : A → V

/-- Some thread takes its next step. -/
inductive Step [DecidableEq A] : Team A V → Team A V → Prop where
  | read (i a k ts m) : ts[i]? = some (.read a k) → Step ⟨ts, m⟩ ⟨ts.set i (k (m a)), m⟩
  | write (i a v k ts m) : ts[i]? = some (.write a v k) → Step ⟨ts, m⟩ ⟨ts.set i k, Function.update m a v⟩

/-- Two threads are about to access the same element, one of them to change it. -/
def Team.Racy (x : Team A V) : Prop :=
  ∃ (i j : ℕ) (c d : Code A V Unit) (a : A) (v w : Bool), i ≠ j ∧ x.threads[i]? = some c ∧ x.threads[j]? = some d ∧
    Code.access c = some (a, v) ∧ Code.access d = some (a, w) ∧ (v = true ∨ w = true)

/-- All threads have arrived at the end of the loop. -/
def Team.Done (x : Team A V) : Prop := ∀ c ∈ x.threads, c = .done ()

end Team

/-- The iterations `xs` run by one thread, one after the other, with private variables `s`. -/
def threadLoop {A V σ ι : Type} (iter : σ → ι → Code A V σ) : σ → List ι → Code A V σ
  | s, [] => .done s
  | s, x :: xs => (iter s x).bind fun s' => threadLoop iter s' xs

/-- The threads of `#pragma omp parallel for`: thread `t` runs the iterations `parts[t]` in this order; its
private variables have the values `s` at first (`firstprivate`). -/
def parallelFor {A V σ ι : Type} (iter : σ → ι → Code A V σ) (s : σ) (parts : List (List ι)) :
    List (Code A V Unit) :=
  parts.map fun p => (threadLoop iter s p).void

/-! ### Full grids and sparse grids -/

/-- The elements of the sparse grid's data, of its Kahan residuals, and of the full grid's data. -/
inductive Cell where
  | sparse (i : ℕ)
  | kahan (i : ℕ)
  | full (i : ℕ)
deriving DecidableEq

section Grids
variable {K : Type}

/-- The memory that contains the data of a sparse grid and of a full grid. -/
def memory (d : Dsg K) (g : Dfg K) : Cell → K
  | .sparse i => d.data.val i
  | .kahan i => d.kahan.val i
  | .full i => g.data.val i

/-- Loop over the points of a subspace in `extractFromUniformSG`, `DistributedFullGrid.hpp` l.1331-1334:
`slen` and `xlen` are the lengths of the data of the sparse grid and of the full grid. -/
def extractPointsCode (slen xlen : ℕ) : (sp : ℕ) → (points : List ℕ) → Code Cell K Unit
  | _, [] => .done ()
  | sp, p :: ps =>
    if sp < slen then .read (.sparse sp) fun v =>
      if p < xlen then .write (.full p) v (extractPointsCode slen xlen (sp + 1) ps) else .fail
    else .fail

/-- Body of the loop in `extractFromUniformSG`, l.1321-1338; `sIndex` is the private variable. The reduction
variable `numCopied` is left out. -/
def extractIter (fully : Bool) (d : Dsg K) (dims : List LocalDim) (xlen : ℕ) (hint : ℤ) (level : List ℕ) :
    Code Cell K ℤ :=
  (Code.ofOption (getIndexFlat d.levels level hint)).bind fun sIndex =>
    (Code.ofOption (shouldBeCopied fully d sIndex)).bind fun b =>
      if b then (Code.ofOption d.ptr[sIndex.toNat]?).bind fun sp =>
        (extractPointsCode d.data.len xlen sp (getFGPointsOfSubspace dims level)).bind fun _ => .done sIndex
      else .done sIndex

/-- Loop over the points of a subspace in `addDistributedFullGrid`, `DistributedSparseGridUniform.hpp`
l.852-863. -/
def addPointsCode (A : Adder K) (mul : K → K → K) (coeff : K) (xlen slen klen : ℕ) :
    (sp kp : ℕ) → (points : List ℕ) → Code Cell K Unit
  | _, _, [] => .done ()
  | sp, kp, p :: ps =>
    if p < xlen then .read (.full p) fun xv =>
      if kp < klen then .read (.kahan kp) fun kv =>
        if sp < slen then .read (.sparse sp) fun sv =>
          .write (.kahan kp) (kahanStep A (sv, kv) (mul coeff xv)).2 <|
          .write (.sparse sp) (kahanStep A (sv, kv) (mul coeff xv)).1 <|
            addPointsCode A mul coeff xlen slen klen (sp + 1) (kp + 1) ps
        else .fail
      else .fail
    else .fail

/-- Body of the loop in `addDistributedFullGrid`, l.831-865. -/
def addIter (A : Adder K) (mul : K → K → K) (fully : Bool) (d : Dsg K) (g : Dfg K) (coeff : K) (hint : ℤ)
    (level : List ℕ) : Code Cell K ℤ :=
  (Code.ofOption (getIndexFlat d.levels level hint)).bind fun sIndex =>
    (Code.ofOption (shouldBeCopied fully d sIndex)).bind fun b =>
      if b then (Code.ofOption d.ptr[sIndex.toNat]?).bind fun sp =>
        (Code.ofOption d.kptr[sIndex.toNat]?).bind fun kp =>
          (addPointsCode A mul coeff g.data.len d.data.len d.kahan.len sp kp
            (getFGPointsOfSubspace g.dims level)).bind fun _ => .done sIndex
      else .done sIndex

end Grids

/-! ### Poles -/

section Poles
variable {K : Type}

/-- Reading the elements at the positions `ps`, in this order. -/
def readAll (len : ℕ) : (ps : List ℕ) → (acc : List K) → Code ℕ K (List K)
  | [], acc => .done acc
  | p :: ps, acc => if p < len then .read p fun v => readAll len ps (acc ++ [v]) else .fail

/-- Writing the values `m` to the elements at the positions `ps`, in this order. -/
def writeAll (len : ℕ) : (ps : List (ℕ × K)) → Code ℕ K Unit
  | [] => .done ()
  | (p, v) :: ps => if p < len then .write p v (writeAll len ps) else .fail

/-- Body of the loop over the poles in `hierarchizeWithBoundary`, l.915-961, on local data of length `len`: the
local part of the pole is read into the scratch buffer `tmp` of the thread (`thread_local`), transformed, and
written back from the last element to the first (l.955-959). `T tmp p loc` are the resulting local values and
the contents of the scratch buffer afterwards, for pole number `p` with local values `loc`; the data received from other
processes are part of `T`. -/
def poleIter (len stride n : ℕ) (T : (ℕ → K) → ℕ → List K → Option (Buf K × (ℕ → K))) (tmp : ℕ → K)
    (p : ℕ × ℕ) : Code ℕ K (ℕ → K) :=
  let start := p.1 * (stride * n) + p.2
  (readAll len ((List.range n).map fun i => start + i * stride) []).bind fun loc =>
    (Code.ofOption (T tmp (p.2 + p.1 * stride) loc)).bind fun r =>
      (Code.ofOption ((List.range n).reverse.mapM fun i => (r.1.get? i).map fun v => (start + i * stride, v))).bind
        fun vs => (writeAll len vs).bind fun _ => .done r.2

end Poles

/-! ### The reduction operation -/

/-- The two buffers of a reduction operation. -/
inductive OpCell where
  | arg (i : ℤ)
  | inout (i : ℤ)
deriving DecidableEq

/-- The inner loop of `addIndexedElements`, `CombiCom.hpp` l.209-214, from displacement `pos` on. -/
def addBlock {K : Type} (add : K → K → K) : (pos : ℤ) → (len : ℕ) → Code OpCell K Unit
  | _, 0 => .done ()
  | pos, n + 1 => .read (.inout pos) fun x => .read (.arg pos) fun y =>
      .write (.inout pos) (add x y) (addBlock add (pos + 1) n)

/-- Body of the loop in `addIndexedElements`, l.206-215: a block is its displacement and its length. -/
def addBlockIter {K : Type} (add : K → K → K) (_ : Unit) (b : ℤ × ℕ) : Code OpCell K Unit :=
  addBlock add b.1 b.2

/-! ### Registering full grids -/

/-- The members that `setDataSize` changes: an element of `subspacesDataSizes_`, the ends of the vectors
`subspacesData_` and `kahanData_` (as number of elements), and the elements of `subspaces_` and `kahanDataBegin_`
(zero is the null pointer). -/
inductive RegCell where
  | size (i : ℕ)
  | dataLen
  | kahanLen
  | ptr (i : ℕ)
  | kptr (i : ℕ)
deriving DecidableEq

/-- `std::memset` with zeros on elements that are pointers. -/
def zeroAll {A : Type} : List A → Code A ℕ Unit
  | [] => .done ()
  | a :: as => .write a 0 (zeroAll as)

/-- `std::vector::clear`, which changes the end of the vector if there are elements. -/
def clearVector {A : Type} (a : A) : Code A ℕ Unit :=
  .read a fun n => if n = 0 then .done () else .write a 0 (.done ())

/-- `deleteSubspaceData`, `DistributedSparseGridUniform.hpp` l.101-107, for `np` pointers to data and `nk` to residuals. -/
def deleteCode (np nk : ℕ) : Code RegCell ℕ Unit :=
  (clearVector .dataLen).bind fun _ => (clearVector .kahanLen).bind fun _ =>
    (zeroAll ((List.range np).map RegCell.ptr)).bind fun _ => zeroAll ((List.range nk).map RegCell.kptr)

/-- `setDataSize`, l.686-702, where `ns` is the number of subspaces. -/
def setDataSizeCode (ns np nk i newSize : ℕ) : Code RegCell ℕ Unit :=
  if i < ns then .read (.size i) fun s =>
    if newSize ≠ s then (deleteCode np nk).bind fun _ => .write (.size i) newSize (.done ())
    else .write (.size i) newSize (.done ())
  else .fail

/-- Body of the loop in `registerDistributedFullGrid`, l.784-802, without the `ASSERT` on sizes that were set before. -/
def registerIter (levels : List (List ℕ)) (ns np nk : ℕ) (dims : List LocalDim) (hint : ℤ) (level : List ℕ) :
    Code RegCell ℕ ℤ :=
  (Code.ofOption (getIndexFlat levels level hint)).bind fun index =>
    if index > -1 then
      if index.toNat < ns then .read (.size index.toNat) fun s =>
        if s = 0 then (setDataSizeCode ns np nk index.toNat (numPointsOfSubspace dims level)).bind fun _ =>
          .done index
        else .done index
      else .fail
    else .done index

/-- Body of the loop in `maxReduceSubspaceSizes`, l.451-455; `other` are the sizes of the other sparse grid. The
`assert`s are left out. -/
def maxReduceIter (other : List ℕ) (ns np nk : ℕ) (_ : Unit) (i : ℕ) : Code RegCell ℕ Unit :=
  .read (.size i) fun s => (Code.ofOption other[i]?).bind fun o => setDataSizeCode ns np nk i (max s o)

end Verif.Threads

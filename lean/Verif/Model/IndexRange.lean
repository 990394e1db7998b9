import Verif.Model.FullGrid
import Verif.Model.FileIO

/-!
# Index arithmetic with 32-bit integers

`IndexType` is `int32_t` (`/repo/src/utils/Types.hpp` l.33-36). This file repeats the index functions
of `/repo/src/fullgrid/Tensor.hpp` and `/repo/src/fullgrid/DistributedFullGrid.hpp` with the range of
the type: an operation on signed integers whose result does not fit is undefined behaviour
(`stuck`), as is a failed assertion. `Verif.Model.FullGrid` has the same functions on unbounded
numbers. All values are non-negative.
-/

namespace Verif.IndexRange

/-- Result of a signed 32-bit operation. -/
def int32 (x : ℕ) : Outcome ℕ := if x < 2 ^ 31 then .ok x else .stuck

/-- The loop of the constructor of `TensorIndexer`, `Tensor.hpp` l.22-28: the offsets and
`nrElements`. -/
def offsetsLoop32 : (extents : List ℕ) → (nrElements : ℕ) → Outcome (List ℕ × ℕ)
  | [], nr => .ok ([], nr)
  | e :: es, nr => (int32 (nr * e)).bind fun nr' =>
      (offsetsLoop32 es nr').bind fun r => .ok (nr :: r.1, r.2)

/-- The value that `TensorIndexer::size` accumulates, `Tensor.hpp` l.59-60: the initial value is
`1U`, so that every product is reduced to an `unsigned int`. -/
def accumulated (extents : List ℕ) : ℕ := extents.foldl (fun a e => a * e % 2 ^ 32) 1

/-- `TensorIndexer::size`, `Tensor.hpp` l.55-63, with the assertion of l.61. -/
def size32 (extents : List ℕ) : Outcome ℕ :=
  if extents = [] then .ok 0
  else if accumulated extents < 2 ^ 31 - 1 then .ok (accumulated extents) else .stuck

/-- The members of `TensorIndexer`. -/
structure Indexer where
  extents : List ℕ
  offsets : List ℕ
  deriving DecidableEq

/-- The constructor, `Tensor.hpp` l.20-30. -/
def Indexer.new (extents : List ℕ) : Outcome Indexer :=
  (offsetsLoop32 extents 1).bind fun r =>
    (size32 extents).bind fun s =>
      if s = r.2 then .ok ⟨extents, r.1⟩ else .stuck

/-- `sequentialIndex`, `Tensor.hpp` l.65-68: `std::inner_product` with an `int`; reading behind the
offsets is undefined. -/
def innerProduct : (index offsets : List ℕ) → (acc : ℕ) → Outcome ℕ
  | [], _, acc => .ok acc
  | _ :: _, [], _ => .stuck
  | i :: is, o :: os, acc =>
    (int32 (i * o)).bind fun p => (int32 (acc + p)).bind fun a => innerProduct is os a

def Indexer.sequentialIndex (t : Indexer) (index : List ℕ) : Outcome ℕ :=
  innerProduct index t.offsets 0

/-- `getVectorIndex`, `Tensor.hpp` l.70-82; division by an offset of zero is undefined. -/
def Indexer.getVectorIndex (t : Indexer) (index : ℕ) : Outcome (List ℕ) :=
  if 0 ∈ t.offsets then .stuck else .ok (vectorIndexLoop t.offsets.reverse index [])

/-- The product in the constructor of `DistributedFullGrid`, `DistributedFullGrid.hpp` l.630-635. -/
def productLoop : (sizes : List ℕ) → (nrElements : ℕ) → Outcome ℕ
  | [], nr => .ok nr
  | e :: es, nr => (int32 (nr * e)).bind fun nr' => productLoop es nr'

/-- The members of `DistributedFullGrid` for the index computations. -/
structure Grid where
  globalIndexer : Indexer
  firstGlobalIndex : ℕ
  localTensor : Indexer

/-- The constructor of `DistributedFullGrid`, `DistributedFullGrid.hpp` l.629-658, on the process
with the cartesian coordinates `c`; the numbers of points and the decomposition are given (their
computation is modelled in `Verif.Model.FullGrid`, the range of the numbers of points is C59). -/
def Grid.new (g : List Dim1) (c : List ℕ) : Outcome Grid :=
  (productLoop (globalSizes g) 1).bind fun _ =>
  (Indexer.new (globalSizes g)).bind fun gi =>
  (gi.sequentialIndex (lowerBounds g c)).bind fun first =>
  (Indexer.new (localSizes g c)).bind fun lt =>
  .ok ⟨gi, first, lt⟩

/-- `getGlobalLinearIndex(locLinIndex)`, `DistributedFullGrid.hpp` l.784-797, with its
assertions. -/
def Grid.getGlobalLinearIndex (G : Grid) (loc : ℕ) : Outcome ℕ :=
  (size32 G.localTensor.extents).bind fun n =>
  if loc < n then
    (G.localTensor.getVectorIndex loc).bind fun axis =>
    (G.globalIndexer.sequentialIndex axis).bind fun s =>
    (int32 (G.firstGlobalIndex + s)).bind fun r =>
    (size32 G.globalIndexer.extents).bind fun total =>
    if r < total then .ok r else .stuck
  else .stuck

end Verif.IndexRange

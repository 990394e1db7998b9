import Verif.Model.FullGrid
import Verif.Model.Kernels
import Verif.Model.FileIO
import Mathlib.Data.Rat.Floor

/-!
# Degrees of freedom per partition

`/repo/src/combischeme/CombiMinMaxScheme.hpp` l.223-404.

Levels are non-negative. Numbers of the type `double` are exact here: indices are below 2^31 and are
multiplied by powers of two. Sums and products are not limited to the range of their types.
-/

namespace Verif.PartitionDOF

/-- Read from the table `powerOfTwo`; `stuck`: outside of it. -/
def pow2 (l : ℕ) : Outcome ℕ :=
  match powerOfTwo? l with
  | some x => .ok x
  | none => .stuck

/-- One factor of `numDOFSpace`, `getSGDegreesOfFreedomFromDownSet`, l.256-266; the assertion of l.260
excludes level 0. -/
def dofFactor (l : ℕ) : Outcome ℤ :=
  if l = 0 then .stuck
  else if l = 1 then .ok 3
  else (pow2 (l - 1)).bind fun x => .ok x

/-- The loop over the dimensions, l.256-266. -/
def dofSpace : List ℕ → ℤ → Outcome ℤ
  | [], acc => .ok acc
  | l :: ls, acc => (dofFactor l).bind fun x => dofSpace ls (acc * x)

/-- `getSGDegreesOfFreedomFromDownSet`, l.252-272. -/
def sgDOF : List (List ℕ) → ℤ → Outcome ℤ
  | [], acc => .ok acc
  | s :: rest, acc => (dofSpace s 1).bind fun x => sgDOF rest (acc + x)

/-- `getHighestIndexInHierarchicalSubspaceLowerThanNodalIndexOnLref`, l.289-325. -/
def highestIndex (l nodal ref : ℕ) : Outcome ℤ :=
  if ref < l then .stuck
  else if l = 0 then .error
  else if l = 1 then
    if nodal = 0 then .ok (-1)
    else (pow2 ref).bind fun p =>
      if p ≤ nodal then .ok 2 else if p / 2 ≤ nodal then .ok 1 else .ok 0
  else (pow2 (ref - l)).bind fun p =>
    if p < nodal then .ok (⌈(1 / 2 : ℚ) * ((nodal : ℚ) * (1 / 2 ^ (ref - l)) - 1)⌉ - 1)
    else .ok (-1)

/-- The loop over the partitions except for the last one, l.353-365, for the lower bounds of the following
partitions. `pr` is `numIndicesProcessedOnPoleMinusOne`, a `size_t` that is used as a signed number. -/
def extentsLoop (l ref : ℕ) : List ℕ → ℤ → Outcome (List ℤ × ℤ)
  | [], pr => .ok ([], pr)
  | n :: ns, pr => (highestIndex l n ref).bind fun h =>
      if h ≠ -1 then (extentsLoop l ref ns h).bind fun r => .ok ((h - pr) :: r.1, r.2)
      else (extentsLoop l ref ns pr).bind fun r => .ok (0 :: r.1, r.2)

/-- The number of points of a level, l.367-374. -/
def totalPoints (l : ℕ) : Outcome ℤ :=
  if l = 1 then .ok 3 else (pow2 (l - 1)).bind fun x => .ok x

/-- The extents in one dimension, l.350-383. `stuck`: no partition, a table is left, or the last extent is
negative (assertion, l.383). The assertions on the sum (l.375, l.378) hold by construction. -/
def extents1d (l ref : ℕ) (dec : List ℕ) : Outcome (List ℤ) :=
  match dec with
  | [] => .stuck
  | _ :: ns => (extentsLoop l ref ns (-1)).bind fun r =>
      (totalPoints l).bind fun total =>
        if total - r.2 - 1 < 0 then .stuck else .ok (r.1 ++ [total - r.2 - 1])

/-- The extents in all dimensions, l.350-386; `stuck`: vectors of different lengths. -/
def extents : List ℕ → List ℕ → List (List ℕ) → Outcome (List (List ℤ))
  | [], _, _ => .ok []
  | l :: ls, r :: rs, d :: ds => (extents1d l r d).bind fun e =>
      (extents ls rs ds).bind fun es => .ok (e :: es)
  | _ :: _, _, _ => .stuck

/-- The loop over the dimensions for one process, l.389-398: pairs of an offset and the extents, from the
last dimension to the first one. -/
def dofOf : List (ℕ × List ℤ) → ℕ → ℤ → Outcome ℤ
  | [], _, acc => .ok acc
  | (o, ex) :: rest, tmp, acc =>
    match ex[tmp / o]? with
    | none => .stuck
    | some e => dofOf rest (tmp % o) (acc * e)

/-- The loop over the processes, l.387-400. -/
def addProcs (dims : List (ℕ × List ℤ)) : ℕ → List ℤ → Outcome (List ℤ)
  | _, [] => .ok []
  | i, x :: xs => (dofOf dims i 1).bind fun y => (addProcs dims (i + 1) xs).bind fun r => .ok ((x + y) :: r)

/-- The loop over the subspaces, l.346-401. `decompositionOffsets`, l.336-341, are those of a tensor. -/
def subspaceLoop (ref : List ℕ) (dec : List (List ℕ)) : List (List ℕ) → List ℤ → Outcome (List ℤ)
  | [], acc => .ok acc
  | s :: rest, acc => (extents s ref dec).bind fun ex =>
      (addProcs ((tensorOffsets (dec.map List.length)).zip ex).reverse 0 acc).bind
        (subspaceLoop ref dec rest)

/-- `getPartitionedNumDOFSG`, l.327-404. -/
def partitionedNumDOF (downSet : List (List ℕ)) (ref : List ℕ) (dec : List (List ℕ)) :
    Outcome (List ℤ) :=
  if downSet = [] then .ok []
  else subspaceLoop ref dec downSet (List.replicate (dec.map List.length).prod 0)

end Verif.PartitionDOF

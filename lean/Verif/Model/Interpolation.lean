import Verif.Model.FullGrid
import Verif.Model.FileIO
import Mathlib.Algebra.Order.Floor.Defs
import Mathlib.Algebra.Module.Defs

/-!
# Interpolation on the distributed full grid

`/repo/src/fullgrid/DistributedFullGrid.hpp` l.1080-1232. Coordinates are elements of an ordered field `K`
(the rounding of `double` is not modelled), the values are elements of a vector space `V` over it (real or
complex numbers). The grid spacing is exactly `2 ^ -level`.
-/

namespace Verif.Interpolation

variable {K : Type} [Field K] [LinearOrder K] [FloorRing K] {V : Type} [AddCommMonoid V] [Module K V]

/-- What a process knows about one dimension: level, boundary flag, number of points of the whole grid,
its first global index, its number of points, and its coordinate in the process grid. -/
structure EvalDim where
  level : ℕ
  boundary : ℕ
  globalSize : ℕ
  lower : ℕ
  size : ℕ
  coord : ℕ

/-- The distance of the first index to the left end of the domain, l.901-902 and l.1085. -/
def EvalDim.shift (d : EvalDim) : ℕ := if 0 < d.boundary then 0 else 1

/-- The grid spacing. -/
def EvalDim.h (d : EvalDim) : K := 1 / 2 ^ d.level

/-- `getPointDistanceToCoordinate`, l.1081-1099, with its assertion. -/
def pointDistance (d : EvalDim) (idx : ℤ) (x : K) : Outcome K :=
  let dist : K := ((d.lower : ℤ) + d.shift + idx : ℤ) * d.h - x
  if (d.h : K) < |dist| then .stuck else .ok |dist|

/-- One round of the loop over the dimensions, l.1115-1143: `none` if the basis function is zero here
(`break`), otherwise the factor of the basis function and the change of the index in this dimension. -/
def step (d : EvalDim) (li : ℤ) (x : K) (upper : Bool) : Outcome (Option (K × ℤ)) :=
  let idx : ℤ := li + (if upper then 1 else 0)
  if idx < 0 then .ok none
  else if upper = true ∧ d.boundary = 1 ∧ idx = d.globalSize then
    (pointDistance d 0 (x - 1)).bind fun r => .ok (some (1 - r * 2 ^ d.level, -li))
  else if (d.size : ℤ) - 1 < idx then .ok none
  else (pointDistance d idx x).bind fun r =>
    .ok (some (1 - r * 2 ^ d.level, if upper then 1 else 0))

/-- The loop over the dimensions, l.1115-1147; for each one the dimension, the local index, the coordinate
and the offset. `it` is the number whose bits choose the lower or upper neighbour: bit `d` of
`localIndexIterate`. The results are `neighborIndex` and `phi_c`. -/
def neighborLoop : List (EvalDim × ℤ × K × ℕ) → ℕ → ℤ → K → Outcome (ℤ × K)
  | [], _, nb, phi => .ok (nb, phi)
  | (d, li, x, o) :: rest, it, nb, phi =>
    (step d li x (it % 2 == 1)).bind fun r =>
      match r with
      | none => .ok (nb, 0)
      | some (w, delta) => neighborLoop rest (it / 2) (nb + delta * o) (phi * w)

/-- Read the local data; `stuck`: outside (assertions, l.1160-1161). -/
def readAt (data : List V) (i : ℤ) : Outcome V :=
  if i < 0 then .stuck
  else match data[i.toNat]? with
    | none => .stuck
    | some v => .ok v

/-- The loop over the neighbours, l.1106-1164. -/
def iterLoop (dims : List (EvalDim × ℤ × K × ℕ)) (nb0 : ℤ) (data : List V) : List ℕ → V → Outcome V
  | [], acc => .ok acc
  | it :: its, acc => (neighborLoop dims it nb0 1).bind fun r =>
      if 0 < r.2 then (readAt data r.1).bind fun v => iterLoop dims nb0 data its (acc + r.2 • v)
      else iterLoop dims nb0 data its acc

/-- The loop over the dimensions of `evalLocal`, l.1182-1208: `none` if the value is zero on this process. -/
def lowerIndices : List EvalDim → List K → Outcome (Option (List ℤ))
  | [], [] => .ok (some [])
  | d :: ds, x :: xs =>
    if x < 0 ∨ 1 < x then .stuck
    else
      let li : ℤ := ⌊(x - ((d.lower + d.shift : ℕ) : K) * d.h) * 2 ^ d.level⌋
      if li < -1 then .ok none
      else if ¬ (1 - d.h ≤ x ∧ d.boundary = 1 ∧ d.coord = 0) ∧ (d.size : ℤ) - 1 < li then .ok none
      else (lowerIndices ds xs).bind fun r => .ok (r.map fun lis => li :: lis)
  | _, _ => .stuck

/-- The linear index, `sequentialIndex` (`Tensor.hpp` l.64-67) for indices that may be negative. -/
def linear : List ℤ → List ℕ → ℤ
  | i :: is, o :: os => i * o + linear is os
  | _, _ => 0

/-- The dimensions with their indices, coordinates and offsets. -/
def zipDims : List EvalDim → List ℤ → List K → List ℕ → List (EvalDim × ℤ × K × ℕ)
  | d :: ds, i :: is, x :: xs, o :: os => (d, i, x, o) :: zipDims ds is xs os
  | _, _, _, _ => []

/-- `evalLocal`, l.1174-1212. -/
def evalLocal (dims : List EvalDim) (coords : List K) (data : List V) : Outcome V :=
  (lowerIndices dims coords).bind fun r =>
    match r with
    | none => .ok 0
    | some lis =>
      let offsets := tensorOffsets (dims.map (·.size))
      iterLoop (zipDims dims lis coords offsets) (linear lis offsets) data (List.range (2 ^ dims.length)) 0

end Verif.Interpolation

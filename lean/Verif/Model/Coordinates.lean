import Verif.Model.FileIO

/-!
# Serialization of interpolation coordinates

`/repo/src/utils/MonteCarlo.cpp` l.12-39.
-/

namespace Verif

/-- `serializeInterpolationCoords`, `MonteCarlo.cpp` l.12-21. The first line reads
`interpolationCoords[0]`, undefined for an empty list; `reserve` has no visible effect. -/
def serializeCoords {R : Type} (coords : List (List R)) : Outcome (List R) :=
  match coords with
  | [] => .stuck
  | _ :: _ => .ok (coords.foldl (fun acc c => acc ++ c) [])

/-- The loop of `deserializeInterpolationCoords`, `MonteCarlo.cpp` l.31-34: `n` remaining
coordinates, each made from `[it, it + dim)`. -/
def deserializeLoop {R : Type} (dim : ℕ) : ℕ → List R → List (List R)
  | 0, _ => []
  | n + 1, rest => rest.take dim :: deserializeLoop dim n (rest.drop dim)

/-- `deserializeInterpolationCoords`, `MonteCarlo.cpp` l.23-39. `DimType` is `uint8_t`, so the
number of dimensions that arrives is `numDimensions % 256`; the remainder and division by zero are
undefined. The assertions are l.26 and l.35 (`interpolationCoords[0]` of an empty list is undefined)
and l.36. -/
def deserializeCoords {R : Type} (serial : List R) (numDimensions : ℕ) : Outcome (List (List R)) :=
  let dim := numDimensions % 256
  if dim = 0 then .stuck else
  if serial.length % dim ≠ 0 then .stuck else
  match deserializeLoop dim (serial.length / dim) serial with
  | [] => .stuck
  | c :: cs =>
    if c.length = dim ∧ c.length * (c :: cs).length = serial.length then .ok (c :: cs) else .stuck

end Verif

import Verif.Model.Kernels
import Verif.Model.FileIO
import Mathlib.Data.Rat.Defs

/-!
# Points and spacings computed by the grid constructors

`/repo/src/utils/PowerOfTwo.hpp`, `/repo/src/fullgrid/DistributedFullGrid.hpp` l.615-658 and
l.844-868, `/repo/src/fullgrid/FullGrid.hpp` l.225-310.
-/

namespace Verif

/-- `oneOverPowOfTwo[30]`, `PowerOfTwo.hpp` l.24-30. Only 29 of the 30 entries are initialised; the
last one is zero. The quotients are exact in binary floating point, so rational numbers are used. -/
def oneOverPowOfTwoTable : List ℚ :=
  [1 / 1, 1 / 2, 1 / 4, 1 / 8, 1 / 16, 1 / 32, 1 / 64, 1 / 128, 1 / 256, 1 / 512, 1 / 1024,
    1 / 2048, 1 / 4096, 1 / 8192, 1 / 16384, 1 / 32768, 1 / 65536, 1 / 131072, 1 / 262144,
    1 / 524288, 1 / 1048576, 1 / 2097152, 1 / 4194304, 1 / 8388608, 1 / 16777216, 1 / 33554432,
    1 / 67108864, 1 / 134217728, 1 / 268435456, 0]

/-- `oneOverPowOfTwo[l]`; reading outside of the table is undefined. -/
def oneOverPowOfTwo? (l : ℕ) : Option ℚ := oneOverPowOfTwoTable[l]?

/-- `powerOfTwoByBitshift`, `PowerOfTwo.hpp` l.11-15: the assertion of l.12, and the shift of a
32 bit integer into its sign bit, which gives a negative number. -/
def powerOfTwoByBitshift (x : ℕ) : Outcome ℤ :=
  if 32 ≤ x then .stuck else if x = 31 then .ok (-(2 ^ 31)) else .ok (2 ^ x)

/-- `getNumDofNodal`, `/repo/src/utils/LevelSetUtils.hpp` l.11-21, with the 32 bit arithmetic (an
overflow is undefined behaviour). -/
def getNumDofNodal32 (l boundary : ℕ) : Outcome ℤ :=
  if 0 < l then
    (powerOfTwoByBitshift l).bind fun p => if 2 ^ 31 ≤ p + boundary then .stuck else .ok (p + boundary - 1)
  else if boundary = 0 then .error
  else .ok boundary

/-- What the `DistributedFullGrid` constructor computes for the dimensions. -/
structure GridSizes where
  nrPoints : List ℤ
  gridSpacing : List ℚ
  deriving DecidableEq, Repr

/-- The loop over the dimensions of the `DistributedFullGrid` constructor,
`DistributedFullGrid.hpp` l.633-642. `nrElements` is a 32 bit integer, its overflow undefined. The
assertion of l.640 is kept; the one of l.637-639 (decomposition of periodic dimensions) is left out,
it does not concern the levels. -/
def dfgCtorLoop : (dims : List (ℕ × ℕ)) → (nrElements : ℤ) → Outcome GridSizes
  | [], _ => .ok ⟨[], []⟩
  | (l, b) :: rest, nrElements =>
    (getNumDofNodal32 l b).bind fun n =>
      if 2 ^ 31 ≤ nrElements * n then .stuck else
      if 30 ≤ l then .stuck else
      match oneOverPowOfTwo? l with
      | none => .stuck
      | some h => (dfgCtorLoop rest (nrElements * n)).bind fun r =>
          .ok ⟨n :: r.nrPoints, h :: r.gridSpacing⟩

/-- The part of the `DistributedFullGrid` constructor that depends on the levels and the boundary
flags, `DistributedFullGrid.hpp` l.623-642. -/
def dfgCtor (levels boundary : List ℕ) : Outcome GridSizes :=
  if levels.length ≠ boundary.length then .stuck else dfgCtorLoop (levels.zip boundary) 1

/-- `getInverseGridSpacingIn`, `DistributedFullGrid.hpp` l.844-846: the number of intervals. -/
def getInverseGridSpacing (l : ℕ) : Outcome ℤ :=
  match powerOfTwo? l with
  | none => .stuck
  | some p => .ok p

/-- Points of a dimension of the serial `FullGrid`, `FullGrid.hpp` l.244, l.273, l.305. -/
def fullGridPoints (l boundary : ℕ) : Outcome ℤ :=
  match powerOfTwo? l with
  | none => .stuck
  | some p => .ok ((p : ℤ) + boundary - 1)

end Verif

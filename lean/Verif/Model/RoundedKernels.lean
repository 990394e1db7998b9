import Verif.Model.PoleLoop
import Verif.Model.Kahan

/-!
# Hierarchization with hat functions in the arithmetic of the machine

`/repo/src/hierarchization/DistributedHierarchization.hpp` l.641-670, l.775-803, l.968-1123,
l.1129-1187 and l.1212-1270 as in `Model/Kernels` and `Model/PoleLoop`, but with the additions and
subtractions of the machine, in the order in which the code executes them.

Simplification: the multiplications with 0.5 and -0.5 are exact (they are for binary floating point
numbers unless a number underflows).
-/

namespace Verif

variable {K : Type} [Field K]

/-- `hierarchize` for one pole of a dimension with hat functions, l.1137-1184. The arithmetic is l.656-657
(`val2 = val1 - parentL`, `val3 = val2 - parentR`) with boundary points and l.1034-1036
(`buf = -0.5 * left`, `tmp -= 0.5 * right`, `tmp += buf`) without. -/
def hierPoleHat (A : Adder K) (b lmax lmin gstart : ℕ) (remote : List (ℕ × K)) (junk : ℕ → K)
    (loc : Buf K) : Option (Buf K) :=
  let g := poleLength lmax b
  if lmin ≥ lmax then some loc
  else if b > 0 then
    withBoundaryPole (b == 1) (hierHatWith (fun v pL pR => A.sub (A.sub v pL) pR) lmax lmin) g gstart
      remote junk loc
  else noBoundaryPole (hierNoBoundaryWith
    (fun left right v => A.add (A.sub v (2⁻¹ * right)) (-2⁻¹ * left)) lmax g gstart loc.len) g gstart
    remote junk loc

/-- `dehierarchize` for one pole of a dimension with hat functions, l.1219-1267. The arithmetic is
l.791-792 with boundary points and l.1114-1116 without. -/
def dehierPoleHat (A : Adder K) (b lmax lmin gstart : ℕ) (remote : List (ℕ × K)) (junk : ℕ → K)
    (loc : Buf K) : Option (Buf K) :=
  let g := poleLength lmax b
  if lmin ≥ lmax then some loc
  else if b > 0 then
    withBoundaryPole (b == 1) (dehierHatWith (fun v pL pR => A.add (A.add v pL) pR) lmax lmin) g gstart
      remote junk loc
  else noBoundaryPole (dehierNoBoundaryWith
    (fun left right v => A.add (A.add v (2⁻¹ * right)) (2⁻¹ * left)) lmax g) g gstart remote junk loc

/-- What `hierarchize` is told about a dimension with hat functions: boundary flag, level, minimum
level. -/
structure HatDim where
  b : ℕ
  lmax : ℕ
  lmin : ℕ

/-- `hierarchize`, l.1129-1187, on one process for the dimensions `dims`. -/
def hierarchizeHat (A : Adder K) (g : List HatDim) (junk : ℕ → ℕ → ℕ → K) (dims : List ℕ) (d : Buf K) :
    Option (Buf K) :=
  transformGrid (g.map fun s => poleLength s.lmax s.b) (fun k p loc => (g[k]?).bind fun s =>
    hierPoleHat A s.b s.lmax s.lmin 0 [] (junk k p) loc) dims d

/-- `dehierarchize`, l.1212-1270, on one process for the dimensions `dims`. -/
def dehierarchizeHat (A : Adder K) (g : List HatDim) (junk : ℕ → ℕ → ℕ → K) (dims : List ℕ)
    (d : Buf K) : Option (Buf K) :=
  transformGrid (g.map fun s => poleLength s.lmax s.b) (fun k p loc => (g[k]?).bind fun s =>
    dehierPoleHat A s.b s.lmax s.lmin 0 [] (junk k p) loc) dims d

end Verif

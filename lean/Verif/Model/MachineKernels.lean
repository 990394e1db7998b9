import Verif.Model.DistributedGrid
import Verif.Model.Kahan

/-!
# Hierarchization in an arbitrary arithmetic

`/repo/src/hierarchization/DistributedHierarchization.hpp` l.641-887, l.894-1123, l.1129-1187 and
l.1212-1270 as in `Model/Kernels` and `Model/DistributedGrid`, for all bases, but the expressions are
evaluated by arbitrary functions of their operands, e.g. with rounding after every operation.

Simplifications: the functions get the exact products with the constants 0.5, 0.25, -0.5, -0.25 (which
they may round); numbers are elements of a field, so there are no NaNs or infinities; and an expression
is evaluated in the same way at all points of a loop, which holds if the compiler does not contract or
vectorize part of the iterations differently.
-/

namespace Verif

variable {K : Type} [Field K]

/-- How the expressions in the body of the level loop of a mass conserving kernel are evaluated: at the
ends, at periodic ends, at the even and at the odd indices. -/
structure StepArith (K : Type) where
  ends : K → K → K
  endsPeriodic : K → K → K → K → K
  even : K → K → K → K
  odd : K → K → K → K

/-- How the expressions of the kernels are evaluated: l.656-657, l.791-792 (hat functions; central value
and the halves of the parents), l.1034-1036, l.1114-1116 (without boundary points; left, right and central
value), l.692-714, l.816-838 (full weighting), l.747-769, l.865-885 (biorthogonal). -/
structure Arith (K : Type) where
  hat : K → K → K → K
  unhat : K → K → K → K
  noBoundary : K → K → K → K
  unNoBoundary : K → K → K → K
  full : StepArith K
  unfull : StepArith K
  bio : StepArith K
  unbio : StepArith K

/-- Without rounding. -/
def Arith.exact (K : Type) [Field K] : Arith K where
  hat v pL pR := v - pL - pR
  unhat v pL pR := v + pL + pR
  noBoundary left right v := v - 2⁻¹ * right + -2⁻¹ * left
  unNoBoundary left right v := v + 2⁻¹ * right + 2⁻¹ * left
  full := ⟨fun a x => 2⁻¹ * (a + x), fun a b x y => 4⁻¹ * (a + b + x + y), fun l r v => l + r + 2⁻¹ * v,
    fun l r v => l + (r + v)⟩
  unfull := ⟨fun a x => 2 * a - x, fun a b x y => (a + b) - 2⁻¹ * (x + y), fun l r v => l + r + 2 * v,
    fun l r v => l + (r + v)⟩
  bio := ⟨fun a x => a + 2⁻¹ * x, fun a b x y => 2⁻¹ * (a + b) + 4⁻¹ * (x + y), fun l r v => l + (r + v),
    fun l r v => l + (r + v)⟩
  unbio := ⟨fun a x => a - 2⁻¹ * x, fun a b x y => -4⁻¹ * (x + y) + 2⁻¹ * (a + b),
    fun l r v => l + (r + v), fun l r v => l + (r + v)⟩

/-- With the additions and subtractions of the machine, in the order of the code (the products with powers
of two are exact unless a number underflows). -/
def Arith.machine (A : Adder K) : Arith K where
  hat v pL pR := A.sub (A.sub v pL) pR
  unhat v pL pR := A.add (A.add v pL) pR
  noBoundary left right v := A.add (A.sub v (2⁻¹ * right)) (-2⁻¹ * left)
  unNoBoundary left right v := A.add (A.add v (2⁻¹ * right)) (2⁻¹ * left)
  full := ⟨fun a x => 2⁻¹ * A.add a x, fun a b x y => 4⁻¹ * A.add (A.add (A.add a b) x) y,
    fun l r v => A.add (A.add l r) (2⁻¹ * v), fun l r v => A.add l (A.add r v)⟩
  unfull := ⟨fun a x => A.sub (2 * a) x, fun a b x y => A.sub (A.add a b) (2⁻¹ * A.add x y),
    fun l r v => A.add (A.add l r) (2 * v), fun l r v => A.add l (A.add r v)⟩
  bio := ⟨fun a x => A.add a (2⁻¹ * x), fun a b x y => A.add (2⁻¹ * A.add a b) (4⁻¹ * A.add x y),
    fun l r v => A.add l (A.add r v), fun l r v => A.add l (A.add r v)⟩
  unbio := ⟨fun a x => A.sub a (2⁻¹ * x), fun a b x y => A.add (-4⁻¹ * A.add x y) (2⁻¹ * A.add a b),
    fun l r v => A.add l (A.add r v), fun l r v => A.add l (A.add r v)⟩

/-- Body of the level loop of `hierarchize_full_weighting_boundary_kernel`, l.690-715. -/
def hierFullStepWith (s : StepArith K) (periodic : Bool) (idxmax w : ℕ) (d : Buf K) : Option (Buf K) := do
  let d ← endsUpdate periodic s.ends s.endsPeriodic idxmax w d
  let d ← evenLoop 4⁻¹ s.even idxmax w d
  oddLoop (-2⁻¹) s.odd idxmax w d

/-- Body of the level loop of `dehierarchize_full_weighting_boundary_kernel`, l.815-839. -/
def dehierFullStepWith (s : StepArith K) (periodic : Bool) (idxmax w : ℕ) (d : Buf K) :
    Option (Buf K) := do
  let d ← oddLoop 2⁻¹ s.odd idxmax w d
  let d ← evenLoop (-2⁻¹) s.even idxmax w d
  endsUpdate periodic s.ends s.endsPeriodic idxmax w d

/-- Body of the level loop of `hierarchize_biorthogonal_boundary_kernel`, l.745-770. -/
def hierBioStepWith (s : StepArith K) (periodic : Bool) (idxmax w : ℕ) (d : Buf K) : Option (Buf K) := do
  let d ← oddLoop (-2⁻¹) s.odd idxmax w d
  let d ← endsUpdate periodic s.ends s.endsPeriodic idxmax w d
  evenLoop 4⁻¹ s.even idxmax w d

/-- Body of the level loop of `dehierarchize_biorthogonal_boundary_kernel`, l.863-886. -/
def dehierBioStepWith (s : StepArith K) (periodic : Bool) (idxmax w : ℕ) (d : Buf K) :
    Option (Buf K) := do
  let d ← endsUpdate periodic s.ends s.endsPeriodic idxmax w d
  let d ← evenLoop (-4⁻¹) s.even idxmax w d
  oddLoop 2⁻¹ s.odd idxmax w d

/-- The hierarchization kernel selected for a dimension with boundary points, l.1149-1176. -/
def hierKernelWith (ar : Arith K) : Basis → ℕ → ℕ → Buf K → Option (Buf K)
  | .hat => hierHatWith ar.hat
  | .hatPeriodic => hierHatWith ar.hat
  | .fullWeighting => upLevels (hierFullStepWith ar.full false)
  | .fullWeightingPeriodic => upLevels (hierFullStepWith ar.full true)
  | .biorthogonal => upLevels (hierFullStepWith ar.full false)
  | .biorthogonalPeriodic => upLevels (hierBioStepWith ar.bio true)

/-- The dehierarchization kernel selected for a dimension with boundary points, l.1232-1259. -/
def dehierKernelWith (ar : Arith K) : Basis → ℕ → ℕ → Buf K → Option (Buf K)
  | .hat => dehierHatWith ar.unhat
  | .hatPeriodic => dehierHatWith ar.unhat
  | .fullWeighting => downLevels (dehierFullStepWith ar.unfull false)
  | .fullWeightingPeriodic => downLevels (dehierFullStepWith ar.unfull true)
  | .biorthogonal => downLevels (dehierFullStepWith ar.unfull false)
  | .biorthogonalPeriodic => downLevels (dehierBioStepWith ar.unbio true)

/-- `hierarchize` for one pole in one dimension, l.1137-1184. -/
def hierPoleWith (ar : Arith K) (basis : Basis) (b lmax lmin gstart : ℕ) (remote : List (ℕ × K))
    (junk : ℕ → K) (loc : Buf K) : Option (Buf K) :=
  let g := poleLength lmax b
  if lmin ≥ lmax then some loc
  else if b > 0 then
    withBoundaryPole (b == 1) (hierKernelWith ar basis lmax lmin) g gstart remote junk loc
  else if basis ≠ .hat then none
  else noBoundaryPole (hierNoBoundaryWith ar.noBoundary lmax g gstart loc.len) g gstart remote junk loc

/-- `dehierarchize` for one pole in one dimension, l.1219-1267. -/
def dehierPoleWith (ar : Arith K) (basis : Basis) (b lmax lmin gstart : ℕ) (remote : List (ℕ × K))
    (junk : ℕ → K) (loc : Buf K) : Option (Buf K) :=
  let g := poleLength lmax b
  if lmin ≥ lmax then some loc
  else if b > 0 then
    withBoundaryPole (b == 1) (dehierKernelWith ar basis lmax lmin) g gstart remote junk loc
  else if basis ≠ .hat then none
  else noBoundaryPole (dehierNoBoundaryWith ar.unNoBoundary lmax g) g gstart remote junk loc

/-- `hierarchize`, l.1129-1187, on one process for the dimensions `dims`. -/
def hierarchizeGridWith (ar : Arith K) (g : List GridDim) (junk : ℕ → ℕ → ℕ → K) (dims : List ℕ)
    (d : Buf K) : Option (Buf K) :=
  transformGrid (g.map fun s => poleLength s.lmax s.b) (fun k p loc => (g[k]?).bind fun s =>
    hierPoleWith ar s.basis s.b s.lmax s.lmin 0 [] (junk k p) loc) dims d

/-- `dehierarchize`, l.1212-1270, on one process for the dimensions `dims`. -/
def dehierarchizeGridWith (ar : Arith K) (g : List GridDim) (junk : ℕ → ℕ → ℕ → K) (dims : List ℕ)
    (d : Buf K) : Option (Buf K) :=
  transformGrid (g.map fun s => poleLength s.lmax s.b) (fun k p loc => (g[k]?).bind fun s =>
    dehierPoleWith ar s.basis s.b s.lmax s.lmin 0 [] (junk k p) loc) dims d

/-- `hierarchize`, l.1129-1187, on all processes of a group for the dimensions `dims`. -/
def distributedHierarchizeWith (ar : Arith K) (g : List DistDim) (junk : List ℕ → ℕ → ℕ → ℕ → K)
    (dims : List ℕ) (S : List ℕ → Buf K) : Option (List ℕ → Buf K) :=
  distributedTransform hierExchange (hierPoleWith ar) g junk dims S

/-- `dehierarchize`, l.1212-1270, on all processes of a group for the dimensions `dims`. -/
def distributedDehierarchizeWith (ar : Arith K) (g : List DistDim) (junk : List ℕ → ℕ → ℕ → ℕ → K)
    (dims : List ℕ) (S : List ℕ → Buf K) : Option (List ℕ → Buf K) :=
  distributedTransform dehierExchange (dehierPoleWith ar) g junk dims S

end Verif

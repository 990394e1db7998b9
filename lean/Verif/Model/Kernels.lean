import Verif.Model.Storage
import Mathlib.Algebra.Field.Basic
import Mathlib.Algebra.CharZero.Defs

/-!
# One-dimensional hierarchization kernels

`/repo/src/hierarchization/DistributedHierarchization.hpp` l.641-887 and the pole loops of
l.968-1123; `/repo/src/utils/PowerOfTwo.hpp`.

An array access outside of the pole is undefined behaviour and modelled as `none`, and so is a
`for` loop that never ends. Floating point numbers are replaced by elements of a field, so the
order of the additions in an expression is not significant.
-/

namespace Verif

variable {K : Type} [Field K]

/-- `powerOfTwo[30]`, `PowerOfTwo.hpp` l.17-21. The table is declared with 30 entries but only 29
initialisers are given; the last entry is zero by aggregate initialisation. -/
def powerOfTwoTable : List ℕ :=
  [1, 2, 4, 8, 16, 32, 64, 128, 256, 512, 1024, 2048, 4096, 8192, 16384, 32768, 65536, 131072,
    262144, 524288, 1048576, 2097152, 4194304, 8388608, 16777216, 33554432, 67108864, 134217728,
    268435456, 0]

/-- `powerOfTwo[l]`; reading outside of the table is undefined. -/
def powerOfTwo? (l : ℕ) : Option ℕ := powerOfTwoTable[l]?

/-- Read `data[i]` for an `int` index. -/
def Buf.getInt? (d : Buf K) (i : ℤ) : Option K := if 0 ≤ i then d.get? i.toNat else none

/-- The inner loop of the hat kernels, `DistributedHierarchization.hpp` l.652-662 and l.787-797:
`n` remaining iterations, `off` the central index, `pL` half of the left parent. `f` combines the
central value with the two halves. -/
def hatInner (f : K → K → K → K) (po ss : ℕ) : ℕ → Buf K → K → ℕ → Option (Buf K)
  | 0, d, _, _ => some d
  | n + 1, d, pL, off => do
    let r ← d.get? (off + po)
    let pR := 2⁻¹ * r
    let v ← d.get? off
    let d' ← d.set? off (f v pL pR)
    hatInner f po ss n d' pR (off + ss)

/-- The level loop of `hierarchize_hat_boundary_kernel`, l.649-668. The argument is the number of
remaining levels, `ll = lmin + k - 1`; `f` is the arithmetic of l.656-657. -/
def hierHatLevelsWith (f : K → K → K → K) (lmax lmin : ℕ) : ℕ → Buf K → (steps offset stepsize po : ℕ) → Option (Buf K)
  | 0, d, _, _, _, _ => some d
  | k + 1, d, steps, offset, stepsize, po => do
    let ll := lmin + k
    let p ← d.getInt? ((offset : ℤ) - po)
    let d' ← hatInner f po stepsize steps d (2⁻¹ * p) offset
    hierHatLevelsWith f lmax lmin k d' (steps >>> 1) (1 <<< (lmax - ll)) (stepsize <<< 1) stepsize

/-- `hierarchize_hat_boundary_kernel`, l.641-670, with the arithmetic `f`. For `lmax = 0` the first
shift is undefined. -/
def hierHatWith (f : K → K → K → K) (lmax lmin : ℕ) (d : Buf K) : Option (Buf K) :=
  if lmax = 0 then none else
  hierHatLevelsWith f lmax lmin (lmax - lmin) d (1 <<< (lmax - 1)) 1 2 1

/-- `hierarchize_hat_boundary_kernel`, l.641-670, without rounding. -/
def hierHat : (lmax lmin : ℕ) → Buf K → Option (Buf K) := hierHatWith fun v pL pR => v - pL - pR

/-- `1 << e` for an `int` exponent, undefined (`none`) for negative ones. -/
def shiftOne (e : ℤ) : Option ℕ := if 0 ≤ e then some (1 <<< e.toNat) else none

/-- The level loop of `dehierarchize_hat_boundary_kernel`, l.783-801. The first argument is the
number of remaining levels, `ll = lmax - k`. The offset is kept as an optional
value since the last iteration computes it with a negative shift (see `shiftOne`) and never uses
it. `f` is the arithmetic of l.791-792. -/
def dehierHatLevelsWith (f : K → K → K → K) (lmax : ℕ) : ℕ → Buf K → (steps : ℕ) → (offset : Option ℕ) →
    (stepsize po : ℕ) → Option (Buf K)
  | 0, d, _, _, _, _ => some d
  | k + 1, d, steps, offset, stepsize, po => do
    let ll : ℤ := (lmax : ℤ) - k
    let offset ← offset
    let p ← d.getInt? ((offset : ℤ) - po)
    let d' ← hatInner f po stepsize steps d (2⁻¹ * p) offset
    dehierHatLevelsWith f lmax k d' (steps <<< 1) (shiftOne (lmax - (ll + 1))) (stepsize >>> 1)
      (po >>> 1)

/-- `dehierarchize_hat_boundary_kernel`, l.775-803, with the arithmetic `f`. -/
def dehierHatWith (f : K → K → K → K) (lmax lmin : ℕ) (d : Buf K) : Option (Buf K) := do
  let offset ← shiftOne ((lmax : ℤ) - lmin - 1)
  let stepsize ← shiftOne ((lmax : ℤ) - lmin)
  dehierHatLevelsWith f lmax (lmax - lmin) d (1 <<< lmin) (some offset) stepsize offset

/-- `dehierarchize_hat_boundary_kernel`, l.775-803, without rounding. -/
def dehierHat : (lmax lmin : ℕ) → Buf K → Option (Buf K) :=
  dehierHatWith fun v pL pR => v + pL + pR

/-- A loop `for (i = start; i < idxmax; i += 2 * w)` of the mass conserving kernels, e.g. l.704-708:
`c` is the factor of the parents, `f` combines left parent, right parent and the central value.
The first argument bounds the number of iterations (`none` when it is exceeded, which happens only
for `w = 0`). -/
def stencilLoop (c : K) (f : K → K → K → K) (idxmax w : ℕ) :
    ℕ → Buf K → K → ℕ → Option (Buf K)
  | 0, _, _, _ => none
  | fuel + 1, d, pL, i =>
    if i < idxmax then do
      let r ← d.get? (i + w)
      let pR := c * r
      let v ← d.get? i
      let d' ← d.set? i (f pL pR v)
      stencilLoop c f idxmax w fuel d' pR (i + 2 * w)
    else some d

/-- Such a loop over the even indices (multiples of `2 * w` without the ends), e.g. l.703-708. -/
def evenLoop (c : K) (f : K → K → K → K) (idxmax w : ℕ) (d : Buf K) : Option (Buf K) := do
  let p ← d.get? w
  stencilLoop c f idxmax w (idxmax + 1) d (c * p) (2 * w)

/-- Such a loop over the odd multiples of `w`, e.g. l.710-715. -/
def oddLoop (c : K) (f : K → K → K → K) (idxmax w : ℕ) (d : Buf K) : Option (Buf K) := do
  let p ← d.get? 0
  stencilLoop c f idxmax w (idxmax + 1) d (c * p) w

/-- Update of the two ends, e.g. l.692-701: `f` (for the end, the value next to it) in the normal
case, `fp` (for the two ends and the two values next to them) if `periodic`. -/
def endsUpdate (periodic : Bool) (f : K → K → K) (fp : K → K → K → K → K) (idxmax w : ℕ)
    (d : Buf K) : Option (Buf K) :=
  if periodic then do
    let a ← d.get? 0
    let b ← d.get? idxmax
    let x ← d.get? w
    let y ← d.getInt? ((idxmax : ℤ) - w)
    let d ← d.set? 0 (fp a b x y)
    d.set? idxmax (fp a b x y)
  else do
    let a ← d.get? 0
    let x ← d.get? w
    let d ← d.set? 0 (f a x)
    let b ← d.get? idxmax
    let y ← d.getInt? ((idxmax : ℤ) - w)
    d.set? idxmax (f b y)

/-- Body of the level loop of `hierarchize_full_weighting_boundary_kernel`, l.690-715. -/
def hierFullStep (periodic : Bool) (idxmax w : ℕ) (d : Buf K) : Option (Buf K) := do
  let d ← endsUpdate periodic (fun a x => 2⁻¹ * (a + x)) (fun a b x y => 4⁻¹ * (a + b + x + y))
    idxmax w d
  let d ← evenLoop 4⁻¹ (fun l r v => l + r + 2⁻¹ * v) idxmax w d
  oddLoop (-2⁻¹) (fun l r v => l + (r + v)) idxmax w d

/-- Body of the level loop of `dehierarchize_full_weighting_boundary_kernel`, l.815-839. -/
def dehierFullStep (periodic : Bool) (idxmax w : ℕ) (d : Buf K) : Option (Buf K) := do
  let d ← oddLoop 2⁻¹ (fun l r v => l + (r + v)) idxmax w d
  let d ← evenLoop (-2⁻¹) (fun l r v => l + r + 2 * v) idxmax w d
  endsUpdate periodic (fun a x => 2 * a - x) (fun a b x y => (a + b) - 2⁻¹ * (x + y)) idxmax w d

/-- Body of the level loop of `hierarchize_biorthogonal_boundary_kernel`, l.745-770. -/
def hierBioStep (periodic : Bool) (idxmax w : ℕ) (d : Buf K) : Option (Buf K) := do
  let d ← oddLoop (-2⁻¹) (fun l r v => l + (r + v)) idxmax w d
  let d ← endsUpdate periodic (fun a x => a + 2⁻¹ * x)
    (fun a b x y => 2⁻¹ * (a + b) + 4⁻¹ * (x + y)) idxmax w d
  evenLoop 4⁻¹ (fun l r v => l + (r + v)) idxmax w d

/-- Body of the level loop of `dehierarchize_biorthogonal_boundary_kernel`, l.863-886. -/
def dehierBioStep (periodic : Bool) (idxmax w : ℕ) (d : Buf K) : Option (Buf K) := do
  let d ← endsUpdate periodic (fun a x => a - 2⁻¹ * x)
    (fun a b x y => -4⁻¹ * (x + y) + 2⁻¹ * (a + b)) idxmax w d
  let d ← evenLoop (-4⁻¹) (fun l r v => l + (r + v)) idxmax w d
  oddLoop 2⁻¹ (fun l r v => l + (r + v)) idxmax w d

/-- `for (ldiff = 0; ldiff < lmax - lmin; ++ldiff)`, l.689 and l.744. Levels are signed; for
`lmin > lmax` the loop is empty. -/
def upLevels (step : ℕ → ℕ → Buf K → Option (Buf K)) (lmax lmin : ℕ) (d : Buf K) :
    Option (Buf K) := do
  let idxmax ← powerOfTwo? lmax
  (List.range (lmax - lmin)).foldlM (fun d ldiff => do
    let w ← powerOfTwo? ldiff
    step idxmax w d) d

/-- `for (ldiff = lmax - lmin - 1; ldiff >= 0; --ldiff)`, l.814 and l.862. -/
def downLevels (step : ℕ → ℕ → Buf K → Option (Buf K)) (lmax lmin : ℕ) (d : Buf K) :
    Option (Buf K) := do
  let idxmax ← powerOfTwo? lmax
  (List.range (lmax - lmin)).reverse.foldlM (fun d ldiff => do
    let w ← powerOfTwo? ldiff
    step idxmax w d) d

/-- `hierarchize_full_weighting_boundary_kernel`, l.684-718. -/
def hierFull (periodic : Bool) : ℕ → ℕ → Buf K → Option (Buf K) :=
  upLevels (hierFullStep periodic)

/-- `dehierarchize_full_weighting_boundary_kernel`, l.809-842. -/
def dehierFull (periodic : Bool) : ℕ → ℕ → Buf K → Option (Buf K) :=
  downLevels (dehierFullStep periodic)

/-- `hierarchize_biorthogonal_boundary_kernel`, l.731-772. -/
def hierBio (periodic : Bool) : ℕ → ℕ → Buf K → Option (Buf K) :=
  upLevels (hierBioStep periodic)

/-- `dehierarchize_biorthogonal_boundary_kernel`, l.848-887. -/
def dehierBio (periodic : Bool) : ℕ → ℕ → Buf K → Option (Buf K) :=
  downLevels (dehierBioStep periodic)

/-- The loop over the points of one level without boundary, l.1014-1036 and l.1092-1113. `g` is
the number of points of the pole, only indices below `stop` are updated, `f` combines left, right
and central value. Points outside of the domain count as zero (the test for the left one is
`idx - parentOffset > 0`). The first argument bounds the number of iterations as in `stencilLoop`. -/
def noBoundaryLoop (f : K → K → K → K) (g stop po : ℕ) :
    ℕ → Buf K → ℕ → Option (Buf K)
  | 0, _, _ => none
  | fuel + 1, d, idx =>
    if idx < stop then do
      let left ← ite ((idx : ℤ) - po > 0) (d.getInt? ((idx : ℤ) - po)) (some 0)
      let right ← ite (idx + po < g) (d.get? (idx + po)) (some 0)
      let v ← d.get? idx
      let d' ← d.set? idx (f left right v)
      noBoundaryLoop f g stop po fuel d' (idx + po * 2)
    else some d

/-- `getFirstIndexOfLevel1d`, l.627-639: the first of the `size` local indices from `first` on with
level `l` (boundary flag 0); `none` is the code's -1. -/
def firstIndexOfLevel (lmax first size l : ℕ) : Option ℕ :=
  ((List.range size).map (first + ·)).find? fun i => getLevel lmax 0 i == l

/-- One level of the kernel inside `hierarchizeNoBoundary`, l.1008-1036; `f` is the arithmetic of
l.1034-1036. -/
def hierNoBoundaryStep (f : K → K → K → K) (lmax g first size : ℕ) (d : Buf K) (l : ℕ) : Option (Buf K) :=
  match powerOfTwo? (lmax - l), firstIndexOfLevel lmax first size l with
  | none, _ => none
  | some po, some i =>
    noBoundaryLoop f g (first + size) po (first + size + 1) d i
  | some _, none => some d

/-- The hierarchization kernel inside `hierarchizeNoBoundary`, l.1005-1037, on the scratch pole of
`g` points of which the `size` points from `first` on are local: `for (l = lmax; l > 0; --l)`. -/
def hierNoBoundaryWith (f : K → K → K → K) (lmax g first size : ℕ) (d : Buf K) : Option (Buf K) :=
  ((List.range lmax).map (lmax - ·)).foldlM (hierNoBoundaryStep f lmax g first size) d

/-- The same without rounding. -/
def hierNoBoundary : (lmax g first size : ℕ) → Buf K → Option (Buf K) :=
  hierNoBoundaryWith fun left right v => v - 2⁻¹ * right + -2⁻¹ * left

/-- The kernel inside `dehierarchizeNoBoundary`, l.1085-1114, on the scratch pole of `g` points; `f`
is the arithmetic of l.1114-1116. -/
def dehierNoBoundaryWith (f : K → K → K → K) (lmax g : ℕ) (d : Buf K) : Option (Buf K) :=
  ((List.range (lmax - 1)).map (· + 2)).foldlM (fun d l => do
    let po ← powerOfTwo? (lmax - l)
    noBoundaryLoop f g g po (g + 1) d (po - 1)) d

/-- The same without rounding. -/
def dehierNoBoundary : (lmax g : ℕ) → Buf K → Option (Buf K) :=
  dehierNoBoundaryWith fun left right v => v + 2⁻¹ * right + 2⁻¹ * left

/-! ### Poles -/

/-- Filling the scratch array of one pole, l.929-940 and l.993-1000: received values at their key
indices, then the local data from `gstart` on. -/
def fillScratch (gstart : ℕ) (remote : List (ℕ × K)) (loc tmp : Buf K) : Option (Buf K) := do
  let tmp ← remote.foldlM (fun (t : Buf K) r => t.set? r.1 r.2) tmp
  (List.range loc.len).foldlM (fun (t : Buf K) i => t.set? (gstart + i) (loc.val i)) tmp

/-- Copying the local part of the scratch array back, l.954-959. -/
def copyBack (gstart : ℕ) (loc tmp : Buf K) : Option (Buf K) :=
  if gstart + loc.len ≤ tmp.len then some ⟨loc.len, fun i => tmp.val (gstart + i)⟩ else none

/-- One pole of `hierarchizeWithBoundary`, l.894-962, for one of the kernels; `g` is the number of
points of the whole pole. The scratch array is a reused thread-local vector, its previous contents
are `junk` (the elements added by `resize` are NaN, which is not distinguished from other
contents). With a one-sided boundary the value at the left end is copied to the virtual right
end. -/
def withBoundaryPole (oneSided : Bool) (kernel : Buf K → Option (Buf K)) (g gstart : ℕ)
    (remote : List (ℕ × K)) (junk : ℕ → K) (loc : Buf K) : Option (Buf K) := do
  let tmp ← fillScratch gstart remote loc ⟨if oneSided then g + 1 else g, junk⟩
  let tmp ← ite oneSided ((tmp.get? 0).bind fun a => tmp.set? g a) (some tmp)
  let tmp ← kernel tmp
  copyBack gstart loc tmp

/-- One pole of `hierarchizeNoBoundary` / `dehierarchizeNoBoundary`, l.986-1043, l.1069-1122. -/
def noBoundaryPole (kernel : Buf K → Option (Buf K)) (g gstart : ℕ)
    (remote : List (ℕ × K)) (junk : ℕ → K) (loc : Buf K) : Option (Buf K) := do
  let tmp ← fillScratch gstart remote loc ⟨g, junk⟩
  let tmp ← kernel tmp
  copyBack gstart loc tmp

/-- Number of points in one dimension, `DistributedFullGrid` constructor l.636-648. -/
def poleLength (lmax b : ℕ) : ℕ := 2 ^ lmax + b - 1

/-- The basis function classes of `BasisFunctionBasis.hpp` that can be selected per dimension. They
do not inherit from each other, so the `dynamic_cast`s of the dispatch are exclusive. -/
inductive Basis
  | hat | hatPeriodic | fullWeighting | fullWeightingPeriodic | biorthogonal | biorthogonalPeriodic
deriving DecidableEq, Repr

/-- The hierarchization kernel selected for a dimension with boundary points, l.1149-1176. -/
def hierKernel : Basis → ℕ → ℕ → Buf K → Option (Buf K)
  | .hat => hierHat
  | .hatPeriodic => hierHat
  | .fullWeighting => hierFull false
  | .fullWeightingPeriodic => hierFull true
  | .biorthogonal => hierFull false
  | .biorthogonalPeriodic => hierBio true

/-- The dehierarchization kernel selected for a dimension with boundary points, l.1232-1259. -/
def dehierKernel : Basis → ℕ → ℕ → Buf K → Option (Buf K)
  | .hat => dehierHat
  | .hatPeriodic => dehierHat
  | .fullWeighting => dehierFull false
  | .fullWeightingPeriodic => dehierFull true
  | .biorthogonal => dehierFull false
  | .biorthogonalPeriodic => dehierBio true

/-- `hierarchize` for one pole in one dimension, l.1137-1184: boundary flag `b`, this process holds
`loc` from global index `gstart` on and received `remote`. Nothing happens if the minimum level is
not below the level; other bases than the hat basis throw (`none`) without boundary points; there,
`lmin` is ignored (an `assert` requires it to be 0). -/
def hierPole (basis : Basis) (b lmax lmin gstart : ℕ) (remote : List (ℕ × K)) (junk : ℕ → K)
    (loc : Buf K) : Option (Buf K) :=
  let g := poleLength lmax b
  if lmin ≥ lmax then some loc
  else if b > 0 then
    withBoundaryPole (b == 1) (hierKernel basis lmax lmin) g gstart remote junk loc
  else if basis ≠ .hat then none
  else noBoundaryPole (hierNoBoundary lmax g gstart loc.len) g gstart remote junk loc

/-- `dehierarchize` for one pole in one dimension, l.1219-1267. -/
def dehierPole (basis : Basis) (b lmax lmin gstart : ℕ) (remote : List (ℕ × K)) (junk : ℕ → K)
    (loc : Buf K) : Option (Buf K) :=
  let g := poleLength lmax b
  if lmin ≥ lmax then some loc
  else if b > 0 then
    withBoundaryPole (b == 1) (dehierKernel basis lmax lmin) g gstart remote junk loc
  else if basis ≠ .hat then none
  else noBoundaryPole (dehierNoBoundary lmax g) g gstart remote junk loc

end Verif

import Verif.Model.Kernels
import Verif.Model.Storage

/-!
# Hierarchization of full grids that are not distributed

`/repo/src/hierarchization/Hierarchization.hpp` l.18-428. In contrast to the kernels of
`DistributedHierarchization.hpp` these kernels work in place on the array of the grid, with a start
and a stride.

An array access outside of the array of the grid is undefined behaviour and modelled as `none`.
Floating point numbers are replaced by elements of a field. The pole loops are parallelised with
OpenMP in the code and run sequentially here. `IndexType` is an unbounded number, and so is
the `int` result of `1 << k`, which overflows for levels above 30.
-/

namespace Verif.Serial

variable {K : Type} [Field K]

/-- The inner loop of the four kernels, for example l.257-265 (the variable `ctr` is not used in the
body): `n` remaining iterations; `parL` and `offset` are also used after the loop. `po` is
`parentOffset` and `f val1 parL parR` is `val3`. -/
def inner (f : K → K → K → K) (start stride po stepsize : ℕ) :
    ℕ → (Buf K × K × ℕ) → Option (Buf K × K × ℕ)
  | 0, s => some s
  | n + 1, (d, parL, offset) => do
    let val1 ← d.get? (start + offset * stride)
    let r ← d.get? (start + offset * stride + po * stride)
    let parR := 2⁻¹ * r
    let d ← d.set? (start + offset * stride) (f val1 parL parR)
    inner f start stride po stepsize n (d, parR, offset + stepsize)

/-- The loop over the levels in `hierarchize1DUnoptimizedNoBoundary`, l.251-272. The first argument
is the number of remaining levels, `ll = k + 1`. -/
def hierNBLevels (start stride level : ℕ) :
    ℕ → Buf K → (steps offset stepsize po : ℕ) → Option (Buf K)
  | 0, d, _, _, _, _ => some d
  | k + 1, d, steps, offset, stepsize, po => do
    let ll := k + 1
    let r ← d.get? (start + offset * stride + po * stride)
    let v ← d.get? (start + offset * stride)
    let d ← d.set? (start + offset * stride) (v - 2⁻¹ * r)
    let offset := offset + stepsize
    let p ← d.getInt? ((start + offset * stride : ℕ) - (po * stride : ℕ))
    let (d, parL, offset) ← inner (fun v l r => v - l - r) start stride po stepsize (steps - 2)
      (d, 2⁻¹ * p, offset)
    let v ← d.get? (start + offset * stride)
    let d ← d.set? (start + offset * stride) (v - parL)
    hierNBLevels start stride level k d (steps >>> 1) ((1 <<< (level - ll)) - 1) (stepsize <<< 1)
      stepsize

/-- `hierarchize1DUnoptimizedNoBoundary`, l.231-275. The first shift is undefined for level 0. -/
def hierNB (level start stride : ℕ) (d : Buf K) : Option (Buf K) :=
  if level = 0 then none else
  hierNBLevels start stride level (level - 1) d (1 <<< (level - 1)) 0 2 1

/-- The loop over the levels in `hierarchize1DUnoptimizedBoundary`, l.297-316. The first argument is
the number of remaining levels, `ll = k`. -/
def hierBLevels (start stride level : ℕ) :
    ℕ → Buf K → (steps offset stepsize po : ℕ) → Option (Buf K)
  | 0, d, _, _, _, _ => some d
  | k + 1, d, steps, offset, stepsize, po => do
    let ll := k
    let p ← d.getInt? ((start + offset * stride : ℕ) - (po * stride : ℕ))
    let (d, _, _) ← inner (fun v l r => v - l - r) start stride po stepsize steps
      (d, 2⁻¹ * p, offset)
    hierBLevels start stride level k d (steps >>> 1) (1 <<< (level - ll)) (stepsize <<< 1) stepsize

/-- `hierarchize1DUnoptimizedBoundary`, l.277-319. The first shift is undefined for level 0. -/
def hierB (level start stride : ℕ) (d : Buf K) : Option (Buf K) :=
  if level = 0 then none else
  hierBLevels start stride level level d (1 <<< (level - 1)) 1 2 1

/-- The loop over the levels in `dehierarchize1DUnoptimizedNoBoundary`, l.350-375. The first argument
is the number of remaining levels, `ll = level - k`. The offset is an optional value since the last
iteration computes it with a negative shift and does not use it. -/
def dehierNBLevels (start stride level : ℕ) :
    ℕ → Buf K → (steps : ℕ) → (offset : Option ℕ) → (stepsize po : ℕ) → Option (Buf K)
  | 0, d, _, _, _, _ => some d
  | k + 1, d, steps, offset, stepsize, po => do
    let ll : ℤ := (level : ℤ) - k
    let offset ← offset
    let r ← d.get? (start + offset * stride + po * stride)
    let parL := 2⁻¹ * r
    let v ← d.get? (start + offset * stride)
    let d ← d.set? (start + offset * stride) (v + parL)
    let offset := offset + stepsize
    let (d, parL, offset) ← inner (fun v l r => v + l + r) start stride po stepsize (steps - 2)
      (d, parL, offset)
    let v ← d.get? (start + offset * stride)
    let d ← d.set? (start + offset * stride) (v + parL)
    dehierNBLevels start stride level k d (steps <<< 1)
      ((shiftOne ((level : ℤ) - (ll + 1))).map (· - 1)) (stepsize >>> 1) (po >>> 1)

/-- `dehierarchize1DUnoptimizedNoBoundary`, l.321-378. For level 1 the loop is not executed and the
shifts by a negative number before the loop are not used; they are treated like the one at the end
of the loop. For level 0 the shift for `stepsize` is negative, too. -/
def dehierNB (level start stride : ℕ) (d : Buf K) : Option (Buf K) :=
  if level ≤ 1 then some d else
  dehierNBLevels start stride level (level - 1) d 2
    (some ((1 <<< (level - 2)) - 1)) (1 <<< (level - 1)) (1 <<< (level - 2))

/-- The loop over the levels in `dehierarchize1DUnoptimizedBoundary`, l.403-425. The first argument
is the number of remaining levels, `ll = level - k`. -/
def dehierBLevels (start stride level : ℕ) :
    ℕ → Buf K → (steps : ℕ) → (offset : Option ℕ) → (stepsize po : ℕ) → Option (Buf K)
  | 0, d, _, _, _, _ => some d
  | k + 1, d, steps, offset, stepsize, po => do
    let ll : ℤ := (level : ℤ) - k
    let offset ← offset
    let p ← d.getInt? ((start + offset * stride : ℕ) - (po * stride : ℕ))
    let (d, _, _) ← inner (fun v l r => v + l + r) start stride po stepsize steps
      (d, 2⁻¹ * p, offset)
    dehierBLevels start stride level k d (steps <<< 1) (shiftOne ((level : ℤ) - (ll + 1)))
      (stepsize >>> 1) (po >>> 1)

/-- `dehierarchize1DUnoptimizedBoundary`, l.380-428. For level 0 the loop is not executed. -/
def dehierB (level start stride : ℕ) (d : Buf K) : Option (Buf K) :=
  if level = 0 then some d else
  dehierBLevels start stride level level d 1 (some (1 <<< (level - 1))) (1 <<< level)
    (1 <<< (level - 1))

/-- Number of points that `hierarchize` and `dehierarchize` assume for a dimension with a level and a
boundary flag, l.61-67. (`std::pow` is exact for powers of two in the range of `IndexType`.) -/
def points (s : ℕ × ℕ) : ℕ := if s.2 = 0 then 2 ^ s.1 - 1 else 2 ^ s.1 + 1

/-- The loop over the poles of one dimension, l.97-127; `T start stride` transforms a pole. For the
first dimension, l.75-95, the stride is 1 and `kk * ndim` is the same start. The first division is
undefined for `ndim = 0`. -/
def poleLoop (T : ℕ → ℕ → Buf K → Option (Buf K)) (stride ndim : ℕ) (d : Buf K) :
    Option (Buf K) :=
  if ndim = 0 then none else
  let jump := stride * ndim
  let nbrOfPoles := d.len / ndim
  (List.range nbrOfPoles).foldlM (fun d nn => T (nn / stride * jump + nn % stride) stride d) d

/-- The loop over the dimensions; `kernel` selects the transform of a pole from level and boundary
flag. -/
def dimLoop (kernel : ℕ × ℕ → ℕ → ℕ → Buf K → Option (Buf K)) :
    List (ℕ × ℕ) → (stride : ℕ) → Buf K → Option (Buf K)
  | [], _, d => some d
  | s :: g, stride, d => do
    let d ← poleLoop (kernel s) stride (points s) d
    dimLoop kernel g (stride * points s) d

/-- A `FullGrid` with its data: level and boundary flag of every dimension, the flag
`isHierarchized_`, and the array. `getNrElements()` is the length of the array. -/
structure Grid (K : Type) where
  dims : List (ℕ × ℕ)
  hierarchized : Bool
  data : Buf K

/-- `Hierarchization::hierarchize`, l.53-135. A failing assertion is `none`, and so is `n[0]` for a
grid without dimensions. -/
def hierarchize (g : Grid K) : Option (Grid K) := do
  guard (g.hierarchized = false ∧ g.dims ≠ [])
  let d ← dimLoop (fun s start stride => if s.2 = 0 then hierNB s.1 start stride
    else hierB s.1 start stride) g.dims 1 g.data
  return { g with hierarchized := true, data := d }

/-- `Hierarchization::dehierarchize`, l.138-220. -/
def dehierarchize (g : Grid K) : Option (Grid K) := do
  guard (g.hierarchized = true ∧ g.dims ≠ [])
  let d ← dimLoop (fun s start stride => if s.2 = 0 then dehierNB s.1 start stride
    else dehierB s.1 start stride) g.dims 1 g.data
  return { g with hierarchized := false, data := d }

end Verif.Serial

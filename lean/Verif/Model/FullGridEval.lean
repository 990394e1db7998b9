import Verif.Model.GridCtor
import Mathlib.Algebra.Order.Floor.Defs
import Mathlib.Algebra.Module.Defs

/-!
# Evaluation and addition of full grids that are not distributed

`/repo/src/fullgrid/FullGrid.hpp` l.411-513 (`eval`), l.518-529 (`getCoords`), l.533-566 (`getLI`), l.725-756
(`add`). `gridEval` (l.693-709) is declared `const` but calls `eval`, which is not, so that it cannot be
instantiated; it is left out.

Coordinates are elements of an ordered field `K` (the rounding of `double` is not modelled), values are
elements of a vector space `V` over it (real or complex numbers). `stuck` is a failing assertion or
undefined behaviour. A dimension is a pair of level and boundary flag.
-/

namespace Verif.FullGridEval

variable {K : Type} [Field K] [LinearOrder K] [FloorRing K] {V : Type} [AddCommMonoid V] [Module K V]

/-- What the first loop of `eval` computes for a dimension: number of points, boundary flag, coordinate,
`aindex`, and `intersect[2 * ii + 1]` (`intersect[2 * ii]` is one minus this). -/
structure Cell (K : Type) where
  n : ℤ
  b : ℕ
  x : K
  a : ℤ
  t : K

/-- Body of the loop over the dimensions in `eval`, l.425-470; `none`: the coordinate is outside of the
unit interval and `eval` returns zero, l.431. -/
def evalDim (s : ℕ × ℕ) (x : K) : Outcome (Option (Cell K)) :=
  if x < 0 ∨ 1 < x then .ok none else
  match powerOfTwo? s.1 with
  | none => .stuck
  | some p =>
    let n : ℤ := (p : ℤ) + s.2 - 1
    let normcoord := x * p
    let a : ℤ := ⌊normcoord⌋
    if 0 < s.2 then
      let a := if a < 0 then 0 else a
      let a := if n - 1 ≤ a then n - 2 else a
      .ok (some ⟨n, s.2, x, a, normcoord - a⟩)
    else
      let a := if a < 0 then 0 else a
      let a := if n ≤ a then n else a
      let r : ℤ × K :=
        if a ≤ 0 then (1, x * p - 1)
        else if n - 1 ≤ a then (n - 1, x * p - ((n - 1 : ℤ) : K))
        else (a, normcoord - a)
      let a := r.1 - 1
      let a := if a < 0 then 0 else a
      .ok (some ⟨n, s.2, x, a, r.2⟩)

/-- The loop over the dimensions, l.425-470, from the last to the first; the result is in this order.
Fewer coordinates than dimensions: undefined. -/
def evalDims : List ((ℕ × ℕ) × K) → Outcome (Option (List (Cell K)))
  | [] => .ok (some [])
  | (s, x) :: rest => (evalDim s x).bind fun c =>
      match c with
      | none => .ok none
      | some c => (evalDims rest).bind fun r => .ok (r.map fun cs => c :: cs)

/-- The loop over the dimensions for one corner, l.483-505, from the last to the first dimension: index of
the corner and coefficient. -/
def corner : List (Cell K) → (tmp : ℕ) → (baseVal : K) → (i : ℤ) → Outcome (ℤ × K)
  | [], _, baseVal, i => .ok (i, baseVal)
  | c :: cs, tmp, baseVal, i =>
    let vv : ℕ := if 1 < c.n then tmp % 2 else 0
    if c.n = 1 then
      if c.b = 0 ∧ c.a = 0 ∧ c.x ≤ 1 ∧ 0 ≤ c.x then
        corner cs (tmp / 2) (if 1 / 2 < c.x then baseVal * 1 - c.x else baseVal * c.x) (i * c.n + c.a + vv)
      else .stuck
    else
      corner cs (tmp / 2) (baseVal * (if vv = 0 then 1 - c.t else c.t)) (i * c.n + c.a + vv)

/-- `fullgridVector_[i]` -/
def readAt (data : List V) (i : ℤ) : Outcome V :=
  if i < 0 then .stuck
  else match data[i.toNat]? with
    | none => .stuck
    | some v => .ok v

/-- The loop over the corners, l.474-509: the first one sets the value, the others add to it. -/
def cornerLoop (cs : List (Cell K)) (data : List V) : List ℕ → V → Outcome V
  | [], ret => .ok ret
  | ii :: iis, ret => (corner cs ii 1 0).bind fun r => (readAt data r.1).bind fun v =>
      cornerLoop cs data iis (if ii = 0 then r.2 • v else ret + r.2 • v)

/-- A full grid: dimensions, the flags `isFGcreated_` and `isHierarchized_`, and the element vector. -/
structure Grid (V : Type) where
  dims : List (ℕ × ℕ)
  created : Bool
  hierarchized : Bool
  data : List V
  deriving DecidableEq, Repr

/-- `eval`, l.411-513. `fullgridVector_[0]` is read first. The local arrays have space for 63
dimensions. -/
def eval (g : Grid V) (coords : List K) : Outcome V :=
  if g.hierarchized = true then .stuck else
  if coords.length < g.dims.length ∨ 63 < g.dims.length then .stuck else
  (readAt g.data 0).bind fun v0 =>
    (evalDims (g.dims.zip coords).reverse).bind fun r =>
      match r with
      | none => .ok 0
      | some cs =>
        match powerOfTwo? g.dims.length with
        | none => .stuck
        | some nr => cornerLoop cs g.data (List.range nr) v0

/-- `getCoords`, l.518-529; a remainder by zero is undefined. -/
def getCoords : List (ℕ × ℕ) → (elemIndex : ℕ) → Outcome (List K)
  | [], _ => .ok []
  | s :: rest, e => match powerOfTwo? s.1, oneOverPowOfTwo? s.1 with
    | some p, some h =>
      let n := p + s.2 - 1
      if n = 0 then .stuck else
      let ind := e % n
      let add := if 0 < s.2 then 0 else 1
      (getCoords rest (e / n)).bind fun r => .ok (((ind + add : ℕ) : K) * (h : K) :: r)
    | _, _ => .stuck

/-- The `while` loop of `getLI`, l.556-559: halve the index until it is odd. `fuel` bounds the number of
rounds; the loop does not end for index 0, which the code excludes before. The level is not bounded below
in the code. -/
def halve : (fuel : ℕ) → (level : ℤ) → (index : ℕ) → Outcome (ℤ × ℕ)
  | 0, _, _ => .stuck
  | fuel + 1, level, index =>
    if index % 2 = 0 then halve fuel (level - 1) (index / 2) else .ok (level, index)

/-- `getLI`, l.533-566, levels and indices of all dimensions. -/
def getLI : List (ℕ × ℕ) → (elementIndex : ℕ) → Outcome (List (ℤ × ℕ))
  | [], _ => .ok []
  | s :: rest, e => match powerOfTwo? s.1 with
    | none => .stuck
    | some p =>
      let n := p + s.2 - 1
      if n = 0 then .stuck else
      let startindex := if 0 < s.2 then 0 else 1
      let index := e % n + startindex
      (if index ≠ 0 then halve index s.1 index else .ok (0, index)).bind fun r =>
        (getLI rest (e / n)).bind fun rs => .ok (r :: rs)

/-- `getNrElements()`: the product computed by the constructors, l.243-247. -/
def nrElements : List (ℕ × ℕ) → Outcome ℕ
  | [] => .ok 1
  | s :: rest => match powerOfTwo? s.1 with
    | none => .stuck
    | some p => (nrElements rest).bind fun r => .ok ((p + s.2 - 1) * r)

/-- The loop that adds the interpolated values, l.750-754, over the elements of `dst` with their
numbers. -/
def addLoop (dims : List (ℕ × ℕ)) (fg : Grid V) (coeff : K) : List (ℕ × V) → Outcome (List V)
  | [] => .ok []
  | (i, v) :: rest => (getCoords (K := K) dims i).bind fun c => (eval fg c).bind fun w =>
      (addLoop dims fg coeff rest).bind fun r => .ok ((v + coeff • w) :: r)

/-- `add`, l.725-756. The loop for different grids runs over `getNrElements()` elements. -/
def add (g fg : Grid V) (coeff : K) : Outcome (Grid V) :=
  if g.hierarchized = true ∨ fg.created = false ∨ g.dims.length ≠ fg.dims.length then .stuck else
  (nrElements g.dims).bind fun n =>
    let dst := if g.created then g.data else List.replicate n 0
    if g.dims = fg.dims then
      if fg.data.length < dst.length then .stuck
      else .ok { g with created := true, data := List.zipWith (fun v w => v + coeff • w) dst fg.data }
    else if dst.length < n then .stuck
    else (addLoop g.dims fg coeff (List.zip (List.range n) dst)).bind fun r =>
      .ok { g with created := true, data := r ++ dst.drop n }

end Verif.FullGridEval

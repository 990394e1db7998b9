import Verif.Model.FileIO
import Mathlib.Algebra.Ring.Defs
import Mathlib.Logic.Function.Basic

/-!
# The exchange of data with GENE

`/repo/examples/gene_distributed/src/GeneTask.cpp`: `writeLocalCheckpoint` (l.175-204), `setDFG` (l.540-659),
`adaptBoundaryZ` (l.664-686), `adaptBoundaryZKernel` (l.694-782), `getOffsetAndFactor` (l.791-828),
`adaptBoundaryZglobal` (l.831-941) and `getDFG` (l.948-978). `normalizeDFG` (l.984) does nothing: both of its
parts are behind constants that are `false`.

The six dimensions are species, w, v, z, y, x, in the order of the arrays of the code. A task has one grid per
species, so a point has five coordinates and the arrays of the species are a list. An array is a function of the
point; its local shape is kept in `Proc`. The numbers are those of a commutative ring. A failed `assert` and an access outside an array
have the outcome `stuck`. Output on the console is not modelled.
-/

namespace Verif.GeneTask

/-- Five numbers, for w, v, z, y, x: a point, a shape or the coordinates of a process. -/
@[ext]
structure Vec where
  w : ℕ
  v : ℕ
  z : ℕ
  y : ℕ
  x : ℕ
  deriving DecidableEq, Repr

/-- An array with five indices. -/
abbrev Arr (K : Type) := Vec → K

/-- The points of an array of shape `s` in the order of the nested loops (x is the innermost). -/
def points (s : Vec) : List Vec :=
  (List.range s.w).flatMap fun m => (List.range s.v).flatMap fun l => (List.range s.z).flatMap fun k =>
    (List.range s.y).flatMap fun j => (List.range s.x).map fun i => ⟨m, l, k, j, i⟩

/-- The members of the task that the exchange uses. `modes` is `int(round(shat_ * kymin_ * lx_))`, l.794;
`levelY`, `boundaryY`: `l_[1]`, `boundary_[1]`; `phase l x` is `exp(2 pi i q_prof_[x] l n0_global_)`, l.812-817,
`none` if `x` is not below `size_q_` and `size_Cy_`. -/
structure Config (K : Type) where
  isGlobal : Bool
  isLinear : Bool
  xBoundaries : Bool
  modes : ℤ
  levelY : ℕ
  boundaryY : Bool
  phase : ℕ → ℕ → Option K

/-- What a process knows: the process grid `p`, its coordinates, the local shapes of the grid and of the
checkpoint, the lower bounds of the grid, the global sizes of the grid, and the number of species of the task
(`nspecies_`), of the checkpoint (`lcpShape[0]`) and of a grid (`dfgShape[0]`). -/
structure Proc where
  p : Vec
  coords : Vec
  dfg : Vec
  lcp : Vec
  lower : Vec
  sizes : Vec
  nspecies : ℕ
  lcpSpec : ℕ
  dfgSpec : ℕ

/-! ### The flag for the boundaries in x -/

/-- `writeLocalCheckpoint`, l.175-204, without the copy of the data. `sizes`: species, w, v, z, y, x; `levels`: x,
y, z, v, w, species. The outcome is the value of `geneXBoundariesIncluded_`, which was `flag`. The flag is set in
no other place; no constructor sets it. -/
def writeLocalCheckpoint (isLinear : Bool) (nspecies : ℕ) (levels : List ℕ) (flag : Bool) (sizes : List ℕ) :
    Outcome Bool :=
  let good := (List.range sizes.length).all fun i =>
    if i = 0 then sizes[0]? == some nspecies
    else if i = 4 ∧ isLinear = true then sizes[i]? == some 1
    else sizes[i]? == (levels[sizes.length - 1 - i]?).map (2 ^ ·)
  if good = false then .stuck
  else
    match sizes[4]? with
    | none => .stuck
    | some n => .ok (if n % 1 = 1 then true else flag)

/-! ### From GENE -/

/-- The checks of the shapes, l.571-586. -/
def shapesAgree {K : Type} (c : Config K) (pr : Proc) : Bool :=
  let up (k p n : ℕ) (border : Bool) (d : ℕ) : Bool :=
    if k + 1 = p ∧ border = true then d == n + 1 else d == n
  (pr.lcpSpec == pr.nspecies && pr.dfgSpec == 1)
    && up pr.coords.w pr.p.w pr.lcp.w true pr.dfg.w
    && up pr.coords.v pr.p.v pr.lcp.v true pr.dfg.v
    && up pr.coords.z pr.p.z pr.lcp.z true pr.dfg.z
    && up pr.coords.y pr.p.y pr.lcp.y (!c.isLinear) pr.dfg.y
    && up pr.coords.x pr.p.x pr.lcp.x true pr.dfg.x

variable {K : Type}

/-- The loops l.590-601 and l.966-976: the values of `src` at the points of the shape `s` are copied to `dst`. -/
def copyPoints (s : Vec) (src dst : Arr K) : Arr K :=
  (points s).foldl (fun a q => Function.update a q (src q)) dst

/-- The check l.600-625 that the values with `x` index `i` are zero, with its access to the array. -/
def zeroAt [Zero K] [DecidableEq K] (s : Vec) (i : ℕ) (a : Arr K) : Bool :=
  decide (i < s.x) && (points { s with x := 1 }).all fun q => decide (a { q with x := i } = 0)

/-- The part of `setDFG` for one species before the boundary in z, l.552-625. -/
def importOne [Zero K] [DecidableEq K] (c : Config K) (pr : Proc) (lcp dfg : Arr K) : Outcome (Arr K) :=
  if shapesAgree c pr = false then .stuck
  else
    let a := copyPoints pr.lcp lcp dfg
    if pr.coords.x + 1 = pr.p.x ∧ zeroAt pr.dfg (pr.dfg.x - 1) a = false then .stuck
    else if pr.coords.x = 0 ∧ zeroAt pr.dfg 0 a = false then .stuck
    else .ok a

/-- `getOffsetAndFactor`, l.791-828. `N` is 1 when the power is taken. -/
def getOffsetAndFactor [CommRing K] (c : Config K) (l x : ℕ) : Outcome (ℕ × K) :=
  if c.isGlobal = false then
    if c.modes = 1 then
      if c.levelY = 1 ∧ c.boundaryY = false then .ok (l * c.modes.toNat, (-1) ^ (c.modes.toNat * l)) else .stuck
    else .stuck
  else
    match c.phase l x with
    | some f => .ok (0, f)
    | none => .stuck

/-- The body of the loops of `adaptBoundaryZKernel`, l.752-777, at the point `q` (with z index 0). `source`: the
array `sourceData`, `none` if it is the same array as `targetData`. -/
def kernelStep [CommRing K] (c : Config K) (pr : Proc) (nkx nkxGlobal : ℕ) (source : Option (Arr K))
    (target : Arr K) (q : Vec) : Outcome (Arr K) :=
  if c.isGlobal = false ∧ q.x = nkxGlobal / 2 then .ok target
  else
    (getOffsetAndFactor c (q.y + 1) (if c.isGlobal then pr.lower.x + q.x else 0)).bind fun of =>
      let kxStar := (q.x + of.1) % nkxGlobal
      if kxStar < nkx then
        .ok (Function.update target { q with z := pr.dfg.z - 1 }
          ((source.getD target) { q with z := 0, x := kxStar } * of.2))
      else .stuck

/-- A loop over points. -/
def loop (step : Arr K → Vec → Outcome (Arr K)) : List Vec → Arr K → Outcome (Arr K)
  | [], a => .ok a
  | q :: qs, a => (step a q).bind (loop step qs)

/-- `adaptBoundaryZKernel`, l.694-782. -/
def kernel [CommRing K] (c : Config K) (pr : Proc) (source : Option (Arr K)) (target : Arr K) :
    Outcome (Arr K) :=
  (getOffsetAndFactor c 1 0).bind fun _ =>
    let nkx := if pr.coords.x + 1 = pr.p.x then pr.dfg.x - 1 else pr.dfg.x
    let nky := if pr.coords.y + 1 = pr.p.y ∧ c.isLinear = false then pr.dfg.y - 1 else pr.dfg.y
    let nkxGlobal := if c.xBoundaries then pr.sizes.x else pr.sizes.x - 1
    if nkxGlobal < nkx then .stuck
    else if nkx % 2 ≠ 0 then .stuck
    else loop (kernelStep c pr nkx nkxGlobal source) (points ⟨pr.dfg.w, pr.dfg.v, 1, nky, nkx⟩) target

/-- A step for every element of a list, in order. -/
def forEach {α β : Type} (f : α → Outcome β) : List α → Outcome (List β)
  | [] => .ok []
  | a :: as => (f a).bind fun b => (forEach f as).bind fun bs => .ok (b :: bs)

/-- `setDFG`, l.540-659, with `adaptBoundaryZ` and `adaptBoundaryZglobal`, on one process: the arrays of the
grids afterwards. `lcps`, `dfgs`: the arrays of the checkpoint and of the grids, one per species. `received`: what
the last process in z receives, one per species: the messages of the species have the same tag and are sent and
received in the order of the species. -/
def setDFG [CommRing K] [DecidableEq K] (c : Config K) (pr : Proc) (received : List (Arr K))
    (lcps dfgs : List (Arr K)) : Outcome (List (Arr K)) :=
  if pr.p.z > 1 then
    (forEach (fun s => importOne c pr s.1 s.2) (lcps.zip dfgs)).bind fun as =>
      if c.isLinear = true ∧ (pr.p.x ≠ 1 ∨ pr.sizes.y ≠ 1) then .stuck
      else if pr.coords.z ≠ 0 ∧ pr.coords.z + 1 = pr.p.z then
        forEach (fun s => kernel c pr (some s.1) s.2) (received.zip as)
      else .ok as
  else forEach (fun s => (importOne c pr s.1 s.2).bind fun a => kernel c pr none a) (lcps.zip dfgs)

/-- `setDFG` on the processes of a process grid: the outcome on the process with coordinates `k`. The last process in
z receives the values with z index 0 of the first one, l.893-937; only these are read. The shapes of the two in
the other dimensions are the same. -/
def setDFGs [CommRing K] [DecidableEq K] (c : Config K) (procs : Vec → Proc) (lcps dfgs : Vec → List (Arr K))
    (k : Vec) : Outcome (List (Arr K)) :=
  let first : Vec := { k with z := 0 }
  (if (procs k).p.z > 1 ∧ k.z ≠ 0 ∧ k.z + 1 = (procs k).p.z then
      forEach (fun s => importOne c (procs first) s.1 s.2) ((lcps first).zip (dfgs first))
    else .ok []).bind fun received => setDFG c (procs k) received (lcps k) (dfgs k)

/-! ### To GENE -/

/-- `getDFG`, l.948-978: the arrays of the checkpoint afterwards. -/
def getDFG (pr : Proc) (dfgs lcps : List (Arr K)) : List (Arr K) :=
  List.zipWith (fun d l => copyPoints pr.lcp d l) dfgs lcps

/-! ### The pieces of the processes -/

/-- How a dimension is divided among processes: process `k` of `parts` has the points of the checkpoint from
`start k` to `start (k + 1) - 1`. -/
structure Part where
  parts : ℕ
  start : ℕ → ℕ

/-- The number of points of the checkpoint that process `k` has. -/
def Part.size (P : Part) (k : ℕ) : ℕ := P.start (k + 1) - P.start k

/-- The number of points of the grid that process `k` has: the last process has the upper boundary point too. -/
def Part.gridSize (P : Part) (border : Bool) (k : ℕ) : ℕ :=
  P.size k + if k + 1 = P.parts ∧ border = true then 1 else 0

/-- The division of the five dimensions. -/
structure Parts where
  w : Part
  v : Part
  z : Part
  y : Part
  x : Part

/-- The process with coordinates `k` when the grids are decomposed as GENE decomposes its arrays (`initDFG`,
l.497-536, is given the decomposition of GENE). `n`: the sizes of the arrays of GENE. -/
def procOf (isLinear : Bool) (P : Parts) (n : Vec) (ns : ℕ) (k : Vec) : Proc where
  p := ⟨P.w.parts, P.v.parts, P.z.parts, P.y.parts, P.x.parts⟩
  coords := k
  dfg := ⟨P.w.gridSize true k.w, P.v.gridSize true k.v, P.z.gridSize true k.z, P.y.gridSize (!isLinear) k.y,
    P.x.gridSize true k.x⟩
  lcp := ⟨P.w.size k.w, P.v.size k.v, P.z.size k.z, P.y.size k.y, P.x.size k.x⟩
  lower := ⟨P.w.start k.w, P.v.start k.v, P.z.start k.z, P.y.start k.y, P.x.start k.x⟩
  sizes := ⟨n.w + 1, n.v + 1, n.z + 1, if isLinear then n.y else n.y + 1, n.x + 1⟩
  nspecies := ns
  lcpSpec := ns
  dfgSpec := 1

/-- The point with local indices `q` on a process with lower bounds `lo`. -/
def shift (lo q : Vec) : Vec := ⟨lo.w + q.w, lo.v + q.v, lo.z + q.z, lo.y + q.y, lo.x + q.x⟩

/-- The piece of a global array on a process with lower bounds `lo`. -/
def piece (lo : Vec) (A : Arr K) : Arr K := fun q => A (shift lo q)

end Verif.GeneTask

import Verif.Model.GroupGrid
import Mathlib.Algebra.Field.Basic
import Mathlib.Algebra.BigOperators.Group.List.Basic
import Mathlib.Algebra.Order.Field.Basic

/-!
# The advection solver of the examples

`/repo/examples/distributed_third_level/TaskAdvection.hpp` (loops for threads, split to avoid `%`) and
`/repo/examples/distributed_advection/TaskAdvection.hpp` (serial loops): the equation `u_t + Σ u_{x_d} = 0`
on the periodic unit cube, with first order upwind differences and explicit Euler steps.

The processes of a group are their cartesian coordinates as in `Model/GroupGrid.lean`. Failed assertions,
reads and writes outside of a vector, divisions by zero and erroneous MPI calls are `none`.

Simplifications: exact arithmetic in a field `K`; the iterations of a parallel loop run in their order (every
iteration writes another element and reads none that another iteration writes); the message of the ghost layer
is received at once and not at `MPI_Wait` (the buffer is not used in between); the initial condition `f` is any
function of the coordinates.
-/

namespace Verif.Advection

open GroupGrid

variable {K : Type}

/-! ### One time step -/

/-- `u_dot_dphi[li] += t`. -/
def addTerm [Add K] (phi : List K) (li : ℕ) (t : K) : Option (List K) := do
  let p ← phi[li]?
  some (phi.set li (p + t))

/-- `ElementVector[i]`, with the two assertions on the index in front (third level l.129-132, l.150-153; serial l.124-127). -/
def readAt (u : List K) (i : ℤ) : Option K :=
  if 0 ≤ i ∧ i < u.length then u[i.toNat]? else none

/-- The assertion of the update loops (third level l.120-128, l.141-149; serial l.114-122): the element below `li` in dimension
`d`, if there is one, is `off` elements in front. -/
def neighborCheck (sizes : List ℕ) (d off li : ℕ) : Bool :=
  let x := getVectorIndex sizes li
  if 0 < x.getD d 0 then
    decide ((sequentialIndex sizes (x.modify d (· - 1)) : ℤ) = (li : ℤ) - off)
  else true

/-- One iteration of the update loops (third level l.118-135, l.139-156; serial l.113-130) with velocity 1.
`nb` is `neighborLinearIndex`. -/
def updateElement [Ring K] (sizes : List ℕ) (u : List K) (oneOverH : K) (d off : ℕ) (nb : ℕ → ℤ)
    (phi : List K) (li : ℕ) : Option (List K) :=
  if neighborCheck sizes d off li then do
    let neighbor ← readAt u (nb li)
    let x ← u[li]?
    addTerm phi li (1 * ((x - neighbor) * oneOverH))
  else none

/-- One iteration of the loops over the lowest layer (third level l.171-189, l.195-215; serial l.141-165).
The argument has the element of the layer, `wrongNeighborLinearIndex` and the index in the ghost layer. -/
def correctElement [Ring K] (sizes : List ℕ) (u ghost : List K) (oneOverH : K) (d : ℕ) (phi : List K)
    (i : ℕ × ℤ × ℕ) : Option (List K) :=
  if i.1 < tensorSize sizes ∧ (getVectorIndex sizes i.1).getD d 0 = 0 then do
    let wrong ← readAt u i.2.1
    let g ← ghost[i.2.2]?
    addTerm phi i.1 (1 * ((wrong - g) * oneOverH))
  else none

/-- The two examples. -/
inductive Variant where
  /-- `distributed_third_level` -/
  | threads
  /-- `distributed_advection` -/
  | serial
deriving DecidableEq

/-- The update loops over all local elements: two loops (third level l.114-157), or one loop with `%`
(serial l.112-130; `%` by zero is not reached for an empty range). -/
def updateAll [Ring K] (v : Variant) (sizes : List ℕ) (u : List K) (oneOverH : K) (d off : ℕ) (phi : List K) :
    Option (List K) :=
  let n := tensorSize sizes
  match v with
  | .threads => do
    let phi ← (List.range off).foldlM
      (updateElement sizes u oneOverH d off fun li => (li : ℤ) - off + n) phi
    (List.range' off (n - off)).foldlM (updateElement sizes u oneOverH d off fun li => (li : ℤ) - off) phi
  | .serial =>
    (List.range n).foldlM (updateElement sizes u oneOverH d off fun li => ((li : ℤ) - off + n).tmod n) phi

/-- The pairs of the two nested loops over `nHigher` and `nLower`. -/
def pairs (from_ count stride : ℕ) : List (ℕ × ℕ) :=
  (List.range' from_ count).flatMap fun nHigher => (List.range stride).map fun nLower => (nHigher, nLower)

/-- The elements of the lowest layer, the wrong neighbours and the indices in the ghost layer: two loops
(third level l.166-216) or one loop in which `ghostIndex` counts the iterations (serial l.137-166:
`++nLower && ++ghostIndex && ++dfgLowestLayerIteratedIndex`, none of which is zero after it is
incremented). -/
def layer (v : Variant) (n off jump higher : ℕ) : List (ℕ × ℤ × ℕ) :=
  match v with
  | .threads =>
    ((List.range off).map fun nLower : ℕ => ((nLower, (nLower : ℤ) - off + n, nLower) : ℕ × ℤ × ℕ)) ++
      (pairs 1 (higher - 1) off).map fun p =>
        (p.1 * jump + p.2, ((p.1 * jump + p.2 : ℕ) : ℤ) - off, p.2 + p.1 * off)
  | .serial =>
    (pairs 0 higher off).zipIdx.map fun p =>
      (p.1.1 * jump + p.1.2, (((p.1.1 * jump + p.1.2 : ℕ) : ℤ) - off + n).tmod n, p.2)

/-- The part of a time step for dimension `d` (third level l.108-217, serial l.107-167) on process `c`.
`oneOverH` is for all dimensions. -/
def gradientIn [Ring K] (v : Variant) (g : List Dim1) (oneOverH : List K) (data : List ℕ → List K)
    (c : List ℕ) (phi : List K) (d : ℕ) : Option (List K) := do
  let r ← exchangeGhostLayerUpward g true 1 data d c
  let ghost := r.2
  let sizes := localSizes g c
  let u := data c
  let n := tensorSize sizes
  let off ← (tensorOffsets sizes)[d]?
  let h ← oneOverH[d]?
  let phi ← updateAll v sizes u h d off phi
  let sd ← sizes[d]?
  -- the assertion in third level l.160, serial l.133; dividing by zero is undefined
  if sd = 0 ∨ n / sd ≠ ghost.length then none
  else
    let jump := off * sd
    if jump = 0 then none
    else (layer v n off jump (n / jump)).foldlM (correctElement sizes u ghost h d) phi

/-- One iteration of the loop at the end of a time step (third level l.221-223, serial l.168-170). -/
def eulerElement [Ring K] (u : List K) (dt : K) (phi : List K) (li : ℕ) : Option (List K) := do
  let x ← u[li]?
  let p ← phi[li]?
  some (phi.set li (x - p * dt))

/-- One time step on process `c` (third level l.102-225, serial l.101-172), with `memset` of `phi_` in the
beginning and `swapDataVector` (`DistributedFullGrid.hpp` l.1992-1996) in the end. -/
def timeStep [Ring K] (v : Variant) (g : List Dim1) (oneOverH : List K) (dt : K) (data : List ℕ → List K)
    (c : List ℕ) : Option (List K) := do
  let n := tensorSize (localSizes g c)
  let phi ← (List.range g.length).foldlM (gradientIn v g oneOverH data c) (List.replicate n 0)
  let phi ← (List.range n).foldlM (eulerElement (data c) dt) phi
  if phi.length = (data c).length then some phi else none

/-- `nsteps` time steps of the processes `cs` of the group: the data afterwards. -/
def timeSteps [Ring K] (v : Variant) (g : List Dim1) (cs : List (List ℕ)) (oneOverH : List K) (dt : K) :
    ℕ → (List ℕ → List K) → Option (List ℕ → List K)
  | 0, data => some data
  | nsteps + 1, data =>
    if cs.all fun c => (timeStep v g oneOverH dt data c).isSome then
      timeSteps v g cs oneOverH dt nsteps fun c => (timeStep v g oneOverH dt data c).getD []
    else none

/-- `getInverseGridSpacing`, `DistributedFullGrid.hpp` l.844-865. -/
def inverseGridSpacing [Ring K] (levels : List ℕ) : List K := levels.map fun l => (2 : K) ^ l

/-! ### The initial condition -/

/-- `getCoordsGlobal`, `DistributedFullGrid.hpp` l.671-686; the first argument has for every dimension the
number of points, the boundary flag and the grid spacing. -/
def coordsGlobal [Field K] : List (ℕ × ℕ × K) → (globalLinearIndex : ℕ) → List K
  | [], _ => []
  | (n, b, h) :: dims, i => ((i % n + (if 0 < b then 0 else 1) : ℕ) : K) * h :: coordsGlobal dims (i / n)

/-- `getCoordsLocal`, l.688-699, for one boundary point in every dimension (asserted in the constructor of the
task). -/
def coordsLocal [Field K] (g : List Dim1) (levels : List ℕ) (c : List ℕ) (li : ℕ) : List K :=
  coordsGlobal (List.zipWith (fun (d : Dim1) l => (d.numPoints, 1, 1 / (2 : K) ^ l)) g levels)
    (getGlobalLinearIndex g c li)

/-- The data that `init` writes (third level l.74-80, serial l.74-79). -/
def initialData [Field K] (g : List Dim1) (levels : List ℕ) (f : List K → K) (c : List ℕ) : List K :=
  (List.range (tensorSize (localSizes g c))).map fun li => f (coordsLocal g levels c li)

/-- The check in `init` (third level l.65-72, serial l.65-72). -/
def cflCondition [Field K] [LT K] [DecidableLT K] (levels : List ℕ) (dt : K) : Bool :=
  decide (dt * (levels.map fun l => 1 / (1 / (2 : K) ^ l)).foldl (· + ·) 0 < 1)

/-! ### The tasks of a process group -/

/-- A task on the processes of a group. -/
structure AdvTask (K : Type) where
  levels : List ℕ
  grid : List Dim1
  dt : K
  nsteps : ℕ
  stepsTotal : ℕ := 0
  data : List ℕ → List K := fun _ => []

/-- The tasks of a group, and whether the static pointer `phi_` points to a vector. All processes of the group
do the same. -/
structure Worker (K : Type) where
  phi : Bool := false
  tasks : List (AdvTask K) := []

/-- What is done with the tasks of a group. -/
inductive Action (K : Type) where
  /-- `initializeTask`, `/repo/src/manager/TaskWorker.hpp` l.110-115 -/
  | add (t : AdvTask K)
  /-- `run` of the task at this position -/
  | run (i : ℕ)
  /-- `removeTask`, `TaskWorker.hpp` l.120-124 -/
  | remove (i : ℕ)

/-- `init` (third level l.50-83) of a task that was received: `stepsTotal_` is 0, as it is not serialized
(l.291-300). -/
def initTask [Field K] [LT K] [DecidableLT K] (f : List K → K) (W : Worker K) (t : AdvTask K) :
    Outcome (Worker K) :=
  if cflCondition t.levels t.dt then
    .ok ⟨true, W.tasks ++ [{ t with stepsTotal := 0, data := initialData t.grid t.levels f }]⟩
  else .error

/-- `run` (third level l.90-229): `phi_->resize` with a null pointer is undefined. `cs` are the processes of
the group. -/
def runTask [Field K] (v : Variant) (cs : List (List ℕ)) (W : Worker K) (i : ℕ) : Outcome (Worker K) :=
  match W.tasks[i]? with
  | none => .stuck
  | some t =>
    if W.phi then
      match timeSteps v t.grid cs (inverseGridSpacing t.levels) t.dt t.nsteps t.data with
      | none => .stuck
      | some data => .ok { W with
          tasks := W.tasks.set i { t with data := data, stepsTotal := t.stepsTotal + t.nsteps } }
    else .stuck

/-- The destructor of a task (third level l.245-250): the vector is deleted and the pointer is null. -/
def removeTask (W : Worker K) (i : ℕ) : Outcome (Worker K) :=
  if i < W.tasks.length then .ok ⟨false, W.tasks.eraseIdx i⟩ else .stuck

/-- One action. -/
def act [Field K] [LT K] [DecidableLT K] (v : Variant) (f : List K → K) (cs : List (List ℕ)) (W : Worker K) :
    Action K → Outcome (Worker K)
  | .add t => initTask f W t
  | .run i => runTask v cs W i
  | .remove i => removeTask W i

/-- Several actions. -/
def acts [Field K] [LT K] [DecidableLT K] (v : Variant) (f : List K → K) (cs : List (List ℕ)) :
    Worker K → List (Action K) → Outcome (Worker K)
  | W, [] => .ok W
  | W, a :: as => (act v f cs W a).bind fun W => acts v f cs W as

/-- `getCurrentTime` (third level l.252). -/
def currentTime [Field K] (t : AdvTask K) : K := t.stepsTotal * t.dt

end Verif.Advection

import Verif.Model.Advection
import Verif.Model.DistributedHistory

/-!
# The whole advection example

`/repo/examples/distributed_advection/advection_example.cpp` l.170-243: the tasks of all groups are initialised
and run (`runfirst`, `/repo/src/manager/ProcessGroupWorker.cpp` l.149-159), and then combined and run in turn. It puts
together the solver (`Verif.Model.Advection`), and the combination of grids on process groups
(`Verif.Model.DistributedHistory`).

Simplifications: every step is finished on all processes before the next one begins (C40); the tasks of a group
stay there; all tasks of a group are initialised before the first one runs (the tasks do not share values, C109);
the plots and norms in between change nothing. `none` stands for exceptions, failed assertions and undefined
behaviour of any process.
-/

namespace Verif.Advection

variable {K : Type}

/-- What the solver uses of the grid of a task. -/
def solverGrid (dims : List CompDim) : List Dim1 :=
  dims.map fun d => ⟨d.dec, poleLength d.level d.boundary⟩

/-- The data of a process as the vector of the solver. -/
def vectorOf (b : Buf K) : List K := (List.range b.len).map b.val

/-- The vector of the solver as the data of a process. -/
def dataFrom [Zero K] (l : List K) : Buf K := ⟨l.length, fun q => l.getD q 0⟩

/-- Creating a task on all processes of a group: the assertion of the constructor
(`TaskAdvection.hpp` l.46-48) and `init`, third level l.50-83, for a coefficient and a grid. -/
def createTask [Field K] [LT K] [DecidableLT K] (f : List K → K) (dt : K) (t : K × List CompDim) :
    Option (GroupTask K) :=
  let levels := t.2.map (·.level)
  if (t.2.all fun d => d.boundary == 1) && cflCondition levels dt then
    some ⟨t.1, t.2, fun c => dataFrom (initialData (solverGrid t.2) levels f c)⟩
  else none

/-- `run` of a task on all processes of a group. -/
def runTaskData [Ring K] (v : Variant) (layout : List ℕ) (dt : K) (nsteps : ℕ) (t : GroupTask K) :
    Option (List ℕ → Buf K) :=
  (timeSteps v (solverGrid t.dims) (groupProcesses layout) (inverseGridSpacing (t.dims.map (·.level))) dt
    nsteps fun c => vectorOf (t.data c)).map fun data c => dataFrom (data c)

/-- `runAllTasks`, `/repo/src/manager/TaskWorker.hpp` l.129-141, on all groups. -/
def runAll [Ring K] (v : Variant) (layout : List ℕ) (dt : K) (nsteps n : ℕ) (tasks : ℕ → List (GroupTask K)) :
    Option (ℕ → List (GroupTask K)) :=
  onProcessGroups n fun g => mapGroupTasks (fun _ t => runTaskData v layout dt nsteps t) 0 (tasks g)

/-- What does not change during the example. -/
structure Example (K : Type) where
  v : Variant
  layout : List ℕ
  P : CombineParams
  variant : CombinationVariant
  maxChunk : ℕ
  levels : List (List ℕ)
  n : ℕ
  f : List K → K
  dt : K
  nsteps : ℕ

/-- The loop `for (size_t i = 1; i < ncombi; ++i)`, l.209-239, with `rounds` iterations, and the last combination in
l.242. `junk i` are the contents of the scratch buffers in a combination. -/
def combineAndRun [Field K] (E : Example K) (junk : ℕ → Scratch K) : (rounds : ℕ) → Simulation K → Option (Simulation K)
  | 0, s => s.combine E.layout E.P E.variant E.maxChunk E.n (junk 0).hier (junk 0).dehier
  | rounds + 1, s =>
    (s.combine E.layout E.P E.variant E.maxChunk E.n (junk (rounds + 1)).hier (junk (rounds + 1)).dehier).bind fun s =>
      (runAll E.v E.layout E.dt E.nsteps E.n s.tasks).bind fun tasks =>
        combineAndRun E junk rounds { s with tasks := tasks }

/-- The example: `runfirst` for all tasks (coefficient and grid), l.201, the sparse grids are set up, and `rounds + 1`
combinations (`ncombi` is `rounds + 1`; also for `ncombi = 0` there is one combination). -/
def runExample [Field K] [LT K] [DecidableLT K] (E : Example K) (junk : ℕ → Scratch K) (rounds : ℕ)
    (grids : ℕ → List (K × List CompDim)) : Option (Simulation K) :=
  (onProcessGroups E.n fun g => (grids g).mapM (createTask E.f E.dt)).bind fun tasks =>
    (runAll E.v E.layout E.dt E.nsteps E.n tasks).bind fun tasks =>
      (setUpPositions E.layout E.variant E.levels E.n tasks).bind fun s => combineAndRun E junk rounds s

/-- The time that is printed with the norms after combination `i` of the loop, l.228-231. -/
def printedTime [Ring K] (E : Example K) (i : ℕ) : K := i * E.dt

/-- The time that is printed with the norms after the last combination, l.246. -/
def lastPrintedTime [Ring K] (E : Example K) (ncombi : ℕ) : K := ((ncombi * E.nsteps : ℕ) : K) * E.dt

end Verif.Advection

import Verif.Model.DistributedCombine
import Verif.Model.SystemCombine

/-!
# One complete combination of several systems on process groups of any size

`/repo/src/manager/ProcessGroupWorker.cpp` l.475-534 (`combineSystemWide`, `combineSystemWideAndWrite`,
`dehierarchizeAllTasks`), l.725-788 (`updateFullFromCombinedSparseGrids`, `combineThirdLevel`), l.841-893
(`combineThirdLevelFileBasedReadReduce`, `combineReadDistributeSystemWide`) and l.1003-1021
(`waitForThirdLevelCombiResult`), with `/repo/src/manager/TaskWorker.hpp` l.29-48, l.86-107, on all
processes of all groups of all systems. All groups of all systems have the same layout. Processes with the
same position in their groups combine with each other: within a system in one "global reduce"
communicator, and over the third-level manager or by files with the processes of the other systems
(`Verif.Model.WideCombine`, `Verif.Model.SystemCombine`). Simplifications: every task has one grid, timers
and the counter `currentCombi_` are left out, and the three steps are modelled one after the other on all
processes. The sizes of the sparse grids, which do not depend on the values of the grids, are exchanged in
the second step and not before the first combination.
-/

namespace Verif

variable {K : Type}

/-- How systems exchange their sparse grids: over the third-level manager, or by files, where `order s` are
the other systems in the order in which system `s` reads their files. -/
inductive SystemExchange where
  | manager (hasExtra firstSends : Bool)
  | files (order : ℕ → List ℕ)

/-- The combination on one position of the groups of all systems: `combineThirdLevel` for two systems, or
`combineSystemWideAndWrite` and `combineReadDistributeSystemWide`, which differ for the chunked variant. -/
def combineSystems [Ring K] (variant : CombinationVariant) (exchange : SystemExchange) (maxChunk : ℕ)
    (levels : List (List ℕ)) (k : ℕ) (sys : ℕ → WideSystem K) : Option (List (ℕ → Group K)) :=
  match exchange, variant with
  | .manager hasExtra firstSends, variant =>
    if k = 2 then linkCombine variant hasExtra firstSends maxChunk levels sys else none
  | .files order, .chunkedOutgroupSparseGridReduce => wideCombine maxChunk levels k sys order
  | .files order, variant => linkFiles variant maxChunk levels k sys order

/-- A system: number of groups, the group that exchanges with the other systems, and tasks of the
groups. -/
structure GroupSystem (K : Type) where
  n : ℕ
  o : ℕ
  tasks : ℕ → List (GroupTask K)

/-- The processes with position `c` in the groups of a system. -/
def GroupSystem.onProcess (s : GroupSystem K) (c : List ℕ) : WideSystem K :=
  ⟨s.n, s.o, fun g => (s.tasks g).map fun t => t.onProcess c⟩

/-- The data of task `i` of group `g` of system `s` after a combination. Data of a task that the combination
has lost would be empty. -/
def resultData (result : Option (List (ℕ → Group K))) (s g i : ℕ) (old : Buf K) : Buf K :=
  ((result.bind fun R => (R[s]?).bind fun S => (S g).tasks[i]?).map fun y => y.2.data).getD ⟨0, old.val⟩

/-- The combination on all positions. -/
def combineSystemPositions [Ring K] (layout : List ℕ) (variant : CombinationVariant)
    (exchange : SystemExchange) (maxChunk : ℕ) (levels : List (List ℕ)) (k : ℕ)
    (sys : ℕ → GroupSystem K) : Option (ℕ → ℕ → List (GroupTask K)) :=
  let result := fun c => combineSystems variant exchange maxChunk levels k fun s => (sys s).onProcess c
  if (groupProcesses layout).all fun c => (result c).isSome then
    some fun s g => ((sys s).tasks g).zipIdx.map fun x =>
      { x.1 with data := fun c => resultData (result c) s g x.2 (x.1.data c) }
  else none

/-- The same step on all systems. -/
def onSystems (k : ℕ) (f : ℕ → Option (ℕ → List (GroupTask K))) :
    Option (ℕ → ℕ → List (GroupTask K)) :=
  ((List.range k).mapM f).map fun r s => r.getD s fun _ => []

/-- A complete combination of `k` systems: `hierarchizeFullGrids`, the combination, and
`dehierarchizeAllTasks` at its end. -/
def systemsCombineAtOnce [Field K] (layout : List ℕ) (P : CombineParams) (variant : CombinationVariant)
    (exchange : SystemExchange) (maxChunk : ℕ) (levels : List (List ℕ)) (k : ℕ)
    (junk junk' : ℕ → ℕ → ℕ → List ℕ → ℕ → ℕ → ℕ → K) (sys : ℕ → GroupSystem K) :
    Option (ℕ → ℕ → List (GroupTask K)) :=
  (onSystems k fun s =>
      onProcessGroups (sys s).n fun g => groupHierarchize P (junk s g) ((sys s).tasks g)).bind fun hs =>
    (combineSystemPositions layout variant exchange maxChunk levels k
        fun s => ⟨(sys s).n, (sys s).o, hs s⟩).bind fun ts =>
      onSystems k fun s =>
        onProcessGroups (sys s).n fun g => groupDehierarchize P (junk' s g) (ts s g)

end Verif

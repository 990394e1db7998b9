import Verif.Model.DistributedHistory
import Verif.Model.SystemAtOnce
import Verif.Model.ThirdLevel

/-!
# A whole simulation of two systems with a third-level manager

`/repo/src/manager/ProcessManager.hpp` l.505-529 (`combineThirdLevel`) and l.652-697
(`unifySubspaceSizesThirdLevel`), `/repo/src/manager/ProcessGroupManager.cpp` l.215-494, and
`/repo/src/manager/ProcessGroupWorker.cpp` l.160-167, l.475-491, l.725-788, l.908-936, l.1013-1034.

A system is one of the concurrent programs of `Verif.Model.ThirdLevel`; the processes of its groups, which work
between the messages, are modelled as in `Verif.Model.SystemAtOnce`, with the sparse grids and communicators
that were set up once. The process manager talks with all processes of one group, the third-level group, one
after the other, in the order of their ranks. Simplifications: every task has one grid, the processes of a
system finish a step before the manager of the system goes on, and tasks are not moved. A failure on a process
stops the whole system (`SysProg.fail`).
-/

namespace Verif

variable {K R : Type}

/-- The rank of the process at a position of its group. -/
def rankOf (layout c : List ℕ) : ℕ := sequentialIndex layout c

/-- What does not change in a simulation: the layout of the groups, parameters, whether there is an extra
sparse grid, the subspaces of the sparse grid, the number of groups, the third-level group, and the bytes of a
value. -/
structure LinkSetting where
  layout : List ℕ
  P : CombineParams
  variant : CombinationVariant
  hasExtra : Bool
  maxChunk : ℕ
  levels : List (List ℕ)
  n : ℕ
  o : ℕ
  bytes : ℕ

/-- The tasks of the groups, what was set up at the positions (in the order of the ranks), and
`dsguDataSizePerWorker_`. The tasks in the states are not used: a state gets the tasks of the groups before
every combination. -/
structure LinkSim (K : Type) where
  tasks : ℕ → List (GroupTask K)
  states : List (LinkState K)
  perWorker : List ℕ

/-- The state of position `c` with what the processes there have of the tasks. -/
def loadLink (c : List ℕ) (tasks : ℕ → List (GroupTask K)) (st : LinkState K) : LinkState K :=
  { st with groups := fun g => ⟨(st.groups g).dsg, (tasks g).map fun t => t.onProcess c⟩ }

/-- A step of the processes of the system. -/
def orFail {α β : Type} (x : Option β) (k : β → SysProg α R) : SysProg α R :=
  match x with
  | some b => k b
  | none => .fail

/-- What the workers receive in `distributeSubspaceSizes`, `ProcessGroupManager.cpp` l.470-494. -/
def scatterSizes : List ℕ → List ℕ → List (List ℕ)
  | [], _ => []
  | c :: cs, buff => buff.take c :: scatterSizes cs (buff.drop c)

/-- `initCombinedUniDSGVector` on all processes, and `unifySubspaceSizesThirdLevel`. -/
def linkSetup [Zero K] (q : LinkSetting) (tasks : ℕ → List (GroupTask K))
    (k : LinkSim K → SysProg K R) : SysProg K R :=
  let sys : GroupSystem K := ⟨q.n, q.o, tasks⟩
  orFail ((groupProcesses q.layout).mapM fun c => linkSizes q.variant q.levels (sys.onProcess c)) fun ws =>
  orFail (ws.mapM fun w => w.sizes[q.o]?) fun workers =>
  unifyProg q.bytes q.hasExtra workers fun r => match r with
    | .sizes reduced _ =>
      let counts := workers.map List.length
      orFail ((groupProcesses q.layout).mapM fun c => do
        let w ← ws[rankOf q.layout c]?
        let mine ← (scatterSizes counts reduced)[rankOf q.layout c]?
        linkResize q.hasExtra q.levels (sys.onProcess c) w mine) fun states =>
      k ⟨tasks, states, sizesPerWorker counts reduced⟩
    | _ => .fail

/-- `runAllTasks`, `TaskWorker.hpp` l.129-141, on all groups. -/
def LinkSim.run (solve : ℕ → ℕ → GroupTask K → List ℕ → Buf K) (s : LinkSim K) : LinkSim K :=
  { s with tasks := fun g => (s.tasks g).mapIdx fun k t => { t with data := solve g k t } }

/-- `combineSystemWide` on the processes at one position (without hierarchization), and what the process of
the third-level group sends (`combineThirdLevel`, `ProcessGroupWorker.cpp` l.736-760). -/
def linkSend [Ring K] (variant : CombinationVariant) (maxChunk n o : ℕ) (st : LinkState K) :
    Option ((ℕ → Group K) × Dsg K) := do
  let S ← linkCollect variant none maxChunk n st
  let e ← linkOutgoing (S o).dsg st.extra
  return (S, e)

/-- The rest of `combineThirdLevel`, l.761-788, and `waitForThirdLevelCombiResult` on the other groups, without
dehierarchization. -/
def linkReceive [Ring K] (variant : CombinationVariant) (n o : ℕ) (st : LinkState K)
    (sent : (ℕ → Group K) × Dsg K) (received : List K) : Option (LinkState K) := do
  let b : Buf K := ⟨received.length, fun i => received.getD i 0⟩
  let d ← linkIncoming (sent.1 o).dsg (st.extra.map fun _ => sent.2) b
  let S ← linkDistribute variant n o st.comm
    (Function.update sent.1 o { sent.1 o with dsg := d })
  return ⟨S, st.comm, st.extra.map fun _ => { sent.2 with data := b }⟩

/-- The values in a buffer. -/
def Buf.toList (b : Buf K) : List K := (List.range b.len).map b.val

/-- The data of a task on a process after a combination. -/
def receivedData [Zero K] (layout : List ℕ) (states : List (LinkState K)) (g i : ℕ) (c : List ℕ) : Buf K :=
  dataOf ((states[rankOf layout c]?).bind fun st => (st.groups g).tasks[i]?)

/-- The tasks with the data that the processes have after a combination. -/
def receivedTasks [Zero K] (layout : List ℕ) (states : List (LinkState K))
    (hs : ℕ → List (GroupTask K)) (g : ℕ) : List (GroupTask K) :=
  (hs g).zipIdx.map fun x => { x.1 with data := receivedData layout states g x.2 }

/-- A complete combination with the other system. -/
def linkCombineProg [Field K] (q : LinkSetting) (junk : Scratch K) (s : LinkSim K)
    (k : LinkSim K → SysProg K R) : SysProg K R :=
  orFail (onProcessGroups q.n fun g => groupHierarchize q.P (junk.hier g) (s.tasks g)) fun hs =>
  orFail ((groupProcesses q.layout).mapM fun c => do
    let st ← s.states[rankOf q.layout c]?
    linkSend q.variant q.maxChunk q.n q.o (loadLink c hs st)) fun sent =>
  combineThirdLevelProg q.bytes (· + ·) 1 s.perWorker
      (fun _ p => ((sent[p]?).map fun y => y.2.data.toList).getD []) fun r => match r with
    | .dsgus sums =>
      orFail ((groupProcesses q.layout).mapM fun c => do
        let st ← s.states[rankOf q.layout c]?
        let y ← sent[rankOf q.layout c]?
        let received ← sums[rankOf q.layout c]?
        linkReceive q.variant q.n q.o st y received) fun states =>
      orFail (onProcessGroups q.n fun g =>
          groupDehierarchize q.P (junk.dehier g) (receivedTasks q.layout states hs g)) fun ts =>
      k ⟨ts, states, s.perWorker⟩
    | _ => .fail

/-- What happens after the initialisation. A run may compute any new values for a task from what the processes
of the group have of it. -/
inductive LinkStep (K : Type)
  | run (solve : ℕ → ℕ → GroupTask K → List ℕ → Buf K)
  | combine

/-- Any number of steps; then the system logs off. -/
def linkSteps [Field K] (q : LinkSetting) :
    List (LinkStep K × Scratch K) → LinkSim K → SysProg K (LinkSim K)
  | [], s => .send .finished (.done s)
  | (.run solve, _) :: steps, s => linkSteps q steps (s.run solve)
  | (.combine, junk) :: steps, s => linkCombineProg q junk s (linkSteps q steps)

/-- Two systems that have connected to the third-level manager, each with its own number of groups, tasks and
steps. -/
def linkStartState [Field K] (q : Bool → LinkSetting) (bytes : ℕ) (tasks : Bool → ℕ → List (GroupTask K))
    (steps : Bool → List (LinkStep K × Scratch K)) : TLState K (LinkSim K) where
  sys := fun s => linkSetup { q s with bytes := bytes } (tasks s)
    (linkSteps { q s with bytes := bytes } (steps s))
  mgr := .loop [false, true]
  up := fun _ => []
  down := fun _ => []

end Verif

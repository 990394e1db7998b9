import Verif.Model.Combine

/-!
# Collective reductions that are called by several threads

`distributedGlobalSubspaceReduce` (`/repo/src/combicom/CombiCom.hpp` l.334-397) with `MPI_Allreduce`: on every process
the iterations of the loop over the communicators are handed out to the threads (`schedule(dynamic)`), and each
iteration calls a blocking `MPI_Allreduce` for every datatype. One process of each group is modelled, as in
`Model/Combine`; a process is identified with its group.

Simplifications: `MPI_Allreduce` returns on all members of the communicator at once (what a thread does after it has
returned can be delayed by the schedule, so nothing is lost); datatypes are computed when they are used, since no
thread changes sizes or pointers.
-/

namespace Verif.ThreadReduce

/-- A process in the loop: the iterations (numbers of communicators in the list of all groups) that have not been
handed out, in the order in which the runtime hands them out; and for each thread the iteration it is in, if there is one,
with the number of datatypes it has reduced. -/
structure Proc where
  pool : List ℕ
  threads : List (Option (ℕ × ℕ))

/-- A thread in the iteration `c` returns from `MPI_Allreduce`. -/
def Proc.next (c : ℕ) (p : Proc) : Proc :=
  { p with threads := p.threads.map fun t => t.map fun s => if s.1 = c then (s.1, s.2 + 1) else s }

structure State (K : Type) where
  procs : ℕ → Proc
  data : ℕ → Group K

/-- Steps of the threads; `comms` are the communicators of all groups with their subspaces. -/
inductive Step {K : Type} [AddCommMonoid K] (maxChunk : ℕ) (comms : List (List ℕ × List ℕ)) :
    State K → State K → Prop where
  /-- A thread without an iteration gets the next one, l.343-344. -/
  | take (x : State K) (g t c : ℕ) (pool : List ℕ) : (x.procs g).pool = c :: pool →
      (x.procs g).threads[t]? = some none →
      Step maxChunk comms x { x with
        procs := Function.update x.procs g ⟨pool, (x.procs g).threads.set t (some (c, 0))⟩ }
  /-- A thread has reduced all datatypes of its communicator and is ready for another iteration. -/
  | finish (x : State K) (g t c k : ℕ) (e : List ℕ × List ℕ) (dts : List (List ℕ)) :
      (x.procs g).threads[t]? = some (some (c, k)) → comms[c]? = some e →
      getReductionDatatypes (x.data g).dsg maxChunk e.2 = some dts → dts.length ≤ k →
      Step maxChunk comms x { x with
        procs := Function.update x.procs g ⟨(x.procs g).pool, (x.procs g).threads.set t none⟩ }
  /-- All members of a communicator have called `MPI_Allreduce` for their `k`-th datatype, l.371-376. -/
  | reduce (x : State K) (g c k : ℕ) (e : List ℕ × List ℕ) (dts : List (List (List ℕ))) (data : ℕ → Group K) :
      comms[c]? = some e → g ∈ e.1 → (∀ m ∈ e.1, some (c, k) ∈ (x.procs m).threads) →
      e.1.mapM (fun m => getReductionDatatypes (x.data m).dsg maxChunk e.2) = some dts →
      (∀ d ∈ dts, k < d.length) →
      allreduceIndexed e.1 (dts.map fun d => d.getD k []) x.data = some data →
      Step maxChunk comms x ⟨fun m => if m ∈ e.1 then (x.procs m).next c else x.procs m, data⟩

/-- The iterations of process `g`, ascending: its communicators in the order of `subspacesByComm_` (see C22). -/
def ownComms (comms : List (List ℕ × List ℕ)) (g : ℕ) : List ℕ :=
  (List.range comms.length).filter fun c => decide (g ∈ (comms.getD c ([], [])).1)

/-- The beginning of the loop with `teams g` threads on process `g`, which hands out the iterations in the order
`order g`. -/
def start {K : Type} (teams : ℕ → ℕ) (order : ℕ → List ℕ) (S : ℕ → Group K) : State K :=
  ⟨fun g => ⟨order g, List.replicate (teams g) none⟩, S⟩

/-- All threads are at the end of the loop. -/
def State.Done {K : Type} (x : State K) : Prop :=
  ∀ g, (x.procs g).pool = [] ∧ ∀ t ∈ (x.procs g).threads, t = none

end Verif.ThreadReduce

import Verif.Model.FileIO
import Mathlib.Data.List.Sort

/-!
# Recovering the communicators after faults

`MPISystem::recoverCommunicators` and `waitForReuse` (`/repo/src/mpi/MPISystem.cpp` l.486-878) on all
processes together, and `ProcessManager::recoverCommunicators`
(`/repo/src/manager/ProcessManager.cpp` l.300-338).

Processes are numbers that never change; a communicator is the list of its processes in the order of their
ranks. Messages of several senders to the manager (`MPI_ANY_SOURCE`) arrive in any order, given by `arrive`
for each of the four places where such messages are received. `none`: a process waits forever, or an index
is out of range, or an assertion fails.

Simplifications: the signals to waiting processes are taken to arrive before the collective call they
announce. Every member of a group with a dead process notices (`groupAlive` is false), all others do not.
Nobody dies during the recovery. Freeing of communicators is left out; so are the local, global and reduce
communicators, which are built from the new world communicator as at the start (C39).
-/

namespace Verif.Recovery

/-- What the processes know: `spareCommFT_`, `worldComm_`, `worldRank_` of every process, and the manager's
`reusableRanks_` (ranks in `spareCommFT_`). The manager is the last process in both communicators. -/
structure State where
  spare : List ℕ
  world : List ℕ
  rank : ℕ → ℕ
  reusable : List ℕ

/-- `MPI_Comm_shrink`: the processes that are alive, in the same order. -/
def shrink (dead comm : List ℕ) : List ℕ := comm.filter (· ∉ dead)

/-- `MPI_Comm_split` for the processes with the color 1 (all others have `MPI_UNDEFINED`): ordered by key and
then by rank (the sort is stable). -/
def split (comm : List ℕ) (color : ℕ → Bool) (key : ℕ → ℕ) : List ℕ :=
  (comm.filter color).insertionSort fun p q => key p ≤ key q

/-- A loop that receives `n` messages from any source (`getFailedRanks` l.483-493, `getReusableRanks`
l.495-505, `getReusableRanksSpare` l.507-517). `sent` are the messages in the order of arrival. With fewer
messages the manager waits forever; one that is left over would be taken for one of the next recovery, which
is not modelled further. -/
def recvAny (n : ℕ) (sent : List ℕ) : Option (List ℕ) := if sent.length = n then some sent else none

/-- The processes with the given ranks. -/
def procsAt (comm : List ℕ) (ranks : List ℕ) : Option (List ℕ) := ranks.mapM fun r => comm[r]?

/-- The processes that wait in `waitForReuse`. -/
def waiting (st : State) : List ℕ := st.spare.filter (· ∉ st.world)

/-- The living processes of groups with a dead process. -/
def lost (np : ℕ) (st : State) (dead : List ℕ) : List ℕ :=
  st.world.filter fun p => p ∉ dead ∧ ∃ q ∈ dead, st.rank q / np = st.rank p / np

/-- `worldRank_` of all processes after the processes `ps` have set theirs to the rank in the spare
communicator (`waitForReuse` l.686 and `recoverCommunicators` l.813-820). -/
def spareRanks (spare ps : List ℕ) (rank : ℕ → ℕ) (p : ℕ) : ℕ := if p ∈ ps then spare.idxOf p else rank p

/-- `worldRank_` of all processes after the `reused` processes have received the failed ranks
(`sendRankIds` l.519-549, `waitForReuse` l.629-647). -/
def reusedRanks (reused failedRanks : List ℕ) (rank : ℕ → ℕ) (p : ℕ) : ℕ :=
  ((reused.zip failedRanks).lookup p).getD (rank p)

/-- The part of `recoverCommunicators` after the first split, l.844-852, with the new ranks. -/
def finish (np : ℕ) (spare world : List ℕ) (rank : ℕ → ℕ) (reusable : List ℕ) : Option State :=
  if (world.length - 1) % np = 0 then
    some { spare, world, rank := fun p => if p ∈ world then world.idxOf p else rank p, reusable }
  else none

/-- `recoverCommunicators`, l.717-878, with `numFailedGroups = nf`: whether the recovery failed, and the state
afterwards. -/
def recover (np : ℕ) (arrive : ℕ → List ℕ → List ℕ) (st : State) (dead : List ℕ) (nf : ℕ) :
    Option (Bool × State) := do
  -- sendShrinkSignal, l.734; all waiting processes must take part in the shrink of the spare communicator
  let signalled ← procsAt st.spare st.reusable
  if ∃ p ∈ waiting st, p ∉ signalled then none
  else do
    let spare := shrink dead st.spare
    let sizeNew := (shrink dead st.world).length
    let rank1 := spareRanks spare (signalled.filter (· ∉ dead)) st.rank
    let numFailedRanks := st.world.length - sizeNew
    -- sendFailedSignal l.602-606, sendReusableSignal l.591-595, sendReusableSignalSpare l.597-600
    let failedRanks ← recvAny numFailedRanks (arrive 0 ((st.world.filter (· ∈ dead)).map st.rank))
    if nf * np < numFailedRanks then none
    else do
      let newReusable ← recvAny (nf * np - numFailedRanks) (arrive 1 ((lost np st dead).map rank1))
      let reusable ← recvAny st.reusable.length
        (arrive 2 ((signalled.filter (· ∉ dead)).map rank1))
      if numFailedRanks ≤ spare.length - sizeNew then do
        -- sendRankIds l.519-549, waitForReuse l.629-647
        if reusable.length < failedRanks.length then none
        else do
          let reused ← procsAt spare (reusable.take failedRanks.length)
          let rest := reusable.drop failedRanks.length
          let rank2 := reusedRanks reused failedRanks rank1
          -- sendExcludeSignal l.563-575
          let excluded ← procsAt spare rest
          -- the split is collective: everyone else is alive in the old world or reused
          if ∃ p ∈ spare, p ∉ excluded ∧ p ∉ reused ∧ p ∉ st.world then none
          else do
            let world := split spare (fun p => p ∉ excluded) rank2
            return (false, ← finish np spare world rank2 rest)
      else do
        let lostProcs ← procsAt st.world newReusable
        let excluded ← procsAt spare reusable
        -- l.813-820 on the lost processes
        let rank2 := spareRanks spare lostProcs rank1
        let newSpare ← recvAny newReusable.length (arrive 3 (lostProcs.map rank2))
        if ∃ p ∈ spare, p ∉ excluded ∧ p ∉ lostProcs ∧ p ∉ st.world then none
        else do
          let world := split spare (fun p => p ∉ excluded ∧ p ∉ lostProcs) rank2
          return (true, ← finish np spare world rank2 (reusable ++ newSpare))

/-- `ProcessManager::recoverCommunicators`, l.317-338, on `pgroups_`: each group is given by what the manager
knows about it, whether its status is FAIL, and its master rank. -/
def updateGroups {G : Type} (failedRecovery : Bool) (pgroups : List (G × Bool × ℕ)) :
    List (G × Bool × ℕ) :=
  if failedRecovery then
    ((pgroups.filter fun g => !g.2.1).zipIdx).map fun g => (g.1.1, g.1.2.1, g.2)
  else pgroups.map fun g => (g.1, false, g.2.2)

end Verif.Recovery

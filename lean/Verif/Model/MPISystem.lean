import Verif.Model.FileIO
import Mathlib.Data.List.Sort

/-!
# Communicators

`/repo/src/mpi/MPISystem.cpp` l.65-474 and `/repo/src/mpi/MPISystem.hpp` l.609-622. A communicator is
the list of the world ranks of its members, in the order of their ranks in the communicator; `none` is
`MPI_COMM_NULL`. Ranks are unbounded here (`int` in the code). `ng` is `ngroup_`, `np` is `nprocs_`.
-/

namespace Verif

/-- `MPI_Comm_split` of the communicator of the ranks `0, …, size - 1`, as seen by the process `r`: the
processes with the same color, ordered by key and then by rank. A color `none` is `MPI_UNDEFINED`. -/
def commSplit (size : ℕ) (color : ℕ → Option ℕ) (key : ℕ → ℤ) (r : ℕ) : Option (List ℕ) :=
  if (color r).isNone then none
  else some (((List.range size).filter fun s => color s == color r).insertionSort fun s t =>
    key s < key t ∨ key s = key t ∧ s ≤ t)

/-- `MPI_Group_incl` and `MPI_Comm_create`: the members are the given ranks in the given order, the
other processes get `MPI_COMM_NULL`. -/
def commCreate (ranks : List ℕ) (r : ℕ) : Option (List ℕ) :=
  if r ∈ ranks then some ranks else none

/-- Rank of the world rank `r` in a communicator. -/
def commRank (comm : List ℕ) (r : ℕ) : ℕ := comm.idxOf r

/-- Number of processes, `initSystemConstants` l.74-95 (for any other number the function throws). -/
def worldSize (ng np : ℕ) (withWorldManager : Bool) : ℕ :=
  ng * np + if withWorldManager then 1 else 0

/-- `managerRankWorld_`, `initSystemConstants` l.83 and l.94 (`MPI_PROC_NULL` is `none`). -/
def managerRankWorld (ng np : ℕ) (withWorldManager : Bool) : Option ℕ :=
  if withWorldManager then some (worldSize ng np withWorldManager - 1) else none

/-- `initLocalComm` and `storeLocalComm`, l.251-291, on the process `r`. -/
def initLocalComm (ng np : ℕ) (withWorldManager : Bool) (r : ℕ) : Option (List ℕ) :=
  let comm := commSplit (worldSize ng np withWorldManager) (fun s => some (s / np))
    (fun s => (s : ℤ) - (s / np : ℕ) * np) r
  if some r = managerRankWorld ng np withWorldManager then none else comm

/-- `initGlobalReduceCommm`, l.403-421, on the process `r`. -/
def initGlobalReduceComm (ng np : ℕ) (withWorldManager : Bool) (r : ℕ) : Option (List ℕ) :=
  commSplit (worldSize ng np withWorldManager)
    (fun s => if some s = managerRankWorld ng np withWorldManager then none else some (s % np))
    (fun s => if some s = managerRankWorld ng np withWorldManager then -1 else (s / np : ℕ)) r

/-- `initGlobalComm`, l.303-361, on the process `r`. -/
def initGlobalComm (ng np : ℕ) (withWorldManager : Bool) (r : ℕ) : Option (List ℕ) :=
  commCreate ((List.range ng).map (fun i => i * np) ++
    (managerRankWorld ng np withWorldManager).toList) r

/-- `initThirdLevelComms`, l.374-401, on the process `r` (only called with a manager). -/
def initThirdLevelComms (ng np : ℕ) (r : ℕ) : List (List ℕ) :=
  (List.range ng).filterMap fun g =>
    commCreate ((List.range np).map (fun p => g * np + p) ++
      (managerRankWorld ng np true).toList) r

/-! ### Output group -/

/-- The inner loop of `getDiagonalRanks`, l.429-434: the second result tells that the function
returned. -/
def diagonalInner (ng np diagonal : ℕ) : List ℕ → List ℕ → List ℕ × Bool
  | [], ranks => (ranks, false)
  | p :: ps, ranks =>
    let ranks' := ranks ++ [(np + 1) * p + diagonal * ng]
    if ranks'.length = np then (ranks', true) else diagonalInner ng np diagonal ps ranks'

/-- The outer loop of `getDiagonalRanks`, l.428-435. -/
def diagonalOuter (ng np : ℕ) : List ℕ → List ℕ → List ℕ
  | [], ranks => ranks
  | d :: ds, ranks =>
    let res := diagonalInner ng np d (List.range ng) ranks
    if res.2 then res.1 else diagonalOuter ng np ds res.1

/-- `getDiagonalRanks`, l.424-437. (There is at least one group when this is called, so that there is
no division by zero.) -/
def getDiagonalRanks (np ng : ℕ) : List ℕ :=
  diagonalOuter ng np (List.range (np / ng + 1)) []

/-- `outputGroupComm_` after `initOutputGroupComm`, l.439-474, on the process `r`. -/
def initOutputGroupComm (ng np : ℕ) (r : ℕ) : Option (List ℕ) :=
  commCreate (getDiagonalRanks np ng) r

/-- `outputComm_` after `initOutputGroupComm` with `parts` file parts on the process with rank `r` in
the output group, as ranks in the output group: l.462-468. A division by zero is `stuck`. -/
def initOutputComm (np parts : ℕ) (r : ℕ) : Outcome (Option (List ℕ)) :=
  if parts = 1 then .ok (some (List.range np))
  else if np / parts = 0 then .stuck
  else .ok (commSplit np (fun s => some (s / (np / parts))) (fun s => ((s % (np / parts) : ℕ) : ℤ)) r)

/-- `getFilePartNumber`, `MPISystem.hpp` l.609-622 (also `writeSomeFiles`,
`DistributedSparseGridIO.hpp` l.156-158) for a process with rank `r` in the output group. -/
def getFilePartNumber (outputComm : List ℕ) (r : ℕ) : ℕ := r / outputComm.length

end Verif

import Verif.Model.FileIO

/-!
# The layer that simulates faults

`/repo/src/mpi_fault_simulator/MPI-FT.cpp`: the tree of the processes (l.1390-1432), the synchronisation
before every collective call (`Sim_FT_Check_dead_processes` l.37-185, `Sim_FT_Custom_Reduce` l.1201-1289,
`Sim_FT_Custom_Ireduce` l.1293-1388, `Sim_FT_Custom_Dead_bcast` l.1155-1181), the list of non-blocking
collectives (l.1478-1512), and `MPI_Comm_agree` (`MPI-FT_ULFM.cpp` l.55-78).

A dead process stays in `Sim_FT_kill_me` and takes part in the synchronisation. No process dies while it
takes part in one (processes die at the beginning of MPI calls). Simplifications: one communicator, all
processes use the same tag; the answer to messages with the wrong tag after the communicator was revoked is
modelled only as far as the content of the message goes (`revokedAnswer`). `dead_set`, a copy of `dead_nodes`
as a set for point-to-point messages, is left out. Numbers are unbounded.
-/

namespace Verif.FaultLayer

/-! ### The tree -/

/-- `ConvertId`, l.1420-1428. -/
def convertId (id size : ℤ) : ℤ :=
  if size ≤ id then id - size else if id < 0 then size + id else id

/-- `Bcast_Get_Successors`, l.1390-1407, with `k` for `Successor_Count`. -/
def successors (k : ℕ) (root node size : ℤ) : List ℤ :=
  (List.range k).filterMap fun i : ℕ =>
    let normalized := convertId (node - root) size * k + i + 1
    if normalized < size then some (convertId (normalized + root) size) else none

/-- `Bcast_Get_Predecessor`, l.1409-1418; division and remainder round towards zero. -/
def predecessor (k : ℕ) (root node size : ℤ) : ℤ :=
  let normalized := convertId (node - root) size
  (normalized - 1 - (normalized - 1).tmod k).tdiv k + root

/-- Whether the process `r` gets the message of a broadcast, `Sim_FT_Custom_Ibcast_Root` l.1096-1115 and
`Sim_FT_Custom_Ibcast_NRoot` l.1117-1153: the root sends to its successors; a process receives only from its
predecessor and forwards to its successors. `fuel` bounds the length of the way. -/
def reached (k : ℕ) (root size : ℤ) : (fuel : ℕ) → ℤ → Bool
  | 0, r => r = root
  | fuel + 1, r => r = root ||
    (decide (r ∈ successors k root (predecessor k root r size) size) &&
      reached k root size fuel (predecessor k root r size))

/-! ### The reduction -/

/-- The vector of the reduction: dead processes, largest number of non-blocking collectives, a process with
this number, next operation. -/
structure Vec4 where
  dead : ℤ
  nbc : ℤ
  rank : ℤ
  op : ℤ
  deriving DecidableEq, Repr

/-- `customReduceOp`, l.1183-1198: the new value of `inout`. For `MPI_Comm_agree` (l.1194-1196) only `in`
is changed, which is not used afterwards. -/
def customReduceOp (inout inn : Vec4) : Vec4 where
  dead := inout.dead + inn.dead
  nbc := if inout.nbc < inn.nbc then inn.nbc else inout.nbc
  rank := if inout.nbc < inn.nbc then inn.rank else inout.rank
  op := if inout.op = 0 then inn.op else inout.op

/-- What the processes bring into a synchronisation: whether they are dead, how many non-blocking
collectives they have started, and for the living ones the next operation. -/
structure Proc where
  isDead : Bool
  nbc : ℕ
  option : ℤ

/-- The first vector of a process, l.1219-1224 and, for dead processes, l.867-871 and l.1381-1384. -/
def initVec (p : Proc) (r : ℤ) : Vec4 := ⟨0, p.nbc, r, if p.isDead then 0 else p.option⟩

/-- The vector that the process `r` sends to its predecessor (or has, for the root), after it has received
those of its successors in the order `arrive r`. Dead processes count themselves, l.1349. `none`: a process
waits forever, because its successor sends to someone else. `fuel` bounds the depth of the tree. -/
def reduceAt (k : ℕ) (root size : ℤ) (procs : ℤ → Proc) (arrive : ℤ → List ℤ → List ℤ) :
    (fuel : ℕ) → ℤ → Option Vec4
  | 0, _ => none
  | fuel + 1, r => do
    let vs ← (arrive r (successors k root r size)).mapM fun s =>
      if predecessor k root s size = r then reduceAt k root size procs arrive fuel s else none
    let v := vs.foldl customReduceOp (initVec (procs r) r)
    return if (procs r).isDead then { v with dead := v.dead + 1 } else v

/-! ### The synchronisation -/

/-- What a process knows about a communicator: `dead_nodes`, `Ack_failed_processes`, `NBC_Vector_Send`,
`comm_revoked`. -/
structure Known where
  deadNodes : List ℤ
  ack : Bool
  nbcVec : List ℤ
  revoked : Bool

/-- The root waits for the messages of dead processes, l.71-75 and l.972-974: `messages` are all of them in the
order of arrival, `m` the number of those received before. `none`: it waits forever. -/
def receiveDead (messages : List ℤ) (m : ℕ) (count : ℤ) : Option (List ℤ) :=
  if count ≤ messages.length then some (messages.take (max m count.toNat)) else none

/-- The vector that the root sends, l.85-124 and l.1012-1022: for a living root its own `op`, for a dead one
the one of the reduction. -/
def sendVector (op : ℤ) (deadProcesses nbcVec : List ℤ) : List ℤ :=
  op :: (deadProcesses.length : ℤ) :: deadProcesses ++ if op = 3 then nbcVec else []

/-- The values returned by the synchronisation that the callers look for: `MPI_ERR_PROC_FAILED`,
`MPI_ERR_REVOKED`. -/
inductive Code where
  | success | procFailed | revoked
  deriving DecidableEq, Repr

/-- What a living root does at the end, l.92-138. (After `Shrink` it returns `true`; this value is not
used.) -/
def rootResult (deadProcesses : List ℤ) (k : Known) : Code × Known :=
  if 0 < deadProcesses.length then
    (.procFailed, if deadProcesses.length ≠ k.deadNodes.length then
      { k with deadNodes := deadProcesses, ack := false } else k)
  else (.success, k)

/-- What a living process that is not the root does with the vector, l.140-184. `stuck`: reading the second
entry of a vector with one entry, or a range behind the end. -/
def otherResult (vec : List ℤ) (k : Known) : Outcome (Code × Known) :=
  match vec with
  | [] => .error
  | [_] => .stuck
  | op :: count :: rest =>
    if rest.length < count then .stuck
    else
      let n := count.toNat
      let r : Code × Known :=
        if 0 < count then
          (.procFailed, if n ≠ k.deadNodes.length then
            { k with deadNodes := rest.take n, ack := false } else k)
        else (.success, k)
      let r : Code × Known := if op = 9 then (.revoked, { r.2 with revoked := true }) else r
      .ok (if n < rest.length then (r.1, { r.2 with nbcVec := rest.drop n }) else r)

/-- The whole synchronisation: the vector that is broadcast (which the dead processes act upon) and the result
of every living process. `messages`: the messages of the dead processes in the order of arrival, `m` of which
the root has received before. `nbcVec`: `NBC_Vector_Send` of the root. -/
def sync (k : ℕ) (root size : ℤ) (procs : ℤ → Proc) (arrive : ℤ → List ℤ → List ℤ) (messages : List ℤ)
    (m : ℕ) (nbcVec : List ℤ) (known : ℤ → Known) :
    Option (List ℤ × (ℤ → Outcome (Code × Known))) := do
  let v ← reduceAt k root size procs arrive size.toNat root
  let deadProcesses ← receiveDead messages m v.dead
  let vec := sendVector (if (procs root).isDead then v.op else (procs root).option) deadProcesses nbcVec
  return (vec, fun r =>
    if r = root then .ok (rootResult deadProcesses (known r))
    else if reached k root size size.toNat r then otherResult vec (known r)
    else .stuck)

/-- The answer to a process that has begun a synchronisation when the communicator was revoked, l.311-318:
a vector of three entries of which one is sent. -/
def revokedAnswer : List ℤ := [9]

/-! ### Non-blocking collectives -/

/-- The serialised part of `Sim_FT_Istats`. -/
structure Istats where
  type : ℤ
  count : ℤ
  datatype : ℤ
  root : ℤ
  op : ℤ
  deriving DecidableEq, Repr

/-- `NBC_to_Vector`, l.1478-1491. -/
def nbcToVector (l : List Istats) : List ℤ := l.flatMap fun s => [s.type, s.count, s.datatype, s.root, s.op]

/-- `Vector_to_NBC`, l.1493-1512; `stuck`: reading behind the end. -/
def vectorToNbc : List ℤ → Outcome (List Istats)
  | [] => .ok []
  | a :: b :: c :: d :: e :: rest => (vectorToNbc rest).bind fun r => .ok (⟨a, b, c, d, e⟩ :: r)
  | _ => .stuck

/-- `Sim_FT_Perform_nb_operations`, l.494-624: the operations that a process starts. -/
def missingOps (recent all : List Istats) : List Istats := all.drop recent.length

/-! ### `MPI_Comm_agree` -/

/-- The end of `MPI_Comm_agree`, `MPI-FT_ULFM.cpp` l.66-71: the flag from `Last_Send_Vector`, which only dead
processes set (`Sim_FT_Custom_Ireduce`, l.1352); it is empty otherwise. -/
def agreeFlag (lastSendVector : List ℤ) : Outcome Bool :=
  match lastSendVector with
  | [] => .stuck
  | x :: _ => .ok (x ≠ 4)

end Verif.FaultLayer

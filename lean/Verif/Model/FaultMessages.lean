import Mathlib.Logic.Function.Basic
import Mathlib.Data.Nat.Notation

/-!
# Messages between two processes in the fault simulator

Models the point-to-point calls of `src/mpi_fault_simulator`: before data are exchanged, both partners
tell each other on a second communicator (`c_comm_copy_p2p`) that they are alive; a process that was
killed stays in a loop in which it answers such messages with "I am dead".

Every process owns the logs of what it has sent, so that a step of a process changes nothing but its
own node; what has been taken out of a log is counted by the receiver.

Simplifications, for the whole file:
* one communicator that is never revoked; no `MPI_ANY_SOURCE`; ranks and tags are natural numbers;
* processes are killed (`Sim_FT_kill_me`, src/mpi_fault_simulator/MPI-FT.cpp l.852-1090) between two of
  their calls; the other messages which a killed process sends belong to the collective operations,
  and that processes learn of deaths by them does not occur here;
* messages between two processes with the same tag arrive in the order in which they were sent, and the
  `k`-th of them goes to the `k`-th receive that was posted for them (the MPI standard);
* statements of one call that can not block are one step.
-/

namespace Verif.FaultMessages

variable {α : Type}

/-- `TAGOFFSETALIVE` (src/mpi_fault_simulator/MPI-FT.h l.65). -/
def tagOffset : ℕ := 10000

/-- The messages on `c_comm_copy_p2p`: `I_AM_ALIVE`, `I_AM_ALIVE_NB`, `I_AM_DEAD` and `PROBE_REQUEST`
(src/mpi_fault_simulator/MPI-FT.h l.61-67). -/
inductive Note where
  | alive | aliveNb | dead | probeRequest
  deriving DecidableEq, Repr

/-- The calls of a process.  `send`, `recv`, `isend`, `irecv`, `icollective`, `wait` and `probe` are the
`Sim_FT_MPI_…` calls, `plainSend` and `plainRecv` are `MPI_Send` and `MPI_Recv` on the same communicator;
requests are stored under a number (the variable that holds the request).  `die` is
`Sim_FT_kill_me`. -/
inductive Call (α : Type) where
  | send (dest tag : ℕ) (x : List α)
  | recv (source tag : ℕ)
  | isend (dest tag : ℕ) (x : List α) (request : ℕ)
  | irecv (source tag : ℕ) (request : ℕ)
  | icollective (request : ℕ)
  | wait (request : ℕ)
  | probe (source tag : ℕ)
  | plainSend (dest tag : ℕ) (x : List α)
  | plainRecv (source tag : ℕ)
  | die
  deriving DecidableEq, Repr

/-- What a call returns: `MPI_SUCCESS`, with the message or the length if there is one, or
`MPI_ERR_PROC_FAILED`. -/
inductive Ret (α : Type) where
  | success
  | received (x : List α)
  | length (n : ℕ)
  | failed
  deriving DecidableEq, Repr

/-- Where a process is in its current call: at the beginning, waiting for a message about the partner,
before the exchange of the data, or waiting for the `k`-th message. -/
inductive Phase where
  | start | note | post | data (k : ℕ)
  deriving DecidableEq, Repr

/-- `Sim_FT_MPI_Request_struct` (src/mpi_fault_simulator/MPI-FT.h l.261-273): the sending of the `k`-th message to
`dest`, the `k`-th receive from `source`, or a collective operation.  The tag is the one of the data. -/
inductive Request where
  | sending (dest tag k : ℕ)
  | receiving (source tag k : ℕ)
  | collective
  deriving DecidableEq, Repr

/-- A process: its remaining calls, where it is in the first of them, what its calls returned, its
requests, whether it was killed, which processes it knows to be dead (`dead_set`), how many messages of `c_comm_copy_p2p` and of `c_comm_copy_probe` it has
taken, by sender and tag; and what it has sent, by receiver and tag, on `c_comm_copy_p2p`, on `c_comm` and on
`c_comm_copy_probe`; and how many receives it has posted on `c_comm`. -/
structure Node (α : Type) where
  todo : List (Call α)
  phase : Phase
  rets : List (Ret α)
  requests : ℕ → Option Request
  down : Bool
  deadSet : ℕ → Bool
  taken : ℕ → ℕ → ℕ
  takenSizes : ℕ → ℕ → ℕ
  notes : ℕ → ℕ → List Note
  data : ℕ → ℕ → List (List α)
  posted : ℕ → ℕ → ℕ
  sizes : ℕ → ℕ → List ℕ

/-- A table with a new entry for one process and tag. -/
def change {β : Type} (f : ℕ → ℕ → β) (p t : ℕ) (b : β) : ℕ → ℕ → β :=
  fun q u => if q = p ∧ u = t then b else f q u

namespace Node

/-- `MPI_Isend` of a message about the own state on `c_comm_copy_p2p`. -/
def tell (n : Node α) (p t : ℕ) (a : Note) : Node α :=
  { n with notes := change n.notes p t (n.notes p t ++ [a]) }

/-- `MPI_Recv` on `c_comm_copy_p2p`. -/
def take (n : Node α) (p t : ℕ) : Node α :=
  { n with taken := change n.taken p t (n.taken p t + 1) }

/-- Handing a message on `c_comm` to MPI. -/
def put (n : Node α) (p t : ℕ) (x : List α) : Node α :=
  { n with data := change n.data p t (n.data p t ++ [x]) }

/-- Posting a receive on `c_comm`. -/
def expect (n : Node α) (p t : ℕ) : Node α :=
  { n with posted := change n.posted p t (n.posted p t + 1) }

/-- Storing a request. -/
def store (n : Node α) (h : ℕ) (r : Request) : Node α :=
  { n with requests := Function.update n.requests h (some r) }

/-- `MPI_Send` of the length on `c_comm_copy_probe`. -/
def tellSize (n : Node α) (p t k : ℕ) : Node α :=
  { n with sizes := change n.sizes p t (n.sizes p t ++ [k]) }

/-- Going on with the current call. -/
def goto (n : Node α) (p : Phase) : Node α := { n with phase := p }

/-- Returning from the current call. -/
def finish (n : Node α) (r : Ret α) : Node α :=
  { n with todo := n.todo.tail, phase := .start, rets := n.rets ++ [r] }

/-- Returning with `MPI_ERR_PROC_FAILED` after `p` turned out to be dead. -/
def fail (n : Node α) (p : ℕ) : Node α :=
  { n with deadSet := Function.update n.deadSet p true }.finish .failed

/-- `Sim_FT_kill_me` (src/mpi_fault_simulator/MPI-FT.cpp l.852-1090): the process makes no further calls. -/
def kill (n : Node α) : Node α := { n with todo := [], phase := .start, down := true }

end Node

/-- All processes. -/
abbrev World (α : Type) := ℕ → Node α

/-- The next message on `c_comm_copy_p2p` from `p` to `i`, if it is there
(`MPI_Iprobe`). -/
def arrived (w : World α) (i p t : ℕ) : Option Note := ((w p).notes i t)[(w i).taken p t]?

/-- Whether MPI has completed the sending of the `k`-th message from `i` to `p`: messages that are small
enough are buffered (`eager`, by their length), the others need a receive. -/
def delivered (eager : ℕ → Bool) (w : World α) (i p t k : ℕ) (n : ℕ) : Bool :=
  eager n || decide (k < (w p).posted i t)

/-- One step of a process in its current call.

* `send`: src/mpi_fault_simulator/Sim_FT_send.cpp l.6-78, where `phase = note` is the loop of l.31-58;
* `recv`: src/mpi_fault_simulator/Sim_FT_recv.cpp l.6-97;
* `isend`, `irecv`: src/mpi_fault_simulator/Sim_FT_isend.cpp l.4-26, Sim_FT_irecv.cpp l.6-33;
* `icollective`: src/mpi_fault_simulator/Sim_FT_ibarrier.cpp, Sim_FT_ibcast.cpp, Sim_FT_iallreduce.cpp and so on
  create a request whose `Request_Type` keeps its value 0;
* `wait`: src/mpi_fault_simulator/Sim_FT_wait.cpp l.5-19, which calls `Sim_FT_MPI_Test`
  (src/mpi_fault_simulator/Sim_FT_test.cpp l.5-127) until it sets the flag: that is so if the partner is
  known to be dead (l.30-37); otherwise first the exchange of the data has to be complete (l.39-56), then a message of the partner is needed (l.58-98); for a request whose type is
  neither 1 nor 2 the flag is never set (l.126);
* `probe`: src/mpi_fault_simulator/Sim_FT_probe.cpp l.6-39.

`none` if the process can not go on at the moment. -/
def callStep (eager : ℕ → Bool) (i : ℕ) (w : World α) (n : Node α) :
    Call α → Phase → Option (Node α)
  | .send p t _, .start => some ((n.tell p (t + tagOffset) .alive).goto .note)
  | .send p t x, .note =>
    match arrived w i p (t + tagOffset) with
    | none => none
    | some .probeRequest => some ((n.take p (t + tagOffset)).tellSize p t x.length)
    | some .dead => some ((n.take p (t + tagOffset)).fail p)
    | some .alive => some ((n.take p (t + tagOffset)).goto .post)
    | some .aliveNb => some ((n.take p (t + tagOffset)).goto .post)
  | .send p t x, .post => some ((n.put p t x).goto (.data (n.data p t).length))
  | .send p t x, .data k =>
    if delivered eager w i p t k x.length then some (n.finish .success) else none
  | .recv p t, .start => some ((n.tell p (t + tagOffset) .alive).goto .note)
  | .recv p t, .note =>
    match arrived w i p (t + tagOffset) with
    | none => none
    | some .alive => some ((n.take p (t + tagOffset)).goto .post)
    | some .aliveNb => some ((n.take p (t + tagOffset)).goto .post)
    | some .dead => some ((n.take p (t + tagOffset)).fail p)
    | some .probeRequest => some ((n.take p (t + tagOffset)).fail p)
  | .recv p t, .post => some ((n.expect p t).goto (.data (n.posted p t)))
  | .recv p t, .data k =>
    match ((w p).data i t)[k]? with
    | none => none
    | some x => some (n.finish (.received x))
  | .isend p t x h, .start =>
    some ((((n.tell p (t + tagOffset) .aliveNb).store h (.sending p t (n.data p t).length)).put p t
      x).finish .success)
  | .irecv p t h, .start =>
    some ((((n.tell p (t + tagOffset) .aliveNb).store h (.receiving p t (n.posted p t))).expect p
      t).finish .success)
  | .icollective h, .start => some ((n.store h .collective).finish .success)
  | .wait h, .start =>
    match n.requests h with
    | some (.sending p t k) =>
      if n.deadSet p then some (n.finish .failed) else
      match (n.data p t)[k]? with
      | none => none
      | some x => if delivered eager w i p t k x.length then some (n.goto .note) else none
    | some (.receiving p t k) =>
      if n.deadSet p then some (n.finish .failed) else
      match ((w p).data i t)[k]? with
      | none => none
      | some _ => some (n.goto .note)
    | _ => none
  | .wait h, .note =>
    match n.requests h with
    | some (.sending p t _) =>
      match arrived w i p (t + tagOffset) with
      | none => none
      | some .alive => some ((n.take p (t + tagOffset)).finish .success)
      | some .aliveNb => some ((n.take p (t + tagOffset)).finish .success)
      | some .dead => some ((n.take p (t + tagOffset)).fail p)
      | some .probeRequest => some ((n.take p (t + tagOffset)).fail p)
    | some (.receiving p t k) =>
      match arrived w i p (t + tagOffset), ((w p).data i t)[k]? with
      | some .alive, some x => some ((n.take p (t + tagOffset)).finish (.received x))
      | some .aliveNb, some x => some ((n.take p (t + tagOffset)).finish (.received x))
      | some .dead, some _ => some ((n.take p (t + tagOffset)).fail p)
      | some .probeRequest, some _ => some ((n.take p (t + tagOffset)).fail p)
      | _, _ => none
    | _ => none
  | .probe p t, .start => some ((n.tell p t .probeRequest).goto .note)
  | .probe p t, .note =>
    match ((w p).sizes i t)[n.takenSizes p t]? with
    | none => none
    | some k =>
      some ({ n with takenSizes := change n.takenSizes p t (n.takenSizes p t + 1) }.finish (.length k))
  | .plainSend p t x, .start => some ((n.put p t x).goto (.data (n.data p t).length))
  | .plainSend p t x, .data k =>
    if delivered eager w i p t k x.length then some (n.finish .success) else none
  | .plainRecv p t, .start => some ((n.expect p t).goto (.data (n.posted p t)))
  | .plainRecv p t, .data k =>
    match ((w p).data i t)[k]? with
    | none => none
    | some x => some (n.finish (.received x))
  | .die, .start => some n.kill
  | _, _ => none

/-- A killed process handles the next message of `p` with a tag: `I_AM_ALIVE` is answered, everything
else is dropped (`Sim_FT_Perform_background_operations_dead`, src/mpi_fault_simulator/MPI-FT.cpp
l.404-421; which of the waiting messages comes first is not fixed). -/
def answer (i : ℕ) (w : World α) (n : Node α) (p t : ℕ) : Option (Node α) :=
  match arrived w i p t with
  | none => none
  | some .alive => some ((n.take p t).tell p t .dead)
  | some _ => some (n.take p t)

/-- What process `i` can do: the next step of its calls (`none`), or, if it was killed, handling a message
of a process with a tag. -/
def move (eager : ℕ → Bool) (i : ℕ) (l : Option (ℕ × ℕ)) (w : World α) : Option (Node α) :=
  match (w i).down, l with
  | true, some (p, t) => answer i w (w i) p t
  | false, none =>
    match (w i).todo with
    | [] => none
    | c :: _ => callStep eager i w (w i) c (w i).phase
  | _, _ => none

/-- One step of one of the processes. -/
def FaultStep (eager : ℕ → Bool) (w w' : World α) : Prop :=
  ∃ i l n, move eager i l w = some n ∧ w' = Function.update w i n

/-- The processes before their first calls. -/
def initial (progs : ℕ → List (Call α)) : World α := fun i =>
  { todo := progs i, phase := .start, rets := [], requests := fun _ => none, down := false
    deadSet := fun _ => false, taken := fun _ _ => 0, takenSizes := fun _ _ => 0, notes := fun _ _ => []
    data := fun _ _ => [], posted := fun _ _ => 0, sizes := fun _ _ => [] }

/-! ## Schedules -/

/-- What the application wants to happen: `x` goes from `s` to `d`, where each of the two either calls
the blocking routine (`none`) or posts a request and waits for it (`some` number of the request); or a
process is killed. -/
inductive Event (α : Type) where
  | comm (s d t : ℕ) (x : List α) (hs hd : Option ℕ)
  | die (i : ℕ)
  deriving DecidableEq, Repr

/-- The calls of the sender. -/
def sendCalls (d t : ℕ) (x : List α) : Option ℕ → List (Call α)
  | none => [.send d t x]
  | some h => [.isend d t x h, .wait h]

/-- The calls of the receiver. -/
def recvCalls (s t : ℕ) : Option ℕ → List (Call α)
  | none => [.recv s t]
  | some h => [.irecv s t h, .wait h]

/-- What the calls of the sender should return, depending on whether the receiver is dead. -/
def sendRets (dead : Bool) : Option ℕ → List (Ret α)
  | none => if dead then [.failed] else [.success]
  | some _ => if dead then [.success, .failed] else [.success, .success]

/-- What the calls of the receiver should return, depending on whether the sender is dead. -/
def recvRets (dead : Bool) (x : List α) : Option ℕ → List (Ret α)
  | none => if dead then [.failed] else [.received x]
  | some _ => if dead then [.success, .failed] else [.success, .received x]

/-- The calls of process `i` in a schedule. -/
def program (i : ℕ) : List (Event α) → List (Call α)
  | [] => []
  | .die j :: es => if j = i then [.die] else program i es
  | .comm s d t x hs hd :: es =>
    (if s = i then sendCalls d t x hs else if d = i then recvCalls s t hd else []) ++ program i es

/-- What the calls of process `i` should return, if the processes in `dead` were killed before. -/
def verdicts (i : ℕ) : (ℕ → Bool) → List (Event α) → List (Ret α)
  | _, [] => []
  | dead, .die j :: es => if j = i then [] else verdicts i (Function.update dead j true) es
  | dead, .comm s d _ x hs hd :: es =>
    (if s = i then sendRets (dead d) hs else if d = i then recvRets (dead s) x hd else []) ++
      verdicts i dead es

/-- Nobody sends to themselves, and whoever communicates with a killed process uses the blocking
routines. -/
def Allowed : (ℕ → Bool) → List (Event α) → Prop
  | _, [] => True
  | dead, .die j :: es => Allowed (Function.update dead j true) es
  | dead, .comm s d _ _ hs hd :: es =>
    s ≠ d ∧ (dead s = true → dead d = false → hd = none) ∧ (dead d = true → dead s = false → hs = none) ∧
      Allowed dead es

end Verif.FaultMessages

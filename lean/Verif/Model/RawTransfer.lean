import Verif.Model.FileIO

/-!
# Sending the raw data of sparse grids in several messages

`sendDsgData` and `recvDsgData`, `/repo/src/combicom/CombiCom.hpp` l.530-564, on a worker, and
`recvDsguFromWorker` and `sendDsguToWorker`, `/repo/src/manager/ProcessGroupManager.cpp` l.180-211, on the manager.
Simplifications: a channel between two processes is the list of messages which were sent and not yet received
(MPI keeps their order); sending does not block. `error`: an exception, or `MPI_ERR_TRUNCATE`; `stuck`: a receive
waits forever. The assertion that a grid has less than `INT_MAX` elements, `ProcessGroupWorker.cpp` l.751-755, is
left out: with it, there is only one message.
-/

namespace Verif.RawTransfer

/-- `INT_MAX` -/
def intMax : Nat := 2147483647

theorem intMax_pos : 0 < intMax := by decide

theorem loop_decreases {n sent : Nat} (h : 0 < (n - sent) / intMax) : n - (sent + intMax) < n - sent := by
  have h1 := (Nat.div_pos_iff.1 h).2
  have h2 := intMax_pos
  omega

/-- The loop of `sendDsgData`, `CombiCom.hpp` l.536-542, and of `sendDsguToWorker`, `ProcessGroupManager.cpp`
l.204-210: the messages. -/
def sendLoop {α : Type} (data : List α) (sent : Nat) : List (List α) :=
  if _h : 0 < (data.length - sent) / intMax then
    (data.drop sent).take intMax :: sendLoop data (sent + intMax)
  else [(data.drop sent).take (data.length - sent)]
termination_by data.length - sent
decreasing_by exact loop_decreases (by assumption)

/-- `MPI_Recv` of up to `count` elements at position `pos` of a buffer: the buffer and the messages that
are left. -/
def recv {α : Type} (buf : List α) (pos count : Nat) : List (List α) → Outcome (List α × List (List α))
  | [] => .stuck
  | msg :: msgs =>
    if count < msg.length then .error
    else .ok (buf.take pos ++ msg ++ buf.drop (pos + msg.length), msgs)

/-- The loop of `recvDsgData`, `CombiCom.hpp` l.556-563, and of `recvDsguFromWorker`, `ProcessGroupManager.cpp`
l.187-194, for a buffer with `n` elements. -/
def recvLoop {α : Type} (n : Nat) (buf : List α) (recvd : Nat) (msgs : List (List α)) :
    Outcome (List α × List (List α)) :=
  if _h : 0 < (n - recvd) / intMax then
    match recv buf recvd intMax msgs with
    | .ok (buf, msgs) => recvLoop n buf (recvd + intMax) msgs
    | .error => .error
    | .stuck => .stuck
  else recv buf recvd (n - recvd) msgs
termination_by n - recvd
decreasing_by exact loop_decreases (by assumption)

/-- `sendDsgData` -/
def sendDsgData {α : Type} (data : List α) : List (List α) := sendLoop data 0

/-- `recvDsgData` -/
def recvDsgData {α : Type} (data : List α) (msgs : List (List α)) : Outcome (List α × List (List α)) :=
  recvLoop data.length data 0 msgs

/-- `recvDsguFromWorker` -/
def recvDsguFromWorker {α : Type} (buf : List α) (msgs : List (List α)) : Outcome (List α × List (List α)) :=
  if buf.length = 0 then .error else recvLoop buf.length buf 0 msgs

/-- `sendDsguToWorker` -/
def sendDsguToWorker {α : Type} (buf : List α) : Outcome (List (List α)) :=
  if buf.length = 0 then .error else .ok (sendLoop buf 0)

/-- `dsguData.resize(dsguSize)`: the old values stay, new ones are zero. -/
def resize {α : Type} [Zero α] (buf : List α) (n : Nat) : List α :=
  buf.take n ++ List.replicate (n - buf.length) 0

/-- One pass of the loops in `pretendCombineThirdLevelForWorkers`, `ProcessGroupManager.cpp` l.229-243, with the
worker that sends and receives its data, `/repo/src/manager/ProcessGroupWorker.cpp` l.763 and l.768: the data of
the worker and the buffer of the manager afterwards, and the messages that nobody received. -/
def roundTrip {α : Type} [Zero α] (buf : List α) (dsguSize : Nat) (data : List α) :
    Outcome (List α × List α × List (List α)) :=
  if dsguSize = 0 then .stuck
  else
    (recvDsguFromWorker (resize buf dsguSize) (sendDsgData data)).bind fun r =>
      (sendDsguToWorker r.1).bind fun msgs =>
        (recvDsgData data msgs).bind fun s => .ok (s.1, r.1, r.2 ++ s.2)

/-- The loops l.226-243 over grids and workers; the sizes are `dsguDataSizePerWorker_[p] / numGrids`. -/
def pretendLoop {α : Type} [Zero α] : (buf : List α) → List (Nat × List α) → Outcome (List (List α))
  | _, [] => .ok []
  | buf, (dsguSize, data) :: rest =>
    (roundTrip buf dsguSize data).bind fun r =>
      (pretendLoop r.2.1 rest).bind fun ds => .ok (r.1 :: ds)

end Verif.RawTransfer

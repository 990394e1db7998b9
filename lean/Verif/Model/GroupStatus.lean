import Mathlib.Data.List.Basic

/-!
# The status of a process group as the manager sees it

One `ProcessGroupManager` (the manager's object for a process group) and the worker processes of that
group. `src/manager/ProcessGroupManager.cpp`, `src/manager/ProcessGroupManager.hpp`,
`src/manager/ProcessGroupWorker.cpp:141-441`.

Simplifications: the processes of the group act as one (they work through a signal together, and the
group's master alone talks to the manager). What a command does, and the data that is sent along with
it, is left out; a manager function that waits for data from the group is one step, so that the model
has more schedules than the code. Signals arrive in the order in which they were sent, and so do status
messages (MPI messages between the same processes with the same tag do not overtake). A pending receive
for a status message may write `status_` at any time once the message was sent.
-/

namespace Verif.GroupStatus

/-- `StatusType`, `src/manager/ProcessGroupSignals.hpp:99-101`. -/
inductive Status where
  | wait
  | busy
  | fail
  deriving DecidableEq, Repr

/-- The functions of `ProcessGroupManager` that send a signal. -/
inductive Fn where
  | runfirst | runnext | exit | combine | initDsgus | combineThirdLevel
  | combineThirdLevelFileBased | combineThirdLevelFileBasedWrite | combineThirdLevelFileBasedReadReduce
  | pretendCombineThirdLevelForWorkers | reduceLocalAndRemoteSubspaceSizes
  | pretendReduceLocalAndRemoteSubspaceSizes | combineSystemWide | waitForThirdLevelCombiResult
  | waitForThirdLevelSizeUpdate | updateCombiParameters | addTask | refreshTask | resetTasksWorker
  | recompute | parallelEval | writeSparseGridMinMaxCoefficients | doDiagnostics | getLpNorms
  | interpolateValues | writeInterpolatedValuesPerGrid | recoverCommunicators | rescheduleAddTask
  | rescheduleRemoveTask | writeCombigridsToVTKPlotFile | writeDSGsToDisk | readDSGsFromDisk
  deriving DecidableEq, Repr

/-- What a function does about the status before it sends the signal. -/
inductive Guard where
  /-- `if (status_ != PROCESS_GROUP_WAIT) return false`: nothing is sent. -/
  | check
  /-- `assert(status_ == PROCESS_GROUP_WAIT)`. -/
  | assertion
  /-- `assert(waitStatus() == PROCESS_GROUP_WAIT)`: the waiting is part of the assertion. -/
  | waitInAssertion
  /-- `status = waitStatus(); assert(status == PROCESS_GROUP_WAIT)`. -/
  | waitThenAssertion
  /-- Nothing. -/
  | none
  deriving DecidableEq, Repr

/-- `ProcessGroupManager.cpp`: runfirst l.18-31, runnext l.77-88, exit l.91-97, combine l.100-107,
initDsgus l.110-117, combineThirdLevel l.120-131, file based l.134-178,
pretendCombineThirdLevelForWorkers l.214, reduceLocalAndRemoteSubspaceSizes l.253,
pretendReduceLocalAndRemoteSubspaceSizes l.330, combineSystemWide l.497,
waitForThirdLevelCombiResult l.506, waitForThirdLevelSizeUpdate l.515, updateCombiParameters l.524,
addTask l.538, refreshTask l.543, resetTasksWorker l.564 (`if (…) assert(false)`), recompute l.582,
parallelEval l.596, writeSparseGridMinMaxCoefficients l.614, doDiagnostics l.625, getLpNorms l.655,
interpolateValues l.705, writeInterpolatedValuesPerGrid l.743, recoverCommunicators l.770,
rescheduleAddTask l.779, rescheduleRemoveTask l.784, writeCombigridsToVTKPlotFile l.810,
writeDSGsToDisk l.819, readDSGsFromDisk l.827. -/
def guard : Fn → Guard
  | .runfirst | .exit | .addTask | .refreshTask | .recompute | .rescheduleAddTask => .check
  | .runnext | .combine | .initDsgus | .combineThirdLevel | .pretendCombineThirdLevelForWorkers
  | .combineSystemWide | .waitForThirdLevelSizeUpdate | .updateCombiParameters | .resetTasksWorker
  | .parallelEval | .recoverCommunicators => .assertion
  | .combineThirdLevelFileBased | .combineThirdLevelFileBasedWrite
  | .combineThirdLevelFileBasedReadReduce | .waitForThirdLevelCombiResult
  | .writeCombigridsToVTKPlotFile | .writeDSGsToDisk | .readDSGsFromDisk => .waitInAssertion
  | .doDiagnostics => .waitThenAssertion
  | .reduceLocalAndRemoteSubspaceSizes | .pretendReduceLocalAndRemoteSubspaceSizes
  | .writeSparseGridMinMaxCoefficients | .getLpNorms | .interpolateValues
  | .writeInterpolatedValuesPerGrid | .rescheduleRemoveTask => .none

/-- Whether the function sets the status to busy and posts a receive for the group's next status
message (`setProcessGroupBusyAndReceive`, l.68-74). -/
def receives : Fn → Bool
  | .doDiagnostics | .recoverCommunicators => false
  | _ => true

/-- Whether the group sends a status message when it has worked through the signal
(`ProcessGroupWorker.cpp:426-430`; the case RECOVER_COMM returns before, l.289-292). -/
def reports : Fn → Bool
  | .recoverCommunicators => false
  | _ => true

/-- The manager's object, the messages on the way, and the group. -/
structure State where
  /-- `status_`. -/
  status : Status
  /-- The receives for a status message that are posted and not yet matched; all of them write
  `status_`. -/
  posted : ℕ
  /-- The signals sent that the group has not yet received. -/
  signals : List Fn
  /-- What the group is working on. -/
  current : Option Fn
  /-- The status messages sent that are not yet received. -/
  messages : List Status
  deriving DecidableEq, Repr

/-- At the beginning (`ProcessGroupManager.cpp:11-15`, `status_(PROCESS_GROUP_WAIT)`). -/
def start : State := ⟨.wait, 0, [], none, []⟩

/-- Whether a function gets to the point of sending its signal; `asserts` is whether the program was
compiled with assertions (without `NDEBUG`). -/
def sends (asserts : Bool) (f : Fn) (s : Status) : Bool :=
  match guard f with
  | .check => s == .wait
  | .assertion | .waitInAssertion => !asserts || s == .wait
  | .waitThenAssertion => s == .wait || (!asserts && s == .fail)
  | .none => true

/-- Sending the signal. -/
def send (f : Fn) (s : State) : State :=
  if receives f then
    { s with signals := s.signals ++ [f], status := .busy, posted := s.posted + 1 }
  else { s with signals := s.signals ++ [f] }

/-- The steps. The label says which function the manager calls, if it does. -/
inductive Step (asserts : Bool) : Option Fn → State → State → Prop where
  /-- The manager calls a function, which sends its signal. -/
  | send (s : State) (f : Fn) (h : sends asserts f s.status = true) : Step asserts (some f) s (send f s)
  /-- The group receives a signal (`ProcessGroupWorker.cpp:146`). -/
  | receive (s : State) (f : Fn) (rest : List Fn) (h : s.signals = f :: rest)
      (hc : s.current = none) : Step asserts none s { s with signals := rest, current := some f }
  /-- The group has worked through the signal and sends its status, WAIT or FAIL (l.421-430). -/
  | finish (s : State) (f : Fn) (st : Status) (h : s.current = some f) (hr : reports f = true)
      (hst : st ≠ .busy) :
      Step asserts none s { s with current := none, messages := s.messages ++ [st] }
  /-- The group has worked through RECOVER_COMM. -/
  | silent (s : State) (f : Fn) (h : s.current = some f) (hr : reports f = false) :
      Step asserts none s { s with current := none }
  /-- The oldest status message meets the oldest receive and is written to `status_`. -/
  | deliver (s : State) (st : Status) (rest : List Status) (h : s.messages = st :: rest)
      (hp : 0 < s.posted) :
      Step asserts none s { s with status := st, posted := s.posted - 1, messages := rest }
  /-- The manager sets the status of a recovered group (`ProcessManager.cpp:322-326`). -/
  | recovered (s : State) (h : s.status = .fail) : Step asserts none s { s with status := .wait }

end Verif.GroupStatus

import Verif.Model.FileIO

/-!
# Commands with arguments: how a worker receives them

`/repo/src/manager/ProcessGroupManager.cpp` l.133-178, l.589-622, l.704-754, l.818-832 (what the
manager sends) and `/repo/src/manager/ProcessGroupWorker.cpp` l.206-225, l.241-252, l.352-367,
l.412-415, l.566-570 (what the worker does with it).

The worker writes calls `f(receive…(), receive…())`. The C++ standard does not say in which order the
arguments of a call are evaluated, only that the evaluations are not interleaved. Messages of one
sender arrive in order; a receive takes the first message with its tag.

Simplifications: values of all types are elements of one type `α`; only the process that talks to the
manager is modelled. The others get the values by broadcasts inside of the same calls, and all
processes run the same program, hence use the same order.
-/

namespace Verif

/-- The message tags used for arguments, `/repo/src/mpi/MPITags.hpp` l.9-19. -/
inductive ArgTag where
  | cls | leval | interpolation
  deriving DecidableEq, Repr

/-- The commands whose arguments include file names. -/
inductive FileCommand (α : Type) where
  /-- `COMBINE_WRITE_DSGS` -/
  | combineWrite (filenamePrefixToWrite writeCompleteTokenFileName : α)
  /-- `COMBINE_READ_DSGS_AND_REDUCE` -/
  | combineRead (filenamePrefixToRead startReadingTokenFileName : α)
  /-- `COMBINE_THIRD_LEVEL_FILE` -/
  | combineFile (filenamePrefixToWrite writeCompleteTokenFileName filenamePrefixToRead
      startReadingTokenFileName : α)
  /-- `WRITE_DSGS_TO_DISK` -/
  | writeToDisk (filenamePrefix : α)
  /-- `READ_DSGS_FROM_DISK` -/
  | readFromDisk (filenamePrefix : α)
  /-- `WRITE_DSG_MINMAX_COEFFICIENTS` -/
  | writeMinMax (filename : α)
  /-- `INTERPOLATE_VALUES_AND_WRITE_SINGLE_FILE` -/
  | interpolateSingleFile (coords filenamePrefix : α)
  /-- `WRITE_INTERPOLATED_VALUES_PER_GRID` -/
  | interpolatePerGrid (coords filenamePrefix : α)
  /-- `PARALLEL_EVAL` -/
  | parallelEval (filename leval : α)
  deriving DecidableEq, Repr

variable {α : Type}

/-- The argument messages the manager sends after the signal, in this order: `ProcessGroupManager.cpp`
l.141-146, l.157-159, l.172-174, l.822, l.830, l.619, l.720-728, l.747-752, l.603-606. -/
def managerSends : FileCommand α → List (ArgTag × α)
  | .combineWrite w t => [(.cls, w), (.cls, t)]
  | .combineRead r t => [(.cls, r), (.cls, t)]
  | .combineFile w wt r rt => [(.cls, w), (.cls, wt), (.cls, r), (.cls, rt)]
  | .writeToDisk p => [(.cls, p)]
  | .readFromDisk p => [(.cls, p)]
  | .writeMinMax f => [(.cls, f)]
  | .interpolateSingleFile c f => [(.cls, f), (.interpolation, c)]
  | .interpolatePerGrid c f => [(.cls, f), (.interpolation, c)]
  | .parallelEval f l => [(.leval, l), (.cls, f)]

/-- The parameters of the function called by the worker: for each one the tag with which the receive
in its place is done. `ProcessGroupWorker.cpp` l.208-209, l.214-215, l.220-223, l.243, l.249, l.413-414,
l.355-357, l.363-365, l.568-569. -/
def workerParams : FileCommand α → List ArgTag
  | .combineWrite .. => [.cls, .cls]
  | .combineRead .. => [.cls, .cls]
  | .combineFile .. => [.cls, .cls, .cls, .cls]
  | .writeToDisk .. => [.cls]
  | .readFromDisk .. => [.cls]
  | .writeMinMax .. => [.cls]
  | .interpolateSingleFile .. => [.interpolation, .cls]
  | .interpolatePerGrid .. => [.interpolation, .cls]
  | .parallelEval .. => [.cls, .leval]

/-- A receive with a tag: the first message with this tag, and the messages that remain. -/
def takeTag (t : ArgTag) : List (ArgTag × α) → Option (α × List (ArgTag × α))
  | [] => none
  | (t', v) :: rest =>
    if t' = t then some (v, rest)
    else match takeTag t rest with
      | none => none
      | some (w, rest') => some (w, (t', v) :: rest')

/-- A receive when all sends of the manager are synchronous, which the MPI standard allows for
`MPI_Send` (and is what happens to large messages): a message can be received only after the ones
before. -/
def takeTagSync (t : ArgTag) : List (ArgTag × α) → Option (α × List (ArgTag × α))
  | [] => none
  | (t', v) :: rest => if t' = t then some (v, rest) else none

/-- Evaluation of the arguments in the given order of the parameters: the values, each with the
number of its parameter. A receive for which no message comes waits forever. -/
def evalArgs (take : ArgTag → List (ArgTag × α) → Option (α × List (ArgTag × α)))
    (params : List ArgTag) : (order : List ℕ) → List (ArgTag × α) → Outcome (List (ℕ × α))
  | [], _ => .ok []
  | i :: order, msgs =>
    match params[i]? with
    | none => .stuck
    | some t =>
      match take t msgs with
      | none => .stuck
      | some (v, rest) => (evalArgs take params order rest).bind fun r => .ok ((i, v) :: r)

/-- The argument of parameter `i`. -/
def argOf (r : List (ℕ × α)) (i : ℕ) : Option α := (r.find? fun p => p.1 = i).map Prod.snd

/-- The arguments with which the worker calls its function for a command. -/
def workerArgs (take : ArgTag → List (ArgTag × α) → Option (α × List (ArgTag × α)))
    (order : List ℕ) (cmd : FileCommand α) : Outcome (List (Option α)) :=
  (evalArgs take (workerParams cmd) order (managerSends cmd)).bind fun r =>
    .ok ((List.range (workerParams cmd).length).map (argOf r))

end Verif

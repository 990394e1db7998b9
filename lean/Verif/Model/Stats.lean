import Verif.Model.FileIO

/-!
# Timing events

`/repo/src/utils/Stats.hpp`, the build with `TIMING`.

Times are natural numbers, the readings of the clock. Simplifications: one process and one thread (each
process keeps its own events, the part of the file it writes does not depend on the others); the
attributes and the text around the events are left out, a written event is the record of its name, its
position in the list of that name, and its two times; `event_` is a list of pairs in the order of the
first use of a name (the order in the `unordered_map` is not significant). Every operation carries the
reading of the clock that it takes.
-/

namespace Verif

/-- `Stats::Event`, l.29-34. The default `end` is the epoch, zero. -/
structure StatsEvent where
  start : ℕ
  stop : ℕ
  deriving DecidableEq, Repr

/-- An event as it appears in a file written by `writePartial`. -/
structure StatsRecord where
  name : String
  index : ℕ
  start : ℕ
  stop : ℕ
  deriving DecidableEq, Repr

/-- The calls of the interface, with the reading of the clock each of them takes. -/
inductive StatsOp where
  | startEvent (name : String) (now : ℕ)
  | stopEvent (name : String) (now : ℕ)
  | writePartial (now : ℕ)
  deriving DecidableEq, Repr

/-- The static members `event_` and `partially_written_until_`, and the files written so far. -/
structure StatsState where
  event : List (String × List StatsEvent)
  until_ : ℕ
  files : List (List StatsRecord)
  deriving DecidableEq, Repr

/-- `event_[name]`; `operator[]` of a name that is not there gives an empty list. -/
def eventsOf (event : List (String × List StatsEvent)) (name : String) : List StatsEvent :=
  match event with
  | [] => []
  | (n, es) :: rest => if n = name then es else eventsOf rest name

/-- Assignment to `event_[name]`. -/
def setEvents (event : List (String × List StatsEvent)) (name : String) (es : List StatsEvent) :
    List (String × List StatsEvent) :=
  match event with
  | [] => [(name, es)]
  | (n, old) :: rest => if n = name then (n, es) :: rest else (n, old) :: setEvents rest name es

/-- `Stats::initialize`, l.106-118. -/
def statsInit (now : ℕ) : StatsState := ⟨[], now, []⟩

/-- The events of one name that `writePartial` writes, l.246-256, from position `i` on. -/
def recordsOf (until_ : ℕ) (name : String) : ℕ → List StatsEvent → List StatsRecord
  | _, [] => []
  | i, e :: es =>
    if e.stop ≠ e.start ∧ until_ < e.stop then ⟨name, i, e.start, e.stop⟩ :: recordsOf until_ name (i + 1) es
    else recordsOf until_ name (i + 1) es

/-- `Stats::startEvent` l.126-130, `stopEvent` l.289-300, `writePartial` l.204-278. `checked` says
whether assertions are compiled in: then `stopEvent` fails for an event that is stopped already
(l.291); otherwise its end is overwritten. `back()` of an empty list is undefined. -/
def statsStep (checked : Bool) (s : StatsState) : StatsOp → Outcome StatsState
  | .startEvent name now => .ok { s with event := setEvents s.event name (eventsOf s.event name ++ [⟨now, 0⟩]) }
  | .stopEvent name now =>
    match (eventsOf s.event name).getLast? with
    | none => .stuck
    | some e =>
      if checked ∧ e.stop ≠ 0 then .stuck
      else .ok { s with event := setEvents s.event name ((eventsOf s.event name).dropLast ++ [⟨e.start, now⟩]) }
  | .writePartial now =>
    .ok { s with until_ := now,
                 files := s.files ++ [s.event.flatMap fun p => recordsOf s.until_ p.1 0 p.2] }

/-- A sequence of calls. -/
def statsRun (checked : Bool) (s : StatsState) : List StatsOp → Outcome StatsState
  | [] => .ok s
  | op :: ops => (statsStep checked s op).bind fun s' => statsRun checked s' ops

end Verif

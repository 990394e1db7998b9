import Verif.Model.OrderedMap
import Verif.Model.FileIO
import Mathlib.Data.Rat.Defs
import Mathlib.Algebra.Order.Ring.Rat

/-!
# The rebalancing rescheduler

`RebalancingTaskRescheduler::eval` (`src/rescheduler/RebalancingTaskRescheduler.cpp:9-122`).

Simplifications: a level vector is an element of any linearly ordered type `L` (the order of
`std::map<LevelVector, …>`); all level vectors have the same length, so that the comparison of
`utils/IndexVector.hpp:23-30` is equality. Durations (`unsigned long`) are natural numbers, that is
their sums do not exceed 64 bits. `min_inbalance_` (a `double`) is a rational number. The load model
is a learning one (otherwise nothing is moved, l.15-20), and what it forecasts does not change during
the call.
-/

namespace Verif.Reschedule

variable {L : Type} [LinearOrder L]

/-- l.44-51: the duration of every group. First every group that holds a task gets 0, then every
measured duration is added to the group of its task; `operator[]` of the copy of the task map inserts
group 0 for a level it does not contain, and `operator[]` of the duration map inserts 0. Returns the
changed copy too. -/
def addDurations (copy : OMap L ℤ) (dur : OMap ℤ ℕ) : OMap L ℕ → OMap L ℤ × OMap ℤ ℕ
  | [] => (copy, dur)
  | (l, d) :: rest =>
    let copy' := if (copy.find l).isSome then copy else copy.set l 0
    let g := (copy.find l).getD 0
    addDurations copy' (dur.set g ((dur.find g).getD 0 + d)) rest

/-- l.44-47. -/
def zeroDurations (copy : OMap L ℤ) : OMap ℤ ℕ :=
  copy.foldl (fun m t => m.set t.2 0) []

/-- The first of the smallest elements (`std::minmax_element(…).first`, l.56-62; `std::min_element`,
l.78-93); `none` for an empty range, where the code would dereference the end iterator. -/
def firstMin {α : Type} (key : α → ℤ) : List α → Option α
  | [] => none
  | a :: rest =>
    match firstMin key rest with
    | none => some a
    | some b => if key b < key a then some b else some a

/-- The last of the largest elements (`std::minmax_element(…).second`, l.56-62). -/
def lastMax {α : Type} (key : α → ℤ) : List α → Option α
  | [] => none
  | a :: rest =>
    match lastMax key rest with
    | none => some a
    | some b => if key b < key a then some a else some b

/-- What the loop keeps: the changed copy of the task map, and the moves found so far. -/
structure State (L : Type) where
  copy : OMap L ℤ
  moves : List (L × ℤ)

/-- l.98-106: the move of an already moved task gets the new target group. -/
def retarget (l : L) (g : ℤ) : List (L × ℤ) → List (L × ℤ)
  | [] => []
  | (a, h) :: rest => if a = l then (a, g) :: rest else (a, h) :: retarget l g rest

/-- One pass of the loop, l.44-116. `none`: the function returns the moves. -/
def step (minInbalance : ℚ) (average : ℕ) (durations : OMap L ℕ) (prognosis : L → ℕ)
    (s : State L) : Outcome (Option (State L)) :=
  let r := addDurations s.copy (zeroDurations s.copy) durations
  match firstMin (fun p : ℤ × ℕ => (p.2 : ℤ)) r.2, lastMax (fun p : ℤ × ℕ => (p.2 : ℤ)) r.2 with
  | some fastest, some slowest =>
    -- l.66: an integer division by zero when the average is zero
    if average = 0 then .stuck
    else if ((slowest.2 / average : ℕ) : ℚ) < minInbalance then .ok none
    else
      -- l.70-76
      let candidates := r.1.filter fun t => decide (t.2 = slowest.1)
      match firstMin
          (fun t : L × ℤ => |((fastest.2 : ℤ) + (prognosis t.1 : ℤ)) - (average : ℤ)|) candidates with
      | none => .stuck
      | some t =>
        if fastest.2 + prognosis t.1 < slowest.2 then
          if (s.moves.map Prod.fst).contains t.1 then
            .ok (some ⟨r.1, retarget t.1 fastest.1 s.moves⟩)
          else
            .ok (some ⟨r.1.set t.1 fastest.1, s.moves ++ [(t.1, fastest.1)]⟩)
        else .ok none
  | _, _ => .stuck

/-- The loop, l.42-119, with `n` passes left. -/
def loop (minInbalance : ℚ) (average : ℕ) (durations : OMap L ℕ) (prognosis : L → ℕ) :
    ℕ → State L → Outcome (List (L × ℤ))
  | 0, s => .ok s.moves
  | n + 1, s =>
    (step minInbalance average durations prognosis s).bind fun r =>
      match r with
      | none => .ok s.moves
      | some s' => loop minInbalance average durations prognosis n s'

/-- `eval`, l.9-122. The average is the sum of the durations divided by the number of entries of the
task map (l.27, l.32-40), which is the number of tasks although it is called the number of groups;
for an empty map this is a division by zero. -/
def eval (maxIterations : ℕ) (minInbalance : ℚ) (groups : OMap L ℤ) (durations : OMap L ℕ)
    (prognosis : L → ℕ) : Outcome (List (L × ℤ)) :=
  if groups.length = 0 then .stuck
  else loop minInbalance ((durations.map Prod.snd).sum / groups.length) durations prognosis
    maxIterations ⟨groups, []⟩

end Verif.Reschedule

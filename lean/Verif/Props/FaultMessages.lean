import Verif.Lemmas.FaultMessages

/-!
# C104: messages between two processes in the fault simulator

The calls of the fault simulator deliver messages between living processes and report killed partners,
whatever the order in which the processes make their steps.
-/

namespace Verif.FaultMessages

variable {α : Type}

/-- **C104.** Processes follow a schedule of messages and failures, where each partner of a message uses
the blocking routine or posts a request and waits for it, and whoever talks to a killed process uses the
blocking routines.  Then in every order of the steps, and whichever messages MPI buffers, all calls of the
processes that were not killed return: with success, and with the data of the sender, if both partners
were alive at this point of the schedule, and otherwise with `MPI_ERR_PROC_FAILED`.  In the end all status
messages have been taken, and there are as many receives as messages.

Partial: one communicator that is not revoked, no `MPI_ANY_SOURCE`, and processes are killed between two
calls; deaths that are announced with collective operations are not modelled, so nothing is said about
requests whose partner is dead. -/
theorem C104_schedule_partial (eager : ℕ → Bool) (es : List (Event α))
    (ha : Allowed (fun _ => false) es) :
    Inevitable (FaultStep eager)
      (fun v => (∀ i, (v i).todo = [] ∧ (v i).rets = verdicts i (fun _ => false) es ∧
          ((v i).down = true ↔ .die i ∈ es)) ∧
        (∀ s d t, (v d).taken s t = ((v s).notes d t).length) ∧
        ∀ s d t, (v d).posted s t = ((v s).data d t).length)
      (initial fun i => program i es) := by
  obtain ⟨v, dead, hr, hv, hdead, hrets⟩ := schedule_runs eager es _ _ ha (ready_initial es)
  refine inevitable_of_reaches hr (.here v ⟨fun i => ⟨?_, ?_, ?_⟩, hv.notes, hv.data⟩ hv.final)
  · rw [hv.todo i]; split_ifs <;> rfl
  · rw [hrets i]; simp [initial]
  · rw [hv.down i, hdead i]; simp

/-- **C104, any calls.** Whatever calls the processes make: if in one order of the steps they come to
an end, then in every order they come to the same end. -/
theorem C104_order_partial (eager : ℕ → Bool) (progs : ℕ → List (Call α)) (v : World α)
    (hr : Reaches (FaultStep eager) (initial progs) v) (hend : ∀ u, ¬ FaultStep eager v u) :
    Inevitable (FaultStep eager) (fun u => u = v) (initial progs) :=
  inevitable_of_reaches hr (.here v rfl hend)

/-- The hypothesis of `C104_schedule_partial`: three processes, one of which is killed. -/
example : Allowed (fun _ => false)
    ([.comm 0 1 7 [1, 2] none (some 0), .comm 2 0 7 [3] (some 4) none, .die 1, .comm 0 1 7 [4] none none,
      .comm 1 2 3 [5] (some 0) none, .comm 2 0 7 [6] (some 4) (some 4)] : List (Event ℕ)) := by
  simp [Allowed]

/-- What the calls of these processes return. -/
example : (List.range 3).map (fun i => verdicts i (fun _ => false)
    ([.comm 0 1 7 [1, 2] none (some 0), .comm 2 0 7 [3] (some 4) none, .die 1, .comm 0 1 7 [4] none none,
      .comm 1 2 3 [5] (some 0) none, .comm 2 0 7 [6] (some 4) (some 4)] : List (Event ℕ))) =
    [[.success, .received [3], .failed, .success, .received [6]], [.success, .received [1, 2]],
      [.success, .success, .failed, .success, .success]] := by
  decide

/-! ## Violations -/

/-- The calls of two processes. -/
def two (a b : List (Call ℕ)) : ℕ → List (Call ℕ)
  | 0 => a
  | 1 => b
  | _ => []

/-- `Sim_FT_MPI_Probe` never returns: its request has the tag of the data, but `Sim_FT_MPI_Send` looks for
requests with the tag of the status messages.  Then the sender does not return either. -/
theorem C104_violated_probe (e : Bool) :
    Inevitable (FaultStep fun _ => e)
      (fun v => (v 0).rets = [] ∧ (v 0).todo = [.send 1 7 [5]] ∧ (v 1).rets = [] ∧
        (v 1).todo = [.probe 0 7, .recv 0 7])
      (initial (two [.send 1 7 [5]] [.probe 0 7, .recv 0 7])) := by
  refine move_first (i := 0) (l := none) rfl <| move_first (i := 1) (l := none) rfl <|
    .here _ ⟨rfl, rfl, rfl, rfl⟩ ?_
  rintro v ⟨i, l, n, hn, -⟩
  rcases i with - | - | i <;> rcases l with - | ⟨p, t⟩
  all_goals exact nomatch (show (none : Option (Node ℕ)) = some n from hn)

/-- A message that is sent without the fault simulator is received, but `Sim_FT_MPI_Wait` never returns,
because there is no status message of the sender. -/
theorem C104_violated_plain_send (e : Bool) :
    Inevitable (FaultStep fun _ => e)
      (fun v => (v 1).rets = [.success] ∧ (v 1).todo = [] ∧ (v 1).data 0 7 = [[5]] ∧
        (v 0).rets = [.success] ∧ (v 0).todo = [.wait 0])
      (initial (two [.irecv 1 7 0, .wait 0] [.plainSend 0 7 [5]])) := by
  cases e
  all_goals
    refine move_first (i := 0) (l := none) rfl <| move_first (i := 1) (l := none) rfl <|
      move_first (i := 1) (l := none) rfl <| move_first (i := 0) (l := none) rfl <|
      .here _ ⟨rfl, rfl, rfl, rfl, rfl⟩ ?_
    rintro v ⟨i, l, n, hn, -⟩
    rcases i with - | - | i <;> rcases l with - | ⟨p, t⟩
    all_goals exact nomatch (show (none : Option (Node ℕ)) = some n from hn)

/-- A process that was killed after it had posted a receive counts as alive: another process that
begins to send afterwards returns with success. -/
theorem C104_violated_killed (e : Bool) :
    ∃ w, Reaches (FaultStep fun _ => e) (initial (two [.irecv 1 7 0, .die] [.send 0 7 [5]])) w ∧
      (w 0).down = true ∧ w 1 = initial (two [.irecv 1 7 0, .die] [.send 0 7 [5]]) 1 ∧
      Inevitable (FaultStep fun _ => e) (fun v => (v 1).rets = [.success] ∧ (v 0).rets = [.success]) w := by
  refine ⟨_, .tail _ _ _ ⟨0, none, _, rfl, rfl⟩ <| .tail _ _ _ ⟨0, none, _, rfl, rfl⟩ <| .refl _, rfl, rfl,
    ?_⟩
  cases e
  all_goals
    refine move_first (i := 1) (l := none) rfl <| move_first (i := 1) (l := none) rfl <|
      move_first (i := 1) (l := none) rfl <| move_first (i := 1) (l := none) rfl <|
      move_first (i := 0) (l := some (1, 10007)) rfl <| .here _ ⟨rfl, rfl⟩ ?_
    rintro v ⟨i, l, n, hn, -⟩
    rcases i with - | - | i <;> rcases l with - | ⟨p, t⟩
    case zero.some =>
      obtain ⟨-, a, ha, -⟩ := move_some.1 hn
      rcases p with - | - | p
      · exact nomatch (show (none : Option Note) = some a from ha)
      · by_cases ht : t = 10007
        · subst ht; exact nomatch (show (none : Option Note) = some a from ha)
        · simp [arrived, Function.update, initial, Node.tell, Node.take, change, tagOffset, ht,
            Node.goto, Node.finish, Node.put, Node.kill] at ha
      · exact nomatch (show (none : Option Note) = some a from ha)
    all_goals exact nomatch (show (none : Option (Node ℕ)) = some n from hn)

/-- Nobody can wait for a collective operation. -/
theorem C104_violated_collective (e : Bool) :
    Inevitable (FaultStep fun _ => e)
      (fun v => (v 0).rets = [.success] ∧ (v 0).todo = [.wait 0] ∧ (v 1).rets = [.success] ∧
        (v 1).todo = [.wait 0])
      (initial (two [.icollective 0, .wait 0] [.icollective 0, .wait 0])) := by
  refine move_first (i := 0) (l := none) rfl <| move_first (i := 1) (l := none) rfl <|
    .here _ ⟨rfl, rfl, rfl, rfl⟩ ?_
  rintro v ⟨i, l, n, hn, -⟩
  rcases i with - | - | i <;> rcases l with - | ⟨p, t⟩
  all_goals exact nomatch (show (none : Option (Node ℕ)) = some n from hn)

/-- The hypotheses of `C104_order_partial`: a process waits for messages of two others. -/
example (e : Bool) : ∃ v : World ℕ,
    Reaches (FaultStep fun _ => e) (initial fun i => match i with
      | 0 => [.irecv 1 7 1, .irecv 2 7 2, .wait 1, .wait 2]
      | 1 => [.send 0 7 [5]]
      | 2 => [.send 0 7 [6]]
      | _ => []) v ∧ (∀ u, ¬ FaultStep (fun _ => e) v u) ∧
    (v 0).rets = [.success, .success, .received [5], .received [6]] := by
  cases e
  all_goals
    refine ⟨_, .tail _ _ _ ⟨0, none, _, rfl, rfl⟩ <| .tail _ _ _ ⟨0, none, _, rfl, rfl⟩ <|
      .tail _ _ _ ⟨2, none, _, rfl, rfl⟩ <| .tail _ _ _ ⟨2, none, _, rfl, rfl⟩ <|
      .tail _ _ _ ⟨2, none, _, rfl, rfl⟩ <| .tail _ _ _ ⟨2, none, _, rfl, rfl⟩ <|
      .tail _ _ _ ⟨1, none, _, rfl, rfl⟩ <| .tail _ _ _ ⟨1, none, _, rfl, rfl⟩ <|
      .tail _ _ _ ⟨1, none, _, rfl, rfl⟩ <| .tail _ _ _ ⟨1, none, _, rfl, rfl⟩ <|
      .tail _ _ _ ⟨0, none, _, rfl, rfl⟩ <| .tail _ _ _ ⟨0, none, _, rfl, rfl⟩ <|
      .tail _ _ _ ⟨0, none, _, rfl, rfl⟩ <| .tail _ _ _ ⟨0, none, _, rfl, rfl⟩ <| .refl _, ?_, rfl⟩
    rintro v ⟨i, l, n, hn, -⟩
    rcases i with - | - | - | i <;> rcases l with - | ⟨p, t⟩
    all_goals exact nomatch (show (none : Option (Node ℕ)) = some n from hn)

end Verif.FaultMessages

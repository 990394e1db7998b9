import Verif.Lemmas.Stats

/-!
# Timing events are written exactly once (C60)
-/

namespace Verif

/-- the operation is a stop -/
def StatsOp.isStop : StatsOp → Bool
  | .stopEvent .. => true
  | _ => false

/-- The readings of the clock: later ones are not smaller, and an event that is stopped after a write
gets a later time than the reading at the end of that write. (The second condition means that the
resolution of the clock is fine enough; both fail for `high_resolution_clock` if it is the system clock
and this is set back.) -/
def ClockFine (t0 : ℕ) (ops : List StatsOp) : Prop :=
  0 < t0 ∧ (∀ op ∈ ops, t0 ≤ op.time) ∧
  ops.Pairwise fun a b => a.time ≤ b.time ∧ (a.isWrite → b.isStop → a.time < b.time)

/-- The entries of all files together that belong to the `i`-th event (from zero) with name `n`. -/
def entriesOf (s : StatsState) (n : String) (i : ℕ) : List StatsRecord :=
  s.files.flatten.filter fun r => decide (r.name = n ∧ r.index = i)

private lemma lastStart_time {n : String} {a : ℕ} : ∀ {ops : List StatsOp},
    lastStart n ops = some a → ∃ op ∈ ops, op.time = a := by
  intro ops
  induction ops with
  | nil => intro h; simp [lastStart] at h
  | cons o os ih =>
    intro h
    simp only [lastStart] at h
    cases hl : lastStart n os with
    | some t =>
      rw [hl] at h
      simp only [Option.some.injEq] at h
      obtain ⟨op, h1, h2⟩ := ih (hl.trans (congrArg some h))
      exact ⟨op, by simp [h1], h2⟩
    | none =>
      rw [hl] at h
      cases o with
      | startEvent m t =>
        simp only at h
        split_ifs at h
        simp only [Option.some.injEq] at h
        exact ⟨.startEvent m t, by simp, h⟩
      | stopEvent m t => simp at h
      | writePartial t => simp at h

/-- **C60 (partial).** Take any history of starts, stops and partial writes, and in it any stop: it
stops the event of its name that was started last. If the duration is not zero and a write follows,
the files together contain this event exactly once, with its times. If it has zero duration or no write
follows, they do not contain it. Missing: clocks that give the same reading twice (`C60_violated`) and
histories in which an event is stopped twice, which the assertion in `stopEvent` excludes
(`C60_violated_nested`). -/
theorem C60_partial (t0 : ℕ) (h1 h2 : List StatsOp) (n : String) (t : ℕ) (s : StatsState)
    (hclock : ClockFine t0 (h1 ++ .stopEvent n t :: h2))
    (hrun : statsRun true (statsInit t0) (h1 ++ .stopEvent n t :: h2) = .ok s) :
    ∃ a, lastStart n h1 = some a ∧
      entriesOf s n (startsOf n h1 - 1) =
        if (∃ op ∈ h2, op.isWrite) ∧ a ≠ t then [⟨n, startsOf n h1 - 1, a, t⟩] else [] := by
  obtain ⟨hpos, hge, hpw⟩ := hclock
  rw [statsRun_append] at hrun
  cases hr1 : statsRun true (statsInit t0) h1 with
  | error => rw [hr1] at hrun; simp [Outcome.bind] at hrun
  | stuck => rw [hr1] at hrun; simp [Outcome.bind] at hrun
  | ok s1 =>
    rw [hr1] at hrun
    simp only [Outcome.bind, statsRun] at hrun
    have hi1 : StatsInv t0 h1 s1 := by simpa using statsInv_run (statsInv_init t0) hr1
    cases hst : statsStep true s1 (.stopEvent n t) with
    | error => rw [hst] at hrun; simp at hrun
    | stuck => rw [hst] at hrun; simp at hrun
    | ok s2 =>
      rw [hst] at hrun
      simp only at hrun
      have hi2 := statsInv_step hi1 hst
      have hi3 := statsInv_run hi2 hrun
      have hst' := hst
      simp only [statsStep] at hst'
      cases hl : (eventsOf s1.event n).getLast? with
      | none => rw [hl] at hst'; simp at hst'
      | some e =>
        rw [hl] at hst'
        simp only [true_and] at hst'
        split_ifs at hst' with hz
        simp only [Outcome.ok.injEq] at hst'
        push Not at hz
        have hlast : lastStart n h1 = some e.start := by rw [← hi1.last, hl]; rfl
        refine ⟨e.start, hlast, ?_⟩
        have hne : eventsOf s1.event n ≠ [] := by rintro h0; rw [h0] at hl; simp at hl
        have hlen := hi1.len n
        have hlp := List.length_pos_of_ne_nil hne
        set i := startsOf n h1 - 1 with hidef
        have hdl : (eventsOf s1.event n).dropLast.length = i := by simp [hlen, hidef]
        have hev1 : (eventsOf s1.event n)[i]? = some e := by
          rw [List.getLast?_eq_getElem?] at hl
          rw [hidef, ← hlen]; exact hl
        have hev2 : (eventsOf s2.event n)[i]? = some ⟨e.start, t⟩ := by
          subst hst'
          simp only [eventsOf_setEvents, if_true]
          rw [List.getElem?_append_right (by omega), hdl, Nat.sub_self]
          rfl
        have ht0 : t0 ≤ t := hge (.stopEvent n t) (by simp)
        have hpw' := List.pairwise_append.mp hpw
        have hpw2 := List.pairwise_cons.mp hpw'.2.1
        -- nothing is written before
        have h0 : timesIn s2 n i = 0 := by
          have hfiles : s2.files = s1.files := by subst hst'; rfl
          unfold timesIn
          rw [hfiles, List.length_eq_zero_iff, List.filter_eq_nil_iff]
          intro r hr
          simp only [decide_eq_true_eq]
          rintro ⟨h3, h4⟩
          obtain ⟨h5, h6⟩ := hi1.written r hr
          rw [h3, h4, hev1, Option.some.injEq] at h5
          rw [h5] at hz
          exact h6 hz
        have htimes := timesIn_run (e := ⟨e.start, t⟩) (by simp only; omega) hi2 hev2 hrun
          (fun op hop => (hpw2.1 op hop).1)
        rw [h0, Nat.zero_add] at htimes
        have hu : s2.until_ = s1.until_ := by subst hst'; rfl
        -- the last write was before
        have hcase : (e.start ≠ t → s1.until_ < t) := by
          intro hne'
          rcases hi1.untl with h | ⟨op, hop, hw, ht⟩
          · obtain ⟨op, hop, hopt⟩ := lastStart_time hlast
            have h3 := hge op (by simp [hop])
            have h4 := (hpw'.2.2 op hop (.stopEvent n t) (by simp)).1
            simp only [StatsOp.time] at h4 hopt ⊢
            rw [h]
            have : op.time ≠ t := fun h => hne' (hopt.symm.trans h)
            have h4' : op.time ≤ t := h4
            omega
          · have := (hpw'.2.2 op hop (.stopEvent n t) (by simp)).2 hw rfl
            rw [← ht]; exact this
        have hcond : ((∃ op ∈ h2, op.isWrite) ∧ t ≠ e.start ∧ s2.until_ < t) ↔
            ((∃ op ∈ h2, op.isWrite) ∧ e.start ≠ t) := by
          rw [hu]
          constructor
          · rintro ⟨h3, h4, -⟩; exact ⟨h3, fun h => h4 h.symm⟩
          · rintro ⟨h3, h4⟩; exact ⟨h3, fun h => h4 h.symm, hcase h4⟩
        simp only at htimes
        rw [if_congr hcond rfl rfl] at htimes
        change (entriesOf s n i).length = _ at htimes
        by_cases hc : (∃ op ∈ h2, op.isWrite) ∧ e.start ≠ t
        · rw [if_pos hc] at htimes ⊢
          obtain ⟨r, hr⟩ := List.length_eq_one_iff.mp htimes
          rw [hr]
          have hmem : r ∈ entriesOf s n i := by rw [hr]; simp
          unfold entriesOf at hmem
          rw [List.mem_filter, decide_eq_true_eq] at hmem
          obtain ⟨h5, h6⟩ := hi3.written r hmem.1
          have hkeep : (eventsOf s.event n)[i]? = some ⟨e.start, t⟩ := by
            clear htimes hr hmem h5 h6 hi3 h0 hi2 hst hst' hu hcond hpw2 hpw' hpw hge
            have hgen : ∀ (ops : List StatsOp) (u : StatsState),
                (eventsOf u.event n)[i]? = some ⟨e.start, t⟩ → statsRun true u ops = .ok s →
                (eventsOf s.event n)[i]? = some ⟨e.start, t⟩ := by
              intro ops
              induction ops with
              | nil =>
                intro u hu h
                simp only [statsRun, Outcome.ok.injEq] at h
                subst h; exact hu
              | cons o os ih =>
                intro u hu h
                simp only [statsRun] at h
                cases hs : statsStep true u o with
                | ok u' =>
                  rw [hs] at h
                  exact ih u' (event_kept hu (by simp only; omega) hs) h
                | error => rw [hs] at h; simp [Outcome.bind] at h
                | stuck => rw [hs] at h; simp [Outcome.bind] at h
            exact hgen h2 s2 hev2 hrun
          rw [hmem.2.1, hmem.2.2, hkeep] at h5
          simp only [Option.some.injEq, StatsEvent.mk.injEq] at h5
          obtain ⟨hn, hi⟩ := hmem.2
          obtain ⟨hs1, hs2⟩ := h5
          obtain ⟨rn, ri, rs, rt⟩ := r
          simp only at hn hi hs1 hs2
          subst hn hi hs1 hs2
          rfl
        · rw [if_neg hc] at htimes ⊢
          exact List.length_eq_zero_iff.mp htimes

/-- A history with two events of one name and an enclosing event, three writes. -/
def exampleHistory : List StatsOp :=
  [.startEvent "outer" 2, .startEvent "run" 3, .writePartial 5, .stopEvent "run" 6, .startEvent "run" 7,
    .stopEvent "run" 9, .writePartial 10, .stopEvent "outer" 11, .writePartial 13]

example : ClockFine 1 exampleHistory ∧
    ∃ s, statsRun true (statsInit 1) exampleHistory = .ok s ∧
      s.files = [[], [⟨"run", 0, 3, 6⟩, ⟨"run", 1, 7, 9⟩], [⟨"outer", 0, 2, 11⟩]] := by
  refine ⟨⟨by decide, by decide, ?_⟩, ?_⟩
  · simp [exampleHistory, StatsOp.time, StatsOp.isWrite, StatsOp.isStop]
  · exact ⟨_, rfl, by decide⟩

/-- Corollary in terms of numbers: an event that has nonzero duration and is stopped before some write
is in the files exactly once. -/
theorem C60_exactly_once (t0 : ℕ) (h1 h2 : List StatsOp) (n : String) (t : ℕ) (s : StatsState)
    (hclock : ClockFine t0 (h1 ++ .stopEvent n t :: h2))
    (hrun : statsRun true (statsInit t0) (h1 ++ .stopEvent n t :: h2) = .ok s)
    (hdur : lastStart n h1 ≠ some t) (hw : ∃ op ∈ h2, op.isWrite) :
    (entriesOf s n (startsOf n h1 - 1)).length = 1 := by
  obtain ⟨a, ha, he⟩ := C60_partial t0 h1 h2 n t s hclock hrun
  rw [he, if_pos ⟨hw, fun h => hdur (by rw [ha, h])⟩]
  rfl

/-- **C60 is violated** if the clock gives the same reading at the end of a write and for the next
stop: the event is never written. -/
theorem C60_violated :
    ∃ s, statsRun true (statsInit 1)
        [.startEvent "run" 2, .writePartial 3, .stopEvent "run" 3, .writePartial 4, .writePartial 5] = .ok s ∧
      entriesOf s "run" 0 = [] := by
  exact ⟨_, rfl, by decide⟩

/-- **C60 is violated** without assertions for nested events of the same name: the second stop hits the
inner event again, which is then written twice, and the outer one is never written. With assertions the
second stop fails. -/
theorem C60_violated_nested :
    let history := [StatsOp.startEvent "run" 2, .startEvent "run" 3, .stopEvent "run" 4, .writePartial 5,
      .stopEvent "run" 6, .writePartial 7]
    (∃ s, statsRun false (statsInit 1) history = .ok s ∧
      entriesOf s "run" 1 = [⟨"run", 1, 3, 4⟩, ⟨"run", 1, 3, 6⟩] ∧ entriesOf s "run" 0 = []) ∧
    statsRun true (statsInit 1) history = .stuck := by
  refine ⟨⟨_, rfl, by decide, by decide⟩, by decide⟩

end Verif

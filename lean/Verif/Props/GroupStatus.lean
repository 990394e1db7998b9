import Verif.Model.GroupStatus
import Verif.Lemmas.Runs

/-!
# The manager considers a group idle only when it is idle (C40)
-/

namespace Verif.GroupStatus

/-- The group has worked through everything that was sent to it, and its reports were read. -/
def Idle (s : State) : Prop := s.signals = [] ∧ s.current = none ∧ s.messages = []

/-- A step of a manager that sends a signal only while it sees status WAIT, and that does not use
`doDiagnostics` or `recoverCommunicators`. -/
def Orderly (asserts : Bool) (s t : State) : Prop :=
  ∃ l, Step asserts l s t ∧ ∀ f, l = some f →
    s.status = .wait ∧ f ≠ .doDiagnostics ∧ f ≠ .recoverCommunicators

/-- Any step. -/
def Any (asserts : Bool) (s t : State) : Prop := ∃ l, Step asserts l s t

/-! ## Helper lemmas -/

/-- The commands that are not finished or not reported to the manager. -/
def pending (s : State) : ℕ :=
  s.signals.length + (if s.current.isSome then 1 else 0) + s.messages.length

/-- What orderly steps preserve. -/
structure Inv (s : State) : Prop where
  posted : s.posted = pending s
  busy : s.status = .busy → s.posted = 1
  notBusy : s.status ≠ .busy → s.posted = 0
  messages : ∀ m ∈ s.messages, m ≠ .busy
  noRecover : ∀ f ∈ s.signals, reports f = true
  noRecover' : ∀ f, s.current = some f → reports f = true

lemma Inv.idle {s : State} (h : Inv s) (hs : s.status ≠ .busy) : Idle s := by
  have h0 := h.notBusy hs
  have h1 := h.posted
  unfold pending at h1
  rw [h0] at h1
  refine ⟨?_, ?_, ?_⟩
  · exact List.eq_nil_of_length_eq_zero (by omega)
  · cases hc : s.current with
    | none => rfl
    | some f => rw [hc] at h1; simp only [Option.isSome_some, if_true] at h1; omega
  · exact List.eq_nil_of_length_eq_zero (by omega)

lemma start_inv : Inv start := by
  refine ⟨rfl, ?_, ?_, ?_, ?_, ?_⟩
  · intro h; simp [start] at h
  · intro _; rfl
  · intro m hm; simp [start] at hm
  · intro f hf; simp [start] at hf
  · intro f hf; simp [start] at hf

lemma reports_of_ne {f : Fn} (h : f ≠ .recoverCommunicators) : reports f = true := by
  cases f <;> first | rfl | exact absurd rfl h

lemma receives_of_ne {f : Fn} (h : f ≠ .doDiagnostics) (h' : f ≠ .recoverCommunicators) :
    receives f = true := by
  cases f <;> first | rfl | exact absurd rfl h | exact absurd rfl h'

lemma orderly_inv {asserts : Bool} {s t : State} (h : Inv s) (hst : Orderly asserts s t) :
    Inv t := by
  obtain ⟨l, hstep, hl⟩ := hst
  cases hstep with
  | send _ f hs =>
    obtain ⟨hw, h1, h2⟩ := hl f rfl
    have hidle := h.idle (by rw [hw]; decide)
    have h0 := h.notBusy (by rw [hw]; decide)
    obtain ⟨i1, i2, i3⟩ := hidle
    unfold send
    rw [if_pos (receives_of_ne h1 h2)]
    refine ⟨?_, ?_, ?_, ?_, ?_, ?_⟩
    · simp [pending, i1, i2, i3, h0]
    · intro _; simp [h0]
    · intro hne; exact absurd rfl hne
    · exact h.messages
    · intro g hg
      simp only [i1, List.nil_append, List.mem_singleton] at hg
      subst hg
      exact reports_of_ne h2
    · intro g hg
      simp only [i2] at hg
      exact absurd hg (by simp)
  | receive _ f rest hf hc =>
    refine ⟨?_, h.busy, h.notBusy, h.messages, ?_, ?_⟩
    · have := h.posted
      simp only [pending, hf, hc] at this ⊢
      simp at this ⊢
      omega
    · intro g hg
      exact h.noRecover g (by rw [hf]; exact List.mem_cons_of_mem _ hg)
    · intro g hg
      simp only [Option.some.injEq] at hg
      subst hg
      exact h.noRecover _ (by rw [hf]; exact List.mem_cons_self)
  | finish _ f st hf hr hst =>
    refine ⟨?_, h.busy, h.notBusy, ?_, h.noRecover, ?_⟩
    · have := h.posted
      simp only [pending, hf] at this ⊢
      simp at this ⊢
      omega
    · intro m hm
      rcases List.mem_append.mp hm with hm | hm
      · exact h.messages m hm
      · simp only [List.mem_singleton] at hm
        subst hm
        exact hst
    · intro g hg
      simp at hg
  | silent _ f hf hr =>
    have := h.noRecover' f hf
    rw [hr] at this
    exact absurd this (by simp)
  | deliver _ st rest hm hp =>
    have hb : s.status = .busy := by
      by_contra hne
      have := h.notBusy hne
      omega
    have h1 := h.busy hb
    have hst : st ≠ .busy := h.messages st (by rw [hm]; exact List.mem_cons_self)
    refine ⟨?_, ?_, ?_, ?_, h.noRecover, h.noRecover'⟩
    · have := h.posted
      simp only [pending, hm, List.length_cons] at this ⊢
      omega
    · intro hne; exact absurd hne hst
    · intro _; simp only; omega
    · intro m hm'
      exact h.messages m (by rw [hm]; exact List.mem_cons_of_mem _ hm')
  | recovered _ hf =>
    have h0 := h.notBusy (by rw [hf]; decide)
    exact ⟨h.posted, fun hb => by simp at hb, fun _ => h0, h.messages, h.noRecover, h.noRecover'⟩

lemma reaches_inv {asserts : Bool} {s t : State} (h : Inv s)
    (hr : Reaches (Orderly asserts) s t) : Inv t := by
  induction hr with
  | refl x => exact h
  | tail x y z hxy _ ih => exact ih (orderly_inv h hxy)

/-! ## The property -/

/-- C40 for a manager that sends signals only while it sees status WAIT, and that uses neither
`doDiagnostics` nor `recoverCommunicators`: whenever the status it sees is not BUSY, the group has
worked through everything sent to it. In every schedule, with and without assertions. -/
theorem C40_wait_means_idle_partial (asserts : Bool) (s : State)
    (h : Reaches (Orderly asserts) start s) (hs : s.status ≠ .busy) : Idle s :=
  (reaches_inv start_inv h).idle hs

/-- With assertions, every function but the seven that do not look at the status keeps to the
discipline by itself. -/
theorem C40_guarded_functions_partial (s : State)
    (h : Reaches (fun s t => ∃ l, Step true l s t ∧ ∀ f, l = some f →
      guard f ≠ .none ∧ f ≠ .doDiagnostics ∧ f ≠ .recoverCommunicators) start s)
    (hs : s.status ≠ .busy) : Idle s := by
  refine C40_wait_means_idle_partial true s ?_ hs
  refine h.mono ?_
  rintro x y ⟨l, hstep, hl⟩
  refine ⟨l, hstep, fun f hf => ?_⟩
  obtain ⟨h1, h2, h3⟩ := hl f hf
  refine ⟨?_, h2, h3⟩
  subst hf
  cases hstep with
  | send _ _ hs =>
    unfold sends at hs
    cases hg : guard f <;> rw [hg] at hs
    case none => exact absurd hg h1
    all_goals simpa using hs

/-- Without assertions the waiting in `assert(waitStatus() == …)` is gone; the functions that test the
status keep to the discipline. -/
theorem C40_checked_functions_partial (s : State)
    (h : Reaches (fun s t => ∃ l, Step false l s t ∧ ∀ f, l = some f → guard f = .check) start s)
    (hs : s.status ≠ .busy) : Idle s := by
  refine C40_wait_means_idle_partial false s ?_ hs
  refine h.mono ?_
  rintro x y ⟨l, hstep, hl⟩
  refine ⟨l, hstep, fun f hf => ?_⟩
  have h1 := hl f hf
  subst hf
  cases hstep with
  | send _ _ hs =>
    unfold sends at hs
    rw [h1] at hs
    refine ⟨by simpa using hs, ?_, ?_⟩ <;> rintro rfl <;> simp [guard] at h1

/-- When the manager of an orderly run sends nothing more, the group gets through with its work and the
manager sees it, whatever the schedule: in the end the status is not BUSY. -/
theorem C40_status_arrives (asserts : Bool) (s : State) (h : Reaches (Orderly asserts) start s) :
    Inevitable (fun s t => Step asserts none s t ∧ s.status = .busy)
      (fun t => t.status ≠ .busy ∧ Idle t) s := by
  have hinv := reaches_inv start_inv h
  clear h
  have key : ∀ n (s : State), Inv s →
      3 * s.signals.length + (if s.current.isSome then 2 else 0) + s.messages.length = n →
      Inevitable (fun s t => Step asserts none s t ∧ s.status = .busy)
        (fun t => t.status ≠ .busy ∧ Idle t) s := by
    intro n
    induction n using Nat.strongRecOn with
    | _ n ih =>
      intro s hinv hn
      by_cases hb : s.status = .busy
      swap
      · exact .here s ⟨hb, hinv.idle hb⟩ (fun y hy => hb hy.2)
      have hp := hinv.busy hb
      have hq := hinv.posted
      rw [hp] at hq
      unfold pending at hq
      refine .step s ?_ ?_
      · cases hc : s.current with
        | some f =>
          exact ⟨_, Step.finish s f .wait hc (hinv.noRecover' f hc) (by decide), hb⟩
        | none =>
          cases hs : s.signals with
          | cons f rest => exact ⟨_, Step.receive s f rest hs hc, hb⟩
          | nil =>
            cases hm : s.messages with
            | cons m rest => exact ⟨_, Step.deliver s m rest hm (by omega), hb⟩
            | nil => rw [hc, hs, hm] at hq; simp at hq
      · rintro t ⟨hstep, -⟩
        have hinv' : Inv t := orderly_inv hinv ⟨none, hstep, fun f hf => by simp at hf⟩
        refine ih _ ?_ t hinv' rfl
        rw [← hn]
        cases hstep with
        | receive _ f rest hf hc => simp [hf, hc]; omega
        | finish _ f st hf hr hst => simp [hf]; omega
        | silent _ f hf hr => simp [hf]
        | deliver _ st rest hm hp => simp [hm]
        | recovered _ hf => rw [hf] at hb; simp at hb
  exact key _ s hinv rfl

/-! ## Where it fails -/

/-- `doDiagnostics` sends a signal but leaves the status at WAIT: the manager sees an idle group while
the group works. With and without assertions. -/
theorem C40_diagnostics_violated (asserts : Bool) :
    ∃ s, Reaches (Any asserts) start s ∧ s.status = .wait ∧ s.current = some .doDiagnostics := by
  refine ⟨⟨.wait, 0, [], some .doDiagnostics, []⟩, ?_, rfl, rfl⟩
  refine .tail _ ⟨.wait, 0, [.doDiagnostics], none, []⟩ _ ⟨_, .send start .doDiagnostics ?_⟩ ?_
  · cases asserts <;> rfl
  refine .tail _ _ _ ⟨_, .receive _ .doDiagnostics [] rfl rfl⟩ ?_
  exact .refl _

/-- The status message of `doDiagnostics` is taken for that of the next command: after `doDiagnostics`
the manager runs the next steps and sees WAIT while the group still runs them. With and without
assertions, and although each signal is sent while the status is WAIT. -/
theorem C40_run_after_diagnostics_violated (asserts : Bool) :
    ∃ s, Reaches (Any asserts) start s ∧ s.status = .wait ∧ s.current = some .runnext := by
  refine ⟨⟨.wait, 0, [], some .runnext, []⟩, ?_, rfl, rfl⟩
  refine .tail _ ⟨.wait, 0, [.doDiagnostics], none, []⟩ _ ⟨_, .send start .doDiagnostics ?_⟩ ?_
  · cases asserts <;> rfl
  refine .tail _ _ _ ⟨_, .receive _ .doDiagnostics [] rfl rfl⟩ ?_
  refine .tail _ _ _ ⟨_, .finish _ .doDiagnostics .wait rfl rfl (by decide)⟩ ?_
  refine .tail _ ⟨.busy, 1, [.runnext], none, [.wait]⟩ _ ⟨_, .send _ .runnext ?_⟩ ?_
  · cases asserts <;> rfl
  refine .tail _ _ _ ⟨_, .receive _ .runnext [] rfl rfl⟩ ?_
  refine .tail _ _ _ ⟨_, .deliver _ .wait [] rfl (by decide)⟩ ?_
  exact .refl _

/-- `interpolateValues` does not look at the status. When it is called twice, the status message of the
first call is seen while the second is still to be done. With and without assertions. -/
theorem C40_interpolate_twice_violated (asserts : Bool) :
    ∃ s, Reaches (Any asserts) start s ∧ s.status = .wait ∧ s.current = some .interpolateValues := by
  refine ⟨⟨.wait, 1, [], some .interpolateValues, []⟩, ?_, rfl, rfl⟩
  refine .tail _ ⟨.busy, 1, [.interpolateValues], none, []⟩ _
    ⟨_, .send start .interpolateValues rfl⟩ ?_
  refine .tail _ ⟨.busy, 2, [.interpolateValues, .interpolateValues], none, []⟩ _
    ⟨_, .send _ .interpolateValues rfl⟩ ?_
  refine .tail _ _ _ ⟨_, .receive _ .interpolateValues [.interpolateValues] rfl rfl⟩ ?_
  refine .tail _ _ _ ⟨_, .finish _ .interpolateValues .wait rfl rfl (by decide)⟩ ?_
  refine .tail _ _ _ ⟨_, .receive _ .interpolateValues [] rfl rfl⟩ ?_
  refine .tail _ _ _ ⟨_, .deliver _ .wait [] rfl (by decide)⟩ ?_
  exact .refl _

/-- Without assertions, the waiting before `writeDSGsToDisk` is gone too. -/
theorem C40_write_twice_violated :
    (∃ s, Reaches (fun s t => ∃ l, Step false l s t ∧ ∀ f, l = some f → f = .writeDSGsToDisk)
        start s ∧ s.status = .wait ∧ s.current = some .writeDSGsToDisk) ∧
      ∀ s, Reaches (fun s t => ∃ l, Step true l s t ∧ ∀ f, l = some f → f = .writeDSGsToDisk)
        start s → s.status = .wait → Idle s := by
  constructor
  · refine ⟨⟨.wait, 1, [], some .writeDSGsToDisk, []⟩, ?_, rfl, rfl⟩
    refine .tail _ ⟨.busy, 1, [.writeDSGsToDisk], none, []⟩ _
      ⟨_, .send start .writeDSGsToDisk rfl, ?_⟩ ?_
    · intro f hf; simpa using hf.symm
    refine .tail _ ⟨.busy, 2, [.writeDSGsToDisk, .writeDSGsToDisk], none, []⟩ _
      ⟨_, .send _ .writeDSGsToDisk rfl, ?_⟩ ?_
    · intro f hf; simpa using hf.symm
    refine .tail _ _ _ ⟨_, .receive _ .writeDSGsToDisk [.writeDSGsToDisk] rfl rfl,
      fun _ hf => by simp at hf⟩ ?_
    refine .tail _ _ _ ⟨_, .finish _ .writeDSGsToDisk .wait rfl rfl (by decide),
      fun _ hf => by simp at hf⟩ ?_
    refine .tail _ _ _ ⟨_, .receive _ .writeDSGsToDisk [] rfl rfl, fun _ hf => by simp at hf⟩ ?_
    refine .tail _ _ _ ⟨_, .deliver _ .wait [] rfl (by decide), fun _ hf => by simp at hf⟩ ?_
    exact .refl _
  · intro s hr hs
    refine C40_guarded_functions_partial s ?_ (by rw [hs]; decide)
    refine hr.mono ?_
    rintro x y ⟨l, hstep, hl⟩
    refine ⟨l, hstep, fun f hf => ?_⟩
    rw [hl f hf]
    decide

/-- An orderly run: a task is run, its status arrives, then the group combines; while it combines the
status is BUSY. -/
example : Reaches (Orderly true) start ⟨.busy, 1, [], some .combine, []⟩ := by
  refine .tail _ ⟨.busy, 1, [.runfirst], none, []⟩ _ ⟨_, .send start .runfirst rfl, ?_⟩ ?_
  · rintro f ⟨⟩; decide
  refine .tail _ _ _ ⟨_, .receive _ .runfirst [] rfl rfl, fun _ hf => by simp at hf⟩ ?_
  refine .tail _ _ _ ⟨_, .finish _ .runfirst .wait rfl rfl (by decide), fun _ hf => by simp at hf⟩ ?_
  refine .tail _ _ _ ⟨_, .deliver _ .wait [] rfl (by decide), fun _ hf => by simp at hf⟩ ?_
  refine .tail _ ⟨.busy, 1, [.combine], none, []⟩ _ ⟨_, .send _ .combine rfl, ?_⟩ ?_
  · rintro f ⟨⟩; decide
  refine .tail _ _ _ ⟨_, .receive _ .combine [] rfl rfl, fun _ hf => by simp at hf⟩ ?_
  exact .refl _

end Verif.GroupStatus

import Verif.Model.FaultSchedule
import Verif.Props.SmallParts
import Mathlib.Tactic.Linarith

/-!
# C89: a process fails in the combination steps that were configured
-/

namespace Verif.FaultSchedule

/-! ## The specification -/

/-- How often a task ran on this process since it arrived here, looking back from the last event
(the list is the history, latest event first): `none` if it is not here. -/
def age (id : ℕ) : List Event → Option ℕ
  | [] => none
  | .receive j _ :: es => if j = id then some 0 else age id es
  | .run j _ :: es => if j = id then (age id es).map (· + 1) else age id es
  | .remove j :: es => if j = id then none else age id es
  | .reset :: _ => none

/-- The events before position `i`, latest first. -/
def before (es : List Event) (i : ℕ) : List Event := (es.take i).reverse

/-- Tasks are run only where they are. -/
def Proper (es : List Event) : Prop :=
  ∀ i id now, es[i]? = some (Event.run id now) → ∃ a, age id (before es i) = some a

/-- All tasks are sent with the criterion `c`. -/
def Sends (c : Criterion) (es : List Event) : Prop :=
  ∀ e ∈ es, ∀ id c', e = Event.receive id c' → c' = c

/-- The process is killed at position `i` of `es` if decisions are taken according to `P`, the age
of the task and the time: `i` is the first run of a task at which `P` holds. -/
def KilledAt (P : ℕ → ℚ → Prop) (es : List Event) (i : ℕ) : Prop :=
  ∃ id now a, es[i]? = some (Event.run id now) ∧ age id (before es i) = some a ∧ P a now ∧
    ∀ j < i, ∀ id' now' a', es[j]? = some (Event.run id' now') → age id' (before es j) = some a' →
      ¬ P a' now'

/-- Nothing happens: `P` holds at no run. -/
def Survives (P : ℕ → ℚ → Prop) (es : List Event) : Prop :=
  ∀ j id now a, es[j]? = some (Event.run id now) → age id (before es j) = some a → ¬ P a now

/-! ## The life of a process -/

/-- The state after the history `past` (latest first), all criteria sent being `c`. -/
private def Tracks (c : Criterion) (past : List Event) (S : Tasks) : Prop :=
  ∀ id, S id = (age id past).map fun a => ⟨a, c.sent⟩

private lemma life_spec (p : Proc) (c : Criterion) (P : ℕ → ℚ → Prop)
    (hP : ∀ a now, ∃ b, (Held.mk a c.sent).decideToKill p now = .ok b ∧ (b = true ↔ P a now))
    (all : List Event) (hsend : Sends c all) (hproper : Proper all) :
    ∀ (es past : List Event) (S : Tasks), all = past.reverse ++ es → Tracks c past S →
      (∀ j < past.length, ∀ id now a, all[j]? = some (Event.run id now) →
        age id (before all j) = some a → ¬ P a now) →
      (life p S past.length es = .ok none ∧ Survives P all) ∨
      (∃ i, life p S past.length es = .ok (some i) ∧ KilledAt P all i) := by
  intro es
  induction es with
  | nil =>
    intro past S hall _ hno
    left
    refine ⟨rfl, ?_⟩
    intro j id now a hj
    refine hno j ?_ id now a hj
    have := (List.getElem?_eq_some_iff.mp hj).1
    rw [hall] at this
    simpa using this
  | cons e es ih =>
    intro past S hall hT hno
    have hpos : all[past.length]? = some e := by
      rw [hall, List.getElem?_append_right (by simp)]
      simp
    have hbefore : before all past.length = past := by
      rw [before, hall, List.take_append_of_le_length (by simp)]
      rw [List.take_of_length_le (by simp), List.reverse_reverse]
    have hall' : all = (e :: past).reverse ++ es := by rw [hall]; simp
    have hlen : (e :: past).length = past.length + 1 := rfl
    -- steps which do not run a task
    have hskip : ∀ S', step p S e = .ok (some S') → Tracks c (e :: past) S' →
        (∀ id now a, e = Event.run id now → age id past = some a → ¬ P a now) →
        (life p S past.length (e :: es) = .ok none ∧ Survives P all) ∨
        (∃ i, life p S past.length (e :: es) = .ok (some i) ∧ KilledAt P all i) := by
      intro S' hS' hT' hnot
      have h := ih (e :: past) S' hall' hT' (by
        intro j hj id now a hrun hage
        rcases Nat.lt_succ_iff_lt_or_eq.mp (hlen ▸ hj) with h | h
        · exact hno j h id now a hrun hage
        · subst h
          rw [hpos] at hrun
          rw [hbefore] at hage
          exact hnot id now a (Option.some.inj hrun) hage)
      rw [hlen] at h
      simpa only [life, hS', Outcome.bind] using h
    have hmem : e ∈ all := by rw [hall]; simp
    cases e with
    | receive id c' =>
      have hc' : c' = c := hsend _ hmem id c' rfl
      subst hc'
      refine hskip _ rfl ?_ (by intro _ _ _ h; cases h)
      intro id'
      by_cases h : id = id'
      · subst h
        simp [age]
      · simp [age, h, Function.update_of_ne (Ne.symm h), hT id']
    | remove id =>
      refine hskip _ rfl ?_ (by intro _ _ _ h; cases h)
      intro id'
      by_cases h : id = id'
      · subst h
        simp [age]
      · simp [age, h, Function.update_of_ne (Ne.symm h), hT id']
    | reset =>
      refine hskip _ rfl ?_ (by intro _ _ _ h; cases h)
      intro id'
      simp [age]
    | run id now =>
      obtain ⟨a, ha⟩ := hproper past.length id now hpos
      rw [hbefore] at ha
      have hS : S id = some ⟨a, c.sent⟩ := by rw [hT id, ha]; rfl
      obtain ⟨b, hb, hbP⟩ := hP a now
      cases b with
      | true =>
        right
        refine ⟨past.length, ?_, id, now, a, hpos, by rw [hbefore]; exact ha, hbP.mp rfl, ?_⟩
        · simp only [life, step, hS, hb, Outcome.bind, if_true]
        · intro j hj id' now' a' hrun hage
          exact hno j hj id' now' a' hrun hage
      | false =>
        refine hskip (Function.update S id (some ⟨a + 1, c.sent⟩)) ?_ ?_ ?_
        · simp [step, hS, hb, Outcome.bind]
        · intro id'
          by_cases h : id = id'
          · subst h
            simp [age, ha]
          · simp [age, h, Function.update_of_ne (Ne.symm h), hT id']
        · intro id' now' a' he hage
          cases he
          rw [ha] at hage
          cases hage
          intro h
          exact absurd (hbP.mpr h) (by simp)

private lemma life_start (p : Proc) (c : Criterion) (P : ℕ → ℚ → Prop)
    (hP : ∀ a now, ∃ b, (Held.mk a c.sent).decideToKill p now = .ok b ∧ (b = true ↔ P a now))
    (es : List Event) (hsend : Sends c es) (hproper : Proper es) :
    (life p (fun _ => none) 0 es = .ok none ∧ Survives P es) ∨
      (∃ i, life p (fun _ => none) 0 es = .ok (some i) ∧ KilledAt P es i) :=
  life_spec p c P hP es hsend hproper es [] (fun _ => none) rfl (by intro id; rfl)
    (by intro j hj; exact absurd hj (by simp))

/-- Where a process is killed is unique, and then it does not survive. -/
theorem KilledAt.unique {P : ℕ → ℚ → Prop} {es : List Event} {i j : ℕ} (hi : KilledAt P es i)
    (hj : KilledAt P es j) : i = j := by
  obtain ⟨id, now, a, h1, h2, h3, h4⟩ := hi
  obtain ⟨id', now', a', h1', h2', h3', h4'⟩ := hj
  rcases Nat.lt_trichotomy i j with h | h | h
  · exact absurd h3 (h4' i h id now a h1 h2)
  · exact h
  · exact absurd h3' (h4 j h id' now' a' h1' h2')

theorem KilledAt.not_survives {P : ℕ → ℚ → Prop} {es : List Event} {i : ℕ} (hi : KilledAt P es i) :
    ¬ Survives P es := by
  obtain ⟨id, now, a, h1, h2, h3, _⟩ := hi
  intro h
  exact h i id now a h1 h2 h3

private lemma life_iff (p : Proc) (c : Criterion) (P : ℕ → ℚ → Prop)
    (hP : ∀ a now, ∃ b, (Held.mk a c.sent).decideToKill p now = .ok b ∧ (b = true ↔ P a now))
    (es : List Event) (hsend : Sends c es) (hproper : Proper es) :
    (life p (fun _ => none) 0 es = .ok none ↔ Survives P es) ∧
      ∀ i, (life p (fun _ => none) 0 es = .ok (some i) ↔ KilledAt P es i) := by
  rcases life_start p c P hP es hsend hproper with ⟨h, hs⟩ | ⟨i, h, hk⟩
  · refine ⟨⟨fun _ => hs, fun _ => h⟩, fun i => ⟨fun h' => ?_, fun h' => ?_⟩⟩
    · rw [h] at h'; cases h'
    · exact absurd hs h'.not_survives
  · refine ⟨⟨fun h' => ?_, fun h' => absurd h' hk.not_survives⟩, fun j => ⟨fun h' => ?_, fun h' => ?_⟩⟩
    · rw [h] at h'; cases h'
    · rw [h] at h'; cases h'; exact hk
    · rw [h, hk.unique h']

/-! ## The theorems -/

/-- **C89 (what the code does, configured faults).** A process is killed exactly at the first run
of a task whose age on this process — the number of times it ran here since it last arrived — is
not zero and is configured for this rank. Missing from the full claim: the age is not the
combination step of the simulation once a task has been moved or sent again (`C89_violated`), and
a fault configured for step `0` never happens. -/
theorem C89_configured_partial (p : Proc) (config : List (ℤ × ℤ)) (es : List Event)
    (hsend : Sends (.static (config.map Prod.fst) (config.map Prod.snd)) es) (hproper : Proper es) :
    let P : ℕ → ℚ → Prop := fun a _ => a ≠ 0 ∧ ((a : ℤ), p.rank) ∈ config
    (life p (fun _ => none) 0 es = .ok none ↔ Survives P es) ∧
      ∀ i, (life p (fun _ => none) 0 es = .ok (some i) ↔ KilledAt P es i) := by
  refine life_iff p _ _ ?_ es hsend hproper
  intro a now
  by_cases h : a = 0
  · exact ⟨false, by simp [Held.decideToKill, h], by simp [h]⟩
  · refine ⟨decide (((a : ℤ), p.rank) ∈ config), ?_, by simp [h]⟩
    simp only [Held.decideToKill, Criterion.sent, Criterion.failNow, ne_eq, h, not_false_eq_true,
      if_true]
    exact C54_failNow config a p.rank

/-- **C89 (what the code does, random faults).** With the random criterion a process is killed at
the first run of a task whose age is neither zero nor the number of combinations minus one,
unless the clock shows a time one second or more before its epoch: the sampled time plays no role,
because it is neither drawn nor sent. -/
theorem C89_random_partial (p : Proc) (w : Weibull) (es : List Event)
    (hsend : Sends (.weibull w) es) (hproper : Proper es) :
    let P : ℕ → ℚ → Prop := fun a now =>
      a ≠ 0 ∧ (w.faultMaster = true ∨ p.master = false) ∧ (a : ℤ) ≠ w.numberOfCombis - 1 ∧ -1 < now
    (life p (fun _ => none) 0 es = .ok none ↔ Survives P es) ∧
      ∀ i, (life p (fun _ => none) 0 es = .ok (some i) ↔ KilledAt P es i) := by
  refine life_iff p _ _ ?_ es hsend hproper
  intro a now
  by_cases h : a = 0
  · exact ⟨false, by simp [Held.decideToKill, h], by simp [h]⟩
  · refine ⟨w.sent.failNow p.master now a, ?_, ?_⟩
    · simp [Held.decideToKill, Criterion.sent, Criterion.failNow, h]
    · simp only [Weibull.failNow, Weibull.sent, sub_zero]
      cases hf : w.faultMaster <;> cases hm : p.master <;>
        by_cases hn : (a : ℤ) = w.numberOfCombis - 1 <;> simp [h, hn]

/-- **C89 (the criterion itself).** After `init` with a start time and a non-negative failure time a
process fails exactly when that much time has passed, except in the last combination and unless it
is a master that must not fail. -/
theorem C89_init (w : Weibull) (sample start tFault : ℚ) (h : 0 ≤ tFault) (master : Bool)
    (now : ℚ) (ncombi : ℤ) :
    (w.init sample start tFault).failNow master now ncombi = true ↔
      (w.faultMaster = true ∨ master = false) ∧ ncombi ≠ w.numberOfCombis - 1 ∧
        start + tFault < now := by
  have h' : ¬ tFault < 0 := not_lt.mpr h
  simp only [Weibull.failNow, Weibull.init, h', if_false]
  cases w.faultMaster <;> cases master <;> by_cases hn : ncombi = w.numberOfCombis - 1 <;>
    simp [hn] <;> constructor <;> intro <;> linarith

/-! ## Simulations without moved tasks -/

/-- The runs of one combination step: every task once, in the given order, at the given times. -/
def round (ids : List ℕ) (now : ℕ → ℕ → ℚ) (s : ℕ) : List Event :=
  ids.map fun id => Event.run id (now s id)

/-- A simulation: the tasks `ids` arrive and then run in the steps `0, …, n - 1`. -/
def simulation (c : Criterion) (ids : List ℕ) (now : ℕ → ℕ → ℚ) (n : ℕ) : List Event :=
  ids.map (fun id => Event.receive id c) ++ (List.range n).flatMap (round ids now)

private lemma age_receives (c : Criterion) (ids : List ℕ) (id : ℕ) (h : id ∈ ids) :
    age id (ids.map (fun id => Event.receive id c)).reverse = some 0 := by
  rw [← List.map_reverse]
  have h' : id ∈ ids.reverse := List.mem_reverse.mpr h
  revert h'
  generalize ids.reverse = l
  induction l with
  | nil => intro h'; simp at h'
  | cons x xs ih =>
    intro h'
    by_cases hx : x = id
    · simp [age, hx]
    · simp only [List.map_cons, age, if_neg hx]
      exact ih ((List.mem_cons.mp h').resolve_left (Ne.symm hx))

private lemma age_runs (id : ℕ) (past : List Event) (a : ℕ) (h : age id past = some a)
    (f : ℕ → ℚ) : ∀ ids : List ℕ, age id ((ids.map fun j => Event.run j (f j)).reverse ++ past) =
      some (a + ids.count id) := by
  intro ids
  induction ids using List.reverseRecOn with
  | nil => simpa using h
  | append_singleton xs x ih =>
    rw [List.map_append, List.reverse_append]
    simp only [List.map_cons, List.map_nil, List.reverse_cons, List.reverse_nil, List.nil_append,
      List.cons_append, age]
    by_cases hx : x = id
    · subst hx
      rw [if_pos rfl, ih]
      simp [List.count_append, Nat.add_assoc]
    · rw [if_neg hx, ih]
      simp [List.count_append, hx]

private lemma age_rounds (c : Criterion) (ids : List ℕ) (hnd : ids.Nodup) (now : ℕ → ℕ → ℚ)
    (id : ℕ) (h : id ∈ ids) : ∀ s, age id (simulation c ids now s).reverse = some s := by
  intro s
  induction s with
  | zero => simpa [simulation] using age_receives c ids id h
  | succ s ih =>
    rw [simulation, List.range_succ, List.flatMap_append, ← List.append_assoc, List.reverse_append]
    simp only [List.flatMap_cons, List.flatMap_nil, List.append_nil]
    have h' := age_runs id _ s ih (now s) ids
    rw [simulation] at h'
    rw [round, h']
    rw [List.count_eq_one_of_mem hnd h]

private lemma simulation_succ (c : Criterion) (ids : List ℕ) (now : ℕ → ℕ → ℚ) (n : ℕ) :
    simulation c ids now (n + 1) = simulation c ids now n ++ round ids now n := by
  simp [simulation, List.range_succ, List.flatMap_append, List.append_assoc]

private lemma simulation_length (c : Criterion) (ids : List ℕ) (now : ℕ → ℕ → ℚ) (n : ℕ) :
    (simulation c ids now n).length = ids.length * (n + 1) := by
  induction n with
  | zero => simp [simulation]
  | succ n ih => rw [simulation_succ, List.length_append, ih]; simp [round]; ring

private lemma simulation_prefix (c : Criterion) (ids : List ℕ) (now : ℕ → ℕ → ℚ) {s n : ℕ}
    (h : s ≤ n) : ∃ rest, simulation c ids now n = simulation c ids now s ++ rest := by
  induction n with
  | zero => exact ⟨[], by rw [Nat.le_zero.mp h]; simp⟩
  | succ n ih =>
    rcases Nat.le_succ_iff.mp h with h' | h'
    · obtain ⟨r, hr⟩ := ih h'
      exact ⟨r ++ round ids now n, by rw [simulation_succ, hr, List.append_assoc]⟩
    · exact ⟨[], by rw [h']; simp⟩

/-- A run at position `i` of a simulation belongs to the step `i / tasks - 1`, and that is the age
of the task. -/
private lemma simulation_run (c : Criterion) (ids : List ℕ) (hnd : ids.Nodup) (now : ℕ → ℕ → ℚ)
    (n i id : ℕ) (t : ℚ) (h : (simulation c ids now n)[i]? = some (Event.run id t)) :
    ∃ s k, s < n ∧ ∃ hk : k < ids.length, i = ids.length * (s + 1) + k ∧ id = ids[k] ∧
      t = now s id ∧ age id (before (simulation c ids now n) i) = some s := by
  have hi := (List.getElem?_eq_some_iff.mp h).1
  rw [simulation_length] at hi
  have hpos : 0 < ids.length := by
    rcases Nat.eq_zero_or_pos ids.length with h0 | h0
    · rw [h0] at hi; simp at hi
    · exact h0
  have hge : ids.length ≤ i := by
    by_contra hlt
    rw [simulation, List.getElem?_append_left (by simpa using hlt)] at h
    simp at h
  obtain ⟨s, hs⟩ : ∃ s, i / ids.length = s + 1 :=
    ⟨i / ids.length - 1, by have := (Nat.one_le_div_iff hpos).mpr hge; omega⟩
  have hdm := Nat.div_add_mod i ids.length
  have hk := Nat.mod_lt i hpos
  rw [hs] at hdm
  have hsn : s < n := by
    have : i / ids.length < n + 1 := Nat.div_lt_of_lt_mul hi
    omega
  obtain ⟨rest, hrest⟩ := simulation_prefix c ids now (Nat.succ_le_of_lt hsn)
  rw [simulation_succ] at hrest
  have hlen := simulation_length c ids now s
  have hrun : (simulation c ids now n)[i]? = some (Event.run ids[i % ids.length]
      (now s ids[i % ids.length])) := by
    rw [hrest, List.append_assoc, List.getElem?_append_right (by omega),
      List.getElem?_append_left (by rw [hlen, round, List.length_map]; omega)]
    rw [show i - (simulation c ids now s).length = i % ids.length by omega]
    simp [round, List.getElem?_eq_getElem hk]
  rw [hrun] at h
  simp only [Option.some.injEq, Event.run.injEq] at h
  refine ⟨s, i % ids.length, hsn, hk, hdm.symm, h.1.symm, by rw [← h.1]; exact h.2.symm, ?_⟩
  have htake : (simulation c ids now n).take i = simulation c ids now s ++
      (ids.take (i % ids.length)).map fun j => Event.run j (now s j) := by
    rw [hrest, List.append_assoc, List.take_append, List.take_of_length_le (by omega),
      List.take_append_of_le_length (by rw [round, List.length_map]; omega)]
    rw [show i - (simulation c ids now s).length = i % ids.length by omega, round, List.map_take]
  rw [before, htake, List.reverse_append, age_runs id _ s ?_ (now s)]
  · rw [← h.1, List.count_eq_zero_of_not_mem]
    · rfl
    · intro hmem
      obtain ⟨q, hq, e⟩ := List.mem_iff_getElem.mp hmem
      rw [List.getElem_take] at e
      rw [List.length_take] at hq
      have := (List.Nodup.getElem_inj_iff hnd).mp e
      omega
  · exact age_rounds c ids hnd now id (by rw [← h.1]; exact List.getElem_mem hk) s

private lemma simulation_sends (c : Criterion) (ids : List ℕ) (now : ℕ → ℕ → ℚ) (n : ℕ) :
    Sends c (simulation c ids now n) := by
  intro e he id c' hec
  subst hec
  simp [simulation, round] at he
  exact he.2.symm

private lemma simulation_proper (c : Criterion) (ids : List ℕ) (hnd : ids.Nodup)
    (now : ℕ → ℕ → ℚ) (n : ℕ) : Proper (simulation c ids now n) := by
  intro i id t h
  obtain ⟨s, _, _, _, _, _, _, hage⟩ := simulation_run c ids hnd now n i id t h
  exact ⟨s, hage⟩

private lemma simulation_at (c : Criterion) (ids : List ℕ) (now : ℕ → ℕ → ℚ) (n s k : ℕ)
    (hs : s < n) (hk : k < ids.length) :
    (simulation c ids now n)[ids.length * (s + 1) + k]? =
      some (Event.run ids[k] (now s ids[k])) := by
  obtain ⟨rest, hrest⟩ := simulation_prefix c ids now (Nat.succ_le_of_lt hs)
  rw [simulation_succ] at hrest
  have hlen := simulation_length c ids now s
  rw [hrest, List.append_assoc, List.getElem?_append_right (by omega),
    List.getElem?_append_left (by rw [hlen, round, List.length_map]; omega)]
  rw [show ids.length * (s + 1) + k - (simulation c ids now s).length = k by omega]
  simp [round, List.getElem?_eq_getElem hk]

/-- **C89 (tasks that stay).** If the tasks of a group arrive once and are never moved, a process is
killed in the first configured combination step after step `0`, at the end of the first task of
that step; without such a step it survives. -/
theorem C89_stay_partial (p : Proc) (config : List (ℤ × ℤ)) (ids : List ℕ) (hne : ids ≠ [])
    (hnd : ids.Nodup) (now : ℕ → ℕ → ℚ) (n : ℕ) :
    let es := simulation (.static (config.map Prod.fst) (config.map Prod.snd)) ids now n
    (∀ s, s < n → s ≠ 0 → ((s : ℤ), p.rank) ∈ config →
      (∀ r < s, r ≠ 0 → ((r : ℤ), p.rank) ∉ config) →
      life p (fun _ => none) 0 es = .ok (some (ids.length * (s + 1)))) ∧
    ((∀ s < n, s ≠ 0 → ((s : ℤ), p.rank) ∉ config) → life p (fun _ => none) 0 es = .ok none) := by
  intro es
  have hpos : 0 < ids.length := List.length_pos_iff.mpr hne
  obtain ⟨hsv, hk⟩ := C89_configured_partial p config es (simulation_sends _ ids now n)
    (simulation_proper _ ids hnd now n)
  refine ⟨fun s hs h0 hin hmin => (hk _).mpr ?_, fun hno => hsv.mpr ?_⟩
  · have hat := simulation_at (.static (config.map Prod.fst) (config.map Prod.snd)) ids now n s 0 hs
      hpos
    rw [Nat.add_zero] at hat
    obtain ⟨s', k', _, hk', e, _, _, hage⟩ := simulation_run _ ids hnd now n _ _ _ hat
    have hss : s' = s := by
      have h1 : (ids.length * (s + 1)) / ids.length = s + 1 := Nat.mul_div_cancel_left _ hpos
      have h2 : (ids.length * (s' + 1) + k') / ids.length = s' + 1 := by
        rw [Nat.mul_add_div hpos, Nat.div_eq_of_lt hk', Nat.add_zero]
      rw [← e, h1] at h2
      omega
    subst hss
    refine ⟨_, _, s', hat, hage, ⟨h0, hin⟩, ?_⟩
    intro j hj id' now' a' hrun hage'
    obtain ⟨r, q, _, _, e', _, _, hage''⟩ := simulation_run _ ids hnd now n _ _ _ hrun
    have : a' = r := Option.some.inj (hage'.symm.trans hage'')
    subst this
    rintro ⟨hr0, hrin⟩
    refine hmin a' ?_ hr0 hrin
    have : ids.length * (a' + 1) < ids.length * (s' + 1) := by omega
    have := Nat.lt_of_mul_lt_mul_left this
    omega
  · intro j id t a hrun hage
    obtain ⟨r, _, hr, _, _, _, _, hage'⟩ := simulation_run _ ids hnd now n _ _ _ hrun
    have : a = r := Option.some.inj (hage.symm.trans hage')
    subst this
    rintro ⟨h0, hin⟩
    exact hno a hr h0 hin

example : life ⟨4, false⟩ (fun _ => none) 0
    (simulation (.static [3, 1, 2] [4, 0, 4]) [7, 9] (fun s id => s + id) 5) =
    .ok (some (2 * 3)) := by
  have h := (C89_stay_partial ⟨4, false⟩ [(3, 4), (1, 0), (2, 4)] [7, 9] (by simp) (by decide)
    (fun s id => s + id) 5).1 2 (by decide) (by decide) (by decide) (by decide)
  exact h

/-- **C89 is violated (configured faults).** Rank `4` shall fail in combination step `2`. Its group
lost its tasks before step `2` because another process of the group failed, and got them back. Then
rank `4` passes step `2` alive and fails in step `4` instead, two steps after the tasks came back. -/
theorem C89_violated :
    let c := Criterion.static [2] [4]
    let es := [Event.receive 0 c, .run 0 10, .run 0 11, .reset, .receive 0 c,
      .run 0 12, .run 0 13, .run 0 14]
    life ⟨4, false⟩ (fun _ => none) 0 es = .ok (some 7) := by decide +kernel

/-- **C89 is violated (random faults).** Whatever shape and scale are chosen, every process that may
fail is killed in combination step `1`, unless that is the last one: no time is ever sampled. -/
theorem C89_random_violated (p : Proc) (k lambda : ℚ) (combis : ℤ) (hc : combis ≠ 2)
    (faultMaster : Bool) (hm : faultMaster = true ∨ p.master = false) (ids : List ℕ)
    (hne : ids ≠ []) (hnd : ids.Nodup) (now : ℕ → ℕ → ℚ) (hnow : ∀ s id, 0 ≤ now s id) (n : ℕ)
    (hn : 2 ≤ n) :
    life p (fun _ => none) 0
      (simulation (.weibull (Weibull.new k lambda combis faultMaster)) ids now n) =
        .ok (some (ids.length * 2)) := by
  have hpos : 0 < ids.length := List.length_pos_iff.mpr hne
  obtain ⟨_, hk⟩ := C89_random_partial p (Weibull.new k lambda combis faultMaster) _
    (simulation_sends _ ids now n) (simulation_proper _ ids hnd now n)
  refine (hk _).mpr ?_
  have hat := simulation_at (.weibull (Weibull.new k lambda combis faultMaster)) ids now n 1 0
    (by omega) hpos
  rw [Nat.add_zero] at hat
  obtain ⟨s', k', _, hk', e, _, _, hage⟩ := simulation_run _ ids hnd now n _ _ _ hat
  have hss : s' = 1 := by
    have h1 : (ids.length * (1 + 1)) / ids.length = 1 + 1 := Nat.mul_div_cancel_left _ hpos
    have h2 : (ids.length * (s' + 1) + k') / ids.length = s' + 1 := by
      rw [Nat.mul_add_div hpos, Nat.div_eq_of_lt hk', Nat.add_zero]
    rw [← e, h1] at h2
    omega
  subst hss
  refine ⟨_, _, 1, hat, hage, ⟨by decide, hm, ?_, ?_⟩, ?_⟩
  · show (1 : ℤ) ≠ combis - 1
    omega
  · have := hnow 1 ids[0]
    linarith
  · intro j hj id' now' a' hrun hage'
    obtain ⟨r, q, _, _, e', _, _, hage''⟩ := simulation_run _ ids hnd now n _ _ _ hrun
    have : a' = r := Option.some.inj (hage'.symm.trans hage'')
    subst this
    rintro ⟨h0, _⟩
    have : ids.length * (a' + 1) < ids.length * (1 + 1) := by omega
    have := Nat.lt_of_mul_lt_mul_left this
    omega

example : life ⟨0, true⟩ (fun _ => none) 0
    (simulation (.weibull (Weibull.new (7 / 10) 1000 10 true)) [3, 5] (fun s _ => 1000 + s) 10) =
    .ok (some 4) :=
  C89_random_violated ⟨0, true⟩ (7 / 10) 1000 10 (by decide) true (Or.inl rfl) [3, 5] (by simp)
    (by decide) _ (by intro s id; positivity) 10 (by decide)

end Verif.FaultSchedule

import Verif.Model.Stats
import Mathlib.Data.List.Basic
import Mathlib.Data.List.Nodup

/-!
# Auxiliary facts about timing events
-/

namespace Verif

/-- the number of a written event in all files -/
def timesIn (s : StatsState) (n : String) (i : ℕ) : ℕ :=
  (s.files.flatten.filter fun r => decide (r.name = n ∧ r.index = i)).length

/-- each name occurs once -/
def NamesNodup (event : List (String × List StatsEvent)) : Prop := (event.map Prod.fst).Nodup

lemma eventsOf_setEvents (event : List (String × List StatsEvent)) (n m : String)
    (es : List StatsEvent) :
    eventsOf (setEvents event n es) m = if m = n then es else eventsOf event m := by
  induction event with
  | nil => simp [setEvents, eventsOf, eq_comm]
  | cons p ps ih =>
    obtain ⟨a, old⟩ := p
    simp only [setEvents]
    by_cases h : a = n
    · subst h
      by_cases hm : m = a
      · subst hm; simp [eventsOf]
      · simp [eventsOf, hm, Ne.symm hm]
    · rw [if_neg h]
      simp only [eventsOf, ih]
      by_cases hm : a = m
      · subst hm; simp [h]
      · simp [hm]

lemma setEvents_names (event : List (String × List StatsEvent)) (n : String) (es : List StatsEvent) :
    (setEvents event n es).map Prod.fst =
      if n ∈ event.map Prod.fst then event.map Prod.fst else event.map Prod.fst ++ [n] := by
  induction event with
  | nil => simp [setEvents]
  | cons p ps ih =>
    obtain ⟨a, old⟩ := p
    simp only [setEvents]
    by_cases h : a = n
    · subst h; simp
    · rw [if_neg h, List.map_cons, ih]
      by_cases hm : n ∈ ps.map Prod.fst
      · simp only [if_pos hm, List.map_cons, List.mem_cons, Ne.symm h, false_or]
      · simp only [if_neg hm, List.map_cons, List.mem_cons, Ne.symm h, false_or, List.cons_append]

lemma setEvents_nodup {event : List (String × List StatsEvent)} (h : NamesNodup event) (n : String)
    (es : List StatsEvent) : NamesNodup (setEvents event n es) := by
  unfold NamesNodup at *
  rw [setEvents_names]
  split
  · exact h
  · rename_i hn
    exact List.nodup_append.mpr ⟨h, by simp, by
      intro a ha b hb
      simp only [List.mem_singleton] at hb
      subst hb
      rintro rfl
      exact hn ha⟩

lemma recordsOf_filter_other {u : ℕ} {a n : String} (h : a ≠ n) (i : ℕ) :
    ∀ (es : List StatsEvent) (k : ℕ),
      (recordsOf u a k es).filter (fun r => decide (r.name = n ∧ r.index = i)) = [] := by
  intro es
  induction es with
  | nil => intro k; simp [recordsOf]
  | cons e es ih =>
    intro k
    simp only [recordsOf]
    split
    · rw [List.filter_cons_of_neg (by simp [h]), ih]
    · exact ih _

lemma recordsOf_filter_before {u : ℕ} {n : String} (i : ℕ) :
    ∀ (es : List StatsEvent) (k : ℕ), i < k →
      (recordsOf u n k es).filter (fun r => decide (r.name = n ∧ r.index = i)) = [] := by
  intro es
  induction es with
  | nil => intro k _; simp [recordsOf]
  | cons e es ih =>
    intro k hk
    simp only [recordsOf]
    split
    · rw [List.filter_cons_of_neg (by simp; omega), ih _ (by omega)]
    · exact ih _ (by omega)

/-- the records of the event `j` of name `n` in the list of `n` -/
lemma recordsOf_filter {u : ℕ} {n : String} :
    ∀ (es : List StatsEvent) (k j : ℕ),
      (recordsOf u n k es).filter (fun r => decide (r.name = n ∧ r.index = k + j)) =
        match es[j]? with
        | none => []
        | some e => if e.stop ≠ e.start ∧ u < e.stop then [⟨n, k + j, e.start, e.stop⟩] else [] := by
  intro es
  induction es with
  | nil => intro k j; simp [recordsOf]
  | cons e es ih =>
    intro k j
    cases j with
    | zero =>
      simp only [recordsOf, Nat.add_zero, List.getElem?_cons_zero]
      have h := recordsOf_filter_before (u := u) (n := n) k es (k + 1) (by omega)
      split
      · rw [List.filter_cons_of_pos (by simp), h]
      · exact h
    | succ j =>
      have h := ih (k + 1) j
      have e1 : k + 1 + j = k + (j + 1) := by omega
      rw [e1] at h
      simp only [recordsOf, List.getElem?_cons_succ]
      split
      · rw [List.filter_cons_of_neg (by simp), h]
      · exact h

/-- the records of an event in a file -/
lemma file_filter (u : ℕ) (n : String) (j : ℕ) :
    ∀ event : List (String × List StatsEvent), NamesNodup event →
      (event.flatMap fun p => recordsOf u p.1 0 p.2).filter
          (fun r => decide (r.name = n ∧ r.index = j)) =
        match (eventsOf event n)[j]? with
        | none => []
        | some e => if e.stop ≠ e.start ∧ u < e.stop then [⟨n, j, e.start, e.stop⟩] else [] := by
  intro event
  induction event with
  | nil => intro _; simp [eventsOf]
  | cons p ps ih =>
    intro hnd
    obtain ⟨a, es⟩ := p
    have hnd' : a ∉ ps.map Prod.fst ∧ NamesNodup ps := by
      simpa [NamesNodup] using hnd
    rw [List.flatMap_cons, List.filter_append]
    by_cases h : a = n
    · subst h
      have hrest : (ps.flatMap fun p => recordsOf u p.1 0 p.2).filter
          (fun r => decide (r.name = a ∧ r.index = j)) = [] := by
        have h2 := hnd'.1
        clear ih hnd hnd'
        induction ps with
        | nil => simp
        | cons q qs ihq =>
          rw [List.flatMap_cons, List.filter_append, ihq (fun h => h2 (by simp at h ⊢; tauto))]
          rw [recordsOf_filter_other (fun h => h2 (by simp [h]))]
          rfl
      have := recordsOf_filter (u := u) (n := a) es 0 j
      rw [Nat.zero_add] at this
      rw [hrest, List.append_nil, this]
      simp [eventsOf]
    · rw [recordsOf_filter_other h, List.nil_append, ih hnd'.2]
      simp [eventsOf, h]

/-- the reading of the clock of an operation -/
def StatsOp.time : StatsOp → ℕ
  | .startEvent _ t => t
  | .stopEvent _ t => t
  | .writePartial t => t

def StatsOp.isWrite : StatsOp → Bool
  | .writePartial _ => true
  | _ => false

/-- number of the events of a name that were started -/
def startsOf (n : String) : List StatsOp → ℕ
  | [] => 0
  | .startEvent m _ :: ops => (if m = n then 1 else 0) + startsOf n ops
  | _ :: ops => startsOf n ops

lemma startsOf_append (n : String) (a b : List StatsOp) :
    startsOf n (a ++ b) = startsOf n a + startsOf n b := by
  induction a with
  | nil => simp [startsOf]
  | cons o os ih =>
    cases o <;> simp [startsOf, ih, Nat.add_assoc]

lemma statsRun_append (c : Bool) (s : StatsState) (a b : List StatsOp) :
    statsRun c s (a ++ b) = (statsRun c s a).bind fun s' => statsRun c s' b := by
  induction a generalizing s with
  | nil => rfl
  | cons o os ih =>
    simp only [List.cons_append, statsRun]
    cases statsStep c s o with
    | ok s' => simp [Outcome.bind, ih]
    | error => rfl
    | stuck => rfl

/-- the time of the last start of an event of the name -/
def lastStart (n : String) : List StatsOp → Option ℕ
  | [] => none
  | op :: ops =>
    match lastStart n ops, op with
    | some t, _ => some t
    | none, .startEvent m t => if m = n then some t else none
    | none, _ => none

lemma lastStart_snoc (n : String) (ops : List StatsOp) (op : StatsOp) :
    lastStart n (ops ++ [op]) = match op with
      | .startEvent m t => if m = n then some t else lastStart n ops
      | _ => lastStart n ops := by
  induction ops with
  | nil => cases op <;> simp [lastStart]
  | cons o os ih =>
    simp only [List.cons_append, lastStart, ih]
    cases op with
    | startEvent m t =>
      by_cases h : m = n
      · simp [h]
      · simp [h]
    | stopEvent m t => simp
    | writePartial t => simp

/-- What holds after every sequence of operations: names are different, every name has one entry for
each start, each record belongs to a finished event. -/
structure StatsInv (t0 : ℕ) (ops : List StatsOp) (s : StatsState) : Prop where
  names : NamesNodup s.event
  len : ∀ n, (eventsOf s.event n).length = startsOf n ops
  written : ∀ r ∈ s.files.flatten, (eventsOf s.event r.name)[r.index]? = some ⟨r.start, r.stop⟩ ∧ r.stop ≠ 0
  last : ∀ n, ((eventsOf s.event n).getLast?).map StatsEvent.start = lastStart n ops
  untl : s.until_ = t0 ∨ ∃ op ∈ ops, op.isWrite ∧ op.time = s.until_

lemma recordsOf_mem {u : ℕ} {n : String} {r : StatsRecord} :
    ∀ (es : List StatsEvent) (k : ℕ), r ∈ recordsOf u n k es →
      ∃ j e, es[j]? = some e ∧ r = ⟨n, k + j, e.start, e.stop⟩ ∧ u < e.stop := by
  intro es
  induction es with
  | nil => intro k h; simp [recordsOf] at h
  | cons e es ih =>
    intro k h
    simp only [recordsOf] at h
    split at h
    · rename_i hc
      rcases List.mem_cons.mp h with h | h
      · exact ⟨0, e, rfl, h, hc.2⟩
      · obtain ⟨j, e', h1, h2, h3⟩ := ih _ h
        exact ⟨j + 1, e', h1, by rw [h2]; congr 1; omega, h3⟩
    · obtain ⟨j, e', h1, h2, h3⟩ := ih _ h
      exact ⟨j + 1, e', h1, by rw [h2]; congr 1; omega, h3⟩

lemma eventsOf_of_mem {event : List (String × List StatsEvent)} (h : NamesNodup event)
    {n : String} {es : List StatsEvent} (hm : (n, es) ∈ event) : eventsOf event n = es := by
  induction event with
  | nil => simp at hm
  | cons p ps ih =>
    obtain ⟨a, old⟩ := p
    have h' : a ∉ ps.map Prod.fst ∧ NamesNodup ps := by simpa [NamesNodup] using h
    rcases List.mem_cons.mp hm with hm | hm
    · simp only [Prod.mk.injEq] at hm
      obtain ⟨rfl, rfl⟩ := hm
      simp [eventsOf]
    · have : a ≠ n := by
        rintro rfl
        exact h'.1 (List.mem_map.mpr ⟨_, hm, rfl⟩)
      simp [eventsOf, this, ih h'.2 hm]

lemma statsInv_step {t0 : ℕ} {ops : List StatsOp} {s s' : StatsState} {op : StatsOp}
    (hi : StatsInv t0 ops s) (h : statsStep true s op = .ok s') :
    StatsInv t0 (ops ++ [op]) s' := by
  have hunt : ∀ u, (u = t0 ∨ ∃ op ∈ ops, op.isWrite ∧ op.time = u) →
      (u = t0 ∨ ∃ op' ∈ ops ++ [op], op'.isWrite ∧ op'.time = u) := by
    rintro u (h | ⟨o, h1, h2⟩)
    · exact Or.inl h
    · exact Or.inr ⟨o, by simp [h1], h2⟩
  cases op with
  | startEvent m now =>
    simp only [statsStep, Outcome.ok.injEq] at h
    subst h
    refine ⟨setEvents_nodup hi.names _ _, ?_, ?_, ?_, hunt _ hi.untl⟩
    · intro n
      simp only [eventsOf_setEvents, startsOf_append, startsOf]
      by_cases hn : n = m
      · subst hn; simp [hi.len]
      · simp [hn, Ne.symm hn, hi.len]
    rotate_left
    · intro n
      simp only [eventsOf_setEvents, lastStart_snoc]
      by_cases hn : n = m
      · subst hn; simp
      · simp [hn, Ne.symm hn, hi.last]
    · intro r hr
      obtain ⟨h1, h2⟩ := hi.written r hr
      refine ⟨?_, h2⟩
      simp only [eventsOf_setEvents]
      split
      · rename_i hn
        rw [List.getElem?_append_left (by rw [← hn]; exact (List.getElem?_eq_some_iff.mp h1).1),
          ← hn]
        exact h1
      · exact h1
  | stopEvent m now =>
    simp only [statsStep] at h
    cases hl : (eventsOf s.event m).getLast? with
    | none => rw [hl] at h; simp at h
    | some e =>
      rw [hl] at h
      simp only [true_and] at h
      split_ifs at h with hz
      simp only [Outcome.ok.injEq] at h
      subst h
      push Not at hz
      have hne : eventsOf s.event m ≠ [] := by rintro h0; rw [h0] at hl; simp at hl
      have hlast : eventsOf s.event m = (eventsOf s.event m).dropLast ++ [e] := by
        have := List.dropLast_append_getLast? (l := eventsOf s.event m) e (by simp [hl])
        exact this.symm
      refine ⟨setEvents_nodup hi.names _ _, ?_, ?_, ?_, hunt _ hi.untl⟩
      rotate_right
      · intro n
        simp only [eventsOf_setEvents, lastStart_snoc]
        by_cases hn : n = m
        · subst hn
          rw [← hi.last, hl]
          simp
        · simp [hn, hi.last]
      · intro n
        simp only [eventsOf_setEvents, startsOf_append, startsOf]
        by_cases hn : n = m
        · subst hn
          have := List.length_pos_of_ne_nil hne
          simp only [if_true, List.length_append, List.length_dropLast, List.length_singleton,
            ← hi.len]
          omega
        · simp [hn, hi.len]
      · intro r hr
        obtain ⟨h1, h2⟩ := hi.written r hr
        refine ⟨?_, h2⟩
        simp only [eventsOf_setEvents]
        split
        · rename_i hn
          rw [hn] at h1
          rw [hlast] at h1
          by_cases hlt : r.index < (eventsOf s.event m).dropLast.length
          · rw [List.getElem?_append_left hlt] at h1 ⊢
            exact h1
          · exfalso
            rw [List.getElem?_append_right (by omega)] at h1
            by_cases h0 : r.index - (eventsOf s.event m).dropLast.length = 0
            · rw [h0] at h1
              simp only [List.getElem?_cons_zero, Option.some.injEq] at h1
              rw [h1] at hz
              exact h2 hz
            · obtain ⟨q, hq⟩ := Nat.exists_eq_succ_of_ne_zero h0
              rw [hq] at h1
              simp at h1
        · exact h1
  | writePartial now =>
    simp only [statsStep, Outcome.ok.injEq] at h
    subst h
    refine ⟨hi.names, ?_, ?_, ?_, Or.inr ⟨.writePartial now, by simp, rfl, rfl⟩⟩
    · intro n
      simp [startsOf_append, startsOf, hi.len]
    rotate_left
    · intro n
      simp [lastStart_snoc, hi.last]
    · intro r hr
      rw [List.flatten_append, List.mem_append] at hr
      rcases hr with hr | hr
      · exact hi.written r hr
      · simp only [List.flatten_cons, List.flatten_nil, List.append_nil, List.mem_flatMap] at hr
        obtain ⟨⟨n, es⟩, hp, hr⟩ := hr
        obtain ⟨j, e, h1, h2, h3⟩ := recordsOf_mem _ _ hr
        subst h2
        refine ⟨?_, by simp only; omega⟩
        simp only [Nat.zero_add]
        rw [eventsOf_of_mem hi.names hp]
        exact h1

lemma statsInv_run {t0 : ℕ} {ops : List StatsOp} : ∀ {pre : List StatsOp} {s s' : StatsState},
    StatsInv t0 pre s → statsRun true s ops = .ok s' →
    StatsInv t0 (pre ++ ops) s' := by
  induction ops with
  | nil =>
    intro pre s s' hi h
    simp only [statsRun, Outcome.ok.injEq] at h
    subst h
    simpa using hi
  | cons op ops ih =>
    intro pre s s' hi h
    simp only [statsRun] at h
    cases h1 : statsStep true s op with
    | ok s1 =>
      rw [h1] at h
      have := ih (statsInv_step hi h1) h
      simpa using this
    | error => rw [h1] at h; simp [Outcome.bind] at h
    | stuck => rw [h1] at h; simp [Outcome.bind] at h

lemma statsInv_init (t0 : ℕ) : StatsInv t0 [] (statsInit t0) :=
  ⟨by simp [NamesNodup, statsInit], by simp [statsInit, eventsOf, startsOf],
    by simp [statsInit], by simp [statsInit, eventsOf, lastStart], Or.inl rfl⟩

/-- a finished event is not changed by any step -/
lemma event_kept {s s' : StatsState} {op : StatsOp} {n : String} {j : ℕ} {e : StatsEvent}
    (he : (eventsOf s.event n)[j]? = some e) (hs : e.stop ≠ 0) (h : statsStep true s op = .ok s') :
    (eventsOf s'.event n)[j]? = some e := by
  cases op with
  | startEvent m now =>
    simp only [statsStep, Outcome.ok.injEq] at h
    subst h
    simp only [eventsOf_setEvents]
    split
    · rename_i hn
      rw [← hn, List.getElem?_append_left (List.getElem?_eq_some_iff.mp he).1]
      exact he
    · exact he
  | stopEvent m now =>
    simp only [statsStep] at h
    cases hl : (eventsOf s.event m).getLast? with
    | none => rw [hl] at h; simp at h
    | some e' =>
      rw [hl] at h
      simp only [true_and] at h
      split_ifs at h with hz
      simp only [Outcome.ok.injEq] at h
      subst h
      push Not at hz
      have hlast : eventsOf s.event m = (eventsOf s.event m).dropLast ++ [e'] :=
        (List.dropLast_append_getLast? (l := eventsOf s.event m) e' (by simp [hl])).symm
      simp only [eventsOf_setEvents]
      split
      · rename_i hn
        rw [hn, hlast] at he
        by_cases hlt : j < (eventsOf s.event m).dropLast.length
        · rw [List.getElem?_append_left hlt] at he ⊢
          exact he
        · exfalso
          rw [List.getElem?_append_right (by omega)] at he
          by_cases h0 : j - (eventsOf s.event m).dropLast.length = 0
          · rw [h0] at he
            simp only [List.getElem?_cons_zero, Option.some.injEq] at he
            subst he
            exact hs hz
          · obtain ⟨q, hq⟩ := Nat.exists_eq_succ_of_ne_zero h0
            rw [hq] at he
            simp at he
      · exact he
  | writePartial now =>
    simp only [statsStep, Outcome.ok.injEq] at h
    subst h
    exact he

/-- records of an event added by one step -/
lemma timesIn_step {s s' : StatsState} {op : StatsOp} {n : String} {j : ℕ} {e : StatsEvent}
    (hn : NamesNodup s.event) (he : (eventsOf s.event n)[j]? = some e)
    (h : statsStep true s op = .ok s') :
    timesIn s' n j = timesIn s n j +
      if op.isWrite ∧ e.stop ≠ e.start ∧ s.until_ < e.stop then 1 else 0 := by
  cases op with
  | startEvent m now =>
    simp only [statsStep, Outcome.ok.injEq] at h
    subst h
    simp [timesIn, StatsOp.isWrite]
  | stopEvent m now =>
    simp only [statsStep] at h
    cases hl : (eventsOf s.event m).getLast? with
    | none => rw [hl] at h; simp at h
    | some e' =>
      rw [hl] at h
      simp only [true_and] at h
      split_ifs at h
      simp only [Outcome.ok.injEq] at h
      subst h
      simp [timesIn, StatsOp.isWrite]
  | writePartial now =>
    simp only [statsStep, Outcome.ok.injEq] at h
    subst h
    simp only [timesIn, List.flatten_append, List.filter_append, List.length_append]
    have := file_filter s.until_ n j s.event hn
    rw [he] at this
    simp only [List.flatten_cons, List.flatten_nil, List.append_nil, this, StatsOp.isWrite, true_and]
    split <;> simp

/-- records of a finished event added by a sequence of operations -/
lemma timesIn_run {n : String} {j : ℕ} {e : StatsEvent} (hs : e.stop ≠ 0) :
    ∀ {ops : List StatsOp} {s s' : StatsState} {t0 : ℕ} {pre : List StatsOp},
      StatsInv t0 pre s → (eventsOf s.event n)[j]? = some e → statsRun true s ops = .ok s' →
      (∀ op ∈ ops, e.stop ≤ op.time) →
      timesIn s' n j = timesIn s n j +
        if (∃ op ∈ ops, op.isWrite) ∧ e.stop ≠ e.start ∧ s.until_ < e.stop then 1 else 0 := by
  intro ops
  induction ops with
  | nil =>
    intro s s' t0 pre _ _ h _
    simp only [statsRun, Outcome.ok.injEq] at h
    subst h
    simp
  | cons op ops ih =>
    intro s s' t0 pre hi he h ht
    simp only [statsRun] at h
    cases h1 : statsStep true s op with
    | ok s1 =>
      rw [h1] at h
      have ht1 := ht op (by simp)
      have hi1 := statsInv_step hi h1
      have h2 := ih hi1 (event_kept he hs h1) h (fun o ho => ht o (by simp [ho]))
      have h3 := timesIn_step hi.names he h1
      rw [h2, h3]
      cases op with
      | writePartial now =>
        have hu : s1.until_ = now := by
          simp only [statsStep, Outcome.ok.injEq] at h1
          subst h1; rfl
        simp only [StatsOp.time] at ht1
        rw [hu]
        have : ¬ now < e.stop := by omega
        simp [StatsOp.isWrite, this]
      | startEvent m now =>
        have hu : s1.until_ = s.until_ := by
          simp only [statsStep, Outcome.ok.injEq] at h1
          subst h1; rfl
        have e1 : (StatsOp.startEvent m now).isWrite = false := rfl
        simp only [hu, List.mem_cons, exists_eq_or_imp, e1, Bool.false_eq_true, false_and, false_or,
          if_false, Nat.add_zero]
      | stopEvent m now =>
        have hu : s1.until_ = s.until_ := by
          simp only [statsStep] at h1
          cases hl : (eventsOf s.event m).getLast? with
          | none => rw [hl] at h1; simp at h1
          | some e' =>
            rw [hl] at h1
            simp only [true_and] at h1
            split_ifs at h1
            simp only [Outcome.ok.injEq] at h1
            subst h1; rfl
        have e1 : (StatsOp.stopEvent m now).isWrite = false := rfl
        simp only [hu, List.mem_cons, exists_eq_or_imp, e1, Bool.false_eq_true, false_and, false_or,
          if_false, Nat.add_zero]
    | error => rw [h1] at h; simp [Outcome.bind] at h
    | stuck => rw [h1] at h; simp [Outcome.bind] at h

end Verif

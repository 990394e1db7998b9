import Verif.Lemmas.LoadModels
import Mathlib.Tactic.NormNum
import Mathlib.Tactic.Linarith
import Mathlib.Algebra.Order.Field.Rat

/-!
# Load models that learn from durations (C75, C76)

`C75_average_partial`: after any calls of `addDurationInformation`, `AverageOfLastNLoadModel` predicts the
average of the last `n` durations of the task, and uses the other load model for tasks without history.
Missing for the full statement, because the code behaves differently:
`C75_sum_violated`: a sum of `2 ^ 31` microseconds (36 minutes) or more becomes negative;
`C75_zero_violated`: `n = 0` removes from an empty deque;
`C75_no_history_violated`: `evalSpecificUOT` without history divides zero by zero, where the documentation
promises zero seconds.

`C76_eval`, `C76_files`, `C76_restart`: what `AveragingLoadModel` predicts, what it writes to its files, and
what a later run predicts from them.
-/

namespace Verif.LoadModels

/-- Specification: the durations of task `l` in the order of the calls. -/
def durationsOf {α : Type} (hist : List (List ℕ × α)) (l : List ℕ) : List α :=
  hist.filterMap fun e => if e.1 = l then some e.2 else none

/-- Specification: the last `n` entries. -/
def lastOf {α : Type} (n : ℕ) (ds : List α) : List α := ds.drop (ds.length - n)

lemma toInt32_step (s d : ℕ) :
    toInt32 ((toInt32 (s : ℤ) + (d : ℤ)) % 2 ^ 64) = toInt32 ((s + d : ℕ) : ℤ) := by
  unfold toInt32
  push_cast
  omega

lemma foldl_toInt32 (ds : List ℕ) (s : ℕ) (a : ℤ) (ha : a = toInt32 (s : ℤ)) :
    ds.foldl (fun (acc : ℤ) (d : ℕ) => toInt32 ((acc + (d : ℤ)) % 2 ^ 64)) a =
      toInt32 ((s + ds.sum : ℕ) : ℤ) := by
  induction ds generalizing s a with
  | nil => rw [List.foldl_nil, ha, List.sum_nil, Nat.add_zero]
  | cons d ds ih =>
    rw [List.foldl_cons, ih (s + d) _ (by rw [ha, toInt32_step]), List.sum_cons, Nat.add_assoc]

lemma accumulate_eq (ds : List ℕ) : accumulate ds = toInt32 (ds.sum : ℕ) := by
  have := foldl_toInt32 ds 0 0 (by unfold toInt32; omega)
  rw [Nat.zero_add] at this
  exact this

lemma toInt32_small {s : ℕ} (h : s < 2 ^ 31) : toInt32 (s : ℤ) = s := by
  unfold toInt32
  omega

lemma lastOf_append {α : Type} (n : ℕ) (hn : 0 < n) (ds : List α) (d : α) :
    lastOf n (ds ++ [d]) = if n ≤ (lastOf n ds).length then (lastOf n ds).tail ++ [d]
      else lastOf n ds ++ [d] := by
  unfold lastOf
  rw [List.length_drop, List.length_append, List.length_singleton]
  by_cases h : n ≤ ds.length
  · rw [if_pos (by omega), List.tail_drop, List.drop_append_of_le_length (by omega)]
    congr 2
    omega
  · rw [if_neg (by omega), Nat.sub_eq_zero_of_le (by omega), Nat.sub_eq_zero_of_le (by omega)]
    simp

/-- The table of the load model after the calls `hist`. -/
def Represents (n : ℕ) (tasks : List (List ℕ)) (hist : List (List ℕ × ℕ)) (m : LastN) : Prop :=
  m.n = n ∧ ∀ l, m.table l = if l ∈ tasks ∨ durationsOf hist l ≠ [] then
    some (lastOf n (durationsOf hist l)) else none

lemma durationsOf_append {α : Type} (hist : List (List ℕ × α)) (l l' : List ℕ) (d : α) :
    durationsOf (hist ++ [(l, d)]) l' =
      if l = l' then durationsOf hist l' ++ [d] else durationsOf hist l' := by
  unfold durationsOf
  rw [List.filterMap_append]
  split <;> simp [*]

lemma getD_table {n : ℕ} {tasks : List (List ℕ)} {hist : List (List ℕ × ℕ)} {m : LastN}
    (h : Represents n tasks hist m) (l : List ℕ) :
    (m.table l).getD [] = lastOf n (durationsOf hist l) := by
  rw [h.2 l]
  split
  · rfl
  · rename_i hc
    push Not at hc
    simp [hc.2, lastOf]

lemma add_represents {n : ℕ} (hn : 0 < n) {tasks : List (List ℕ)} {hist : List (List ℕ × ℕ)} {m : LastN}
    (h : Represents n tasks hist m) (l : List ℕ) (d : ℕ) :
    ∃ m', m.add l d = .ok m' ∧ Represents n tasks (hist ++ [(l, d)]) m' := by
  have hg := getD_table h l
  have ha := lastOf_append n hn (durationsOf hist l) d
  have key : ∀ t, t = lastOf n (durationsOf hist l ++ [d]) →
      Represents n tasks (hist ++ [(l, d)]) ⟨m.n, Function.update m.table l (some t)⟩ := by
    intro t ht
    refine ⟨h.1, fun l' => ?_⟩
    rw [durationsOf_append]
    by_cases hl : l' = l
    · subst hl
      simp [ht]
    · rw [if_neg (Ne.symm hl)]
      simp only [Function.update_of_ne hl]
      exact h.2 l'
  unfold LastN.add
  rw [hg, h.1]
  simp only
  by_cases hle : n ≤ (lastOf n (durationsOf hist l)).length
  · rw [if_pos hle] at ha ⊢
    cases hds : lastOf n (durationsOf hist l) with
    | nil => rw [hds] at hle; simp at hle; omega
    | cons x ds =>
      rw [hds] at ha
      refine ⟨_, rfl, ?_⟩
      have := key (ds ++ [d]) (by rw [ha]; rfl)
      rw [h.1] at this
      exact this
  · rw [if_neg hle] at ha ⊢
    refine ⟨_, rfl, ?_⟩
    have := key _ ha.symm
    rw [h.1] at this
    exact this

lemma addAll_represents {n : ℕ} (hn : 0 < n) {tasks : List (List ℕ)} (hist hist' : List (List ℕ × ℕ))
    {m : LastN} (h : Represents n tasks hist m) :
    ∃ m', m.addAll hist' = .ok m' ∧ Represents n tasks (hist ++ hist') m' := by
  induction hist' generalizing hist m with
  | nil => exact ⟨m, rfl, by rwa [List.append_nil]⟩
  | cons e hist' ih =>
    obtain ⟨l, d⟩ := e
    obtain ⟨m1, a1, a2⟩ := add_represents hn h l d
    obtain ⟨m2, b1, b2⟩ := ih _ a2
    refine ⟨m2, ?_, by rwa [List.append_assoc] at b2⟩
    rw [LastN.addAll, a1]
    exact b1

/-- C75: with `n ≥ 1`, `addDurationInformation` never fails, and afterwards: the prediction for a task with
history is the average of its last `n` durations (of all of them if there are less), rounded down, if their
sum is less than `2 ^ 31`; for a task without history it is that of the other load model. -/
theorem C75_average_partial (n : ℕ) (hn : 0 < n) (tasks : List (List ℕ)) (hist : List (List ℕ × ℕ)) :
    ∃ m, (LastN.create n tasks).addAll hist = .ok m ∧ ∀ (ifNoHistory : List ℕ → ℚ) (l : List ℕ),
      (durationsOf hist l ≠ [] → (lastOf n (durationsOf hist l)).sum < 2 ^ 31 →
        m.eval ifNoHistory l = .ok (((lastOf n (durationsOf hist l)).sum /
          min n (durationsOf hist l).length : ℕ) : ℚ) ∧
        m.evalSpecificUOT l = .ok (((lastOf n (durationsOf hist l)).sum /
          min n (durationsOf hist l).length : ℕ) : ℤ)) ∧
      (durationsOf hist l = [] → l ∈ tasks → m.eval ifNoHistory l = .ok (ifNoHistory l)) ∧
      (durationsOf hist l = [] → l ∉ tasks → m.eval ifNoHistory l = .error) := by
  have h0 : Represents n tasks [] (LastN.create n tasks) := by
    refine ⟨rfl, fun l => ?_⟩
    simp [LastN.create, durationsOf, lastOf]
  obtain ⟨m, h1, h2⟩ := addAll_represents hn [] hist h0
  rw [List.nil_append] at h2
  refine ⟨m, h1, fun f l => ⟨fun hne hsum => ?_, fun he hl => ?_, fun he hl => ?_⟩⟩
  · have ht := h2.2 l
    rw [if_pos (Or.inr hne)] at ht
    have hlen : (lastOf n (durationsOf hist l)).length = min n (durationsOf hist l).length := by
      unfold lastOf
      rw [List.length_drop]
      omega
    have hpos : 0 < (durationsOf hist l).length := List.length_pos_iff.2 hne
    have hspec : m.evalSpecificUOT l = .ok (((lastOf n (durationsOf hist l)).sum /
          min n (durationsOf hist l).length : ℕ) : ℤ) := by
      unfold LastN.evalSpecificUOT
      rw [ht, Option.getD_some]
      cases hds : lastOf n (durationsOf hist l) with
      | nil => rw [hds] at hlen; simp at hlen; omega
      | cons x ds =>
        rw [hds] at hsum hlen
        simp only
        rw [accumulate_eq, toInt32_small hsum, hlen]
        rfl
    refine ⟨?_, hspec⟩
    unfold LastN.eval
    rw [ht, hspec]
    cases hds : lastOf n (durationsOf hist l) with
    | nil => rw [hds] at hlen; simp at hlen; omega
    | cons x ds =>
      simp only [Outcome.bind]
      rw [Int.cast_natCast]
  · have ht := h2.2 l
    rw [if_pos (Or.inl hl), he] at ht
    unfold LastN.eval
    rw [ht]
    simp [lastOf]
  · have ht := h2.2 l
    rw [if_neg (by simp [he, hl])] at ht
    unfold LastN.eval
    rw [ht]

/-- C75 is violated for long durations: the prediction after one duration `d` between `2 ^ 31` and
`2 ^ 32 - 1` microseconds (36 to 71 minutes) is `d - 2 ^ 32`, which is negative. -/
theorem C75_sum_violated (n : ℕ) (hn : 0 < n) (tasks : List (List ℕ)) (l : List ℕ) (d : ℕ)
    (h1 : 2 ^ 31 ≤ d) (h2 : d < 2 ^ 32) (ifNoHistory : List ℕ → ℚ) :
    ∃ m, (LastN.create n tasks).addAll [(l, d)] = .ok m ∧
      m.eval ifNoHistory l = .ok ((d : ℚ) - 2 ^ 32) ∧ (d : ℚ) - 2 ^ 32 < 0 := by
  have hd : ((LastN.create n tasks).table l).getD [] = [] := by
    unfold LastN.create
    simp only
    split <;> rfl
  refine ⟨⟨n, Function.update (LastN.create n tasks).table l (some [d])⟩, ?_, ?_, ?_⟩
  · unfold LastN.addAll LastN.add
    rw [hd]
    simp only [List.length_nil]
    rw [if_neg (by simp only [LastN.create]; omega)]
    rfl
  · have e : accumulate [d] = (d : ℤ) - 2 ^ 32 := by
      rw [accumulate_eq, List.sum_singleton]
      unfold toInt32
      omega
    simp [LastN.eval, LastN.evalSpecificUOT, e, Outcome.bind]
    norm_num
  · have : (d : ℚ) < 2 ^ 32 := by exact_mod_cast h2
    linarith

/-- C75 is violated for `n = 0`: the first duration makes the code remove an entry from an empty deque. -/
theorem C75_zero_violated (tasks : List (List ℕ)) (l : List ℕ) (d : ℕ) :
    (LastN.create 0 tasks).add l d = .stuck := by
  have hd : ((LastN.create 0 tasks).table l).getD [] = [] := by
    unfold LastN.create
    simp only
    split <;> rfl
  unfold LastN.add
  rw [hd]
  rfl

/-- C75 is violated by `evalSpecificUOT` for a task without history: no zero seconds. -/
theorem C75_no_history_violated (n : ℕ) (tasks : List (List ℕ)) (l : List ℕ) :
    (LastN.create n tasks).evalSpecificUOT l = .stuck := by
  have hd : ((LastN.create n tasks).table l).getD [] = [] := by
    unfold LastN.create
    simp only
    split <;> rfl
  unfold LastN.evalSpecificUOT
  rw [hd]

/-- The hypotheses of `C75_average_partial` for a task with more durations than are kept. -/
example : durationsOf [([1, 2], 10), ([2, 1], 7), ([1, 2], 20), ([1, 2], 31)] [1, 2] ≠ [] ∧
    (lastOf 2 (durationsOf [([1, 2], 10), ([2, 1], 7), ([1, 2], 20), ([1, 2], 31)] [1, 2])) =
      [20, 31] ∧ [20, 31].sum < 2 ^ 31 := by
  refine ⟨by decide, by decide, by norm_num⟩

/-! ### C76 -/

/-- The files hold the lines of the durations `old l` of earlier runs (a missing file: no durations). -/
def HoldsOld (fs : Files) (old : List ℕ → List Info) : Prop :=
  ∀ l, (fs (getFilename l) = none ∧ old l = []) ∨ fs (getFilename l) = some ((old l).map Info.line)

/-- The average of earlier runs that the constructor computes. -/
def oldAverage (is : List Info) : Option ℕ :=
  if is = [] then none else some ((is.map (·.duration)).sum / is.length)

/-- The durations of earlier runs are numbers of the code, also their sums. -/
def SmallSums (old : List ℕ → List Info) : Prop := ∀ l, ((old l).map (·.duration)).sum < 2 ^ 64

/-- After the constructor has added the levels `done`. -/
structure Created (fs : Files) (old : List ℕ → List Info) (done : List (List ℕ)) (s : Files × Averaging) :
    Prop where
  file : ∀ l ∈ done, s.1 (getFilename l) = some ((old l).map Info.line)
  others : ∀ name, (∀ l ∈ done, name ≠ getFilename l) → s.1 name = fs name
  durations : ∀ l, s.2.durations l = if l ∈ done then some [] else none
  lastAvg : ∀ l, s.2.lastAvg l = if l ∈ done then oldAverage (old l) else none

lemma average_old {is : List Info} (hne : is ≠ []) (h : (is.map (·.duration)).sum < 2 ^ 64) :
    getAverageOfFirstColumn (is.map Info.line) = .ok ((is.map (·.duration)).sum / is.length) := by
  have hi : ∀ i ∈ is, i.duration < 2 ^ 64 := by
    intro i hi
    refine lt_of_le_of_lt ?_ h
    exact List.single_le_sum (fun _ _ => Nat.zero_le _) _ (List.mem_map.2 ⟨i, hi, rfl⟩)
  have hl : is.length ≠ 0 := fun hc => hne (List.length_eq_zero_iff.1 hc)
  unfold getAverageOfFirstColumn
  rw [averageLoop_lines is hi 0 0 (by rwa [Nat.zero_add]), Outcome.bind, Nat.zero_add, Nat.zero_add]
  simp only
  rw [if_neg hl]

lemma addLevel_created {fs : Files} {old : List ℕ → List Info} (hold : HoldsOld fs old)
    (hsum : SmallSums old) {done : List (List ℕ)} {s : Files × Averaging} (h : Created fs old done s)
    (l : List ℕ) : ∃ s', addLevel s l = .ok s' ∧ Created fs old (done ++ [l]) s' := by
  have hdur : ∀ l', Function.update s.2.durations l (some ((s.2.durations l).getD [])) l' =
      if l' ∈ done ++ [l] then some [] else none := by
    intro l'
    by_cases hl : l' = l
    · subst hl
      have : (s.2.durations l').getD [] = [] := by rw [h.durations]; split <;> rfl
      simp [this]
    · rw [Function.update_of_ne hl, h.durations]
      simp [hl]
  -- the file before
  have hfile : (s.1 (getFilename l) = none ∧ old l = []) ∨
      s.1 (getFilename l) = some ((old l).map Info.line) := by
    by_cases hl : l ∈ done
    · exact Or.inr (h.file l hl)
    · rw [h.others _ fun l' hl' he => hl (by rwa [getFilename_inj he])]
      exact hold l
  have hothers : ∀ name, (∀ l' ∈ done ++ [l], name ≠ getFilename l') → s.1 name = fs name :=
    fun name hn => h.others name fun l' hl' => hn l' (by simp [hl'])
  unfold addLevel
  rcases hfile with ⟨hf, ho⟩ | hf
  · rw [hf]
    have hl : l ∉ done := by
      intro hc
      rw [h.file l hc] at hf
      simp at hf
    refine ⟨_, rfl, ?_, ?_, hdur, ?_⟩
    · intro l' hl'
      by_cases he : l' = l
      · subst he
        simp [ho]
      · simp only
        rw [Function.update_of_ne fun hc => he (getFilename_inj hc)]
        exact h.file l' (by simpa [he] using hl')
    · intro name hn
      simp only
      rw [Function.update_of_ne (hn l (by simp))]
      exact hothers name hn
    · intro l'
      simp only
      rw [h.lastAvg]
      by_cases he : l' = l
      · subst he
        simp [hl, ho, oldAverage]
      · simp [he]
  · have hfile' : ∀ l' ∈ done ++ [l], s.1 (getFilename l') = some ((old l').map Info.line) := by
      intro l' hl'
      rw [List.mem_append, List.mem_singleton] at hl'
      rcases hl' with hl' | rfl
      · exact h.file l' hl'
      · exact hf
    rw [hf]
    by_cases ho : old l = []
    · rw [ho]
      refine ⟨_, rfl, hfile', hothers, hdur, ?_⟩
      intro l'
      simp only
      rw [h.lastAvg]
      by_cases he : l' = l
      · subst he
        simp [ho, oldAverage]
      · simp [he]
    · have ha := average_old ho (hsum l)
      have hm : ∃ x xs, (old l).map Info.line = x :: xs := by
        cases hc : old l with
        | nil => exact absurd hc ho
        | cons i is => exact ⟨_, _, rfl⟩
      obtain ⟨x, xs, hm⟩ := hm
      rw [hm] at ha ⊢
      simp only [ha, Outcome.bind]
      refine ⟨_, rfl, hfile', hothers, hdur, ?_⟩
      intro l'
      simp only
      by_cases he : l' = l
      · subst he
        rw [Function.update_self, h.lastAvg]
        by_cases hd : l' ∈ done <;> simp [hd, oldAverage, ho]
      · rw [Function.update_of_ne he, h.lastAvg]
        simp [he]

lemma addLevels_created {fs : Files} {old : List ℕ → List Info} (hold : HoldsOld fs old)
    (hsum : SmallSums old) (ls : List (List ℕ)) {done : List (List ℕ)} {s : Files × Averaging}
    (h : Created fs old done s) : ∃ s', addLevels s ls = .ok s' ∧ Created fs old (done ++ ls) s' := by
  induction ls generalizing done s with
  | nil => exact ⟨s, rfl, by rwa [List.append_nil]⟩
  | cons l ls ih =>
    obtain ⟨s1, a1, a2⟩ := addLevel_created hold hsum h l
    obtain ⟨s2, b1, b2⟩ := ih a2
    refine ⟨s2, ?_, by rwa [List.append_assoc] at b2⟩
    rw [addLevels, a1]
    exact b1

lemma create_created {fs : Files} {old : List ℕ → List Info} (hold : HoldsOld fs old)
    (hsum : SmallSums old) (ls : List (List ℕ)) :
    ∃ s, Averaging.create fs ls = .ok s ∧ Created fs old ls s := by
  have h0 : Created fs old [] (fs, ⟨fun _ => none, fun _ => none⟩) :=
    ⟨by simp, fun _ _ => rfl, by simp, by simp⟩
  obtain ⟨s, a, b⟩ := addLevels_created hold hsum ls h0
  exact ⟨s, a, by simpa using b⟩

/-- Specification: how many of `c` durations are kept in memory: up to 50. -/
def kept (c : ℕ) : ℕ := if c = 0 then 0 else (c - 1) % 50 + 1

/-- After the calls `hist` of `addDurationInformation`. -/
structure Recorded (fs : Files) (old : List ℕ → List Info) (ls : List (List ℕ))
    (hist : List (List ℕ × Info)) (s : Files × Averaging) : Prop where
  file : ∀ l ∈ ls, s.1 (getFilename l) = some ((old l ++ (durationsOf hist l).take
    ((durationsOf hist l).length - kept (durationsOf hist l).length)).map Info.line)
  others : ∀ name, (∀ l ∈ ls, name ≠ getFilename l) → s.1 name = fs name
  durations : ∀ l ∈ ls, s.2.durations l =
    some (lastOf (kept (durationsOf hist l).length) (durationsOf hist l))
  lastAvg : ∀ l ∈ ls, s.2.lastAvg l = oldAverage (old l)

lemma kept_le (c : ℕ) : kept c ≤ c := by
  unfold kept
  split
  · omega
  · have := Nat.mod_le (c - 1) 50
    omega

lemma addDuration_recorded {fs : Files} {old : List ℕ → List Info} {ls : List (List ℕ)}
    {hist : List (List ℕ × Info)} {s : Files × Averaging} (h : Recorded fs old ls hist s) (l : List ℕ)
    (hl : l ∈ ls) (i : Info) :
    ∃ s', addDuration s l i = .ok s' ∧ Recorded fs old ls (hist ++ [(l, i)]) s' := by
  have hds := h.durations l hl
  have hf := h.file l hl
  have hk := kept_le (durationsOf hist l).length
  have hlen : (lastOf (kept (durationsOf hist l).length) (durationsOf hist l)).length =
      kept (durationsOf hist l).length := by
    unfold lastOf
    rw [List.length_drop]
    omega
  -- what has to be shown of the new state
  have key : ∀ (F : Files) (q : List Info),
      F (getFilename l) = some ((old l ++ (durationsOf hist l ++ [i]).take
        ((durationsOf hist l).length + 1 - kept ((durationsOf hist l).length + 1))).map Info.line) →
      (∀ name, name ≠ getFilename l → F name = s.1 name) →
      q = lastOf (kept ((durationsOf hist l).length + 1)) (durationsOf hist l ++ [i]) →
      Recorded fs old ls (hist ++ [(l, i)])
        (F, ⟨Function.update s.2.durations l (some q), s.2.lastAvg⟩) := by
    intro F q h1 h2 h3
    refine ⟨fun l' hl' => ?_, fun name hn => ?_, fun l' hl' => ?_, h.lastAvg⟩
    · rw [durationsOf_append]
      by_cases he : l = l'
      · subst he
        rw [if_pos rfl, List.length_append, List.length_singleton]
        exact h1
      · rw [if_neg he]
        simp only
        rw [h2 _ fun hc => he (getFilename_inj hc).symm]
        exact h.file l' hl'
    · simp only
      rw [h2 _ (hn l hl)]
      exact h.others name hn
    · rw [durationsOf_append]
      by_cases he : l = l'
      · subst he
        rw [if_pos rfl, List.length_append, List.length_singleton, h3]
        simp
      · rw [if_neg he]
        simp only
        rw [Function.update_of_ne (Ne.symm he)]
        exact h.durations l' hl'
  unfold addDuration
  rw [hds]
  simp only [List.length_append, List.length_singleton, hlen]
  generalize hD : durationsOf hist l = D at *
  by_cases hfull : kept D.length = 50
  · have hc : kept (D.length + 1) = 1 := by
      unfold kept at hfull ⊢
      split at hfull
      · omega
      · rw [if_neg (by omega)]
        omega
    have h50 : 50 ≤ D.length := by omega
    have hdrop : (lastOf 50 D ++ [i]).drop 50 = [i] := by
      unfold lastOf
      have : (D.drop (D.length - 50)).length = 50 := by rw [List.length_drop]; omega
      rw [List.drop_append_of_le_length (by omega), List.drop_of_length_le (by omega)]
      rfl
    have htake : (lastOf 50 D ++ [i]).take 50 = D.drop (D.length - 50) := by
      unfold lastOf
      have : (D.drop (D.length - 50)).length = 50 := by rw [List.length_drop]; omega
      rw [List.take_append_of_le_length (by omega), List.take_of_length_le (by omega)]
    rw [hfull, if_pos (show 50 < 50 + 1 by omega)]
    unfold writeDurations
    simp only
    rw [hdrop, htake, if_pos (by simp)]
    refine ⟨_, rfl, key _ _ ?_ ?_ ?_⟩
    · rw [Function.update_self, hf, hfull, hc, Option.getD_some, Nat.add_sub_cancel,
        List.take_append_of_le_length (le_refl _), List.take_length, ← List.map_append,
        List.append_assoc, List.take_append_drop]
    · intro name hn
      rw [Function.update_of_ne hn]
    · rw [hc]
      unfold lastOf
      simp
  · have hk50 : kept D.length < 50 := by
      unfold kept at hfull ⊢
      split
      · omega
      · rw [if_neg (by assumption)] at hfull
        omega
    have hc : kept (D.length + 1) = kept D.length + 1 := by
      unfold kept at hfull ⊢
      by_cases h0 : D.length = 0
      · simp [h0]
      · rw [if_neg h0] at hfull ⊢
        rw [if_neg (by omega)]
        omega
    rw [if_neg (show ¬ 50 < kept D.length + 1 by omega)]
    simp only [List.length_append, List.length_singleton, hlen]
    rw [if_pos (by omega)]
    refine ⟨_, rfl, key _ _ ?_ (fun _ _ => rfl) ?_⟩
    · rw [hf, hc, List.take_append_of_le_length (by omega)]
      rw [show D.length + 1 - (kept D.length + 1) = D.length - kept D.length by omega]
    · rw [hc]
      unfold lastOf
      rw [List.length_append, List.length_singleton, List.drop_append_of_le_length (by omega)]
      congr 2
      omega

lemma addDurations_recorded {fs : Files} {old : List ℕ → List Info} {ls : List (List ℕ)}
    (hist' hist : List (List ℕ × Info)) {s : Files × Averaging} (h : Recorded fs old ls hist s)
    (hl : ∀ e ∈ hist', e.1 ∈ ls) :
    ∃ s', addDurations s hist' = .ok s' ∧ Recorded fs old ls (hist ++ hist') s' := by
  induction hist' generalizing hist s with
  | nil => exact ⟨s, rfl, by rwa [List.append_nil]⟩
  | cons e hist' ih =>
    obtain ⟨l, i⟩ := e
    obtain ⟨s1, a1, a2⟩ := addDuration_recorded h l (hl (l, i) (by simp)) i
    obtain ⟨s2, b1, b2⟩ := ih _ a2 fun e he => hl e (by simp [he])
    refine ⟨s2, ?_, by rwa [List.append_assoc] at b2⟩
    rw [addDurations, a1]
    exact b1

/-- The constructor and the calls `hist` of `addDurationInformation`. -/
def run (fs : Files) (ls : List (List ℕ)) (hist : List (List ℕ × Info)) : Outcome (Files × Averaging) :=
  (Averaging.create fs ls).bind fun s => addDurations s hist

lemma run_recorded {fs : Files} {old : List ℕ → List Info} (hold : HoldsOld fs old)
    (hsum : SmallSums old) (ls : List (List ℕ)) (hist : List (List ℕ × Info))
    (hl : ∀ e ∈ hist, e.1 ∈ ls) : ∃ s, run fs ls hist = .ok s ∧ Recorded fs old ls hist s := by
  obtain ⟨s, a1, a2⟩ := create_created hold hsum ls
  have h0 : Recorded fs old ls [] s := by
    refine ⟨fun l hl => ?_, a2.others, fun l hl => ?_, fun l hl => ?_⟩
    · rw [a2.file l hl]
      simp [durationsOf]
    · rw [a2.durations, if_pos hl]
      simp [durationsOf, lastOf]
    · rw [a2.lastAvg, if_pos hl]
  obtain ⟨s', b1, b2⟩ := addDurations_recorded hist [] h0 hl
  refine ⟨s', ?_, by rwa [List.nil_append] at b2⟩
  unfold run
  rw [a1]
  exact b1

/-- C76: at any time, the prediction for a task with `c > 0` durations is the average of the last
`(c - 1) % 50 + 1` of them; without durations in this run it is the average of the durations of earlier runs,
rounded down, and without any it is the number of points `2 ^ (l₁ + … + l_d)`. No assertion fails. -/
theorem C76_eval (fs : Files) (old : List ℕ → List Info) (hold : HoldsOld fs old)
    (hsum : SmallSums old) (ls : List (List ℕ)) (hist : List (List ℕ × Info))
    (hl : ∀ e ∈ hist, e.1 ∈ ls) : ∃ s, run fs ls hist = .ok s ∧ ∀ l ∈ ls,
      (∀ c, c = (durationsOf hist l).length → 0 < c → s.2.eval l =
        .ok ((((lastOf ((c - 1) % 50 + 1) (durationsOf hist l)).map (·.duration)).sum : ℕ) /
          (((c - 1) % 50 + 1 : ℕ) : ℚ))) ∧
      (durationsOf hist l = [] → old l ≠ [] → s.2.eval l =
        .ok ((((old l).map (·.duration)).sum / (old l).length : ℕ) : ℚ)) ∧
      (durationsOf hist l = [] → old l = [] → s.2.eval l = .ok (2 ^ l.sum)) := by
  obtain ⟨s, a1, a2⟩ := run_recorded hold hsum ls hist hl
  refine ⟨s, a1, fun l hl => ⟨fun c hc hpos => ?_, fun he ho => ?_, fun he ho => ?_⟩⟩
  · have hd := a2.durations l hl
    have hk : kept c = (c - 1) % 50 + 1 := by unfold kept; rw [if_neg (by omega)]
    rw [← hc, hk] at hd
    have hlen : (lastOf ((c - 1) % 50 + 1) (durationsOf hist l)).length = (c - 1) % 50 + 1 := by
      unfold lastOf
      have := kept_le c
      rw [List.length_drop]
      omega
    have hfold : ∀ (ds : List Info) (r : ℚ), ds.foldl (fun r (i : Info) => r + (i.duration : ℚ)) r =
        r + ((ds.map (·.duration)).sum : ℕ) := by
      intro ds
      induction ds with
      | nil => simp
      | cons i ds ih =>
        intro r
        rw [List.foldl_cons, ih, List.map_cons, List.sum_cons]
        push_cast
        ring
    unfold Averaging.eval
    rw [hd]
    generalize lastOf ((c - 1) % 50 + 1) (durationsOf hist l) = q at hlen
    cases q with
    | nil => simp at hlen
    | cons i q =>
      simp only
      rw [hfold, zero_add, hlen]
  · have hd := a2.durations l hl
    have ha := a2.lastAvg l hl
    rw [he] at hd
    unfold Averaging.eval
    rw [hd, ha]
    simp [lastOf, kept, oldAverage, ho]
  · have hd := a2.durations l hl
    have ha := a2.lastAvg l hl
    rw [he] at hd
    have hlin : ∀ (l : List ℕ) (r : ℚ), l.foldl (fun r x => r * 2 ^ x) r = r * 2 ^ l.sum := by
      intro l
      induction l with
      | nil => simp
      | cons x l ih =>
        intro r
        rw [List.foldl_cons, ih, List.sum_cons, pow_add, mul_assoc]
    unfold Averaging.eval
    rw [hd, ha]
    simp [lastOf, kept, oldAverage, ho, linearLoad, hlin]

/-- The loop of the destructor over some keys. -/
lemma destroy_step {fs : Files} {old : List ℕ → List Info} {ls : List (List ℕ)}
    {hist : List (List ℕ × Info)} (keys : List (List ℕ)) (hkeys : ∀ l ∈ keys, l ∈ ls)
    (done : List (List ℕ)) (s : Files × Averaging)
    (h1 : ∀ l ∈ ls, ∃ w, s.1 (getFilename l) = some ((old l ++ w).map Info.line) ∧
      ∃ q, s.2.durations l = some q ∧ w ++ q = durationsOf hist l ∧ (l ∈ done → q = []))
    (h2 : ∀ name, (∀ l ∈ ls, name ≠ getFilename l) → s.1 name = fs name) :
    (∀ l ∈ ls, l ∈ done ++ keys →
      destroy s keys (getFilename l) = some ((old l ++ durationsOf hist l).map Info.line)) ∧
    ∀ name, (∀ l ∈ ls, name ≠ getFilename l) → destroy s keys name = fs name := by
  induction keys generalizing done s with
  | nil =>
    refine ⟨fun l hl hd => ?_, h2⟩
    rw [List.append_nil] at hd
    obtain ⟨w, a1, q, a2, a3, a4⟩ := h1 l hl
    rw [a4 hd, List.append_nil] at a3
    rw [← a3]
    exact a1
  | cons k keys ih =>
    obtain ⟨w, a1, q, a2, a3, a4⟩ := h1 k (hkeys k (by simp))
    have := ih (fun l hl => hkeys l (by simp [hl])) (done ++ [k])
      ((writeDurations s.1 k q q.length).1,
        ⟨Function.update s.2.durations k (some (writeDurations s.1 k q q.length).2), s.2.lastAvg⟩) ?_ ?_
    · rw [List.append_assoc] at this
      have e : destroy s (k :: keys) = destroy ((writeDurations s.1 k q q.length).1,
        ⟨Function.update s.2.durations k (some (writeDurations s.1 k q q.length).2), s.2.lastAvg⟩)
          keys := by
        unfold destroy
        rw [List.foldl_cons, a2, Option.getD_some]
      rw [e]
      exact this
    · intro l hl
      by_cases he : l = k
      · subst he
        refine ⟨durationsOf hist l, ?_, [], ?_, by simp, fun _ => rfl⟩
        · simp only [writeDurations, Function.update_self, a1, Option.getD_some, List.take_length,
            ← List.map_append, List.append_assoc, a3]
        · simp [writeDurations]
      · obtain ⟨w', b1, q', b2, b3, b4⟩ := h1 l hl
        refine ⟨w', ?_, q', ?_, b3, fun hc => b4 ?_⟩
        · simp only [writeDurations]
          rw [Function.update_of_ne fun hc => he (getFilename_inj hc)]
          exact b1
        · simp only
          rw [Function.update_of_ne he]
          exact b2
        · simpa [he] using hc
    · intro name hn
      simp only [writeDurations]
      rw [Function.update_of_ne (hn k (hkeys k (by simp)))]
      exact h2 name hn

/-- C76: when the load model has been destroyed, the file of every task has the lines it had before,
followed by the durations of this run, each exactly once and in their order; no other file has changed.
`keys` are the keys of the map, in any order. -/
theorem C76_files (fs : Files) (old : List ℕ → List Info) (hold : HoldsOld fs old)
    (hsum : SmallSums old) (ls : List (List ℕ)) (hist : List (List ℕ × Info))
    (hl : ∀ e ∈ hist, e.1 ∈ ls) (keys : List (List ℕ)) (hkeys : ∀ l, l ∈ keys ↔ l ∈ ls) :
    ∃ s, run fs ls hist = .ok s ∧
      (∀ l ∈ ls, destroy s keys (getFilename l) =
        some ((old l ++ durationsOf hist l).map Info.line)) ∧
      ∀ name, (∀ l ∈ ls, name ≠ getFilename l) → destroy s keys name = fs name := by
  obtain ⟨s, a1, a2⟩ := run_recorded hold hsum ls hist hl
  obtain ⟨b1, b2⟩ := destroy_step (hist := hist) keys (fun l hl => (hkeys l).1 hl) [] s
    (fun l hl => ⟨_, a2.file l hl, _, a2.durations l hl, by
      unfold lastOf
      exact List.take_append_drop _ _, by simp⟩) a2.others
  exact ⟨s, a1, fun l hl => b1 l hl (by simpa using (hkeys l).2 hl), b2⟩

/-- C76: a later run on the files predicts, before it gets durations, the average of all durations of the
earlier run and the ones before it. -/
theorem C76_restart (fs : Files) (old : List ℕ → List Info) (hold : HoldsOld fs old)
    (ls : List (List ℕ)) (hist : List (List ℕ × Info)) (hl : ∀ e ∈ hist, e.1 ∈ ls)
    (hsum : SmallSums fun l => old l ++ durationsOf hist l)
    (keys : List (List ℕ)) (hkeys : ∀ l, l ∈ keys ↔ l ∈ ls) :
    ∃ s s', run fs ls hist = .ok s ∧ Averaging.create (destroy s keys) ls = .ok s' ∧
      ∀ l ∈ ls, old l ++ durationsOf hist l ≠ [] → s'.2.eval l =
        .ok ((((old l ++ durationsOf hist l).map (·.duration)).sum /
          (old l ++ durationsOf hist l).length : ℕ) : ℚ) := by
  have hsum' : SmallSums old := by
    intro l
    have := hsum l
    rw [List.map_append, List.sum_append] at this
    omega
  obtain ⟨s, a1, a2, a3⟩ := C76_files fs old hold hsum' ls hist hl keys hkeys
  have hdur : ∀ l, l ∉ ls → durationsOf hist l = [] := by
    intro l hn
    unfold durationsOf
    rw [List.filterMap_eq_nil_iff]
    intro e he
    rw [if_neg]
    rintro rfl
    exact hn (hl e he)
  have hnew : HoldsOld (destroy s keys) fun l => old l ++ durationsOf hist l := by
    intro l
    by_cases hls : l ∈ ls
    · exact Or.inr (a2 l hls)
    · rw [a3 _ fun l' hl' hc => hls (by rwa [getFilename_inj hc])]
      simp only [hdur l hls, List.append_nil]
      exact hold l
  obtain ⟨s', b1, b2⟩ := C76_eval (destroy s keys) _ hnew hsum ls [] (by simp)
  refine ⟨s, s', a1, ?_, fun l hls hne => ?_⟩
  · unfold run at b1
    cases hc : Averaging.create (destroy s keys) ls with
    | ok x => rw [hc] at b1; exact b1
    | error => rw [hc] at b1; simp [Outcome.bind] at b1
    | stuck => rw [hc] at b1; simp [Outcome.bind] at b1
  · exact (b2 l hls).2.1 rfl hne

/-- The hypotheses for two tasks, one with a file of an earlier run, and what is written and read. -/
example : let old : List ℕ → List Info := fun l => if l = [1, 12] then [⟨7, "0.5 ".toList⟩] else []
    let fs : Files := fun name =>
      if name = getFilename [1, 12] then some ["7 0.5 ".toList] else none
    HoldsOld fs old ∧ (∀ e ∈ [([1, 12], (⟨20, []⟩ : Info)), ([11, 2], ⟨5, []⟩)],
      e.1 ∈ [[1, 12], [11, 2]]) ∧
    SmallSums (fun l => old l ++ durationsOf [([1, 12], ⟨20, []⟩), ([11, 2], ⟨5, []⟩)] l) ∧
    getFilename [1, 12] = "./l_1,12.durations".toList := by
  refine ⟨?_, by simp, ?_, by decide⟩
  · intro l
    by_cases h : l = [1, 12]
    · subst h
      exact Or.inr (by simp only [if_true, List.map_cons, List.map_nil]; decide)
    · have : getFilename l ≠ getFilename [1, 12] := fun hc => h (getFilename_inj hc)
      exact Or.inl ⟨if_neg this, if_neg h⟩
  · intro l
    simp only [durationsOf]
    by_cases h1 : l = [1, 12]
    · subst h1; simp
    · by_cases h2 : l = [11, 2]
      · subst h2; simp
      · simp [h1, Ne.symm h1, Ne.symm h2]

end Verif.LoadModels

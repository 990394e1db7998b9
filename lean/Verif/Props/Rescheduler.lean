import Verif.Lemmas.Rescheduler

/-!
# The rebalancing rescheduler (C42)

`load a durations g` (`Verif/Lemmas/Rescheduler.lean`) is the sum of the measured durations of the
tasks that `a` puts into group `g`.
-/

namespace Verif.Reschedule

variable {L : Type} [LinearOrder L]

/-- Where a task is after the decisions `ds`: a later decision about the same task is not entered
into the map that the code computes the durations from, so the first one counts. -/
def placed (groups : OMap L ℤ) (ds : List (L × ℤ)) (l : L) : Option ℤ :=
  match ds.find? fun d => decide (d.1 = l) with
  | some d => some d.2
  | none => groups.find l

/-- The target that was decided last for a task. -/
def lastTarget (ds : List (L × ℤ)) (l : L) : Option ℤ :=
  (ds.reverse.find? fun d => decide (d.1 = l)).map Prod.snd

/-- Moving task `d.1` to group `d.2` is predicted to help: the task is in a group with the largest
load, goes to one with the smallest, and even with it that one stays below the largest load. -/
def Helps (groups : OMap L ℤ) (durations : OMap L ℕ) (prognosis : L → ℕ) (ds : List (L × ℤ))
    (d : L × ℤ) : Prop :=
  ∃ source, placed groups ds d.1 = some source ∧ (∃ l, placed groups ds l = some d.2) ∧
    load (placed groups ds) durations d.2 + prognosis d.1 <
      load (placed groups ds) durations source ∧
    ∀ l g, placed groups ds l = some g →
      load (placed groups ds) durations d.2 ≤ load (placed groups ds) durations g ∧
      load (placed groups ds) durations g ≤ load (placed groups ds) durations source

/-! ## Helper lemmas -/

lemma placed_append (groups : OMap L ℤ) (ds : List (L × ℤ)) (d : L × ℤ) (l : L) :
    placed groups (ds ++ [d]) l =
      if l ∈ ds.map Prod.fst then placed groups ds l
      else if l = d.1 then some d.2 else placed groups ds l := by
  unfold placed
  rw [List.find?_append]
  cases h : ds.find? fun d => decide (d.1 = l) with
  | some e =>
    have : l ∈ ds.map Prod.fst := by
      have h1 := List.mem_of_find?_eq_some h
      have h2 := List.find?_some h
      exact List.mem_map.mpr ⟨e, h1, by simpa using h2⟩
    simp [this]
  | none =>
    have : l ∉ ds.map Prod.fst := by
      rw [List.find?_eq_none] at h
      intro hl
      obtain ⟨e, he, hel⟩ := List.mem_map.mp hl
      exact h e he (by simpa using hel)
    rw [if_neg this]
    by_cases hd : l = d.1
    · subst hd; simp
    · simp [hd, Ne.symm hd]

lemma lastTarget_append (ds : List (L × ℤ)) (d : L × ℤ) (l : L) :
    lastTarget (ds ++ [d]) l = if l = d.1 then some d.2 else lastTarget ds l := by
  unfold lastTarget
  rw [List.reverse_append]
  by_cases h : l = d.1
  · subst h; simp
  · simp [h, Ne.symm h]

lemma lastTarget_isSome (ds : List (L × ℤ)) (l : L) :
    (lastTarget ds l).isSome ↔ l ∈ ds.map Prod.fst := by
  unfold lastTarget
  rw [Option.isSome_map, List.find?_isSome]
  simp

/-- What holds of the state of the loop after the decisions `ds`. -/
structure Inv (groups : OMap L ℤ) (durations : OMap L ℕ) (prognosis : L → ℕ) (ds : List (L × ℤ))
    (s : State L) : Prop where
  find : ∀ l, s.copy.find l = placed groups ds l
  sorted : s.copy.Sorted
  keys : ∀ l, l ∈ s.copy.map Prod.fst ↔ l ∈ groups.map Prod.fst
  values : ∀ g ∈ s.copy.map Prod.snd, g ∈ groups.map Prod.snd
  nodup : (s.moves.map Prod.fst).Nodup
  moves : ∀ p : L × ℤ, p ∈ s.moves ↔ lastTarget ds p.1 = some p.2
  helps : ∀ i (hi : i < ds.length), Helps groups durations prognosis (ds.take i) ds[i]
  targets : ∀ d ∈ ds, d.1 ∈ groups.map Prod.fst ∧ d.2 ∈ groups.map Prod.snd
  len : s.moves.length ≤ ds.length

lemma Inv.moved {groups : OMap L ℤ} {durations : OMap L ℕ} {prognosis : L → ℕ}
    {ds : List (L × ℤ)} {s : State L} (h : Inv groups durations prognosis ds s) (l : L) :
    l ∈ s.moves.map Prod.fst ↔ l ∈ ds.map Prod.fst := by
  rw [← lastTarget_isSome ds]
  constructor
  · intro hl
    obtain ⟨p, hp, rfl⟩ := List.mem_map.mp hl
    rw [(h.moves p).mp hp]
    rfl
  · intro hl
    obtain ⟨g, hg⟩ := Option.isSome_iff_exists.mp hl
    exact List.mem_map.mpr ⟨(l, g), (h.moves (l, g)).mpr hg, rfl⟩

lemma inv_start (groups : OMap L ℤ) (durations : OMap L ℕ) (prognosis : L → ℕ)
    (hs : groups.Sorted) : Inv groups durations prognosis [] ⟨groups, []⟩ where
  find := fun l => by simp [placed]
  sorted := hs
  keys := fun l => Iff.rfl
  values := fun g hg => hg
  nodup := by simp
  moves := fun p => by simp [lastTarget]
  helps := fun i hi => by simp at hi
  targets := fun d hd => by simp at hd
  len := by simp

/-- A pass of the loop does not fail, and adds at most one decision, which is predicted to help. -/
lemma step_spec (groups : OMap L ℤ) (durations : OMap L ℕ) (prognosis : L → ℕ) (minInbalance : ℚ)
    (average : ℕ) (ds : List (L × ℤ)) (s : State L)
    (hk : ∀ t ∈ durations, t.1 ∈ groups.map Prod.fst) (hg : groups ≠ [])
    (h : Inv groups durations prognosis ds s) :
    (step minInbalance average durations prognosis s = .stuck ∧ average = 0) ∨
      step minInbalance average durations prognosis s = .ok none ∨
      ∃ d s', step minInbalance average durations prognosis s = .ok (some s') ∧
        Inv groups durations prognosis (ds ++ [d]) s' := by
  have hk' : ∀ t ∈ durations, (s.copy.find t.1).isSome := by
    intro t ht
    rw [OMap.find_isSome_iff, h.keys]
    exact hk t ht
  obtain ⟨e1, e2⟩ := durations_spec s.copy durations hk'
  set r := addDurations s.copy (zeroDurations s.copy) durations with hr
  have hcopy : s.copy ≠ [] := by
    intro h0
    cases groups with
    | nil => exact hg rfl
    | cons p rest =>
      have := (h.keys p.1).mpr (by simp)
      rw [h0] at this
      simp at this
  have hfind : s.copy.find = placed groups ds := funext h.find
  have hr2 : r.2 ≠ [] := by
    obtain ⟨p, hp⟩ := List.exists_mem_of_ne_nil _ hcopy
    have := (e2 p.2 (load s.copy.find durations p.2)).mpr
      ⟨List.mem_map.mpr ⟨p, hp, rfl⟩, rfl⟩
    intro h0
    rw [h0] at this
    simp at this
  obtain ⟨fastest, hf⟩ := firstMin_isSome (fun p : ℤ × ℕ => (p.2 : ℤ)) hr2
  obtain ⟨slowest, hsl⟩ := lastMax_isSome (fun p : ℤ × ℕ => (p.2 : ℤ)) hr2
  have hf' := firstMin_spec _ _ hf
  have hsl' := lastMax_spec _ _ hsl
  obtain ⟨hfm, hfl⟩ := (e2 fastest.1 fastest.2).mp hf'.1
  obtain ⟨hsm, hsll⟩ := (e2 slowest.1 slowest.2).mp hsl'.1
  have hcand : (s.copy.filter fun t => decide (t.2 = slowest.1)) ≠ [] := by
    obtain ⟨p, hp, hpe⟩ := List.mem_map.mp hsm
    have : p ∈ s.copy.filter fun t => decide (t.2 = slowest.1) :=
      List.mem_filter.mpr ⟨hp, by simpa using hpe⟩
    exact List.ne_nil_of_mem this
  obtain ⟨t, ht⟩ := firstMin_isSome
    (fun t : L × ℤ => |((fastest.2 : ℤ) + (prognosis t.1 : ℤ)) - (average : ℤ)|) hcand
  have ht' := (firstMin_spec _ _ ht).1
  rw [List.mem_filter] at ht'
  have hts : t.2 = slowest.1 := by simpa using ht'.2
  have estep : step minInbalance average durations prognosis s =
      (if average = 0 then .stuck
       else if ((slowest.2 / average : ℕ) : ℚ) < minInbalance then .ok none
       else if fastest.2 + prognosis t.1 < slowest.2 then
          if (s.moves.map Prod.fst).contains t.1 then
            .ok (some ⟨s.copy, retarget t.1 fastest.1 s.moves⟩)
          else
            .ok (some ⟨s.copy.set t.1 fastest.1, s.moves ++ [(t.1, fastest.1)]⟩)
       else .ok none) := by
    unfold step
    simp only [← hr, hf, hsl, e1, ht]
  rw [estep]
  by_cases ha : average = 0
  · left; rw [if_pos ha]; exact ⟨rfl, ha⟩
  rw [if_neg ha]
  right
  by_cases hb : ((slowest.2 / average : ℕ) : ℚ) < minInbalance
  · left; rw [if_pos hb]
  rw [if_neg hb]
  by_cases hc : fastest.2 + prognosis t.1 < slowest.2
  swap
  · left; rw [if_neg hc]
  rw [if_pos hc]
  right
  -- the decision
  have htf : placed groups ds t.1 = some slowest.1 := by
    rw [← h.find, ← hts]
    exact OMap.find_of_mem h.sorted ht'.1
  have hhelps : Helps groups durations prognosis ds (t.1, fastest.1) := by
    refine ⟨slowest.1, htf, ?_, ?_, ?_⟩
    · obtain ⟨p, hp, hpe⟩ := List.mem_map.mp hfm
      refine ⟨p.1, ?_⟩
      rw [← h.find]
      simp only
      rw [← hpe]
      exact OMap.find_of_mem h.sorted hp
    · rw [← hfind]
      simp only
      rw [← hfl, ← hsll]
      exact hc
    · intro l g hlg
      have hg' : g ∈ s.copy.map Prod.snd := by
        rw [← h.find] at hlg
        exact List.mem_map.mpr ⟨(l, g), OMap.mem_of_find hlg, rfl⟩
      have hm := (e2 g (load s.copy.find durations g)).mpr ⟨hg', rfl⟩
      have h1 := hf'.2 _ hm
      have h2 := hsl'.2 _ hm
      rw [← hfind]
      simp only at h1 h2 ⊢
      rw [← hfl, ← hsll]
      exact ⟨by exact_mod_cast h1, by exact_mod_cast h2⟩
  have hhelps' : ∀ i (hi : i < (ds ++ [(t.1, fastest.1)]).length),
      Helps groups durations prognosis ((ds ++ [(t.1, fastest.1)]).take i)
        (ds ++ [(t.1, fastest.1)])[i] := by
    intro i hi
    by_cases hlt : i < ds.length
    · rw [List.getElem_append_left hlt, List.take_append_of_le_length (le_of_lt hlt)]
      exact h.helps i hlt
    · have : i = ds.length := by
        simp only [List.length_append, List.length_cons, List.length_nil] at hi
        omega
      subst this
      rw [List.getElem_append_right (le_refl _), List.take_append_of_le_length (le_refl _),
        List.take_length]
      simpa using hhelps
  have htk : t.1 ∈ groups.map Prod.fst :=
    (h.keys t.1).mp (List.mem_map.mpr ⟨t, ht'.1, rfl⟩)
  have htargets : ∀ d ∈ ds ++ [(t.1, fastest.1)],
      d.1 ∈ groups.map Prod.fst ∧ d.2 ∈ groups.map Prod.snd := by
    intro d hd
    rcases List.mem_append.mp hd with hd | hd
    · exact h.targets d hd
    · rw [List.mem_singleton] at hd
      subst hd
      exact ⟨htk, h.values _ hfm⟩
  by_cases hm : t.1 ∈ s.moves.map Prod.fst
  · have hm' : (s.moves.map Prod.fst).contains t.1 = true := by simpa using hm
    have hmd : t.1 ∈ ds.map Prod.fst := (h.moved t.1).mp hm
    refine ⟨(t.1, fastest.1), ⟨s.copy, retarget t.1 fastest.1 s.moves⟩, by rw [if_pos hm'], ?_⟩
    refine ⟨?_, h.sorted, h.keys, h.values, ?_, ?_, hhelps', htargets, ?_⟩
    · intro l
      simp only
      rw [placed_append]
      split_ifs with h1 h2
      · exact h.find l
      · exact absurd (by simpa [h2] using hmd) h1
      · exact h.find l
    · simp only
      rw [retarget_keys]
      exact h.nodup
    · intro p
      simp only
      rw [mem_retarget _ _ _ h.nodup hm, lastTarget_append, h.moves p]
      by_cases hp : p.1 = t.1
      · rw [if_pos (by exact hp)]
        constructor
        · rintro (h1 | h1)
          · rw [h1]
          · exact absurd hp h1.2
        · intro h1
          left
          simp only [Option.some.injEq] at h1
          exact Prod.ext hp h1.symm
      · rw [if_neg (by exact hp)]
        constructor
        · rintro (h1 | h1)
          · exact absurd (by rw [h1]) hp
          · exact h1.1
        · intro h1
          exact Or.inr ⟨h1, hp⟩
    · have := congrArg List.length (retarget_keys t.1 fastest.1 s.moves)
      simp only [List.length_map] at this
      simp only [List.length_append, List.length_cons, List.length_nil]
      have := h.len
      omega
  · have hm' : ¬ ((s.moves.map Prod.fst).contains t.1 = true) := by simpa using hm
    have hmd : t.1 ∉ ds.map Prod.fst := fun hh => hm ((h.moved t.1).mpr hh)
    refine ⟨(t.1, fastest.1), ⟨s.copy.set t.1 fastest.1, s.moves ++ [(t.1, fastest.1)]⟩,
      by rw [if_neg hm'], ?_⟩
    refine ⟨?_, OMap.set_sorted h.sorted _ _, ?_, ?_, ?_, ?_, hhelps', htargets, ?_⟩
    · intro l
      simp only
      rw [placed_append, OMap.find_set]
      by_cases hl : l = t.1
      · subst hl
        rw [if_pos rfl, if_neg hmd, if_pos rfl]
      · rw [if_neg hl, h.find]
        simp only [if_neg hl, ite_self]
    · intro l
      simp only
      rw [OMap.mem_keys_set, h.keys]
      constructor
      · rintro (rfl | h1)
        · exact htk
        · exact h1
      · exact Or.inr
    · intro g hg
      simp only at hg
      obtain ⟨p, hp, rfl⟩ := List.mem_map.mp hg
      have := OMap.find_of_mem (OMap.set_sorted h.sorted t.1 fastest.1) hp
      rw [OMap.find_set] at this
      split_ifs at this with h1
      · simp only [Option.some.injEq] at this
        rw [← this]
        exact h.values _ hfm
      · exact h.values _ (List.mem_map.mpr ⟨(p.1, p.2), OMap.mem_of_find this, rfl⟩)
    · simp only [List.map_append, List.map_cons, List.map_nil]
      rw [List.nodup_append]
      refine ⟨h.nodup, by simp, ?_⟩
      intro a ha b hb hab
      simp only [List.mem_singleton] at hb
      subst hab
      subst hb
      exact hm ha
    · intro p
      simp only [List.mem_append, List.mem_singleton]
      rw [lastTarget_append, h.moves p]
      by_cases hp : p.1 = t.1
      · rw [if_pos (by exact hp)]
        constructor
        · rintro (h1 | h1)
          · have : (lastTarget ds p.1).isSome := by rw [h1]; rfl
            rw [lastTarget_isSome, hp] at this
            exact absurd this hmd
          · rw [h1]
        · intro h1
          right
          simp only [Option.some.injEq] at h1
          exact Prod.ext hp h1.symm
      · rw [if_neg (by exact hp)]
        constructor
        · rintro (h1 | h1)
          · exact h1
          · exact absurd (by rw [h1]) hp
        · exact Or.inl
    · simp only [List.length_append, List.length_cons, List.length_nil]
      have := h.len
      omega

lemma loop_spec (groups : OMap L ℤ) (durations : OMap L ℕ) (prognosis : L → ℕ) (minInbalance : ℚ)
    (average : ℕ) (hk : ∀ t ∈ durations, t.1 ∈ groups.map Prod.fst) (hg : groups ≠ [])
    (n : ℕ) (ds : List (L × ℤ)) (s : State L) (h : Inv groups durations prognosis ds s) :
    (average = 0 ∧ loop minInbalance average durations prognosis n s = .stuck) ∨
      ∃ ds' s', ds'.length ≤ ds.length + n ∧ Inv groups durations prognosis ds' s' ∧
        loop minInbalance average durations prognosis n s = .ok s'.moves := by
  induction n generalizing ds s with
  | zero => exact Or.inr ⟨ds, s, by simp, h, rfl⟩
  | succ n ih =>
    rcases step_spec groups durations prognosis minInbalance average ds s hk hg h with
      ⟨h1, h2⟩ | h1 | ⟨d, s', h1, h2⟩
    · left
      refine ⟨h2, ?_⟩
      simp [loop, h1, Outcome.bind]
    · right
      refine ⟨ds, s, by omega, h, ?_⟩
      simp [loop, h1, Outcome.bind]
    · have e : loop minInbalance average durations prognosis (n + 1) s =
          loop minInbalance average durations prognosis n s' := by
        simp [loop, h1, Outcome.bind]
      rw [e]
      rcases ih (ds ++ [d]) s' h2 with h3 | ⟨ds', s'', h3, h4, h5⟩
      · exact Or.inl h3
      · right
        refine ⟨ds', s'', ?_, h4, h5⟩
        simp only [List.length_append, List.length_cons, List.length_nil] at h3
        omega

/-! ## The property -/

/-- C42, without "never to the group that already has it" for a task that is decided about twice. If
every measured task is in the task map, then the moves returned come from a sequence `ds` of at most
`maxIterations` decisions, each predicted to help at its time: there are at most `maxIterations`
moves, no task is moved twice, every moved task exists, every target is a group that holds a task,
the target is the one decided last, and a task about which only one decision was made goes to a group
other than its own. -/
theorem C42_moves_partial (maxIterations : ℕ) (minInbalance : ℚ) (groups : OMap L ℤ)
    (durations : OMap L ℕ) (prognosis : L → ℕ) (moves : List (L × ℤ)) (hs : groups.Sorted)
    (hk : ∀ t ∈ durations, t.1 ∈ groups.map Prod.fst)
    (h : eval maxIterations minInbalance groups durations prognosis = .ok moves) :
    moves.length ≤ maxIterations ∧ (moves.map Prod.fst).Nodup ∧
      (∀ p ∈ moves, p.1 ∈ groups.map Prod.fst ∧ p.2 ∈ groups.map Prod.snd) ∧
      ∃ ds : List (L × ℤ), ds.length ≤ maxIterations ∧
        (∀ p : L × ℤ, p ∈ moves ↔ lastTarget ds p.1 = some p.2) ∧
        (∀ i (hi : i < ds.length), Helps groups durations prognosis (ds.take i) ds[i]) ∧
        ∀ p ∈ moves, (∀ i j (hi : i < ds.length) (hj : j < ds.length),
          ds[i].1 = p.1 → ds[j].1 = p.1 → i = j) → groups.find p.1 ≠ some p.2 := by
  unfold eval at h
  split_ifs at h with h0
  have hg : groups ≠ [] := by
    rintro rfl
    exact h0 rfl
  rcases loop_spec groups durations prognosis minInbalance _ hk hg maxIterations [] ⟨groups, []⟩
    (inv_start groups durations prognosis hs) with ⟨-, h1⟩ | ⟨ds, s, h1, h2, h3⟩
  · rw [h] at h1
    exact absurd h1 (by simp)
  · rw [h] at h3
    simp only [Outcome.ok.injEq] at h3
    subst h3
    simp only [List.length_nil, zero_add] at h1
    have hmem : ∀ p ∈ s.moves, p ∈ ds := by
      intro p hp
      have := (h2.moves p).mp hp
      unfold lastTarget at this
      rw [Option.map_eq_some_iff] at this
      obtain ⟨q, hq, hq2⟩ := this
      have hq1 : q.1 = p.1 := by simpa using List.find?_some hq
      have hq3 : q ∈ ds := by simpa using List.mem_of_find?_eq_some hq
      rwa [← Prod.ext hq1 hq2]
    refine ⟨le_trans h2.len h1, h2.nodup, fun p hp => h2.targets p (hmem p hp), ds, h1, h2.moves,
      h2.helps, ?_⟩
    intro p hp honce hown
    obtain ⟨i, hi, hip⟩ := List.getElem_of_mem (hmem p hp)
    obtain ⟨source, hs1, -, hs3, -⟩ := h2.helps i hi
    have hp1 : placed groups (ds.take i) p.1 = groups.find p.1 := by
      unfold placed
      have : (ds.take i).find? (fun d => decide (d.1 = p.1)) = none := by
        rw [List.find?_eq_none]
        intro d hd hdp
        obtain ⟨j, hj, hjd⟩ := List.getElem_of_mem hd
        rw [List.getElem_take] at hjd
        simp only [List.length_take] at hj
        have := honce i j hi (by omega) (by rw [hip]) (by rw [hjd]; simpa using hdp)
        omega
      rw [this]
    rw [hip] at hs1 hs3
    rw [hp1, hown] at hs1
    simp only [Option.some.injEq] at hs1
    rw [← hs1] at hs3
    omega

/-- Nothing the code does in between fails, if some task is there and the average duration, as
computed, is not zero. -/
theorem C42_no_failure (maxIterations : ℕ) (minInbalance : ℚ) (groups : OMap L ℤ)
    (durations : OMap L ℕ) (prognosis : L → ℕ) (hs : groups.Sorted)
    (hk : ∀ t ∈ durations, t.1 ∈ groups.map Prod.fst) (hg : groups ≠ [])
    (ha : groups.length ≤ (durations.map Prod.snd).sum) :
    ∃ moves, eval maxIterations minInbalance groups durations prognosis = .ok moves := by
  have hl : groups.length ≠ 0 := by simpa using hg
  unfold eval
  rw [if_neg hl]
  rcases loop_spec groups durations prognosis minInbalance
    ((durations.map Prod.snd).sum / groups.length) hk hg maxIterations [] ⟨groups, []⟩
    (inv_start groups durations prognosis hs) with ⟨h1, -⟩ | ⟨ds, s, h1, h2, h3⟩
  · have := Nat.div_pos ha (Nat.pos_of_ne_zero hl)
    omega
  · exact ⟨_, h3⟩

/-- Four tasks of two groups: the rescheduler "moves" task 0 to group 0, where it is already, even
though the forecasts are exact. -/
theorem C42_own_group_violated :
    ∃ (groups : OMap ℕ ℤ) (durations : OMap ℕ ℕ) (prognosis : ℕ → ℕ) (moves : List (ℕ × ℤ)),
      groups.Sorted ∧ (∀ t ∈ durations, t.1 ∈ groups.map Prod.fst) ∧
      (∀ t ∈ durations, prognosis t.1 = t.2) ∧
      eval 3 1 groups durations prognosis = .ok moves ∧
      ∃ p ∈ moves, groups.find p.1 = some p.2 := by
  refine ⟨[(0, 0), (1, 1), (2, 0), (3, 0)], [(0, 1), (1, 2), (2, 3), (3, 4)], fun l => l + 1,
    [(0, 0), (2, 1)], ?_, ?_, ?_, ?_, ?_⟩
  · unfold OMap.Sorted; decide
  · decide
  · decide
  · decide +kernel
  · decide

/-- A group without tasks never gets one: the task map does not mention it. Here group 1 of two is
idle and group 0 holds two tasks; nothing is moved. -/
theorem C42_idle_group_ignored :
    eval 5 0 [((0 : ℕ), (0 : ℤ)), (1, 0)] [(0, 10), (1, 10)] (fun _ => 10) = .ok [] := by
  decide +kernel

/-- When the sum of the durations is smaller than the number of tasks, the average is zero and the
code divides by it. -/
theorem C42_zero_average_violated :
    eval 5 1 [((0 : ℕ), (0 : ℤ)), (1, 1)] [(0, 1), (1, 0)] (fun _ => 1) = .stuck := by
  decide +kernel

/-- The hypotheses of the theorems hold for four tasks of two groups, where one task is moved. -/
example :
    let groups : OMap ℕ ℤ := [(0, 0), (1, 1), (2, 0), (3, 0)]
    let durations : OMap ℕ ℕ := [(0, 1), (1, 2), (2, 3), (3, 4)]
    groups.Sorted ∧ (∀ t ∈ durations, t.1 ∈ groups.map Prod.fst) ∧ groups ≠ [] ∧
      groups.length ≤ (durations.map Prod.snd).sum ∧
      eval 1 1 groups durations (fun l => l + 1) = .ok [(0, 1)] := by
  refine ⟨?_, ?_, ?_, ?_, ?_⟩
  · unfold OMap.Sorted; decide
  all_goals decide +kernel

end Verif.Reschedule

import Verif.Model.Rescheduler
import Verif.Lemmas.OrderedMap
import Mathlib.Tactic.Ring
import Mathlib.Tactic.Linarith

/-!
# Lemmas about the rebalancing rescheduler
-/

namespace Verif.Reschedule

variable {L : Type} [LinearOrder L]

/-! ## Extrema -/

lemma firstMin_spec {α : Type} (key : α → ℤ) (l : List α) {a : α} (h : firstMin key l = some a) :
    a ∈ l ∧ ∀ b ∈ l, key a ≤ key b := by
  induction l generalizing a with
  | nil => simp [firstMin] at h
  | cons x rest ih =>
    simp only [firstMin] at h
    cases hr : firstMin key rest with
    | none =>
      rw [hr] at h
      simp only [Option.some.injEq] at h
      subst h
      have : rest = [] := by
        cases rest with
        | nil => rfl
        | cons y ys =>
          simp only [firstMin] at hr
          split at hr
          · simp at hr
          · split_ifs at hr
      subst this
      simp
    | some b =>
      rw [hr] at h
      obtain ⟨h1, h2⟩ := ih hr
      simp only at h
      split_ifs at h with hk
      · simp only [Option.some.injEq] at h
        subst h
        refine ⟨List.mem_cons_of_mem _ h1, ?_⟩
        intro c hc
        rcases List.mem_cons.mp hc with rfl | hc
        · exact le_of_lt hk
        · exact h2 c hc
      · simp only [Option.some.injEq] at h
        subst h
        refine ⟨List.mem_cons_self, ?_⟩
        intro c hc
        rcases List.mem_cons.mp hc with rfl | hc
        · exact le_refl _
        · exact le_trans (not_lt.mp hk) (h2 c hc)

lemma lastMax_spec {α : Type} (key : α → ℤ) (l : List α) {a : α} (h : lastMax key l = some a) :
    a ∈ l ∧ ∀ b ∈ l, key b ≤ key a := by
  induction l generalizing a with
  | nil => simp [lastMax] at h
  | cons x rest ih =>
    simp only [lastMax] at h
    cases hr : lastMax key rest with
    | none =>
      rw [hr] at h
      simp only [Option.some.injEq] at h
      subst h
      have : rest = [] := by
        cases rest with
        | nil => rfl
        | cons y ys =>
          simp only [lastMax] at hr
          split at hr
          · simp at hr
          · split_ifs at hr
      subst this
      simp
    | some b =>
      rw [hr] at h
      obtain ⟨h1, h2⟩ := ih hr
      simp only at h
      split_ifs at h with hk
      · simp only [Option.some.injEq] at h
        subst h
        refine ⟨List.mem_cons_self, ?_⟩
        intro c hc
        rcases List.mem_cons.mp hc with rfl | hc
        · exact le_refl _
        · exact le_trans (h2 c hc) (le_of_lt hk)
      · simp only [Option.some.injEq] at h
        subst h
        refine ⟨List.mem_cons_of_mem _ h1, ?_⟩
        intro c hc
        rcases List.mem_cons.mp hc with rfl | hc
        · exact not_lt.mp hk
        · exact h2 c hc

lemma firstMin_isSome {α : Type} (key : α → ℤ) {l : List α} (h : l ≠ []) :
    ∃ a, firstMin key l = some a := by
  cases l with
  | nil => exact absurd rfl h
  | cons x rest =>
    simp only [firstMin]
    cases firstMin key rest with
    | none => exact ⟨x, rfl⟩
    | some b =>
      simp only
      split_ifs
      exacts [⟨b, rfl⟩, ⟨x, rfl⟩]

lemma lastMax_isSome {α : Type} (key : α → ℤ) {l : List α} (h : l ≠ []) :
    ∃ a, lastMax key l = some a := by
  cases l with
  | nil => exact absurd rfl h
  | cons x rest =>
    simp only [lastMax]
    cases lastMax key rest with
    | none => exact ⟨x, rfl⟩
    | some b =>
      simp only
      split_ifs
      exacts [⟨x, rfl⟩, ⟨b, rfl⟩]

/-! ## The durations of the groups -/

omit [LinearOrder L] in
lemma zero_aux (copy : OMap L ℤ) (m : OMap ℤ ℕ) (hm : m.Sorted) (h0 : ∀ g v, m.find g = some v → v = 0) :
    (copy.foldl (fun m t => m.set t.2 0) m).Sorted ∧
      ∀ g, (copy.foldl (fun m t => m.set t.2 0) m).find g =
        if g ∈ copy.map Prod.snd then some 0 else m.find g := by
  induction copy generalizing m with
  | nil => exact ⟨hm, fun g => by simp⟩
  | cons t rest ih =>
    have hm' := OMap.set_sorted hm t.2 0
    have := ih (m.set t.2 0) hm' (by
      intro g v hv
      rw [OMap.find_set] at hv
      split_ifs at hv with hg
      · simpa using hv.symm
      · exact h0 g v hv)
    refine ⟨this.1, fun g => ?_⟩
    rw [List.foldl_cons, this.2 g, OMap.find_set]
    by_cases h1 : g ∈ rest.map Prod.snd
    · rw [if_pos h1, if_pos (by simp only [List.map_cons, List.mem_cons]; exact Or.inr h1)]
    · rw [if_neg h1]
      by_cases h2 : g = t.2
      · rw [if_pos h2, if_pos (by simp [h2])]
      · rw [if_neg h2, if_neg]
        simp only [List.map_cons, List.mem_cons, not_or]
        exact ⟨h2, h1⟩

lemma zeroDurations_sorted (copy : OMap L ℤ) : (zeroDurations copy).Sorted :=
  (zero_aux copy [] List.Pairwise.nil (by intro g v h; simp [OMap.find] at h)).1

lemma zeroDurations_find (copy : OMap L ℤ) (g : ℤ) :
    (zeroDurations copy).find g = if g ∈ copy.map Prod.snd then some 0 else none := by
  have := (zero_aux copy [] List.Pairwise.nil (by intro g v h; simp [OMap.find] at h)).2 g
  simpa [zeroDurations, OMap.find] using this

/-- The sum of the durations of the tasks in group `g`. -/
def load (a : L → Option ℤ) (durations : OMap L ℕ) (g : ℤ) : ℕ :=
  ((durations.filter fun t => decide (a t.1 = some g)).map Prod.snd).sum

omit [LinearOrder L] in
lemma load_cons (a : L → Option ℤ) (t : L × ℕ) (rest : OMap L ℕ) (g : ℤ) :
    load a (t :: rest) g = (if a t.1 = some g then t.2 else 0) + load a rest g := by
  unfold load
  by_cases h : a t.1 = some g <;> simp [h]

lemma addDurations_spec (copy : OMap L ℤ) (dur : OMap ℤ ℕ) (durations : OMap L ℕ)
    (hs : dur.Sorted)
    (hk : ∀ t ∈ durations, ∃ g, copy.find t.1 = some g ∧ (dur.find g).isSome) :
    (addDurations copy dur durations).1 = copy ∧
      (addDurations copy dur durations).2.Sorted ∧
      ∀ g, (addDurations copy dur durations).2.find g =
        (dur.find g).map (· + load copy.find durations g) := by
  induction durations generalizing dur with
  | nil =>
    refine ⟨rfl, hs, fun g => ?_⟩
    simp [addDurations, load]
  | cons t rest ih =>
    obtain ⟨l, d⟩ := t
    obtain ⟨g0, hg0, hd0⟩ := hk (l, d) List.mem_cons_self
    obtain ⟨v0, hv0⟩ := Option.isSome_iff_exists.mp hd0
    simp only at hg0
    have e : addDurations copy dur ((l, d) :: rest) =
        addDurations copy (dur.set g0 (v0 + d)) rest := by
      simp [addDurations, hg0, hv0]
    rw [e]
    have := ih (dur.set g0 (v0 + d)) (OMap.set_sorted hs _ _) (by
      intro t ht
      obtain ⟨g, hg, hd⟩ := hk t (List.mem_cons_of_mem _ ht)
      refine ⟨g, hg, ?_⟩
      rw [OMap.find_set]
      split_ifs
      · rfl
      · exact hd)
    refine ⟨this.1, this.2.1, fun g => ?_⟩
    rw [this.2.2 g, OMap.find_set, load_cons]
    by_cases hg : g = g0
    · subst hg
      simp only [if_true, hg0, hv0, Option.map_some, Option.some.injEq]
      ring
    · have : ¬ (copy.find l = some g) := by
        rw [hg0]
        simpa using Ne.symm hg
      simp only [if_neg hg, if_neg this, zero_add]

/-- The durations that a pass of the loop computes. -/
lemma durations_spec (copy : OMap L ℤ) (durations : OMap L ℕ)
    (hk : ∀ t ∈ durations, (copy.find t.1).isSome) :
    (addDurations copy (zeroDurations copy) durations).1 = copy ∧
      ∀ g v, (g, v) ∈ (addDurations copy (zeroDurations copy) durations).2 ↔
        g ∈ copy.map Prod.snd ∧ v = load copy.find durations g := by
  have := addDurations_spec copy (zeroDurations copy) durations (zeroDurations_sorted copy) (by
    intro t ht
    obtain ⟨g, hg⟩ := Option.isSome_iff_exists.mp (hk t ht)
    refine ⟨g, hg, ?_⟩
    rw [zeroDurations_find, if_pos]
    · rfl
    · exact List.mem_map.mpr ⟨(t.1, g), OMap.mem_of_find hg, rfl⟩)
  refine ⟨this.1, fun g v => ⟨fun h => ?_, fun h => ?_⟩⟩
  · have h' := OMap.find_of_mem this.2.1 h
    rw [this.2.2 g, zeroDurations_find] at h'
    split_ifs at h' with hg
    · simp only [Option.map_some, zero_add, Option.some.injEq] at h'
      exact ⟨hg, h'.symm⟩
    · simp at h'
  · apply OMap.mem_of_find
    rw [this.2.2 g, zeroDurations_find, if_pos h.1, h.2]
    simp

/-! ## The moves -/

lemma retarget_keys (l : L) (g : ℤ) (m : List (L × ℤ)) :
    (retarget l g m).map Prod.fst = m.map Prod.fst := by
  induction m with
  | nil => rfl
  | cons p rest ih =>
    obtain ⟨a, h⟩ := p
    simp only [retarget]
    split_ifs <;> simp [ih]

lemma mem_retarget (l : L) (g : ℤ) (m : List (L × ℤ)) (hn : (m.map Prod.fst).Nodup)
    (hl : l ∈ m.map Prod.fst) (p : L × ℤ) :
    p ∈ retarget l g m ↔ (p = (l, g)) ∨ (p ∈ m ∧ p.1 ≠ l) := by
  induction m with
  | nil => simp at hl
  | cons q rest ih =>
    obtain ⟨a, h⟩ := q
    simp only [List.map_cons, List.nodup_cons] at hn
    simp only [retarget]
    by_cases ha : a = l
    · subst ha
      rw [if_pos rfl]
      simp only [List.mem_cons]
      constructor
      · rintro (hp | hp)
        · exact Or.inl hp
        · right
          refine ⟨Or.inr hp, ?_⟩
          rintro rfl
          exact hn.1 (List.mem_map.mpr ⟨p, hp, rfl⟩)
      · rintro (hp | ⟨hp | hp, hne⟩)
        · exact Or.inl hp
        · exact absurd (by rw [hp]) hne
        · exact Or.inr hp
    · rw [if_neg ha]
      have hl' : l ∈ rest.map Prod.fst := by
        rcases List.mem_cons.mp hl with h' | h'
        · exact absurd h'.symm ha
        · exact h'
      simp only [List.mem_cons, ih hn.2 hl']
      constructor
      · rintro (hp | hp | hp)
        · right; refine ⟨Or.inl hp, ?_⟩; rw [hp]; exact ha
        · exact Or.inl hp
        · exact Or.inr ⟨Or.inr hp.1, hp.2⟩
      · rintro (hp | ⟨hp | hp, hne⟩)
        · exact Or.inr (Or.inl hp)
        · exact Or.inl hp
        · exact Or.inr (Or.inr ⟨hp, hne⟩)

end Verif.Reschedule

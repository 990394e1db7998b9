import Verif.Model.OrderedMap

/-!
# Facts about ordered maps
-/

namespace Verif.OMap

variable {K V : Type} [LinearOrder K]

lemma find_set (m : OMap K V) (k k' : K) (v : V) :
    (m.set k v).find k' = if k' = k then some v else m.find k' := by
  induction m with
  | nil => simp [set, find]
  | cons p rest ih =>
    obtain ⟨a, w⟩ := p
    simp only [set]
    by_cases h1 : k < a
    · rw [if_pos h1]
      simp only [find]
    · rw [if_neg h1]
      by_cases h2 : k = a
      · subst h2
        simp only [if_true, find]
        by_cases h3 : k' = k <;> simp [h3]
      · rw [if_neg h2]
        simp only [find, ih]
        by_cases h3 : k' = k
        · subst h3; simp [h2]
        · simp [h3]

lemma mem_keys_set (m : OMap K V) (k k' : K) (v : V) :
    k' ∈ (m.set k v).map Prod.fst ↔ k' = k ∨ k' ∈ m.map Prod.fst := by
  induction m with
  | nil => simp [set]
  | cons p rest ih =>
    obtain ⟨a, w⟩ := p
    simp only [set]
    split_ifs with h1 h2
    · simp
    · subst h2; simp
    · simp only [List.map_cons, List.mem_cons, ih]; tauto

lemma set_sorted {m : OMap K V} (h : m.Sorted) (k : K) (v : V) : (m.set k v).Sorted := by
  unfold Sorted at *
  induction m with
  | nil => simp [set]
  | cons p rest ih =>
    obtain ⟨a, w⟩ := p
    rw [List.pairwise_cons] at h
    simp only [set]
    split_ifs with h1 h2
    · refine List.pairwise_cons.mpr ⟨?_, List.pairwise_cons.mpr h⟩
      intro q hq
      rcases List.mem_cons.mp hq with rfl | hq
      · exact h1
      · exact lt_trans h1 (h.1 q hq)
    · subst h2
      exact List.pairwise_cons.mpr ⟨h.1, h.2⟩
    · refine List.pairwise_cons.mpr ⟨?_, ih h.2⟩
      intro q hq
      have : q.1 ∈ (set rest k v).map Prod.fst := List.mem_map.mpr ⟨q, hq, rfl⟩
      rw [mem_keys_set] at this
      rcases this with hk | hk
      · rw [hk]
        exact lt_of_le_of_ne (not_lt.mp h1) (Ne.symm h2)
      · obtain ⟨q', hq', he⟩ := List.mem_map.mp hk
        simp only
        rw [← he]
        exact h.1 q' hq'

lemma find_eq_none_iff (m : OMap K V) (k : K) : m.find k = none ↔ k ∉ m.map Prod.fst := by
  induction m with
  | nil => simp [find]
  | cons p rest ih =>
    obtain ⟨a, w⟩ := p
    simp only [find]
    split_ifs with h
    · subst h; simp
    · simp only [ih, List.map_cons, List.mem_cons, h, false_or]

lemma find_isSome_iff (m : OMap K V) (k : K) : (m.find k).isSome ↔ k ∈ m.map Prod.fst := by
  have := find_eq_none_iff m k
  cases h : m.find k with
  | none => simp only [Option.isSome_none, Bool.false_eq_true, false_iff]; exact this.mp h
  | some v =>
    simp only [Option.isSome_some, true_iff]
    by_contra hk
    rw [this.mpr hk] at h
    exact absurd h (by simp)

lemma find_of_mem {m : OMap K V} (h : m.Sorted) {k : K} {v : V} (hm : (k, v) ∈ m) :
    m.find k = some v := by
  unfold Sorted at h
  induction m with
  | nil => simp at hm
  | cons p rest ih =>
    obtain ⟨a, w⟩ := p
    rw [List.pairwise_cons] at h
    rcases List.mem_cons.mp hm with hm | hm
    · simp only [Prod.mk.injEq] at hm
      obtain ⟨rfl, rfl⟩ := hm
      simp [find]
    · have : a < k := h.1 _ hm
      simp [find, ne_of_gt this, ih h.2 hm]

lemma mem_of_find {m : OMap K V} {k : K} {v : V} (h : m.find k = some v) : (k, v) ∈ m := by
  induction m with
  | nil => simp [find] at h
  | cons p rest ih =>
    obtain ⟨a, w⟩ := p
    simp only [find] at h
    split_ifs at h with hk
    · subst hk
      simp only [Option.some.injEq] at h
      subst h
      simp
    · exact List.mem_cons_of_mem _ (ih h)

end Verif.OMap

import Verif.Lemmas.WideCombine
import Verif.Props.Combine

/-!
# Lemmas about the sizes in the combination of several systems
-/

namespace Verif

variable {K : Type}

open Classical in
/-- Sizes: subspace `i` has `N i` points if `P i`. -/
noncomputable def sizeRow (m : ℕ) (N : ℕ → ℕ) (P : ℕ → Prop) : List ℕ :=
  (List.range m).map fun i => if P i then N i else 0

/-- Sizes on `n` groups. -/
noncomputable def sizeTable (n m : ℕ) (N : ℕ → ℕ) (H : ℕ → ℕ → Prop) : List (List ℕ) :=
  (List.range n).map fun g => sizeRow m N (H g)

/-- Two groups have subspace `i`. -/
def SharedBy (n : ℕ) (N : ℕ → ℕ) (H : ℕ → ℕ → Prop) (i : ℕ) : Prop :=
  0 < N i ∧ ∃ a < n, ∃ b < n, a ≠ b ∧ H a i ∧ H b i

open Classical in
/-- The shared subspaces. -/
noncomputable def sharedList (n m : ℕ) (N : ℕ → ℕ) (H : ℕ → ℕ → Prop) : List ℕ :=
  (List.range m).filter fun i => decide (SharedBy n N H i)

theorem mem_sharedList {n m : ℕ} {N : ℕ → ℕ} {H : ℕ → ℕ → Prop} {i : ℕ} :
    i ∈ sharedList n m N H ↔ i < m ∧ SharedBy n N H i := by
  classical
  unfold sharedList
  rw [List.mem_filter, List.mem_range, decide_eq_true_iff]

theorem sharedList_sorted (n m : ℕ) (N : ℕ → ℕ) (H : ℕ → ℕ → Prop) :
    (sharedList n m N H).Pairwise (· < ·) :=
  List.Pairwise.sublist List.filter_sublist List.pairwise_lt_range

theorem length_sizeRow (m : ℕ) (N : ℕ → ℕ) (P : ℕ → Prop) : (sizeRow m N P).length = m := by
  simp [sizeRow]

theorem getD_sizeRow_pos {m : ℕ} {N : ℕ → ℕ} {P : ℕ → Prop} {i : ℕ} (hi : i < m) (h : P i) :
    (sizeRow m N P).getD i 0 = N i := by
  rw [List.getD_eq_getElem _ _ (by rw [length_sizeRow]; exact hi)]
  simp [sizeRow, h]

theorem getD_sizeRow_neg {m : ℕ} {N : ℕ → ℕ} {P : ℕ → Prop} {i : ℕ} (h : ¬ P i) :
    (sizeRow m N P).getD i 0 = 0 := by
  by_cases hi : i < m
  · rw [List.getD_eq_getElem _ _ (by rw [length_sizeRow]; exact hi)]
    simp [sizeRow, h]
  · rw [List.getD_eq_default _ _ (by rw [length_sizeRow]; omega)]

theorem getD_sizeRow_le {m : ℕ} {N : ℕ → ℕ} {P : ℕ → Prop} {i : ℕ} :
    (sizeRow m N P).getD i 0 ≤ N i := by
  by_cases hi : i < m
  · by_cases h : P i
    · rw [getD_sizeRow_pos hi h]
    · rw [getD_sizeRow_neg h]; omega
  · rw [List.getD_eq_default _ _ (by rw [length_sizeRow]; omega)]; omega

theorem sizeRow_pos {m : ℕ} {N : ℕ → ℕ} {P : ℕ → Prop} {i : ℕ} (h : 0 < (sizeRow m N P).getD i 0) :
    i < m ∧ P i ∧ 0 < N i := by
  have hi : i < m := by
    by_contra hc
    rw [List.getD_eq_default _ _ (by rw [length_sizeRow]; omega)] at h
    omega
  by_cases hp : P i
  · rw [getD_sizeRow_pos hi hp] at h
    exact ⟨hi, hp, h⟩
  · rw [getD_sizeRow_neg hp] at h
    omega

/-- rows are determined by which subspaces with points they have -/
theorem eq_sizeRow {m : ℕ} {N : ℕ → ℕ} {P : ℕ → Prop} {l : List ℕ} (hl : l.length = m)
    (h1 : ∀ i < m, P i → l.getD i 0 = N i) (h2 : ∀ i < m, ¬ P i → l.getD i 0 = 0) :
    l = sizeRow m N P := by
  apply List.ext_getElem
  · rw [hl, length_sizeRow]
  · intro i a b
    have e1 := List.getD_eq_getElem l 0 a
    have e2 := List.getD_eq_getElem (sizeRow m N P) 0 b
    rw [← e1, ← e2]
    have hi : i < m := by omega
    by_cases hp : P i
    · rw [h1 i hi hp, getD_sizeRow_pos hi hp]
    · rw [h2 i hi hp, getD_sizeRow_neg hp]

theorem sizeRow_congr {m : ℕ} {N : ℕ → ℕ} {P Q : ℕ → Prop} (h : ∀ i < m, 0 < N i → (P i ↔ Q i)) :
    sizeRow m N P = sizeRow m N Q := by
  refine eq_sizeRow (length_sizeRow _ _ _) ?_ ?_
  · intro i hi hq
    by_cases hp : P i
    · exact getD_sizeRow_pos hi hp
    · rw [getD_sizeRow_neg hp]
      by_contra hc
      exact hp ((h i hi (by omega)).2 hq)
  · intro i hi hq
    by_cases hp : P i
    · rw [getD_sizeRow_pos hi hp]
      by_contra hc
      exact hq ((h i hi (by omega)).1 hp)
    · exact getD_sizeRow_neg hp

theorem length_sizeTable (n m : ℕ) (N : ℕ → ℕ) (H : ℕ → ℕ → Prop) :
    (sizeTable n m N H).length = n := by simp [sizeTable]

theorem getElem?_sizeTable {n m : ℕ} {N : ℕ → ℕ} {H : ℕ → ℕ → Prop} {g : ℕ} (hg : g < n) :
    (sizeTable n m N H)[g]? = some (sizeRow m N (H g)) := by
  unfold sizeTable
  rw [List.getElem?_map, List.getElem?_range hg]
  rfl

theorem sizeTable_congr {n m : ℕ} {N : ℕ → ℕ} {H H' : ℕ → ℕ → Prop}
    (h : ∀ g < n, ∀ i < m, 0 < N i → (H g i ↔ H' g i)) : sizeTable n m N H = sizeTable n m N H' :=
  List.map_congr_left fun g hg => sizeRow_congr (h g (List.mem_range.1 hg))

theorem holds_sizeTable {n m : ℕ} {N : ℕ → ℕ} {H : ℕ → ℕ → Prop} {g i : ℕ} :
    Holds (sizeTable n m N H) g i ↔ g < n ∧ i < m ∧ 0 < N i ∧ H g i := by
  unfold Holds
  constructor
  · rintro ⟨s, hs, hp⟩
    have hg : g < n := by
      have := (List.getElem?_eq_some_iff.1 hs).1
      rwa [length_sizeTable] at this
    rw [getElem?_sizeTable hg, Option.some.injEq] at hs
    subst hs
    obtain ⟨a, b, c⟩ := sizeRow_pos hp
    exact ⟨hg, a, c, b⟩
  · rintro ⟨hg, hi, hN, hH⟩
    exact ⟨_, getElem?_sizeTable hg, by rw [getD_sizeRow_pos hi hH]; exact hN⟩

/-- the maximum over groups -/
theorem foldl_max_table {n m : ℕ} {N : ℕ → ℕ} {H : ℕ → ℕ → Prop} {i : ℕ} (hi : i < m) :
    ((∃ g < n, H g i) → ((sizeTable n m N H).map fun s => s.getD i 0).foldl max 0 = N i) ∧
    (¬ (∃ g < n, H g i) → ((sizeTable n m N H).map fun s => s.getD i 0).foldl max 0 = 0) := by
  have hall : ∀ x ∈ (sizeTable n m N H).map (fun s => s.getD i 0), x = 0 ∨ x = N i := by
    intro x hx
    unfold sizeTable at hx
    rw [List.map_map] at hx
    obtain ⟨g, hg, rfl⟩ := List.mem_map.1 hx
    simp only [Function.comp]
    by_cases h : H g i
    · exact Or.inr (getD_sizeRow_pos hi h)
    · exact Or.inl (getD_sizeRow_neg h)
  rw [foldl_max_eq hall 0 (Or.inl rfl)]
  constructor
  · rintro ⟨g, hg, h⟩
    rw [if_pos]
    right
    unfold sizeTable
    rw [List.map_map]
    exact List.mem_map.2 ⟨g, List.mem_range.2 hg, getD_sizeRow_pos hi h⟩
  · intro h
    split
    · rename_i hc
      rcases hc with hc | hc
      · exact hc.symm
      · unfold sizeTable at hc
        rw [List.map_map] at hc
        obtain ⟨g, hg, e⟩ := List.mem_map.1 hc
        simp only [Function.comp] at e
        rw [getD_sizeRow_neg fun hh => h ⟨g, List.mem_range.1 hg, hh⟩] at e
        exact e.symm
    · rfl

/-- The exchange of sizes when there is one group or all groups share something. -/
theorem exchange_table (n m : ℕ) (hn : n ≤ 256) (N : ℕ → ℕ) (H : ℕ → ℕ → Prop)
    (hsh : n ≤ 1 ∨ ∀ g < n, ∃ i < m, SharedBy n N H i ∧ H g i) :
    exchangeOutgroup m (sizeTable n m N H) =
      some (sizeTable n m N (fun g i => H g i ∨ SharedBy n N H i),
        (List.range n).map fun _ => if n ≤ 1 then none else some (sharedList n m N H)) := by
  obtain ⟨votes, v1, v2, v3⟩ := getSubspaceVote_spec m (sizeTable n m N H) (by
      intro s hs
      obtain ⟨g, -, rfl⟩ := List.mem_map.1 hs
      exact length_sizeRow _ _ _)
    (by rw [length_sizeTable]; exact hn)
  obtain ⟨hmm, hb⟩ := subspacesForMany_spec m (sizeTable n m N H) votes v2 v3
  have hss : ∀ i, SharedSubspace (sizeTable n m N H) i ↔ i < m ∧ SharedBy n N H i := by
    intro i
    unfold SharedSubspace SharedBy
    constructor
    · rintro ⟨a, b, hab, ha, hb'⟩
      rw [holds_sizeTable] at ha hb'
      exact ⟨ha.2.1, ha.2.2.1, a, ha.1, b, hb'.1, hab, ha.2.2.2, hb'.2.2.2⟩
    · rintro ⟨hi, hN, a, ha, b, hb', hab, h1, h2⟩
      exact ⟨a, b, hab, holds_sizeTable.2 ⟨ha, hi, hN, h1⟩, holds_sizeTable.2 ⟨hb', hi, hN, h2⟩⟩
  have hshared : (subspacesForMany votes).1 = sharedList n m N H := by
    have h1 : (subspacesForMany votes).1 = (List.range votes.length).filter
        fun i => manyBits (votes.getD i 0) :=
      (subspacesForMany_prefix votes votes.length (le_refl _)).1
    classical
    rw [h1, v2]
    unfold sharedList
    apply List.filter_congr
    intro i hi
    rw [Bool.eq_iff_iff, decide_eq_true_iff]
    have := hmm i
    rw [h1, v2, List.mem_filter, hss] at this
    have hi' := List.mem_range.1 hi
    constructor
    · exact fun h => (this.1 ⟨hi, h⟩).2.2
    · exact fun h => (this.2 ⟨hi', hi', h⟩).2
  have hcomm : ∀ g ∈ List.range n, setOutgroupCommunicator m (sizeTable n m N H) g =
      some (if n ≤ 1 then none else some (sharedList n m N H)) := by
    intro g hg
    have hgn := List.mem_range.1 hg
    unfold setOutgroupCommunicator
    rw [v1]
    simp only [Option.bind_eq_bind, Option.bind_some]
    rw [← hshared]
    congr 1
    by_cases h1 : n ≤ 1
    · rw [if_pos h1, if_neg]
      rw [mem_ranksOfVote, hb]
      rintro ⟨-, i, -, hs, -⟩
      obtain ⟨-, -, a, ha, b, hb', hab, -⟩ := (hss i).1 hs
      omega
    · rw [if_neg h1, if_pos]
      rw [mem_ranksOfVote, hb]
      obtain ⟨i, hi, hs, hH⟩ := hsh.resolve_left h1 g hgn
      exact ⟨by omega, i, hi, (hss i).2 ⟨hi, hs⟩, holds_sizeTable.2 ⟨hgn, hi, hs.1, hH⟩⟩
  have hsizes : (sizeTable n m N H).map (outgroupSizes (sizeTable n m N H) (subspacesForMany votes).1) =
      sizeTable n m N (fun g i => H g i ∨ SharedBy n N H i) := by
    rw [hshared]
    conv_lhs => rw [sizeTable, List.map_map]
    unfold sizeTable
    apply List.map_congr_left
    intro g hg
    have hgn := List.mem_range.1 hg
    simp only [Function.comp]
    refine eq_sizeRow ?_ ?_ ?_
    · unfold outgroupSizes
      simp [length_sizeRow]
    · intro i hi hP
      unfold outgroupSizes
      rw [List.getD_eq_getElem _ _ (by simp [length_sizeRow, hi]), List.getElem_map,
        List.getElem_range]
      split
      · rename_i hs
        obtain ⟨-, -, a, ha, b, hb', -, h1, -⟩ := mem_sharedList.1 hs
        exact (foldl_max_table hi).1 ⟨a, ha, h1⟩
      · rename_i hs
        rcases hP with h | h
        · exact getD_sizeRow_pos hi h
        · exact absurd (mem_sharedList.2 ⟨hi, h⟩) hs
    · intro i hi hP
      unfold outgroupSizes
      rw [List.getD_eq_getElem _ _ (by simp [length_sizeRow, hi]), List.getElem_map,
        List.getElem_range, if_neg fun hs => hP (Or.inr (mem_sharedList.1 hs).2)]
      exact getD_sizeRow_neg fun h => hP (Or.inl h)
  unfold exchangeOutgroup
  rw [v1]
  simp only [Option.bind_eq_bind, Option.bind_some]
  rw [length_sizeTable, mapM_some_map _ _ _ hcomm, hsizes]
  rfl

theorem set_sizeTable {n m : ℕ} {N : ℕ → ℕ} {H : ℕ → ℕ → Prop} {o : ℕ} (P : ℕ → Prop) :
    (sizeTable n m N H).set o (sizeRow m N P) =
      sizeTable n m N (fun g i => (g = o ∧ P i) ∨ (g ≠ o ∧ H g i)) := by
  apply List.ext_getElem
  · simp [length_sizeTable]
  · intro g h1 h2
    have hrow : ∀ (H : ℕ → ℕ → Prop) h, (sizeTable n m N H)[g]'h = sizeRow m N (H g) := by
      intro H h
      simp [sizeTable]
    rw [List.getElem_set, hrow, hrow]
    by_cases hg : o = g
    · rw [if_pos hg]
      subst hg
      exact sizeRow_congr fun i _ _ => by simp
    · rw [if_neg hg]
      have hg' : g ≠ o := fun h => hg h.symm
      exact sizeRow_congr fun i _ _ => by simp [hg']

theorem maxReduce_table {n m : ℕ} {N : ℕ → ℕ} {H : ℕ → ℕ → Prop} {o : ℕ} (ho : o < n) (P : ℕ → Prop) :
    maxReduceInOutputGroup o (sizeTable n m N H) (sizeRow m N P) =
      sizeRow m N fun i => P i ∨ ∃ g < n, g ≠ o ∧ H g i := by
  unfold maxReduceInOutputGroup
  rw [set_sizeTable, length_sizeRow]
  have key : ∀ i, (∃ g < n, (g = o ∧ P i) ∨ (g ≠ o ∧ H g i)) ↔ P i ∨ ∃ g < n, g ≠ o ∧ H g i := by
    intro i
    constructor
    · rintro ⟨g, hg, ⟨-, h⟩ | ⟨h1, h2⟩⟩
      · exact Or.inl h
      · exact Or.inr ⟨g, hg, h1, h2⟩
    · rintro (h | ⟨g, hg, h1, h2⟩)
      · exact ⟨o, ho, Or.inl ⟨rfl, h⟩⟩
      · exact ⟨g, hg, Or.inr ⟨h1, h2⟩⟩
  refine eq_sizeRow (by simp) ?_ ?_
  · intro i hi hP
    rw [List.getD_eq_getElem _ _ (by simpa using hi), List.getElem_map, List.getElem_range]
    exact (foldl_max_table hi).1 ((key i).2 hP)
  · intro i hi hP
    rw [List.getD_eq_getElem _ _ (by simpa using hi), List.getElem_map, List.getElem_range]
    exact (foldl_max_table hi).2 fun h => hP ((key i).1 h)

theorem zipWith_max_row (m : ℕ) (N : ℕ → ℕ) (P Q : ℕ → Prop) :
    List.zipWith max (sizeRow m N P) (sizeRow m N Q) = sizeRow m N fun i => P i ∨ Q i := by
  have hg : ∀ i < m, (List.zipWith max (sizeRow m N P) (sizeRow m N Q)).getD i 0 =
      max ((sizeRow m N P).getD i 0) ((sizeRow m N Q).getD i 0) := by
    intro i hi
    rw [List.getD_eq_getElem _ _ (by simp [length_sizeRow, hi]), List.getElem_zipWith,
      List.getD_eq_getElem _ _ (by simp [length_sizeRow, hi]),
      List.getD_eq_getElem _ _ (by simp [length_sizeRow, hi])]
  refine eq_sizeRow (by simp [length_sizeRow]) ?_ ?_
  · intro i hi h
    rw [hg i hi]
    rcases h with h | h
    · rw [getD_sizeRow_pos hi h]
      exact max_eq_left getD_sizeRow_le
    · rw [getD_sizeRow_pos hi h]
      exact max_eq_right getD_sizeRow_le
  · intro i hi h
    rw [hg i hi, getD_sizeRow_neg fun hp => h (Or.inl hp), getD_sizeRow_neg fun hp => h (Or.inr hp)]
    rfl

theorem zipWith_min_row (m : ℕ) (N : ℕ → ℕ) (P Q : ℕ → Prop) :
    List.zipWith min (sizeRow m N P) (sizeRow m N Q) = sizeRow m N fun i => P i ∧ Q i := by
  have hg : ∀ i < m, (List.zipWith min (sizeRow m N P) (sizeRow m N Q)).getD i 0 =
      min ((sizeRow m N P).getD i 0) ((sizeRow m N Q).getD i 0) := by
    intro i hi
    rw [List.getD_eq_getElem _ _ (by simp [length_sizeRow, hi]), List.getElem_zipWith,
      List.getD_eq_getElem _ _ (by simp [length_sizeRow, hi]),
      List.getD_eq_getElem _ _ (by simp [length_sizeRow, hi])]
  refine eq_sizeRow (by simp [length_sizeRow]) ?_ ?_
  · intro i hi h
    rw [hg i hi, getD_sizeRow_pos hi h.1, getD_sizeRow_pos hi h.2, min_self]
  · intro i hi h
    rw [hg i hi]
    by_cases hp : P i
    · rw [getD_sizeRow_neg (P := Q) fun hq => h ⟨hp, hq⟩, Nat.min_zero]
    · rw [getD_sizeRow_neg (P := P) hp, Nat.zero_min]

theorem moreThanOne_row (m : ℕ) (N : ℕ → ℕ) (hN : ∀ i < m, N i < 2 ^ 30) (P Q R : ℕ → Prop) :
    List.zipWith (fun a bc => moreThanOneFunction a bc.1 bc.2) (sizeRow m N P)
        ((sizeRow m N Q).zip (sizeRow m N R)) =
      sizeRow m N fun i => (P i ∧ Q i) ∨ (P i ∧ R i) ∨ (Q i ∧ R i) := by
  have hg : ∀ i < m, (List.zipWith (fun a bc => moreThanOneFunction a bc.1 bc.2) (sizeRow m N P)
        ((sizeRow m N Q).zip (sizeRow m N R))).getD i 0 =
      moreThanOneFunction ((sizeRow m N P).getD i 0) ((sizeRow m N Q).getD i 0)
        ((sizeRow m N R).getD i 0) := by
    intro i hi
    rw [List.getD_eq_getElem _ _ (by simp [length_sizeRow, hi]), List.getElem_zipWith,
      List.getElem_zip, List.getD_eq_getElem _ _ (by simp [length_sizeRow, hi]),
      List.getD_eq_getElem _ _ (by simp [length_sizeRow, hi]),
      List.getD_eq_getElem _ _ (by simp [length_sizeRow, hi])]
  have hval : ∀ i < m, ∀ P : ℕ → Prop, (P i ∧ (sizeRow m N P).getD i 0 = N i) ∨
      (¬ P i ∧ (sizeRow m N P).getD i 0 = 0) := by
    intro i hi P
    by_cases h : P i
    · exact Or.inl ⟨h, getD_sizeRow_pos hi h⟩
    · exact Or.inr ⟨h, getD_sizeRow_neg h⟩
  have hmod : ∀ i < m, ∀ x, x ≤ 3 * N i → x % 2 ^ 32 = x := fun i hi x hx =>
    Nat.mod_eq_of_lt (by have := hN i hi; omega)
  refine eq_sizeRow (by simp [length_sizeRow]) ?_ ?_
  · intro i hi h
    rw [hg i hi]
    rcases hval i hi P with ⟨p, e1⟩ | ⟨p, e1⟩ <;> rcases hval i hi Q with ⟨q, e2⟩ | ⟨q, e2⟩ <;>
      rcases hval i hi R with ⟨r, e3⟩ | ⟨r, e3⟩ <;> rw [e1, e2, e3] <;> unfold moreThanOneFunction <;>
      simp only [Nat.max_zero, Nat.zero_max, Nat.max_self, Nat.zero_add, Nat.add_zero] <;>
      rw [hmod i hi _ (by omega)] <;> first | tauto | (split <;> omega)
  · intro i hi h
    rw [hg i hi]
    rcases hval i hi P with ⟨p, e1⟩ | ⟨p, e1⟩ <;> rcases hval i hi Q with ⟨q, e2⟩ | ⟨q, e2⟩ <;>
      rcases hval i hi R with ⟨r, e3⟩ | ⟨r, e3⟩ <;> rw [e1, e2, e3] <;> unfold moreThanOneFunction <;>
      simp only [Nat.max_zero, Nat.zero_max, Nat.max_self, Nat.zero_add, Nat.add_zero] <;>
      rw [hmod i hi _ (by omega)] <;> first | (exfalso; tauto) | (split <;> omega)

/-- The sizes of the extra sparse grid are those of the subspaces that two systems have. -/
theorem reduceExtra_row (m : ℕ) (N : ℕ → ℕ) (hN : ∀ i < m, N i < 2 ^ 30) (k : ℕ)
    (hk : k = 2 ∨ k = 3) (W : ℕ → ℕ → Prop) (s : ℕ) (hs : s < k) (order : List ℕ)
    (ho : order.Perm ((List.range k).filter fun t => t ≠ s)) :
    ∃ c, reduceExtraSubspaceSizes (sizeRow m N (W s)) (order.map fun t => sizeRow m N (W t)) =
      .ok (sizeRow m N fun i => ∃ a < k, ∃ b < k, a ≠ b ∧ W a i ∧ W b i, c) := by
  have hmem : ∀ t, t ∈ order ↔ t < k ∧ t ≠ s := by
    intro t
    rw [ho.mem_iff, List.mem_filter, List.mem_range, decide_eq_true_eq]
  have hnd : order.Nodup := ho.nodup_iff.2 (List.nodup_range.filter _)
  have hlen : order.length + 1 = k := by
    have h1 : (s :: order).Perm (List.range k) := by
      rw [List.perm_ext_iff_of_nodup (List.nodup_cons.2 ⟨fun h => ((hmem s).1 h).2 rfl, hnd⟩)
        List.nodup_range]
      intro t
      rw [List.mem_cons, hmem, List.mem_range]
      by_cases h : t = s
      · subst h; simp [hs]
      · simp [h]
    have := h1.length_eq
    simpa using this
  rcases hk with rfl | rfl
  · obtain ⟨a, rfl⟩ := List.length_eq_one_iff.1 (show order.length = 1 by omega)
    simp only [List.mem_singleton] at hmem
    have ha := (hmem a).1 rfl
    simp only [List.map_cons, List.map_nil, reduceExtraSubspaceSizes]
    rw [zipWith_min_row]
    refine ⟨_, congrArg Outcome.ok (Prod.ext ?_ rfl)⟩
    refine sizeRow_congr fun i _ _ => ?_
    constructor
    · exact fun h => ⟨s, hs, a, ha.1, fun e => ha.2 e.symm, h.1, h.2⟩
    · rintro ⟨x, hx, y, hy, hxy, h1, h2⟩
      by_cases hxs : x = s
      · subst hxs
        have := (hmem y).2 ⟨hy, fun e => hxy e.symm⟩
        subst this
        exact ⟨h1, h2⟩
      · have := (hmem x).2 ⟨hx, hxs⟩
        subst this
        by_cases hys : y = s
        · subst hys
          exact ⟨h2, h1⟩
        · exact absurd ((hmem y).2 ⟨hy, hys⟩).symm hxy
  · obtain ⟨a, b, rfl⟩ := List.length_eq_two.1 (show order.length = 2 by omega)
    simp only [List.mem_cons, List.not_mem_nil, or_false] at hmem
    have ha := (hmem a).1 (Or.inl rfl)
    have hb := (hmem b).1 (Or.inr rfl)
    have hab : a ≠ b := by
      rw [List.nodup_cons] at hnd
      simpa using hnd.1
    simp only [List.map_cons, List.map_nil, reduceExtraSubspaceSizes]
    rw [moreThanOne_row m N hN]
    refine ⟨_, congrArg Outcome.ok (Prod.ext ?_ rfl)⟩
    refine sizeRow_congr fun i _ _ => ?_
    constructor
    · rintro (h | h | h)
      · exact ⟨s, hs, a, ha.1, fun e => ha.2 e.symm, h.1, h.2⟩
      · exact ⟨s, hs, b, hb.1, fun e => hb.2 e.symm, h.1, h.2⟩
      · exact ⟨a, ha.1, b, hb.1, hab, h.1, h.2⟩
    · rintro ⟨x, hx, y, hy, hxy, h1, h2⟩
      have hx' : x = s ∨ x = a ∨ x = b := by
        by_cases h : x = s
        · exact Or.inl h
        · exact Or.inr ((hmem x).2 ⟨hx, h⟩)
      have hy' : y = s ∨ y = a ∨ y = b := by
        by_cases h : y = s
        · exact Or.inl h
        · exact Or.inr ((hmem y).2 ⟨hy, h⟩)
      rcases hx' with rfl | rfl | rfl <;> rcases hy' with rfl | rfl | rfl <;> tauto

/-! ### The extra sparse grid -/

theorem extraGrid_eq [Ring K] (levels : List (List ℕ)) (esz osz : List ℕ)
    (hlen : esz.length = levels.length) (hlt : esz.sum < 2 ^ 32) (hne : ∃ i, 0 < esz.getD i 0)
    (hfit : ∀ i, esz.getD i 0 ≠ 0 → osz.getD i 0 = esz.getD i 0) :
    ∃ e : Dsg K, extraGrid levels esz = some e ∧ Extra esz osz e := by
  have hz : ∀ k ≤ levels.length, selOffset (List.replicate levels.length 0)
      (List.range levels.length) k = 0 := by
    intro k hk
    induction k with
    | zero => simp [selOffset]
    | succ k ih =>
      rw [selOffset_succ, ih (by omega)]
      unfold selSize
      split
      · rw [List.getD_eq_getElem _ _ (by rw [List.length_replicate]; omega), List.getElem_replicate]
      · rfl
  have hoff : selOffset esz (List.range esz.length) esz.length = esz.sum := by
    rw [selOffset_length esz _ List.nodup_range (by simp)]
    congr 1
    apply List.ext_getElem
    · simp
    · intro i h1 h2
      simp [List.getElem?_eq_getElem h2]
  have hk : (Dsg.empty levels : Dsg K).createKahanBuffer = some { (Dsg.empty levels : Dsg K) with
      sel := List.range levels.length
      kahan := ⟨0, fun _ => 0⟩
      kptr := pointersLoop (List.range levels.length) 0 0 (List.replicate levels.length 0) } := by
    rw [createKahan_eq _ (by simp [Dsg.empty]) (by simp [Dsg.empty])]
    simp only [Dsg.empty, selected, List.length_replicate, if_true]
    rw [hz _ (le_refl _)]
  refine ⟨{ levels := []
            sizes := esz
            sel := List.range esz.length
            data := ⟨esz.sum, fun _ => 0⟩
            ptr := pointersLoop (List.range esz.length) 0 0 esz
            kahan := ⟨esz.sum, fun _ => 0⟩
            kptr := pointersLoop (List.range esz.length) 0 0 esz }, ?_, ⟨⟨by simp, ?_, ?_⟩, rfl, rfl, ?_, hfit⟩⟩
  · unfold extraGrid
    rw [hk]
    simp only [Option.bind_eq_bind, Option.bind_some, Dsg.empty]
    unfold Dsg.createOrZero
    simp only [if_true]
    have hsel : selected (List.range levels.length) esz.length = List.range esz.length := by
      unfold selected
      rw [hlen]
      split <;> rfl
    rw [createData_eq _ (by exact List.pairwise_lt_range) (by simp [hlen])]
    simp only [if_true, hsel, Option.bind_eq_bind, Option.bind_some, hoff]
    rfl
  · exact fun i hi => pointersLoop_getElem? _ _ (by rw [hoff]; exact hlt) i hi
  · exact hoff.symm
  · simp only
    obtain ⟨i, hi⟩ := hne
    have hil := lt_of_getD_ne (by omega : esz.getD i 0 ≠ 0)
    rw [List.getD_eq_getElem _ _ hil] at hi
    have := List.single_le_sum (fun x (_ : x ∈ esz) => Nat.zero_le x) _ (List.getElem_mem hil)
    omega

theorem addFiles_eq [AddCommMonoid K] (files : List (Buf K)) (b : Buf K)
    (h : ∀ f ∈ files, f.len = b.len) :
    files.foldlM addFile b = some ⟨b.len, fun i => b.val i + (files.map fun f => f.val i).sum⟩ := by
  induction files generalizing b with
  | nil => simp
  | cons f fs ih =>
    rw [List.foldlM_cons]
    have h1 : addFile b f = some ⟨b.len, fun i => b.val i + f.val i⟩ := by
      unfold addFile
      rw [if_pos (h f (by simp))]
    rw [h1]
    simp only [Option.bind_eq_bind, Option.bind_some]
    rw [ih ⟨b.len, fun i => b.val i + f.val i⟩ fun f' hf => h f' (by simp [hf])]
    simp [add_assoc]

end Verif

import Verif.Lemmas.LevelSets

/-!
# Properties C01, C02, C10: level sets

Specifications are stated with Mathlib notions only: `List.Forall₂` (componentwise
relation, implies equal length), `<` on lists (lexicographic order), sums.
-/

namespace Verif

/-- C01: `getDownSet l` contains exactly the vectors `1 ≤ k ≤ l`, in strictly
ascending lexicographic order (hence without duplicates). -/
theorem C01_downSet (l : List ℕ) :
    (∀ k, k ∈ getDownSet l ↔ List.Forall₂ (fun ki li => 1 ≤ ki ∧ ki ≤ li) k l) ∧
      (getDownSet l).Pairwise (· < ·) := by
  refine ⟨fun k => ?_, pairwise_getDownSetRec _ _⟩
  rw [getDownSet, mem_getDownSetRec]
  simp

/-- a strictly ascending list has no duplicates -/
theorem C01_downSet_nodup (l : List ℕ) : (getDownSet l).Nodup :=
  (C01_downSet l).2.imp fun h => ne_of_lt h

/-- C01: the number of levels is the product of the entries (the amount reserved in
`getDownSet`, l.29). -/
theorem C01_downSet_length (l : List ℕ) : (getDownSet l).length = l.prod := by
  have key : ∀ (rest fixed : List ℕ), (getDownSetRec rest fixed).length = rest.prod := by
    intro rest
    induction rest with
    | nil => simp [getDownSetRec]
    | cons m rest ih => intro fixed; simp [getDownSetRec, List.length_flatMap, ih]
  exact key l []

example : [2, 1] ∈ getDownSet [2, 3] ∧ [3, 1] ∉ getDownSet [2, 3] := by decide

/-- The condition of C02: `m` is the smallest difference between `lmax` and `lmin`. -/
def IsMinDiff (lmax : List ℕ) (lmin : List ℤ) (m : ℕ) : Prop :=
  (∀ i (h : i < lmax.length) (h' : i < lmin.length), lmin[i] + m ≤ lmax[i]) ∧
    ∃ i, ∃ (h : i < lmax.length) (h' : i < lmin.length), lmin[i] + m = lmax[i]

/-- `lmin ≤ lmax` componentwise (asserted by the code) -/
def LminLeLmax (lmin : List ℤ) (lmax : List ℕ) : Prop :=
  List.Forall₂ (fun (a : ℤ) (b : ℕ) => a ≤ b) lmin lmax

theorem isMinDiff_minElement (lmax : List ℕ) (lmin : List ℤ) (h : LminLeLmax lmin lmax)
    (hne : lmax ≠ []) : IsMinDiff lmax lmin (minElement (levelDiff lmax lmin)).toNat ∧
      0 ≤ minElement (levelDiff lmax lmin) := by
  have hlen := h.length_eq
  have hget := (List.forall₂_iff_get.1 h).2
  have hne' : levelDiff lmax lmin ≠ [] := by
    intro hc
    have := congrArg List.length hc
    simp [levelDiff, hlen] at this
    exact hne this
  obtain ⟨i, hi, he⟩ := List.mem_iff_getElem.1 (minElement_mem _ hne')
  simp [levelDiff] at hi he
  have h0 := hget i hi.2 hi.1
  simp at h0
  have hnn : 0 ≤ minElement (levelDiff lmax lmin) := by rw [levelDiff, ← he]; omega
  refine ⟨⟨?_, ?_⟩, hnn⟩
  · intro i h1 h2
    have hm : (lmax[i] : ℤ) - lmin[i] ∈ levelDiff lmax lmin := by
      rw [levelDiff, List.mem_iff_getElem]
      exact ⟨i, by simp [h1, h2], by simp⟩
    have := minElement_le _ _ hm
    omega
  · refine ⟨i, hi.1, hi.2, ?_⟩
    rw [Int.toNat_of_nonneg hnn, levelDiff, ← he]
    omega

theorem isMinDiff_unique {lmax : List ℕ} {lmin : List ℤ} {m m' : ℕ} (h : IsMinDiff lmax lmin m)
    (h' : IsMinDiff lmax lmin m') : m = m' := by
  obtain ⟨h1, i, hi, hi', he⟩ := h
  obtain ⟨g1, j, hj, hj', ge⟩ := h'
  have := h1 j hj hj'
  have := g1 i hi hi'
  omega

/-- C02: membership. `createTruncatedHierarchicalLevels lmax lmin` consists of exactly
the vectors `k ≥ 1` whose total positive excess over `lmax - m` is at most `m`, where
`m` is the smallest entry of `lmax - lmin`. -/
theorem C02_truncated_mem (lmax : List ℕ) (lmin : List ℤ) (k : List ℕ) (m : ℕ)
    (h : LminLeLmax lmin lmax) (hm : IsMinDiff lmax lmin m) :
    k ∈ createTruncatedHierarchicalLevels lmax lmin ↔
      k.length = lmax.length ∧ (∀ ki ∈ k, 1 ≤ ki) ∧
        (List.zipWith (fun (ki li : ℕ) => ((ki : ℤ) - (li - m)).toNat) k lmax).sum ≤ m := by
  have hne : lmax ≠ [] := by
    rintro rfl
    obtain ⟨-, i, hi, -⟩ := hm
    simp at hi
  obtain ⟨hmd, hnn⟩ := isMinDiff_minElement lmax lmin h hne
  have hmin := isMinDiff_unique hm hmd
  have hmin' : minElement (levelDiff lmax lmin) = (m : ℤ) := by omega
  unfold createTruncatedHierarchicalLevels
  simp only
  rw [← hmin, hmin', mem_createTruncRec _ _ _ _ _ hne]
  set r := lmax.map fun a : ℕ => (a : ℤ) - m with hr
  have hexc : ∀ t : List ℕ, excess t r =
      (List.zipWith (fun (ki li : ℕ) => ((ki : ℤ) - (li - m)).toNat) t lmax).sum := by
    intro t
    rw [hr, excess, List.zipWith_map_right]
  have hforall : ∀ t, List.Forall₂ (fun a b => 1 ≤ a ∧ a ≤ b) t lmax →
      List.Forall₂ (fun (a : ℕ) (b : ℤ) => (a : ℤ) ≤ b + m) t r := by
    intro t ht
    rw [hr, List.forall₂_map_right_iff]
    exact ht.imp fun _ _ h => by omega
  simp only [List.nil_append]
  constructor
  · rintro ⟨t, rfl, ht, hs, ha⟩
    have hlen := ht.length_eq
    refine ⟨hlen, ?_, ?_⟩
    · intro ki hki
      obtain ⟨i, hi, rfl⟩ := List.mem_iff_getElem.1 hki
      exact ((List.forall₂_iff_get.1 ht).2 i hi (by omega)).1
    · rw [← hexc]
      exact (pleaseAdd_iff m _ _ (by simp [hlen, hr]) (hforall _ ht)).1 ha
  · rintro ⟨hlen, h1, hsum⟩
    have hle : List.Forall₂ (fun a b => 1 ≤ a ∧ a ≤ b) k lmax := by
      rw [List.forall₂_iff_get]
      refine ⟨hlen, fun i hi hi' => ⟨h1 _ (List.get_mem _ _), ?_⟩⟩
      have hmem : ((k[i] : ℤ) - (lmax[i] - m)).toNat ∈
          List.zipWith (fun (ki li : ℕ) => ((ki : ℤ) - (li - m)).toNat) k lmax := by
        rw [List.mem_iff_getElem]
        exact ⟨i, by simp; omega, by simp⟩
      have := List.single_le_sum (by simp) _ hmem
      simp only [List.get_eq_getElem]
      omega
    rw [← hexc] at hsum
    refine ⟨k, rfl, hle, ?_, ?_⟩
    · have := levelSum_le_of_excess k r (by simp [hlen, hr])
      omega
    · exact (pleaseAdd_iff m _ _ (by simp [hlen, hr]) (hforall _ hle)).2 hsum

/-- C02: the levels come in strictly ascending lexicographic order (no duplicates; the
binary search of the sparse grid is valid). -/
theorem C02_truncated_sorted (lmax : List ℕ) (lmin : List ℤ) :
    (createTruncatedHierarchicalLevels lmax lmin).Pairwise (· < ·) :=
  pairwise_createTruncRec _ _ _ _

/-- raising entries so that the sum reaches a given amount -/
theorem exists_above_with_sum (k : List ℕ) (r : List ℤ) (n : ℕ) (hlen : k.length = r.length)
    (hne : r ≠ []) (h : excess k r ≤ n) :
    ∃ g : List ℕ, List.Forall₂ (· ≤ ·) k g ∧
      List.Forall₂ (fun (a : ℤ) (b : ℕ) => a ≤ b) r g ∧ (g.sum : ℤ) = r.sum + n := by
  induction k generalizing r n with
  | nil => cases r <;> simp at hlen hne
  | cons a k ih =>
    cases r with
    | nil => simp at hlen
    | cons b r =>
      simp only [excess, List.zipWith_cons_cons, List.sum_cons] at h
      have hlen' : k.length = r.length := by simpa using hlen
      by_cases hr : r = []
      · subst hr
        have : k = [] := by simpa using hlen'
        subst this
        simp at h
        refine ⟨[(b + n).toNat], ?_, ?_, ?_⟩
        · simp ; omega
        · simp
        · simp ; omega
      · obtain ⟨g, h1, h2, h3⟩ :=
          ih r (n - ((a : ℤ) - b).toNat) hlen' hr (by unfold excess; omega)
        refine ⟨(max (a : ℤ) b).toNat :: g, ?_, ?_, ?_⟩
        · exact List.Forall₂.cons (by omega) h1
        · exact List.Forall₂.cons (by omega) h2
        · simp only [List.sum_cons, Nat.cast_add, h3]; omega

theorem excess_le_of_below (k g : List ℕ) (r : List ℤ) (h1 : List.Forall₂ (· ≤ ·) k g)
    (h2 : List.Forall₂ (fun (a : ℤ) (b : ℕ) => a ≤ b) r g) :
    (excess k r : ℤ) + r.sum ≤ g.sum := by
  induction h1 generalizing r with
  | nil => cases h2; simp [excess]
  | cons h _ ih =>
    cases h2 with
    | cons h' h'' =>
      have := ih _ h''
      simp only [excess, List.zipWith_cons_cons, List.sum_cons, Nat.cast_add] at *
      omega

/-- C02: in terms of component grids. A level `k ≥ 1` is in the sparse grid's level set
iff it lies below some full grid `g ≥ lmax - m` on the finest diagonal
`|g| = |lmax - m| + m` of the truncated combination technique. -/
theorem C02_truncated_below_diagonal (lmax : List ℕ) (lmin : List ℤ) (k : List ℕ) (m : ℕ)
    (h : LminLeLmax lmin lmax) (hm : IsMinDiff lmax lmin m) :
    k ∈ createTruncatedHierarchicalLevels lmax lmin ↔
      (∀ ki ∈ k, 1 ≤ ki) ∧
      ∃ g : List ℕ, List.Forall₂ (· ≤ ·) k g ∧
        List.Forall₂ (fun (li gi : ℕ) => (li : ℤ) - m ≤ gi) lmax g ∧
        (g.sum : ℤ) = (lmax.map fun li : ℕ => (li : ℤ) - m).sum + m := by
  rw [C02_truncated_mem lmax lmin k m h hm]
  set r := lmax.map fun li : ℕ => (li : ℤ) - m with hr
  have hz : (List.zipWith (fun (ki li : ℕ) => ((ki : ℤ) - (li - m)).toNat) k lmax).sum =
      excess k r := by
    rw [hr, excess, List.zipWith_map_right]
  have hne : r ≠ [] := by
    obtain ⟨-, i, hi, -⟩ := hm
    intro hc
    have := congrArg List.length hc
    simp [hr] at this
    simp [this] at hi
  have hf : ∀ g : List ℕ, List.Forall₂ (fun (li gi : ℕ) => (li : ℤ) - m ≤ gi) lmax g ↔
      List.Forall₂ (fun (a : ℤ) (b : ℕ) => a ≤ b) r g := by
    intro g
    rw [hr, List.forall₂_map_left_iff]
  rw [hz]
  constructor
  · rintro ⟨hl, h1, hs⟩
    obtain ⟨g, hg1, hg2, hg3⟩ := exists_above_with_sum k r m (by simp [hl, hr]) hne hs
    exact ⟨h1, g, hg1, (hf g).2 hg2, hg3⟩
  · rintro ⟨h1, g, hg1, hg2, hg3⟩
    have := excess_le_of_below k g r hg1 ((hf g).1 hg2)
    have hl1 := hg1.length_eq
    have hl2 := hg2.length_eq
    exact ⟨by omega, h1, by omega⟩

/-- C02: the level set is downward closed. -/
theorem C02_truncated_down_closed (lmax : List ℕ) (lmin : List ℤ) (k k' : List ℕ)
    (h : LminLeLmax lmin lmax)
    (hne : lmax ≠ []) (hk : k ∈ createTruncatedHierarchicalLevels lmax lmin)
    (hk' : List.Forall₂ (fun a b => 1 ≤ a ∧ a ≤ b) k' k) :
    k' ∈ createTruncatedHierarchicalLevels lmax lmin := by
  have hm := (isMinDiff_minElement lmax lmin h hne).1
  rw [C02_truncated_below_diagonal lmax lmin _ _ h hm] at hk ⊢
  obtain ⟨h1, g, hg, hr, hs⟩ := hk
  refine ⟨?_, g, ?_, hr, hs⟩
  · intro ki hki
    obtain ⟨i, hi, rfl⟩ := List.mem_iff_getElem.1 hki
    exact ((List.forall₂_iff_get.1 hk').2 i hi (by have := hk'.length_eq; omega)).1
  · rw [List.forall₂_iff_get] at hg hk' ⊢
    refine ⟨by omega, fun i hi hi' => ?_⟩
    exact le_trans (hk'.2 i hi (by omega)).2 (hg.2 i (by omega) hi')

example : LminLeLmax [1, 1, 1] [3, 4, 2] ∧ IsMinDiff [3, 4, 2] [1, 1, 1] 1 := by
  have h : LminLeLmax [1, 1, 1] [3, 4, 2] := by simp [LminLeLmax]
  exact ⟨h, (isMinDiff_minElement [3, 4, 2] [1, 1, 1] h (by simp)).1⟩

example : [2, 4, 1] ∈ createTruncatedHierarchicalLevels [3, 4, 2] [1, 1, 1] ∧
    [3, 4, 1] ∉ createTruncatedHierarchicalLevels [3, 4, 2] [1, 1, 1] := by decide

end Verif

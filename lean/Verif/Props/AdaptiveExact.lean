import Verif.Props.Adaptive
import Mathlib.Tactic.Ring

/-!
# C62: what the adaptive scheme between `lmin` and `lmax` contains, exactly

With `m` the largest difference, the grids are those above `lmin` whose level sum is at most
`lmin.sum + m - (sum of all m - (lmax_i - lmin_i))`: a difference smaller than `m` does not limit its own dimension but
lowers the whole scheme.
-/

namespace Verif

/-- `m` is the largest difference. -/
def MaxDiff (lmin lmax : List ℕ) (m : ℕ) : Prop :=
  (∀ p ∈ lmin.zip lmax, p.2 ≤ p.1 + m) ∧ ∃ p ∈ lmin.zip lmax, p.2 = p.1 + m

instance (lmin lmax : List ℕ) (m : ℕ) : Decidable (MaxDiff lmin lmax m) := by
  unfold MaxDiff; infer_instance

theorem maxElement_spec (l : List ℕ) (hne : l ≠ []) : maxElement l ∈ l ∧ ∀ x ∈ l, x ≤ maxElement l := by
  cases l with
  | nil => simp at hne
  | cons a l =>
    simp only [maxElement]
    clear hne
    induction l generalizing a with
    | nil => simp
    | cons b l ih =>
      obtain ⟨h1, h2⟩ := ih (max a b)
      rw [List.foldl_cons]
      refine ⟨?_, ?_⟩
      · rcases List.mem_cons.1 h1 with h | h
        · rw [h]
          rcases le_total a b with hab | hab
          · rw [max_eq_right hab]; simp
          · rw [max_eq_left hab]; simp
        · exact List.mem_cons_of_mem _ (List.mem_cons_of_mem _ h)
      · intro x hx
        have h0 := h2 (max a b) (by simp)
        rcases List.mem_cons.1 hx with rfl | hx
        · exact le_trans (le_max_left _ _) h0
        · rcases List.mem_cons.1 hx with rfl | hx
          · exact le_trans (le_max_right _ _) h0
          · exact h2 x (List.mem_cons_of_mem _ hx)

theorem maxElement_maxDiff {lmin lmax : List ℕ} (h : ValidMinMax lmin lmax) {m : ℕ} (hm : MaxDiff lmin lmax m) :
    maxElement (List.zipWith (· - ·) lmax lmin) = m := by
  have hlen := h.le.length_eq
  have h0 := List.length_pos_of_ne_nil h.nonempty
  obtain ⟨h1, h2⟩ := maxElement_spec (List.zipWith (· - ·) lmax lmin) (by
    intro hc
    have := congrArg List.length hc
    simp only [List.length_zipWith, List.length_nil] at this
    omega)
  apply le_antisymm
  · obtain ⟨i, hi, he⟩ := List.mem_iff_getElem.1 h1
    rw [← he]
    simp only [List.length_zipWith] at hi
    have := hm.1 (lmin[i], lmax[i]) (List.mem_iff_getElem.2 ⟨i, by simp; omega, by simp⟩)
    simp only at this
    simp only [List.getElem_zipWith]
    omega
  · obtain ⟨p, hp, he⟩ := hm.2
    obtain ⟨i, hi, rfl⟩ := List.mem_iff_getElem.1 hp
    simp only [List.length_zip] at hi
    simp only [List.getElem_zip] at he
    have := h2 (lmax[i] - lmin[i]) (List.mem_iff_getElem.2 ⟨i, by simp; omega, by simp⟩)
    omega

theorem sum_excess {lmin lmax l : List ℕ} {m : ℕ} (hle : VecLe lmin l)
    (hm : ∀ p ∈ lmin.zip lmax, p.2 ≤ p.1 + m) (hlen : lmin.length = lmax.length) :
    (List.zipWith (fun (ki li : ℕ) => ((ki : ℤ) - (li - m)).toNat) l lmax).sum + lmax.sum = l.sum + lmin.length * m := by
  induction hle generalizing lmax with
  | nil =>
    cases lmax with
    | nil => simp
    | cons => simp at hlen
  | @cons a b lmin l h1 h2 ih =>
    cases lmax with
    | nil => simp at hlen
    | cons c lmax =>
      have e := ih (lmax := lmax) (fun p hp => hm p (by rw [List.zip_cons_cons]; simp [hp])) (by simpa using hlen)
      have := hm (a, c) (by simp)
      simp only at this
      simp only [List.zipWith_cons_cons, List.sum_cons, List.length_cons, Nat.add_mul, Nat.one_mul]
      omega

theorem sum_maxDiff {lmin lmax : List ℕ} {m : ℕ} (hm : ∀ p ∈ lmin.zip lmax, p.2 ≤ p.1 + m)
    (hlen : lmin.length = lmax.length) : lmax.sum ≤ lmin.sum + lmin.length * m := by
  induction lmin generalizing lmax with
  | nil =>
    cases lmax with
    | nil => simp
    | cons => simp at hlen
  | cons a lmin ih =>
    cases lmax with
    | nil => simp at hlen
    | cons c lmax =>
      have e := ih (lmax := lmax) (fun p hp => hm p (by rw [List.zip_cons_cons]; simp [hp])) (by simpa using hlen)
      have := hm (a, c) (by simp)
      simp only at this
      simp only [List.sum_cons, List.length_cons, Nat.add_mul, Nat.one_mul]
      omega

theorem mem_adaptiveSet_exact {lmin lmax : List ℕ} (h : ValidMinMax lmin lmax) {m : ℕ} (hm : MaxDiff lmin lmax m)
    (l : List ℕ) :
    l ∈ adaptiveSet lmin lmax ↔ VecLe lmin l ∧ l.sum + lmin.length * m ≤ m + lmax.sum := by
  rw [mem_adaptiveSet lmin lmax h, maxElement_maxDiff h hm]
  have hlen := h.le.length_eq
  have hs := sum_maxDiff hm.1 hlen
  constructor
  · rintro ⟨h1, h2, h3⟩
    have := sum_excess h1 hm.1 hlen
    exact ⟨h1, by omega⟩
  · rintro ⟨h1, h2⟩
    have := sum_excess h1 hm.1 hlen
    exact ⟨h1, by omega, by omega⟩

/-- A grid of the set lies below a component grid; a component grid is in the set. -/
theorem adaptive_above {lmin lmax : List ℕ} (h : ValidMinMax lmin lmax) (g : List ℕ) :
    (g ∈ adaptiveSet lmin lmax → ∃ l ∈ (createAdaptiveCombischeme lmin lmax).combiSpaces, VecLe g l) ∧
      (g ∈ (createAdaptiveCombischeme lmin lmax).combiSpaces → g ∈ adaptiveSet lmin lmax) := by
  constructor
  · intro hg
    have hsum := C06_createAdaptive_consistent_set lmin lmax h g g hg (VecLe.refl g)
    unfold coeffSumAbove at hsum
    have hne : ((createAdaptiveCombischeme lmin lmax).combiSpaces.zip
        (createAdaptiveCombischeme lmin lmax).coefficients).filter (fun lc => decide (VecLe g lc.1)) ≠ [] := by
      intro hc
      rw [hc] at hsum
      simp at hsum
    obtain ⟨⟨l, co⟩, hl⟩ := List.exists_mem_of_ne_nil _ hne
    rw [List.mem_filter] at hl
    exact ⟨l, (List.of_mem_zip hl.1).1, by simpa using hl.2⟩
  · intro hg
    rw [(createAdaptive_spaces lmin lmax).1, C06_adaptive_coefficients _ _ (adaptiveSet_sorted _ _)
      (adaptiveSet_ne_nil _ _ h) (adaptiveSet_pos _ _ h)] at hg
    exact (List.mem_filter.1 hg).1

/-- The levels that the component grids reach in a dimension: at least `x` if and only if `x - lmin_i` and the
differences missing to `m` in all dimensions add up to at most `m`. -/
theorem C62_level_iff (lmin lmax : List ℕ) (h : ValidMinMax lmin lmax) (m : ℕ) (hm : MaxDiff lmin lmax m) (i : ℕ)
    (hi : i < lmin.length) (x : ℕ) (hx : lmin[i] ≤ x) :
    (∃ g ∈ (createAdaptiveCombischeme lmin lmax).combiSpaces, x ≤ g.getD i 0) ↔
      x - lmin[i] + lmin.sum + lmin.length * m ≤ m + lmax.sum := by
  constructor
  · rintro ⟨g, hg, hgi⟩
    obtain ⟨h1, h2⟩ := (mem_adaptiveSet_exact h hm g).1 ((adaptive_above h g).2 hg)
    have hs : lmin.sum + (g.getD i 0 - lmin[i]) ≤ g.sum := by
      clear * - h1 hi
      induction h1 generalizing i with
      | nil => simp at hi
      | @cons a b l g h1 h2 ih =>
        have := VecLe.sum_le h2
        cases i with
        | zero => simp only [List.sum_cons, List.getD_cons_zero, List.getElem_cons_zero]; omega
        | succ i =>
          have := ih i (by simpa using hi)
          simp only [List.sum_cons, List.getD_cons_succ, List.getElem_cons_succ]
          omega
    omega
  · intro hle
    have hmem : lmin.set i (lmin[i] + (x - lmin[i])) ∈ adaptiveSet lmin lmax := by
      rw [mem_adaptiveSet_exact h hm]
      refine ⟨vecLe_set_add _ _ _ hi, ?_⟩
      rw [sum_set_add _ _ _ hi]
      omega
    obtain ⟨l, hl, hg⟩ := (adaptive_above h _).1 hmem
    refine ⟨l, hl, ?_⟩
    have hl1 := hg.length_eq
    rw [List.length_set] at hl1
    have := (List.forall₂_iff_get.1 hg).2 i (by simpa using hi) (by omega)
    simp only [List.get_eq_getElem, List.getElem_set_self] at this
    rw [List.getD_eq_getElem _ _ (by omega)]
    omega

example : ValidMinMax [1, 1, 1] [4, 3, 3] ∧ MaxDiff [1, 1, 1] [4, 3, 3] 3 := ⟨⟨by decide, by decide, by decide⟩, by decide⟩

/-- There is no component grid at all if and only if the differences missing to `m` add up to more than `m`. -/
theorem C62_empty_iff (lmin lmax : List ℕ) (h : ValidMinMax lmin lmax) (m : ℕ) (hm : MaxDiff lmin lmax m) :
    (createAdaptiveCombischeme lmin lmax).combiSpaces = [] ↔ m + lmax.sum < lmin.sum + lmin.length * m := by
  constructor
  · intro hc
    by_contra hle
    obtain ⟨l, hl, -⟩ := (adaptive_above h lmin).1 ((mem_adaptiveSet_exact h hm lmin).2 ⟨VecLe.refl _, by omega⟩)
    rw [hc] at hl
    simp at hl
  · intro hlt
    rw [List.eq_nil_iff_forall_not_mem]
    intro g hg
    obtain ⟨h1, h2⟩ := (mem_adaptiveSet_exact h hm g).1 ((adaptive_above h g).2 hg)
    have := h1.sum_le
    omega

/-- One dimension is refined more than the others: no grids in three dimensions and more. -/
theorem C62_empty_violated (d n : ℕ) :
    ValidMinMax (List.replicate (d + 3) 1) ((n + 2) :: List.replicate (d + 2) 1) ∧
      (createAdaptiveCombischeme (List.replicate (d + 3) 1) ((n + 2) :: List.replicate (d + 2) 1)).combiSpaces = [] := by
  have hv : ValidMinMax (List.replicate (d + 3) 1) ((n + 2) :: List.replicate (d + 2) 1) :=
    ⟨by simp, fun x hx => by rw [List.eq_of_mem_replicate hx], .cons (by omega) (VecLe.refl _)⟩
  refine ⟨hv, ?_⟩
  rw [C62_empty_iff _ _ hv (n + 1)]
  · simp only [List.sum_cons, List.sum_replicate_nat, List.length_replicate, Nat.mul_one]
    have : (d + 3) * (n + 1) = d * (n + 1) + 3 * (n + 1) := by ring
    have := Nat.zero_le (d * (n + 1))
    omega
  · refine ⟨?_, (1, n + 2), by rw [List.replicate_succ, List.zip_cons_cons]; simp, by simp only; omega⟩
    intro p hp
    rw [List.replicate_succ, List.zip_cons_cons, List.mem_cons] at hp
    rcases hp with rfl | hp
    · simp only; omega
    · obtain ⟨j, hj, rfl⟩ := List.mem_iff_getElem.1 hp
      simp

/-- `lmax` is reached in every dimension if and only if all differences are the same. -/
theorem C62_reaches_iff (lmin lmax : List ℕ) (h : ValidMinMax lmin lmax) (m : ℕ) (hm : MaxDiff lmin lmax m) :
    (∀ i, i < lmin.length → ∃ g ∈ (createAdaptiveCombischeme lmin lmax).combiSpaces, g.getD i 0 = lmax.getD i 0) ↔
      lmax = lmin.map (· + m) := by
  have hlen := h.le.length_eq
  have hreach : ∀ i (hi : i < lmin.length),
      (∃ g ∈ (createAdaptiveCombischeme lmin lmax).combiSpaces, g.getD i 0 = lmax.getD i 0) ↔
        lmax[i] - lmin[i] + lmin.sum + lmin.length * m ≤ m + lmax.sum := by
    intro i hi
    have hi' : i < lmax.length := by omega
    have hle := (List.forall₂_iff_get.1 h.le).2 i hi hi'
    simp only [List.get_eq_getElem] at hle
    rw [← C62_level_iff lmin lmax h m hm i hi lmax[i] hle, List.getD_eq_getElem _ _ hi']
    constructor
    · rintro ⟨g, hg, e⟩
      exact ⟨g, hg, e.ge⟩
    · rintro ⟨g, hg, e⟩
      refine ⟨g, hg, le_antisymm ?_ e⟩
      have hb := (C62_adaptive_bounds lmin lmax h g hg).2
      have hgl := hb.length_eq
      have := (List.forall₂_iff_get.1 hb).2 i (by omega) hi'
      simp only [List.get_eq_getElem] at this
      rw [List.getD_eq_getElem _ _ (by omega)]
      exact this
  constructor
  · intro hall
    obtain ⟨p, hp, he⟩ := hm.2
    obtain ⟨i, hi, rfl⟩ := List.mem_iff_getElem.1 hp
    simp only [List.length_zip] at hi
    simp only [List.getElem_zip] at he
    have h1 := (hreach i (by omega)).1 (hall i (by omega))
    have h2 : lmin.sum + lmin.length * m ≤ lmax.sum := by omega
    have hmm := hm.1
    clear * - h2 hmm hlen
    induction lmin generalizing lmax with
    | nil =>
      cases lmax with
      | nil => rfl
      | cons => simp at hlen
    | cons a lmin ih =>
      cases lmax with
      | nil => simp at hlen
      | cons c lmax =>
        have hl : lmin.length = lmax.length := by simpa using hlen
        have hm' : ∀ p ∈ lmin.zip lmax, p.2 ≤ p.1 + m :=
          fun p hp => hmm p (by rw [List.zip_cons_cons]; simp [hp])
        have e := sum_maxDiff hm' hl
        have := hmm (a, c) (by simp)
        simp only at this
        simp only [List.sum_cons, List.length_cons, Nat.add_mul, Nat.one_mul] at h2
        have hc : c = a + m := by omega
        rw [List.map_cons, ← ih lmax hl (by omega) hm', hc]
  · intro he i hi
    rw [hreach i hi]
    have hsum : lmax.sum = lmin.sum + lmin.length * m := by
      rw [he]
      clear * -
      induction lmin with
      | nil => simp
      | cons a l ih =>
        simp only [List.map_cons, List.sum_cons, List.length_cons, Nat.add_mul, Nat.one_mul, ih]
        omega
    have := hm.1 (lmin[i], lmax[i]'(by omega)) (List.mem_iff_getElem.2 ⟨i, by simp; omega, by simp⟩)
    simp only at this
    omega

example : ValidMinMax [1, 2] [3, 4] ∧ MaxDiff [1, 2] [3, 4] 2 ∧ [3, 4] = [1, 2].map (· + 2) :=
  ⟨⟨by decide, by decide, by decide⟩, by decide, by decide⟩

/-- Only one number of `lmax` matters: the scheme is that between `lmin` and `lmin + c`, where `c` is `m` without the
missing differences. -/
theorem C62_same_as_uniform (lmin lmax : List ℕ) (h : ValidMinMax lmin lmax) (m : ℕ) (hm : MaxDiff lmin lmax m) (c : ℕ)
    (hc : lmin.sum + lmin.length * m + c = m + lmax.sum) :
    (createAdaptiveCombischeme lmin lmax).combiSpaces =
        (createAdaptiveCombischeme lmin (lmin.map (· + c))).combiSpaces ∧
      (createAdaptiveCombischeme lmin lmax).coefficients =
        (createAdaptiveCombischeme lmin (lmin.map (· + c))).coefficients := by
  have hn : lmin ≠ [] := by
    rintro rfl
    exact h.nonempty (List.length_eq_zero_iff.1 h.le.length_eq.symm)
  have hz : lmin.zip (lmin.map (· + c)) = lmin.map fun x => (x, x + c) := by
    clear * -
    induction lmin with
    | nil => rfl
    | cons a l ih => rw [List.map_cons, List.zip_cons_cons, ih, List.map_cons]
  have hv : ValidMinMax lmin (lmin.map (· + c)) := by
    refine ⟨by simpa using hn, h.pos, ?_⟩
    unfold VecLe
    rw [List.forall₂_map_right_iff]
    exact List.forall₂_same.2 fun x _ => by omega
  have hm' : MaxDiff lmin (lmin.map (· + c)) c := by
    unfold MaxDiff
    rw [hz]
    refine ⟨fun p hp => ?_, ?_⟩
    · obtain ⟨x, -, rfl⟩ := List.mem_map.1 hp
      exact le_rfl
    · obtain ⟨x, hx⟩ := List.exists_mem_of_ne_nil lmin hn
      exact ⟨(x, x + c), List.mem_map.2 ⟨x, hx, rfl⟩, rfl⟩
  have hsum : (lmin.map (· + c)).sum = lmin.sum + lmin.length * c := by
    clear * -
    induction lmin with
    | nil => simp
    | cons a l ih =>
      simp only [List.map_cons, List.sum_cons, List.length_cons, Nat.add_mul, Nat.one_mul, ih]
      omega
  have hset : adaptiveSet lmin lmax = adaptiveSet lmin (lmin.map (· + c)) := by
    refine List.Pairwise.eq_of_mem_iff (adaptiveSet_sorted _ _) (adaptiveSet_sorted _ _) ?_
    intro l
    rw [mem_adaptiveSet_exact h hm, mem_adaptiveSet_exact hv hm', hsum]
    refine and_congr_right fun _ => ?_
    omega
  rw [(createAdaptive_spaces lmin lmax).1, (createAdaptive_spaces lmin lmax).2, (createAdaptive_spaces lmin _).1,
    (createAdaptive_spaces lmin _).2, hset, List.length_map, h.le.length_eq]
  exact ⟨rfl, rfl⟩

example : [1, 1, 1].sum + [1, 1, 1].length * 3 + 1 = 3 + [4, 3, 3].sum := by decide

end Verif

import Verif.Lemmas.Adaptive
import Verif.Props.LevelSets

/-!
# Properties C06, C07, C62: adaptive combination scheme, fault tolerance preparation
-/

namespace Verif

/-- Specification of C06: the inclusion-exclusion coefficient of grid `l` in the set `S`,
`∑_{z ∈ {0,1}^d, l + z ∈ S} (-1)^|z|`. -/
def inclusionExclusion (S : List (List ℕ)) (l : List ℕ) : ℤ :=
  (((zeroOne l.length).filter fun z => decide (vecAdd l z ∈ S)).map fun z => (-1 : ℤ) ^ z.sum).sum

/-- Total coefficient of the grids containing the hierarchical level `k`. -/
def coeffSumAbove (spaces : List (List ℕ)) (coeffs : List ℤ) (k : List ℕ) : ℤ :=
  (((spaces.zip coeffs).filter fun lc => decide (VecLe k lc.1)).map Prod.snd).sum

/-- C06: on every ascending list of level vectors (entries at least 1), the in-place
algorithm keeps exactly the grids with nonzero inclusion-exclusion coefficient, in order,
together with that coefficient. -/
theorem C06_adaptive_coefficients (dim : ℕ) (S : List (List ℕ)) (hs : S.Pairwise (· < ·))
    (hne : ∀ l ∈ S, l ≠ []) (hpos : ∀ l ∈ S, ∀ x ∈ l, 1 ≤ x) :
    computeCombiCoeffsAdaptive dim S =
      (S.filter fun l => inclusionExclusion S l != 0,
        (S.filter fun l => inclusionExclusion S l != 0).map (inclusionExclusion S)) := by
  have hnd : S.Nodup := hs.imp fun h => ne_of_lt h
  have : adaptiveCoeff S = inclusionExclusion S := by
    funext l
    exact adaptiveCoeff_eq_spec S hnd l
  rw [computeCombiCoeffsAdaptive_eq dim S hs hne hpos, this]

example : (∀ l ∈ [[1, 1], [1, 2], [2, 1]], l ≠ []) ∧
    (∀ l ∈ [[1, 1], [1, 2], [2, 1]], ∀ x ∈ l, 1 ≤ x) ∧
    [[1, 1], [1, 2], [2, 1]].Pairwise (· < ·) ∧
    computeCombiCoeffsAdaptive 2 [[1, 1], [1, 2], [2, 1]] = ([[1, 1], [1, 2], [2, 1]], [-1, 1, 1]) := by
  decide

theorem coeffSumAbove_map (F : List (List ℕ)) (f : List ℕ → ℤ) (k : List ℕ) :
    coeffSumAbove F (F.map f) k = ((F.filter fun l => decide (VecLe k l)).map f).sum := by
  unfold coeffSumAbove
  congr 1
  induction F with
  | nil => simp
  | cons l F ih =>
    rw [List.map_cons, List.zip_cons_cons]
    by_cases h : VecLe k l
    · rw [List.filter_cons_of_pos (by simpa using h), List.filter_cons_of_pos (by simpa using h),
        List.map_cons, List.map_cons, ih]
    · rw [List.filter_cons_of_neg (by simpa using h), List.filter_cons_of_neg (by simpa using h), ih]

/-- C06: consistency. If the set is downward closed above `lmin`, then for every level `k`
contained in some grid of the set, the coefficients of the grids containing `k` add up
to 1. -/
theorem C06_adaptive_consistent (dim : ℕ) (S : List (List ℕ)) (lmin : List ℕ)
    (hs : S.Pairwise (· < ·)) (hne : ∀ l ∈ S, l ≠ []) (hpos : ∀ l ∈ S, ∀ x ∈ l, 1 ≤ x)
    (hmin : ∀ l ∈ S, VecLe lmin l)
    (hdc : ∀ l ∈ S, ∀ l', VecLe lmin l' → VecLe l' l → l' ∈ S)
    (k g : List ℕ) (hg : g ∈ S) (hk : VecLe k g) :
    coeffSumAbove (computeCombiCoeffsAdaptive dim S).1 (computeCombiCoeffsAdaptive dim S).2 k =
      1 := by
  have hnd : S.Nodup := hs.imp fun h => ne_of_lt h
  rw [computeCombiCoeffsAdaptive_eq dim S hs hne hpos, coeffSumAbove_map, sum_filter_ne_zero]
  have := sum_mu_consistent S lmin hnd hmin hdc k g hg hk
  convert this using 3
  · rfl
  · apply List.filter_congr
    intro l _
    rw [Bool.eq_iff_iff, leVec_iff]
    simp

/-- the conditions of the constructor (asserted there) -/
structure ValidMinMax (lmin lmax : List ℕ) : Prop where
  nonempty : lmax ≠ []
  pos : ∀ x ∈ lmin, 1 ≤ x
  le : VecLe lmin lmax

theorem adaptive_lmin_le (lmax : List ℕ) (n : ℕ) :
    LminLeLmax (lmax.map fun a : ℕ => (a : ℤ) - n) lmax := by
  rw [LminLeLmax, List.forall₂_map_left_iff]
  exact List.forall₂_same.2 fun x _ => by omega

/-- the grids on which `createAdaptiveCombischeme` computes the coefficients -/
def adaptiveSet (lmin lmax : List ℕ) : List (List ℕ) :=
  let n := maxElement (List.zipWith (· - ·) lmax lmin)
  adaptiveSpaces (levelSum lmin + n) lmin
    (createTruncatedHierarchicalLevels lmax (lmax.map fun a : ℕ => (a : ℤ) - n))

theorem createAdaptive_spaces (lmin lmax : List ℕ) :
    (createAdaptiveCombischeme lmin lmax).combiSpaces =
        (computeCombiCoeffsAdaptive lmax.length (adaptiveSet lmin lmax)).1 ∧
      (createAdaptiveCombischeme lmin lmax).coefficients =
        (computeCombiCoeffsAdaptive lmax.length (adaptiveSet lmin lmax)).2 := by
  simp only [createAdaptiveCombischeme, adaptiveSet]
  rw [Nat.add_sub_cancel_left]
  exact ⟨rfl, rfl⟩

/-- membership in the set of grids of the adaptive scheme -/
theorem mem_adaptiveSet (lmin lmax : List ℕ) (h : ValidMinMax lmin lmax) (l : List ℕ) :
    l ∈ adaptiveSet lmin lmax ↔
      VecLe lmin l ∧
        l.sum ≤ lmin.sum + maxElement (List.zipWith (· - ·) lmax lmin) ∧
        (List.zipWith (fun (ki li : ℕ) =>
          ((ki : ℤ) - (li - maxElement (List.zipWith (· - ·) lmax lmin))).toNat) l lmax).sum ≤
            maxElement (List.zipWith (· - ·) lmax lmin) := by
  set n := maxElement (List.zipWith (· - ·) lmax lmin) with hn
  have hle := adaptive_lmin_le lmax n
  have hmd : IsMinDiff lmax (lmax.map fun a : ℕ => (a : ℤ) - n) n := by
    refine ⟨fun i h1 h2 => by simp, 0, ?_, ?_, ?_⟩
    · exact List.length_pos_of_ne_nil h.nonempty
    · simpa using List.length_pos_of_ne_nil h.nonempty
    · simp
  have hm := C02_truncated_mem lmax _ l n hle hmd
  simp only [adaptiveSet, adaptiveSpaces, List.mem_filter, ← hn, hm, Bool.and_eq_true, leVec_iff,
    decide_eq_true_eq, levelSum]
  constructor
  · rintro ⟨⟨-, -, h3⟩, h4, h5⟩
    exact ⟨h4, h5, h3⟩
  · rintro ⟨h4, h5, h3⟩
    refine ⟨⟨by rw [← h4.length_eq, h.le.length_eq], ?_, h3⟩, h4, h5⟩
    intro x hx
    obtain ⟨i, hi, rfl⟩ := List.mem_iff_getElem.1 hx
    have h1 := h4.length_eq
    have h6 := (List.forall₂_iff_get.1 h4).2 i (by omega) hi
    have h7 := h.pos _ (List.getElem_mem (l := lmin) (n := i) (by omega))
    simp only [List.get_eq_getElem] at h6
    omega

theorem adaptiveSet_sorted (lmin lmax : List ℕ) : (adaptiveSet lmin lmax).Pairwise (· < ·) :=
  List.Pairwise.filter _ (C02_truncated_sorted _ _)

theorem adaptiveSet_pos (lmin lmax : List ℕ) (h : ValidMinMax lmin lmax) :
    ∀ l ∈ adaptiveSet lmin lmax, ∀ x ∈ l, 1 ≤ x := by
  intro l hl x hx
  have h4 := ((mem_adaptiveSet lmin lmax h l).1 hl).1
  obtain ⟨i, hi, rfl⟩ := List.mem_iff_getElem.1 hx
  have h1 := h4.length_eq
  have h6 := (List.forall₂_iff_get.1 h4).2 i (by omega) hi
  have h7 := h.pos _ (List.getElem_mem (l := lmin) (n := i) (by omega))
  simp only [List.get_eq_getElem] at h6
  omega

theorem adaptiveSet_ne_nil (lmin lmax : List ℕ) (h : ValidMinMax lmin lmax) :
    ∀ l ∈ adaptiveSet lmin lmax, l ≠ [] := by
  rintro l hl rfl
  have h1 := ((mem_adaptiveSet lmin lmax h []).1 hl).1.length_eq
  have h2 := h.le.length_eq
  rw [h1] at h2
  exact h.nonempty (List.length_eq_zero_iff.1 h2.symm)

/-- C06: the same for the complete `createAdaptiveCombischeme` with valid `lmin`, `lmax`:
for every level `k` contained in one of the grids of the truncated set (in particular, in a
component grid of the resulting scheme), the coefficients of the component grids containing
`k` add up to exactly 1. -/
theorem C06_createAdaptive_consistent_set (lmin lmax : List ℕ) (h : ValidMinMax lmin lmax)
    (k g : List ℕ) (hg : g ∈ adaptiveSet lmin lmax) (hk : VecLe k g) :
    coeffSumAbove (createAdaptiveCombischeme lmin lmax).combiSpaces
      (createAdaptiveCombischeme lmin lmax).coefficients k = 1 := by
  rw [(createAdaptive_spaces lmin lmax).1, (createAdaptive_spaces lmin lmax).2]
  refine C06_adaptive_consistent lmax.length _ lmin (adaptiveSet_sorted _ _)
    (adaptiveSet_ne_nil _ _ h) (adaptiveSet_pos _ _ h) ?_ ?_ k g hg hk
  · exact fun l hl => ((mem_adaptiveSet lmin lmax h l).1 hl).1
  · intro l hl l' h1 h2
    rw [mem_adaptiveSet lmin lmax h] at hl ⊢
    refine ⟨h1, le_trans h2.sum_le hl.2.1, le_trans ?_ hl.2.2⟩
    generalize (maxElement (List.zipWith (· - ·) lmax lmin) : ℤ) = n
    clear * - h2
    induction h2 generalizing lmax with
    | nil => simp
    | cons h1 _ ih =>
      cases lmax with
      | nil => simp
      | cons b lmax =>
        have := ih lmax
        simp only [List.zipWith_cons_cons, List.sum_cons]
        omega

theorem C06_createAdaptive_consistent (lmin lmax : List ℕ) (h : ValidMinMax lmin lmax)
    (k g : List ℕ) (hg : g ∈ (createAdaptiveCombischeme lmin lmax).combiSpaces)
    (hk : VecLe k g) :
    coeffSumAbove (createAdaptiveCombischeme lmin lmax).combiSpaces
      (createAdaptiveCombischeme lmin lmax).coefficients k = 1 := by
  refine C06_createAdaptive_consistent_set lmin lmax h k g ?_ hk
  rw [(createAdaptive_spaces lmin lmax).1, C06_adaptive_coefficients _ _ (adaptiveSet_sorted _ _)
    (adaptiveSet_ne_nil _ _ h) (adaptiveSet_pos _ _ h)] at hg
  exact (List.mem_filter.1 hg).1

example : ValidMinMax [1, 1] [3, 3] ∧
    [1, 2] ∈ (createAdaptiveCombischeme [1, 1] [3, 3]).combiSpaces :=
  ⟨⟨by simp, by simp, by simp⟩, by decide⟩

/-! ### C62: the adaptive scheme reaches `lmax` -/

/-- C62 is violated: with different level differences, the scheme for `lmin = (1,1)`,
`lmax = (2,4)` has no grid with level 3 or 4 in the second dimension. -/
theorem C62_adaptive_reaches_lmax_violated :
    ∃ lmin lmax, ValidMinMax lmin lmax ∧
      ∀ l ∈ (createAdaptiveCombischeme lmin lmax).combiSpaces, l.getD 1 0 + 2 ≤ lmax.getD 1 0 :=
  ⟨[1, 1], [2, 4], ⟨by simp, by simp, by simp⟩, by decide⟩

/-- C62: every component grid lies between `lmin` and `lmax` (for all valid parameters). -/
theorem C62_adaptive_bounds (lmin lmax : List ℕ) (h : ValidMinMax lmin lmax) (g : List ℕ)
    (hg : g ∈ (createAdaptiveCombischeme lmin lmax).combiSpaces) :
    VecLe lmin g ∧ VecLe g lmax := by
  rw [(createAdaptive_spaces lmin lmax).1, C06_adaptive_coefficients _ _ (adaptiveSet_sorted _ _)
    (adaptiveSet_ne_nil _ _ h) (adaptiveSet_pos _ _ h)] at hg
  have hg := (List.mem_filter.1 hg).1
  rw [mem_adaptiveSet lmin lmax h] at hg
  obtain ⟨h1, -, h3⟩ := hg
  refine ⟨h1, ?_⟩
  have hlen : g.length = lmax.length := by rw [← h1.length_eq, h.le.length_eq]
  refine List.forall₂_iff_get.2 ⟨hlen, fun i hi hi' => ?_⟩
  set n := maxElement (List.zipWith (· - ·) lmax lmin)
  have hmem : ((g[i] : ℤ) - (lmax[i] - n)).toNat ∈
      List.zipWith (fun (ki li : ℕ) => ((ki : ℤ) - (li - n)).toNat) g lmax := by
    rw [List.mem_iff_getElem]
    exact ⟨i, by simp; omega, by simp⟩
  have := List.single_le_sum (by simp) _ hmem
  simp only [List.get_eq_getElem]
  omega

theorem maxElement_const (l : List ℕ) (c : ℕ) (hne : l ≠ []) (h : ∀ x ∈ l, x = c) :
    maxElement l = c := by
  cases l with
  | nil => simp at hne
  | cons a l =>
    simp only [maxElement]
    have ha := h a (by simp)
    have hl : ∀ x ∈ l, x = c := fun x hx => h x (by simp [hx])
    clear h hne
    subst ha
    induction l with
    | nil => rfl
    | cons b l ih =>
      rw [List.foldl_cons, hl b (by simp), max_self]
      exact ih fun x hx => hl x (by simp [hx])

theorem sum_set_add (l : List ℕ) (i c : ℕ) (hi : i < l.length) :
    (l.set i (l[i] + c)).sum = l.sum + c := by
  induction l generalizing i with
  | nil => simp at hi
  | cons a l ih =>
    cases i with
    | zero => simp; omega
    | succ i =>
      have := ih i (by simpa using hi)
      simp only [List.getElem_cons_succ, List.set_cons_succ, List.sum_cons]
      omega

theorem vecLe_set_add (l : List ℕ) (i c : ℕ) (hi : i < l.length) :
    VecLe l (l.set i (l[i] + c)) := by
  induction l generalizing i with
  | nil => simp
  | cons a l ih =>
    cases i with
    | zero => simp
    | succ i =>
      have := ih i (by simpa using hi)
      exact List.Forall₂.cons (le_refl _) this

/-- C62, the part that holds: if all level differences are equal (`lmax = lmin + c`), then
for every dimension some component grid has level `lmax_i`. Missing for the full claim:
different level differences, where it is false, see `C62_adaptive_reaches_lmax_violated`. -/
theorem C62_adaptive_reaches_lmax_partial (lmin : List ℕ) (c : ℕ)
    (h : ValidMinMax lmin (lmin.map (· + c))) (i : ℕ) (hi : i < lmin.length) :
    ∃ g ∈ (createAdaptiveCombischeme lmin (lmin.map (· + c))).combiSpaces,
      g.getD i 0 = (lmin.map (· + c)).getD i 0 := by
  have hmax : maxElement (List.zipWith (· - ·) (lmin.map (· + c)) lmin) = c := by
    apply maxElement_const
    · intro hc
      have := congrArg List.length hc
      simp at this
      simp [this] at hi
    · intro x hx
      obtain ⟨j, hj, rfl⟩ := List.mem_iff_getElem.1 hx
      simp
  set g := lmin.set i (lmin[i] + c) with hg
  have hgS : g ∈ adaptiveSet lmin (lmin.map (· + c)) := by
    rw [mem_adaptiveSet _ _ h, hmax]
    refine ⟨vecLe_set_add _ _ _ hi, (sum_set_add _ _ _ hi).le, ?_⟩
    have he := excess_le_of_below g g (toInt lmin) (VecLe.refl g) (by
      rw [toInt, List.forall₂_map_left_iff]
      exact (vecLe_set_add lmin i c hi).imp fun _ _ h => by omega)
    have hz : (List.zipWith (fun (ki li : ℕ) => ((ki : ℤ) - (li - (c : ℤ))).toNat) g
        (lmin.map (· + c))).sum = excess g (toInt lmin) := by
      unfold excess toInt
      rw [List.zipWith_map_right, List.zipWith_map_right]
      congr 2
      funext a b
      congr 1
      push_cast
      ring
    rw [hz]
    have h2 := sum_set_add lmin i c hi
    have h3 : (toInt lmin).sum = (lmin.sum : ℤ) := by
      unfold toInt
      induction lmin with
      | nil => rfl
      | cons a l ih => simp
    rw [← hg] at h2
    omega
  have hsum := C06_createAdaptive_consistent_set lmin _ h g g hgS (VecLe.refl g)
  unfold coeffSumAbove at hsum
  have hne : ((createAdaptiveCombischeme lmin (lmin.map (· + c))).combiSpaces.zip
      (createAdaptiveCombischeme lmin (lmin.map (· + c))).coefficients).filter
        (fun lc => decide (VecLe g lc.1)) ≠ [] := by
    intro hc
    rw [hc] at hsum
    simp at hsum
  obtain ⟨⟨l, co⟩, hl⟩ := List.exists_mem_of_ne_nil _ hne
  rw [List.mem_filter] at hl
  have hlm := (List.of_mem_zip hl.1).1
  have hle : VecLe g l := by simpa using hl.2
  have hle2 := (C62_adaptive_bounds lmin _ h l hlm).2
  refine ⟨l, hlm, ?_⟩
  have hl1 := hle.length_eq
  have hgl : g.length = lmin.length := by simp [hg]
  have h1 := (List.forall₂_iff_get.1 hle).2 i (by omega) (by omega)
  have h2 := (List.forall₂_iff_get.1 hle2).2 i (by omega) (by simpa using hi)
  simp [hg] at h1 h2
  rw [List.getD_eq_getElem _ _ (by omega), List.getD_eq_getElem _ _ (by simpa using hi)]
  simp
  omega

example : ValidMinMax [1, 2] ([1, 2].map (· + 3)) := ⟨by simp, by simp, by simp⟩

/-! ### C07: `makeFaultTolerant` -/

/-- Value of a combination: `∑ coefficient * (value of the grid)`. -/
def combinedValue (s : Scheme) (f : List ℕ → ℚ) : ℚ :=
  ((s.combiSpaces.zip s.coefficients).map fun lc => (lc.2 : ℚ) * f lc.1).sum

/-- C07: existing grids keep position and coefficient, the added ones have coefficient 0,
are `≥ lmin`, and the combination of arbitrary grid functions is unchanged. -/
theorem C07_makeFaultTolerant_neutral (s : Scheme)
    (hlen : s.combiSpaces.length = s.coefficients.length) :
    ∃ extra : List (List ℕ),
      (makeFaultTolerant s).combiSpaces = s.combiSpaces ++ extra ∧
      (makeFaultTolerant s).coefficients = s.coefficients ++ List.replicate extra.length 0 ∧
      (∀ l ∈ extra, VecLe s.lmin l ∧ l ∈ s.levels) ∧
      ∀ f, combinedValue (makeFaultTolerant s) f = combinedValue s f := by
  unfold makeFaultTolerant
  split
  · exact ⟨[], by simp, by simp, by simp, fun _ => rfl⟩
  · refine ⟨_, rfl, ?_, ?_, ?_⟩
    · simp
    · intro l hl
      simp only [List.mem_flatMap, List.mem_range'_1] at hl
      obtain ⟨l', hl', p, -, hp⟩ := hl
      split at hp
      · rename_i hc
        simp only [Bool.and_eq_true, leVec_iff] at hc
        simp at hp
        subst hp
        exact ⟨hc.1, hl'⟩
      · simp at hp
    · intro f
      unfold combinedValue
      simp only
      rw [List.zip_append hlen, List.map_append, List.sum_append]
      conv_rhs => rw [← add_zero (List.sum _)]
      congr 1
      apply List.sum_eq_zero
      intro x hx
      simp only [List.mem_map] at hx
      obtain ⟨⟨a, b⟩, hab, rfl⟩ := hx
      have := (List.of_mem_zip hab).2
      simp only [List.mem_map] at this
      obtain ⟨_, _, rfl⟩ := this
      simp

/-- C07: the added grids are new, if the existing grids are on the diagonals
`n - p`, `p < effDim`, as in every classical scheme (`C03_classical_diagonals`).
Missing for the full claim: other schemes, see `C07_adaptive_duplicates_violated`. -/
theorem C07_extra_new_partial (s : Scheme) (extra : List (List ℕ))
    (hdiag : ∀ l ∈ s.combiSpaces, s.n < levelSum l + s.effDim)
    (h : (makeFaultTolerant s).combiSpaces = s.combiSpaces ++ extra) :
    ∀ l ∈ extra, l ∉ s.combiSpaces := by
  unfold makeFaultTolerant at h
  split at h
  · have : extra = [] := by simpa using h
    simp [this]
  · have h := List.append_cancel_left h
    subst h
    intro l hl hc
    have := hdiag l hc
    simp only [List.mem_flatMap, List.mem_range'_1] at hl
    obtain ⟨l', hl', p, hp1, hp⟩ := hl
    split at hp
    · rename_i hc
      simp at hp hc
      subst hp
      omega
    · simp at hp

example : ∀ l ∈ (createAdaptiveCombischeme [1, 1] [4, 4]).combiSpaces,
    (createAdaptiveCombischeme [1, 1] [4, 4]).n <
      levelSum l + (createAdaptiveCombischeme [1, 1] [4, 4]).effDim := by decide

/-- C07 is violated for adaptive schemes with different level differences: the grid
`(1,1,1)` is added although it already is in the scheme (with coefficient 1). -/
theorem C07_adaptive_duplicates_violated :
    ∃ lmin lmax, ValidMinMax lmin lmax ∧
      ¬ (makeFaultTolerant (createAdaptiveCombischeme lmin lmax)).combiSpaces.Nodup :=
  ⟨[1, 1, 1], [4, 4, 3], ⟨by simp, by simp, by simp⟩, by decide⟩

end Verif

import Verif.Props.Combine
import Verif.Props.Classical

/-!
# Property C73: combining grids that already agree changes nothing

The values here are the hierarchical ones, which is what is combined. C34 says that every value is
replaced by the weighted sum over all component grids of the values at the same place. If the
coefficients of the grids that contain a level add up to one for every level in use (C03, C06), this
leaves grids alone that agree with each other, and so a second combination does nothing.
-/

namespace Verif

variable {K : Type}

/-- Sum of the coefficients of the component grids, on all groups, that contain level `l`. -/
def coeffAbove [Ring K] (n : ℕ) (T : ℕ → List (K × List ℕ × (ℕ → K))) (l : List ℕ) : K :=
  ((List.range n).map fun m => ((T m).map fun t => if VecLe l t.2.1 then t.1 else 0).sum).sum

/-- The coefficients of the grids that contain a level add up to one, for all levels in use. -/
def Consistent [Ring K] (n : ℕ) (T : ℕ → List (K × List ℕ × (ℕ → K))) : Prop :=
  ∀ g < n, ∀ t ∈ T g, ∀ l, VecLe l t.2.1 → coeffAbove n T l = 1

/-- All component grids have the value `v z` at place `z`. -/
def Agrees (refs : List RefDim) (n : ℕ) (T : ℕ → List (K × List ℕ × (ℕ → K))) (v : List ℕ → K) :
    Prop :=
  ∀ g < n, ∀ t ∈ T g, ∀ p < numLocal refs t.2.1, t.2.2 p = v (spatialOf refs t.2.1 p)

/-- The combination of grids that agree, at a point of level `l`, is the common value times the sum of
the coefficients of the grids that contain `l`. -/
theorem valueAtPlace_agrees [Ring K] {refs : List RefDim} {levels : List (List ℕ)} {n : ℕ}
    {T : ℕ → List (K × List ℕ × (ℕ → K))} (h : ValidSystem refs levels n T)
    {v : List ℕ → K} (hv : Agrees refs n T v) {g : ℕ} (hg : g < n) {t : K × List ℕ × (ℕ → K)}
    (ht : t ∈ T g) {l : List ℕ} (hl : l ∈ getDownSet t.2.1) {p : ℕ}
    (hpl : p ∈ getFGPointsOfSubspace (List.zipWith localOf refs t.2.1) l) :
    valueAtPlace refs n T (spatialOf refs t.2.1 p) =
      coeffAbove n T l * v (spatialOf refs t.2.1 p) := by
  have hL := h.comp g hg t ht
  obtain ⟨j, hj, hpj⟩ := List.mem_iff_getElem.1 hpl
  have hle := (mem_downSet_iff _ _).1 hl
  have hpart : ∀ m ∈ List.range n, ((T m).map fun t' =>
      t'.1 * ∑ q ∈ Finset.range (numLocal refs t'.2.1) with
        spatialOf refs t'.2.1 q = spatialOf refs t.2.1 p, t'.2.2 q).sum =
      ((T m).map fun t' => if VecLe l t'.2.1 then t'.1 else 0).sum *
        v (spatialOf refs t.2.1 p) := by
    intro m hm
    rw [← List.sum_map_mul_right]
    congr 1
    apply List.map_congr_left
    intro t' ht'
    have hL' := h.comp m (List.mem_range.1 hm) t' ht'
    have hs := sum_same_place h.ref hL' hL hl hj hpj (fun _ => (1 : K))
    have hval : (∑ q ∈ Finset.range (numLocal refs t'.2.1) with
        spatialOf refs t'.2.1 q = spatialOf refs t.2.1 p, t'.2.2 q) =
        (∑ q ∈ Finset.range (numLocal refs t'.2.1) with
          spatialOf refs t'.2.1 q = spatialOf refs t.2.1 p, (1 : K)) *
          v (spatialOf refs t.2.1 p) := by
      rw [Finset.sum_mul]
      apply Finset.sum_congr rfl
      intro q hq
      rw [Finset.mem_filter, Finset.mem_range] at hq
      rw [hv m (List.mem_range.1 hm) t' ht' q hq.1, hq.2, one_mul]
    rw [hval, hs]
    by_cases hm' : VecLe l t'.2.1
    · rw [if_pos hm', if_pos ((mem_downSet_iff _ _).2 ⟨hle.1, hm'⟩), one_mul]
    · rw [if_neg hm', if_neg (fun hc => hm' ((mem_downSet_iff _ _).1 hc).2), zero_mul, mul_zero]
  unfold valueAtPlace
  rw [List.map_congr_left hpart, List.sum_map_mul_right]
  rfl

/-- The component grids `S g` are those of `T g`: coefficients, dimensions, sizes and values. -/
def Unchanged (refs : List RefDim) (n : ℕ) (T : ℕ → List (K × List ℕ × (ℕ → K)))
    (S : ℕ → Group K) : Prop :=
  ∀ g < n, List.Forall₂ (fun t (t' : K × Dfg K) => t'.1 = t.1 ∧
    t'.2.dims = (gridOf refs t.2.1 t.2.2).dims ∧ t'.2.data.len = numLocal refs t.2.1 ∧
    ∀ p < numLocal refs t.2.1, t'.2.data.val p = t.2.2 p) (T g) (S g).tasks

theorem unchanged_of_combined [Ring K] {refs : List RefDim} {levels : List (List ℕ)} {n : ℕ}
    {T : ℕ → List (K × List ℕ × (ℕ → K))} (h : ValidSystem refs levels n T) (hc : Consistent n T)
    {v : List ℕ → K} (hv : Agrees refs n T v) {S : ℕ → Group K} (hS : IsCombined refs n T S) :
    Unchanged refs n T S := by
  intro g hg
  have hS := hS g hg
  rw [List.forall₂_iff_get] at hS ⊢
  refine ⟨hS.1, fun i h1 h2 => ?_⟩
  obtain ⟨e1, e2, e3, e4⟩ := hS.2 i h1 h2
  have ht : (T g).get ⟨i, h1⟩ ∈ T g := List.get_mem _ _
  refine ⟨e1, e2, e3, fun p hp => ?_⟩
  obtain ⟨l, hl, hpl⟩ := exists_subspace_of_point h.ref (h.comp g hg _ ht) hp
  rw [e4 p hp, valueAtPlace_agrees h hv hg ht hl hpl, ← hv g hg _ ht p hp,
    hc g hg _ ht l ((mem_downSet_iff _ _).1 hl).2, one_mul]

/-! ### The combination of the code -/

/-- The conditions of C34 for a way of combining: the variants with one outgroup communicator need
all or none of the groups to share subspaces on the process. -/
structure Usable (refs : List RefDim) (n : ℕ) (T : ℕ → List (K × List ℕ × (ℕ → K)))
    (variant : CombinationVariant) (maxChunk : ℕ) : Prop where
  pos : 0 < maxChunk
  max : maxChunk < 2 ^ 31
  share : variant = .sparseGridReduce ∨ variant = .subspaceReduce ∨ (∀ g < n, Shares refs n T g) ∨
    ∀ g < n, ¬ Shares refs n T g

theorem combined_of_usable [Ring K] {refs : List RefDim} {levels : List (List ℕ)} {n : ℕ}
    (hn : n ≤ 256) {T : ℕ → List (K × List ℕ × (ℕ → K))} (h : ValidSystem refs levels n T)
    (htotal : (levels.map (subspaceCount refs)).sum < 2 ^ 31)
    {variant : CombinationVariant} {maxChunk : ℕ} (hu : Usable refs n T variant maxChunk) :
    ∃ S, combineVariant variant maxChunk levels n (fun g => tasksOf refs (T g)) = some S ∧
      IsCombined refs n T S := by
  have hsmall : ∀ l ∈ levels, subspaceCount refs l < 2 ^ 31 := by
    intro l hl
    refine lt_of_le_of_lt ?_ htotal
    exact List.single_le_sum (fun _ _ => Nat.zero_le _) _ (List.mem_map.2 ⟨_, hl, rfl⟩)
  have h3 := hu.share
  cases variant with
  | sparseGridReduce =>
    exact C34_sparseGridReduce refs levels n T h _ hu.pos hu.max (lt_trans htotal (by norm_num))
  | subspaceReduce => exact C34_subspaceReduce refs levels n hn T h _ hu.max htotal
  | outgroupSparseGridReduce =>
    exact C34_outgroup_partial refs levels n hn T h (by simpa using h3) _ hu.max hsmall _
      (Or.inr ⟨rfl, htotal⟩)
  | chunkedOutgroupSparseGridReduce =>
    exact C34_outgroup_partial refs levels n hn T h (by simpa using h3) _ hu.max hsmall _
      (Or.inl rfl)

/-- C73: if all component grids agree with each other (the value at a place is `v` of the place) and
the coefficients are consistent, then combining changes none of them. -/
theorem C73_agreeing_unchanged [Ring K] (refs : List RefDim) (levels : List (List ℕ)) (n : ℕ)
    (hn : n ≤ 256) (T : ℕ → List (K × List ℕ × (ℕ → K))) (h : ValidSystem refs levels n T)
    (htotal : (levels.map (subspaceCount refs)).sum < 2 ^ 31) (hc : Consistent n T)
    (v : List ℕ → K) (hv : Agrees refs n T v)
    (variant : CombinationVariant) (maxChunk : ℕ) (hu : Usable refs n T variant maxChunk) :
    ∃ S, combineVariant variant maxChunk levels n (fun g => tasksOf refs (T g)) = some S ∧
      Unchanged refs n T S := by
  obtain ⟨S, e1, e2⟩ := combined_of_usable hn h htotal hu
  exact ⟨S, e1, unchanged_of_combined h hc hv e2⟩

/-- The tasks of two groups are the same: coefficients, dimensions, sizes, values. -/
def SameTasks (ts ts' : List (K × Dfg K)) : Prop :=
  List.Forall₂ (fun t t' : K × Dfg K => t'.1 = t.1 ∧ t'.2.dims = t.2.dims ∧
    t'.2.data.len = t.2.data.len ∧ ∀ p < t.2.data.len, t'.2.data.val p = t.2.data.val p) ts ts'

/-- The tasks with the values that a combination has left. -/
def retask (T : ℕ → List (K × List ℕ × (ℕ → K))) (S : ℕ → Group K) (g : ℕ) :
    List (K × List ℕ × (ℕ → K)) :=
  List.zipWith (fun t (t' : K × Dfg K) => (t.1, t.2.1, t'.2.data.val)) (T g) (S g).tasks

theorem tasksOf_retask [Ring K] {refs : List RefDim} {n : ℕ}
    {T : ℕ → List (K × List ℕ × (ℕ → K))} {S : ℕ → Group K} (hS : IsCombined refs n T S) {g : ℕ}
    (hg : g < n) : tasksOf refs (retask T S g) = (S g).tasks := by
  have hS := List.forall₂_iff_get.1 (hS g hg)
  unfold tasksOf retask
  apply List.ext_getElem
  · simp [hS.1]
  · intro i h1 h2
    obtain ⟨e1, e2, e3, -⟩ := hS.2 i (by omega) h2
    simp only [List.getElem_map, List.getElem_zipWith]
    simp only [List.get_eq_getElem] at e1 e2 e3
    generalize (S g).tasks[i] = t' at e1 e2 e3
    obtain ⟨c, ⟨dims, ⟨len, val⟩⟩⟩ := t'
    simp only at e1 e2 e3
    subst e1 e2 e3
    rfl

theorem retask_levels [Ring K] {refs : List RefDim} {n : ℕ}
    {T : ℕ → List (K × List ℕ × (ℕ → K))} {S : ℕ → Group K} (hS : IsCombined refs n T S) {g : ℕ}
    (hg : g < n) : (retask T S g).map (fun t => (t.1, t.2.1)) = (T g).map fun t => (t.1, t.2.1) := by
  have hS := List.forall₂_iff_get.1 (hS g hg)
  unfold retask
  apply List.ext_getElem
  · simp [hS.1]
  · intro i h1 h2
    simp

theorem mem_levels {T T' : List (K × List ℕ × (ℕ → K))}
    (h : T'.map (fun t => (t.1, t.2.1)) = T.map fun t => (t.1, t.2.1))
    {t' : K × List ℕ × (ℕ → K)} (ht : t' ∈ T') : ∃ t ∈ T, t.1 = t'.1 ∧ t.2.1 = t'.2.1 := by
  have : (t'.1, t'.2.1) ∈ T.map fun t => (t.1, t.2.1) := by
    rw [← h]; exact List.mem_map.2 ⟨t', ht, rfl⟩
  obtain ⟨t, ht, e⟩ := List.mem_map.1 this
  exact ⟨t, ht, (Prod.mk.inj e).1, (Prod.mk.inj e).2⟩

theorem holders_congr {n : ℕ} {T T' : ℕ → List (K × List ℕ × (ℕ → K))}
    (hT : ∀ g < n, (T' g).map (fun t => (t.1, t.2.1)) = (T g).map fun t => (t.1, t.2.1)) (l : List ℕ) :
    (holders n T' l).length = (holders n T l).length := by
  unfold holders
  rw [List.filter_flatMap, List.length_flatMap, List.filter_flatMap, List.length_flatMap]
  congr 1
  apply List.map_congr_left
  intro g hg
  have := congrArg (fun ts => (ts.filter fun t : K × List ℕ => decide (l ∈ getDownSet t.2)).length)
    (hT g (List.mem_range.1 hg))
  simp only [List.filter_map, List.length_map] at this
  exact this

theorem retask_full {levels : List (List ℕ)} {n : ℕ}
    {T T' : ℕ → List (K × List ℕ × (ℕ → K))} (h : FullLevels levels n T)
    (hT : ∀ g < n, (T' g).map (fun t => (t.1, t.2.1)) = (T g).map fun t => (t.1, t.2.1)) :
    FullLevels levels n T' := by
  intro g hg t' ht'
  obtain ⟨t, ht, -, e⟩ := mem_levels (hT g hg) ht'
  rw [← e]
  exact h g hg t ht

theorem retask_valid [Ring K] {refs : List RefDim} {levels : List (List ℕ)} {n : ℕ}
    {T T' : ℕ → List (K × List ℕ × (ℕ → K))} (h : ValidSystem refs levels n T)
    (hT : ∀ g < n, (T' g).map (fun t => (t.1, t.2.1)) = (T g).map fun t => (t.1, t.2.1)) :
    ValidSystem refs levels n T' := by
  refine ⟨h.ref, h.sorted, ?_, ?_, ?_⟩
  · intro g hg t' ht'
    obtain ⟨t, ht, -, e⟩ := mem_levels (hT g hg) ht'
    rw [← e]
    exact h.comp g hg t ht
  · intro g hg t' ht'
    obtain ⟨t, ht, -, -⟩ := mem_levels (hT g hg) ht'
    exact h.low g hg t ht
  · intro g hg t' ht' l hl
    obtain ⟨t, ht, e1, e⟩ := mem_levels (hT g hg) ht'
    rw [← e] at hl
    rw [← e1, holders_congr hT]
    exact h.mem g hg t ht l hl

theorem coeffAbove_congr [Ring K] {n : ℕ} {T T' : ℕ → List (K × List ℕ × (ℕ → K))}
    (hT : ∀ g < n, (T' g).map (fun t => (t.1, t.2.1)) = (T g).map fun t => (t.1, t.2.1))
    (l : List ℕ) : coeffAbove n T' l = coeffAbove n T l := by
  unfold coeffAbove
  congr 1
  apply List.map_congr_left
  intro m hm
  have := congrArg (List.map fun t : K × List ℕ => if VecLe l t.2 then t.1 else 0)
    (hT m (List.mem_range.1 hm))
  rw [List.map_map, List.map_map] at this
  exact congrArg List.sum this

theorem retask_consistent [Ring K] {n : ℕ} {T T' : ℕ → List (K × List ℕ × (ℕ → K))}
    (h : Consistent n T)
    (hT : ∀ g < n, (T' g).map (fun t => (t.1, t.2.1)) = (T g).map fun t => (t.1, t.2.1)) :
    Consistent n T' := by
  intro g hg t' ht' l hl
  obtain ⟨t, ht, -, e⟩ := mem_levels (hT g hg) ht'
  rw [coeffAbove_congr hT]
  exact h g hg t ht l (e ▸ hl)

theorem holdsLevel_congr {n : ℕ} {T T' : ℕ → List (K × List ℕ × (ℕ → K))}
    (hT : ∀ g < n, (T' g).map (fun t => (t.1, t.2.1)) = (T g).map fun t => (t.1, t.2.1))
    {g : ℕ} (hg : g < n) (l : List ℕ) : HoldsLevel T' g l ↔ HoldsLevel T g l := by
  constructor
  · rintro ⟨t', ht', hl⟩
    obtain ⟨t, ht, -, e⟩ := mem_levels (hT g hg) ht'
    exact ⟨t, ht, e ▸ hl⟩
  · rintro ⟨t', ht', hl⟩
    obtain ⟨t, ht, -, e⟩ := mem_levels (hT g hg).symm ht'
    exact ⟨t, ht, e ▸ hl⟩

theorem shares_congr {refs : List RefDim} {n : ℕ} {T T' : ℕ → List (K × List ℕ × (ℕ → K))}
    (hT : ∀ g < n, (T' g).map (fun t => (t.1, t.2.1)) = (T g).map fun t => (t.1, t.2.1))
    {g : ℕ} (hg : g < n) : Shares refs n T' g ↔ Shares refs n T g := by
  unfold Shares
  constructor
  · rintro ⟨l, h1, h2, g', h3, h4, h5⟩
    exact ⟨l, h1, (holdsLevel_congr hT hg l).1 h2, g', h3, h4, (holdsLevel_congr hT h3 l).1 h5⟩
  · rintro ⟨l, h1, h2, g', h3, h4, h5⟩
    exact ⟨l, h1, (holdsLevel_congr hT hg l).2 h2, g', h3, h4, (holdsLevel_congr hT h3 l).2 h5⟩

/-- C73: combining a second time, in the same or in another way, changes nothing, whatever the
values were before the first combination. -/
theorem C73_idempotent [Ring K] (refs : List RefDim) (levels : List (List ℕ)) (n : ℕ)
    (hn : n ≤ 256) (T : ℕ → List (K × List ℕ × (ℕ → K))) (h : ValidSystem refs levels n T)
    (htotal : (levels.map (subspaceCount refs)).sum < 2 ^ 31) (hc : Consistent n T)
    (variant variant' : CombinationVariant) (maxChunk maxChunk' : ℕ)
    (hu : Usable refs n T variant maxChunk) (hu' : Usable refs n T variant' maxChunk') :
    ∃ (S : ℕ → Group K) (T' : ℕ → List (K × List ℕ × (ℕ → K))) (S' : ℕ → Group K),
      combineVariant variant maxChunk levels n (fun g => tasksOf refs (T g)) = some S ∧
      (∀ g < n, tasksOf refs (T' g) = (S g).tasks) ∧
      combineVariant variant' maxChunk' levels n (fun g => tasksOf refs (T' g)) = some S' ∧
      ∀ g < n, SameTasks (S g).tasks (S' g).tasks := by
  obtain ⟨S, e1, e2⟩ := combined_of_usable hn h htotal hu
  have hT : ∀ g < n, (retask T S g).map (fun t => (t.1, t.2.1)) =
      (T g).map fun t => (t.1, t.2.1) := fun g hg => retask_levels e2 hg
  have hu2 : Usable refs n (retask T S) variant' maxChunk' := by
    refine ⟨hu'.pos, hu'.max, ?_⟩
    rcases hu'.share with a | a | a | a
    · exact Or.inl a
    · exact Or.inr (Or.inl a)
    · exact Or.inr (Or.inr (Or.inl fun g hg => (shares_congr hT hg).2 (a g hg)))
    · exact Or.inr (Or.inr (Or.inr fun g hg hc => a g hg ((shares_congr hT hg).1 hc)))
  have hv : Agrees refs n (retask T S) (valueAtPlace refs n T) := by
    intro g hg t' ht' p hp
    obtain ⟨i, hi, rfl⟩ := List.mem_iff_getElem.1 ht'
    have hi' : i < (T g).length ∧ i < (S g).tasks.length := by
      unfold retask at hi
      rw [List.length_zipWith] at hi
      omega
    obtain ⟨-, -, -, e4⟩ := (List.forall₂_iff_get.1 (e2 g hg)).2 i hi'.1 hi'.2
    simp only [retask, List.getElem_zipWith] at hp ⊢
    exact e4 p hp
  obtain ⟨S', f1, f2⟩ := C73_agreeing_unchanged refs levels n hn _ (retask_valid h hT) htotal
    (retask_consistent hc hT) _ hv variant' maxChunk' hu2
  refine ⟨S, _, S', e1, fun g hg => tasksOf_retask e2 hg, f1, fun g hg => ?_⟩
  have hf := f2 g hg
  rw [← tasksOf_retask e2 hg]
  unfold SameTasks tasksOf
  rw [List.forall₂_map_left_iff]
  exact hf

/-- C73, converse: if the coefficients of the grids that contain a level do not add up to one, then
combining grids with the value one everywhere changes all points of this level. -/
theorem C73_inconsistent_changes [Ring K] (refs : List RefDim) (levels : List (List ℕ)) (n : ℕ)
    (hn : n ≤ 256) (T : ℕ → List (K × List ℕ × (ℕ → K))) (h : ValidSystem refs levels n T)
    (htotal : (levels.map (subspaceCount refs)).sum < 2 ^ 31)
    (hv : ∀ g < n, ∀ t ∈ T g, ∀ p < numLocal refs t.2.1, t.2.2 p = 1)
    (variant : CombinationVariant) (maxChunk : ℕ) (hu : Usable refs n T variant maxChunk)
    (l : List ℕ) (hl : coeffAbove n T l ≠ 1) :
    ∃ S, combineVariant variant maxChunk levels n (fun g => tasksOf refs (T g)) = some S ∧
      ∀ g < n, List.Forall₂ (fun t (t' : K × Dfg K) => ∀ p < numLocal refs t.2.1,
        (∀ li ∈ l, 1 ≤ li) → InSubspace (List.zipWith localOf refs t.2.1)
          (getVectorIndex ((List.zipWith localOf refs t.2.1).map (·.size)) p) l →
        VecLe l t.2.1 → t'.2.data.val p ≠ t.2.2 p) (T g) (S g).tasks := by
  obtain ⟨S, e1, e2⟩ := combined_of_usable hn h htotal hu
  refine ⟨S, e1, fun g hg => ?_⟩
  have hS := e2 g hg
  rw [List.forall₂_iff_get] at hS ⊢
  refine ⟨hS.1, fun i h1 h2 p hp hpos hin hle => ?_⟩
  obtain ⟨-, -, -, e4⟩ := hS.2 i h1 h2
  have ht : (T g).get ⟨i, h1⟩ ∈ T g := List.get_mem _ _
  have hd := (mem_downSet_iff _ _).2 ⟨hpos, hle⟩
  have hpl := ((points_facts h.ref (h.comp g hg _ ht) hd).2.2.1 p).2 ⟨hp, hin⟩
  rw [e4 p hp, valueAtPlace_agrees (v := fun _ => 1) h (fun g hg t ht p hp => hv g hg t ht p hp) hg
    ht hd hpl, hv g hg _ ht p hp, mul_one]
  exact hl

/-! ### The schemes of the code -/

/-- The tasks of the groups together are the component grids of the scheme, each on one group. -/
def FromScheme [Ring K] (n : ℕ) (T : ℕ → List (K × List ℕ × (ℕ → K))) (s : Scheme) : Prop :=
  ((List.range n).flatMap fun g => (T g).map fun t => (t.2.1, t.1)).Perm
    ((s.combiSpaces.zip s.coefficients).map fun lc => (lc.1, ((lc.2 : ℤ) : K)))

theorem coeffAbove_scheme [Ring K] {n : ℕ} {T : ℕ → List (K × List ℕ × (ℕ → K))} {s : Scheme}
    (h : FromScheme n T s) (l : List ℕ) :
    coeffAbove n T l = ((coeffSumAbove s.combiSpaces s.coefficients l : ℤ) : K) := by
  have e1 : coeffAbove n T l = (((List.range n).flatMap fun g => (T g).map fun t => (t.2.1, t.1)).map
      fun lc : List ℕ × K => if VecLe l lc.1 then lc.2 else 0).sum := by
    unfold coeffAbove
    rw [List.map_flatMap, List.flatMap_def, List.sum_flatten, List.map_map]
    simp only [List.map_map]
    rfl
  rw [e1, (h.map _).sum_eq]
  unfold coeffSumAbove
  generalize s.combiSpaces.zip s.coefficients = z
  induction z with
  | nil => simp
  | cons lc z ih =>
    rw [List.map_cons, List.map_cons, List.sum_cons, ih]
    by_cases hl : VecLe l lc.1
    · rw [List.filter_cons_of_pos (by simpa using hl)]
      simp [hl]
    · rw [List.filter_cons_of_neg (by simpa using hl)]
      simp [hl]

theorem scheme_mem [Ring K] {n : ℕ} {T : ℕ → List (K × List ℕ × (ℕ → K))} {s : Scheme}
    (h : FromScheme n T s) {g : ℕ} (hg : g < n) {t : K × List ℕ × (ℕ → K)} (ht : t ∈ T g) :
    t.2.1 ∈ s.combiSpaces := by
  have : (t.2.1, t.1) ∈ (s.combiSpaces.zip s.coefficients).map fun lc => (lc.1, ((lc.2 : ℤ) : K)) :=
    h.mem_iff.1 (List.mem_flatMap.2 ⟨g, List.mem_range.2 hg, List.mem_map.2 ⟨t, ht, rfl⟩⟩)
  obtain ⟨lc, hlc, e⟩ := List.mem_map.1 this
  rw [← (Prod.mk.inj e).1]
  exact (List.of_mem_zip (a := lc.1) (b := lc.2) hlc).1

/-- C73: the tasks of a classical scheme without fixed dimensions have consistent coefficients,
however they are distributed to groups. -/
theorem C73_classical [Ring K] (lmin lmax : List ℕ) (hne : lmax ≠ []) (hpos : ∀ x ∈ lmin, 1 ≤ x)
    (hlt : List.Forall₂ (· < ·) lmin lmax) (fuel : ℕ) (s : Scheme)
    (hs : createClassicalCombischeme fuel lmin lmax = some s) (n : ℕ)
    (T : ℕ → List (K × List ℕ × (ℕ → K))) (h : FromScheme n T s) : Consistent n T := by
  intro g hg t ht l hl
  rw [coeffAbove_scheme h, C03_classical_consistent lmin lmax hne hpos hlt fuel s hs l _
    (scheme_mem h hg ht) hl, Int.cast_one]

/-- C73: the same for adaptive schemes, with or without fixed dimensions. -/
theorem C73_adaptive [Ring K] (lmin lmax : List ℕ) (h : ValidMinMax lmin lmax) (n : ℕ)
    (T : ℕ → List (K × List ℕ × (ℕ → K)))
    (hT : FromScheme n T (createAdaptiveCombischeme lmin lmax)) : Consistent n T := by
  intro g hg t ht l hl
  rw [coeffAbove_scheme hT, C06_createAdaptive_consistent lmin lmax h l _ (scheme_mem hT hg ht) hl,
    Int.cast_one]

/-! ### The hypotheses can be met -/

/-- The component grids of `exampleSystem` with values `v` of the place. -/
def agreeingSystem (v : List ℕ → ℚ) (g : ℕ) : List (ℚ × List ℕ × (ℕ → ℚ)) :=
  if g = 0 then [(1, [1, 2], fun q => v (spatialOf exampleRefs [1, 2] q)),
    (-1, [1, 1], fun q => v (spatialOf exampleRefs [1, 1] q))]
  else [(1, [2, 1], fun q => v (spatialOf exampleRefs [2, 1] q))]

theorem agreeingSystem_mem {v : List ℕ → ℚ} {g : ℕ} {t : ℚ × List ℕ × (ℕ → ℚ)}
    (ht : t ∈ agreeingSystem v g) : t.2.1 ∈ [[1, 1], [1, 2], [2, 1]] ∧
      ∀ p, t.2.2 p = v (spatialOf exampleRefs t.2.1 p) := by
  unfold agreeingSystem at ht
  split at ht
  · simp only [List.mem_cons, List.not_mem_nil, or_false] at ht
    rcases ht with rfl | rfl <;> exact ⟨by simp, fun _ => rfl⟩
  · simp only [List.mem_cons, List.not_mem_nil, or_false] at ht
    rcases ht with rfl
    exact ⟨by simp, fun _ => rfl⟩

example (v : List ℕ → ℚ) : ValidSystem exampleRefs [[1, 1], [1, 2], [2, 1]] 2 (agreeingSystem v) ∧
    FromScheme 2 (agreeingSystem v) (createAdaptiveCombischeme [1, 1] [2, 2]) ∧
    ValidMinMax [1, 1] [2, 2] ∧ Agrees exampleRefs 2 (agreeingSystem v) v ∧
    Usable exampleRefs 2 (agreeingSystem v) .subspaceReduce 5 ∧
    ([[1, 1], [1, 2], [2, 1]].map (subspaceCount exampleRefs)).sum < 2 ^ 31 ∧
    0 < subspaceCount exampleRefs [1, 1] := by
  refine ⟨.of_full ?_ (by decide) ?_ ?_, ?_, ⟨by simp, by simp, by simp⟩, ?_,
    ⟨by decide, by decide, Or.inr (Or.inl rfl)⟩, by decide +kernel, by decide +kernel⟩
  · intro r hr
    simp only [exampleRefs, List.mem_cons, List.not_mem_nil, or_false] at hr
    rcases hr with rfl | rfl
    · exact ⟨by decide, ⟨rfl, by decide, by decide⟩, by decide⟩
    · exact ⟨by decide, ⟨rfl, by decide, by decide⟩, by decide⟩
  · intro g hg t ht
    have := (agreeingSystem_mem ht).1
    simp only [List.mem_cons, List.not_mem_nil, or_false] at this
    rcases this with h | h | h <;> rw [h] <;> exact ⟨by decide, by simp [exampleRefs]⟩
  · intro g hg t ht
    have := (agreeingSystem_mem ht).1
    simp only [List.mem_cons, List.not_mem_nil, or_false] at this
    rcases this with h | h | h <;> rw [h] <;> decide +kernel
  · have h1 : (createAdaptiveCombischeme [1, 1] [2, 2]).combiSpaces = [[1, 1], [1, 2], [2, 1]] := by
      decide +kernel
    have h2 : (createAdaptiveCombischeme [1, 1] [2, 2]).coefficients = [-1, 1, 1] := by
      decide +kernel
    unfold FromScheme
    rw [h1, h2]
    have : ((List.range 2).flatMap fun g => (agreeingSystem v g).map fun t => (t.2.1, t.1)) =
        [([1, 2], 1), ([1, 1], -1), ([2, 1], 1)] := by
      simp [List.range_succ, agreeingSystem]
    rw [this]
    have : ([[1, 1], [1, 2], [2, 1]].zip [-1, 1, 1]).map
        (fun lc : List ℕ × ℤ => (lc.1, ((lc.2 : ℤ) : ℚ))) =
        [([1, 1], -1), ([1, 2], 1), ([2, 1], 1)] := by simp
    rw [this]
    exact List.Perm.swap _ _ _
  · intro g hg t ht p hp
    exact (agreeingSystem_mem ht).2 p

end Verif

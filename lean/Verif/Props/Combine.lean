import Verif.Model.CombineVariants
import Verif.Lemmas.CombineSystem
import Verif.Props.Transfer

/-!
# Property C34: all ways of combining yield the combination formula

The processes of one "global reduce" communicator (one per group) are started with the component
grids of their groups. The result of every variant of the combination is stated without reference to
subspaces, chunks or communicators: every value of every grid becomes the sum over all component
grids of all groups, weighted with the coefficients, of the values at the same place.
-/

namespace Verif

variable {K : Type}

/-- The tasks of a group: coefficients and local parts of component grids, given by coefficient, level
and values. -/
def tasksOf (refs : List RefDim) (cs : List (K × List ℕ × (ℕ → K))) : List (K × Dfg K) :=
  cs.map fun t => (t.1, gridOf refs t.2.1 t.2.2)

/-- The combination at place `z` of the component grids of `n` groups. -/
def valueAtPlace [Ring K] (refs : List RefDim) (n : ℕ) (T : ℕ → List (K × List ℕ × (ℕ → K)))
    (z : List ℕ) : K :=
  ((List.range n).map fun m => ((T m).map fun t =>
    t.1 * ∑ q ∈ Finset.range (numLocal refs t.2.1) with spatialOf refs t.2.1 q = z, t.2.2 q).sum).sum

/-- All component grids of all groups keep coefficient, dimensions and size, and have the combined
values at all their points. -/
def IsCombined [Ring K] (refs : List RefDim) (n : ℕ) (T : ℕ → List (K × List ℕ × (ℕ → K)))
    (S : ℕ → Group K) : Prop :=
  ∀ g < n, List.Forall₂ (fun t (t' : K × Dfg K) => t'.1 = t.1 ∧
    t'.2.dims = (gridOf refs t.2.1 t.2.2).dims ∧ t'.2.data.len = numLocal refs t.2.1 ∧
    ∀ p < numLocal refs t.2.1, t'.2.data.val p = valueAtPlace refs n T (spatialOf refs t.2.1 p))
    (T g) (S g).tasks

/-- Group `g` has a component grid that contains subspace `l`. -/
def HoldsLevel (T : ℕ → List (K × List ℕ × (ℕ → K))) (g : ℕ) (l : List ℕ) : Prop :=
  ∃ t ∈ T g, l ∈ getDownSet t.2.1

/-- Group `g` and another group both have points of a subspace on this process. -/
def Shares (refs : List RefDim) (n : ℕ) (T : ℕ → List (K × List ℕ × (ℕ → K))) (g : ℕ) : Prop :=
  ∃ l, 0 < subspaceCount refs l ∧ HoldsLevel T g l ∧ ∃ g' < n, g' ≠ g ∧ HoldsLevel T g' l

/-- The component grids of all groups that contain subspace `l`. -/
def holders (n : ℕ) (T : ℕ → List (K × List ℕ × (ℕ → K))) (l : List ℕ) : List (K × List ℕ × (ℕ → K)) :=
  ((List.range n).flatMap T).filter fun t => decide (l ∈ getDownSet t.2.1)

/-- The sparse grid has all subspaces of the component grids. -/
def FullLevels (levels : List (List ℕ)) (n : ℕ) (T : ℕ → List (K × List ℕ × (ℕ → K))) : Prop :=
  ∀ g < n, ∀ t ∈ T g, ∀ l ∈ getDownSet t.2.1, l ∈ levels

/-- Component grids on groups, and a sparse grid that contains all their subspaces. Only a subspace that a
single component grid contains, with coefficient one, may be left out. -/
structure ValidSystem [One K] (refs : List RefDim) (levels : List (List ℕ)) (n : ℕ)
    (T : ℕ → List (K × List ℕ × (ℕ → K))) : Prop where
  ref : ∀ r ∈ refs, ValidRef r
  sorted : levels.Pairwise (· < ·)
  comp : ∀ g < n, ∀ t ∈ T g, ValidComponent refs t.2.1
  low : ∀ g < n, ∀ t ∈ T g, List.replicate refs.length 1 ∈ levels
  mem : ∀ g < n, ∀ t ∈ T g, ∀ l ∈ getDownSet t.2.1,
    l ∈ levels ∨ (t.1 = 1 ∧ (holders n T l).length = 1)

theorem mem_holders {n : ℕ} {T : ℕ → List (K × List ℕ × (ℕ → K))} {l : List ℕ} {g : ℕ} (hg : g < n)
    {t : K × List ℕ × (ℕ → K)} (ht : t ∈ T g) (hl : l ∈ getDownSet t.2.1) : t ∈ holders n T l :=
  List.mem_filter.2 ⟨List.mem_flatMap.2 ⟨g, List.mem_range.2 hg, ht⟩, by simpa using hl⟩

theorem ones_mem_downSet {refs : List RefDim} {L : List ℕ} (hL : ValidComponent refs L) :
    List.replicate refs.length 1 ∈ getDownSet L := by
  rw [mem_downSet_iff]
  refine ⟨fun x hx => by rw [List.eq_of_mem_replicate hx], ?_⟩
  rw [List.forall₂_iff_get]
  refine ⟨by rw [List.length_replicate, hL.le.length_eq], fun i h1 h2 => ?_⟩
  simp only [List.get_eq_getElem, List.getElem_replicate]
  exact hL.pos _ (List.getElem_mem _)

/-- A sparse grid with all subspaces. -/
theorem ValidSystem.of_full [One K] {refs : List RefDim} {levels : List (List ℕ)} {n : ℕ}
    {T : ℕ → List (K × List ℕ × (ℕ → K))} (ref : ∀ r ∈ refs, ValidRef r)
    (sorted : levels.Pairwise (· < ·)) (comp : ∀ g < n, ∀ t ∈ T g, ValidComponent refs t.2.1)
    (full : FullLevels levels n T) : ValidSystem refs levels n T :=
  ⟨ref, sorted, comp, fun g hg t ht => full g hg t ht _ (ones_mem_downSet (comp g hg t ht)),
    fun g hg t ht l hl => Or.inl (full g hg t ht l hl)⟩

theorem ValidSystem.first [One K] {refs : List RefDim} {levels : List (List ℕ)} {n : ℕ}
    {T : ℕ → List (K × List ℕ × (ℕ → K))} (h : ValidSystem refs levels n T) {g : ℕ} (hg : g < n)
    {t : K × List ℕ × (ℕ → K)} (ht : t ∈ T g) : Reachable levels (getDownSet t.2.1) :=
  reachable_component h.sorted (h.low g hg t ht) (h.comp g hg t ht)

/-- a subspace of two groups is in the sparse grid -/
theorem ValidSystem.mem_of_shared [One K] {refs : List RefDim} {levels : List (List ℕ)} {n : ℕ}
    {T : ℕ → List (K × List ℕ × (ℕ → K))} (h : ValidSystem refs levels n T) {l : List ℕ} {g g' : ℕ}
    (hg : g < n) (hg' : g' < n) (hne : g ≠ g') (hl : HoldsLevel T g l) (hl' : HoldsLevel T g' l) :
    l ∈ levels := by
  obtain ⟨t, ht, htl⟩ := hl
  rcases h.mem g hg t ht l htl with hm | ⟨-, hone⟩
  · exact hm
  exfalso
  have key : ∀ m : ℕ, ((holders m T l).length =
      ((List.range m).map fun k => ((T k).filter fun t => decide (l ∈ getDownSet t.2.1)).length).sum) := by
    intro m
    unfold holders
    rw [List.filter_flatMap, List.length_flatMap]
  rw [key] at hone
  have hpos : ∀ k, HoldsLevel T k l → 0 < ((T k).filter fun t => decide (l ∈ getDownSet t.2.1)).length := by
    rintro k ⟨t, ht, htl⟩
    exact List.length_pos_of_mem (List.mem_filter.2 ⟨ht, by simpa using htl⟩)
  have h1 := hpos g ⟨t, ht, htl⟩
  have h2 := hpos g' hl'
  generalize hf : (fun k => ((T k).filter fun t => decide (l ∈ getDownSet t.2.1)).length) = f at hone
  have e1 : 0 < f g := by rw [← hf]; exact h1
  have e2 : 0 < f g' := by rw [← hf]; exact h2
  have two : ∀ m : ℕ, ∀ a b, a < b → b < m → 0 < f a → 0 < f b → 2 ≤ ((List.range m).map f).sum := by
    have one : ∀ m : ℕ, ∀ a, a < m → 0 < f a → 1 ≤ ((List.range m).map f).sum := by
      intro m
      induction m with
      | zero => intro a ha; omega
      | succ m ih =>
        intro a ha hp
        rw [List.range_succ, List.map_append, List.sum_append, List.map_singleton, List.sum_singleton]
        by_cases hm : a = m
        · subst hm; omega
        · have := ih a (by omega) hp; omega
    intro m
    induction m with
    | zero => intro a b _ hb; omega
    | succ m ih =>
      intro a b hab hb ha hp
      rw [List.range_succ, List.map_append, List.sum_append, List.map_singleton, List.sum_singleton]
      by_cases hm : b = m
      · subst hm
        have := one b a hab ha
        omega
      · have := ih a b hab (by omega) ha hp; omega
  rcases Nat.lt_or_gt_of_ne hne with hlt | hlt
  · have := two n g g' hlt hg' e1 e2; omega
  · have := two n g' g hlt hg e2 e1; omega

/-! ### Facts about component grids -/

theorem points_facts {refs : List RefDim} (hr : ∀ r ∈ refs, ValidRef r) {L : List ℕ}
    (hL : ValidComponent refs L) {l : List ℕ} (hl : l ∈ getDownSet L) :
    (∀ li ∈ l, 1 ≤ li) ∧ l.length = (List.zipWith localOf refs L).length ∧
      (∀ p, p ∈ getFGPointsOfSubspace (List.zipWith localOf refs L) l ↔ p < numLocal refs L ∧
        InSubspace (List.zipWith localOf refs L)
          (getVectorIndex ((List.zipWith localOf refs L).map (·.size)) p) l) ∧
      (getFGPointsOfSubspace (List.zipWith localOf refs L) l).Pairwise (· < ·) := by
  rw [mem_downSet_iff] at hl
  have e1 := hl.2.length_eq
  have e2 := hL.le.length_eq
  have e3 : l.length = (List.zipWith localOf refs L).length := by
    rw [List.length_zipWith]; omega
  obtain ⟨a, b⟩ := C19_enumeration _ (validLocal_of_component hr hL) l hl.1 e3
  exact ⟨hl.1, e3, a, b⟩

theorem numPoints_component {refs : List RefDim} (hr : ∀ r ∈ refs, ValidRef r) {L : List ℕ}
    (hL : ValidComponent refs L) (x : ℕ → K) {l : List ℕ} (hl : l ∈ getDownSet L) :
    numPointsOfSubspace (gridOf refs L x).dims l = subspaceCount refs l := by
  have hl' := (mem_downSet_iff l L).1 hl
  rw [← length_points hr hL hl]
  apply numPointsOfSubspace_eq (points_facts hr hL hl).2.1
  have a := List.forall₂_iff_get.1 hl'.2
  have e2 := hL.le.length_eq
  rw [List.forall₂_iff_get]
  refine ⟨(points_facts hr hL hl).2.1, fun i h1 h2 => ?_⟩
  have := a.2 i h1 (by rw [← a.1]; exact h1)
  simp only [List.get_eq_getElem, List.getElem_zipWith, localOf] at this ⊢
  exact this

/-- a point of a component grid is in exactly one of its subspaces -/
theorem exists_subspace_of_point {refs : List RefDim} (hr : ∀ r ∈ refs, ValidRef r) {L : List ℕ}
    (hL : ValidComponent refs L) {p : ℕ} (hp : p < numLocal refs L) :
    ∃ l ∈ getDownSet L, p ∈ getFGPointsOfSubspace (List.zipWith localOf refs L) l := by
  obtain ⟨l, ⟨h1, h2, h3⟩, -⟩ := exists_unique_subspace (List.zipWith localOf refs L)
    (validLocal_of_component hr hL) _ (getVectorIndex_spec _ _ hp).1
  have hlen := hL.le.length_eq
  have hl : l ∈ getDownSet L := by
    rw [mem_downSet_iff]
    refine ⟨h1, ?_⟩
    rw [List.forall₂_iff_get] at h3 ⊢
    have e := h3.1
    rw [List.length_zipWith] at e
    refine ⟨by omega, fun i a b => ?_⟩
    have := h3.2 i a (by rw [List.length_zipWith]; omega)
    simp only [List.get_eq_getElem, List.getElem_zipWith, localOf] at this ⊢
    exact this
  exact ⟨l, hl, ((points_facts hr hL hl).2.2.1 p).2 ⟨hp, h2⟩⟩

theorem taskOk_component {refs : List RefDim} (hr : ∀ r ∈ refs, ValidRef r)
    {levels : List (List ℕ)} {sizes : List ℕ} {L : List ℕ} (hL : ValidComponent refs L)
    (hmem : Reachable levels (getDownSet L)) (x : ℕ → K)
    (hsz : ∀ i (hi : i < levels.length), levels[i] ∈ getDownSet L →
      sizes.getD i 0 = subspaceCount refs levels[i]) :
    TaskOk levels sizes (gridOf refs L x) := by
  have e := gridOf_levels hL.le.length_eq x
  constructor
  · rw [e]; exact hmem
  · rw [e]
    intro i hi hl _
    rw [hsz i hi hl, ← length_points hr hL hl]
    rfl
  · rw [e]
    intro l hl p hp
    exact (((points_facts hr hL hl).2.2.1 p).1 hp).1
  · rw [e]
    intro l hl
    exact (points_facts hr hL hl).2.2.2.imp fun h => ne_of_lt h
  · rw [e]
    intro l hl l' hl' p hp hp'
    have h1 := ((points_facts hr hL hl).2.2.1 p).1 hp
    have h2 := ((points_facts hr hL hl').2.2.1 p).1 hp'
    exact refIn_unique (points_facts hr hL hl).1 (points_facts hr hL hl').1
      (refIn_of_inSubspace hL.le h1.2) (refIn_of_inSubspace hL.le h2.2)

/-! ### From subspaces to places -/

theorem localSum_place [Ring K] {refs : List RefDim} {levels : List (List ℕ)}
    {cs : List (K × List ℕ × (ℕ → K))} (hr : ∀ r ∈ refs, ValidRef r)
    (hcs : ∀ t ∈ cs, ValidComponent refs t.2.1) {L : List ℕ} (hL : ValidComponent refs L)
    {i : ℕ} (hi : i < levels.length) (hl : levels[i] ∈ getDownSet L) {j p : ℕ}
    (hj : j < (getFGPointsOfSubspace (List.zipWith localOf refs L) levels[i]).length)
    (hp : (getFGPointsOfSubspace (List.zipWith localOf refs L) levels[i])[j] = p) :
    localSum levels (tasksOf refs cs) i j = (cs.map fun t =>
      t.1 * ∑ q ∈ Finset.range (numLocal refs t.2.1) with
        spatialOf refs t.2.1 q = spatialOf refs L p, t.2.2 q).sum := by
  unfold localSum tasksOf
  rw [List.map_map]
  congr 1
  apply List.map_congr_left
  intro t ht
  simp only [Function.comp, gridOf_levels (hcs t ht).le.length_eq, List.getD_eq_getElem _ _ hi]
  rw [sum_same_place hr (hcs t ht) hL hl hj hp]
  split
  · rfl
  · rw [mul_zero]

theorem localSum_zero [Ring K] {refs : List RefDim} {levels : List (List ℕ)}
    {T : ℕ → List (K × List ℕ × (ℕ → K))} {g : ℕ}
    (hcs : ∀ t ∈ T g, ValidComponent refs t.2.1)
    {i : ℕ} (hi : i < levels.length) (hl : ¬ HoldsLevel T g levels[i]) (j : ℕ) :
    localSum levels (tasksOf refs (T g)) i j = 0 := by
  unfold localSum tasksOf
  rw [List.map_map]
  apply List.sum_eq_zero
  intro y hy
  obtain ⟨t, ht, rfl⟩ := List.mem_map.1 hy
  simp only [Function.comp, gridOf_levels (hcs t ht).le.length_eq, List.getD_eq_getElem _ _ hi]
  rw [if_neg]
  exact fun h => hl ⟨t, ht, h⟩

/-- A subspace of a single grid with coefficient one has the combined values already. -/
theorem ValidSystem.value_of_alone [Ring K] {refs : List RefDim} {levels : List (List ℕ)} {n : ℕ}
    {T : ℕ → List (K × List ℕ × (ℕ → K))} (h : ValidSystem refs levels n T) {g : ℕ} (hg : g < n)
    {t : K × List ℕ × (ℕ → K)} (ht : t ∈ T g) : ∀ l ∈ getDownSet t.2.1, l ∈ levels ∨
      ∀ p ∈ getFGPointsOfSubspace (List.zipWith localOf refs t.2.1) l,
        valueAtPlace refs n T (spatialOf refs t.2.1 p) = t.2.2 p := by
  intro l hl
  refine (h.mem g hg t ht l hl).imp_right fun ⟨h1, hone⟩ p hp => ?_
  have hL := h.comp g hg t ht
  obtain ⟨j, hj, hpj⟩ := List.mem_iff_getElem.1 hp
  have hhold : holders n T l = [t] := by
    obtain ⟨t', e⟩ := List.length_eq_one_iff.1 hone
    have := mem_holders hg ht hl
    rw [e] at this ⊢
    rw [List.mem_singleton.1 this]
  have hall : ∀ t' ∈ (List.range n).flatMap T, ValidComponent refs t'.2.1 := by
    intro t' ht'
    obtain ⟨m, hm, hmt⟩ := List.mem_flatMap.1 ht'
    exact h.comp m (List.mem_range.1 hm) t' hmt
  have hsum : valueAtPlace refs n T (spatialOf refs t.2.1 p) =
      (((List.range n).flatMap T).map fun t' => t'.1 * ∑ q ∈ Finset.range (numLocal refs t'.2.1) with
        spatialOf refs t'.2.1 q = spatialOf refs t.2.1 p, t'.2.2 q).sum := by
    unfold valueAtPlace
    generalize List.range n = ms
    induction ms with
    | nil => rfl
    | cons m ms ih =>
      rw [List.map_cons, List.sum_cons, ih, List.flatMap_cons, List.map_append, List.sum_append]
  have hfil : ∀ ts : List (K × List ℕ × (ℕ → K)), (∀ t' ∈ ts, ValidComponent refs t'.2.1) →
      (ts.map fun t' => t'.1 * ∑ q ∈ Finset.range (numLocal refs t'.2.1) with
        spatialOf refs t'.2.1 q = spatialOf refs t.2.1 p, t'.2.2 q).sum =
      ((ts.filter fun t' => decide (l ∈ getDownSet t'.2.1)).map fun t' =>
        t'.1 * ∑ q ∈ Finset.range (numLocal refs t'.2.1) with
        spatialOf refs t'.2.1 q = spatialOf refs t.2.1 p, t'.2.2 q).sum := by
    intro ts hts
    induction ts with
    | nil => rfl
    | cons t' ts ih =>
      have ih := ih fun t'' ht'' => hts t'' (by simp [ht''])
      rw [List.map_cons, List.sum_cons, ih, List.filter_cons]
      by_cases hm : l ∈ getDownSet t'.2.1
      · rw [if_pos (by simpa using hm), List.map_cons, List.sum_cons]
      · rw [if_neg (by simpa using hm), same_place_zero h.ref (hts t' (by simp)) hL hl hp hm, mul_zero, zero_add]
  rw [hsum, hfil _ hall]
  unfold holders at hhold
  rw [hhold, List.map_singleton, List.sum_singleton, h1, one_mul, sum_same_place h.ref hL hL hl hj hpj,
    if_pos hl]
  rw [List.getD_eq_getElem _ _ hj, hpj]

/-- a grid that was filled from a sparse grid with combined values -/
theorem extracted_task [Ring K] {refs : List RefDim} {levels : List (List ℕ)} {n : ℕ}
    {T : ℕ → List (K × List ℕ × (ℕ → K))} (h : ValidSystem refs levels n T)
    {sizes : List ℕ} {F : ℕ → ℕ → K} {L : List ℕ} {x : ℕ → K} {t' : Dfg K}
    (hL : ValidComponent refs L) (hmem : ∀ l ∈ getDownSet L, l ∈ levels ∨
      ∀ p ∈ getFGPointsOfSubspace (List.zipWith localOf refs L) l,
        valueAtPlace refs n T (spatialOf refs L p) = x p)
    (he : Extracted levels sizes (List.range levels.length) F (gridOf refs L x) t')
    (hsz : ∀ i (hi : i < levels.length), levels[i] ∈ getDownSet L →
      sizes.getD i 0 = subspaceCount refs levels[i])
    (hF : ∀ i (hi : i < levels.length), levels[i] ∈ getDownSet L →
      ∀ j < subspaceCount refs levels[i],
        F i j = ((List.range n).map fun m => localSum levels (tasksOf refs (T m)) i j).sum) :
    ∀ p < numLocal refs L, t'.data.val p = valueAtPlace refs n T (spatialOf refs L p) := by
  intro p hp
  obtain ⟨l, hl, hpl⟩ := exists_subspace_of_point h.ref hL hp
  by_cases hlm : l ∈ levels
  swap
  · rw [(hmem l hl).resolve_left hlm p hpl]
    apply he.miss
    intro i hi hm _ _ hpi
    rw [gridOf_levels hL.le.length_eq] at hm
    have h1 := ((points_facts h.ref hL hl).2.2.1 p).1 hpl
    have h2 := ((points_facts h.ref hL hm).2.2.1 p).1 hpi
    have heq := refIn_unique (points_facts h.ref hL hl).1 (points_facts h.ref hL hm).1
      (refIn_of_inSubspace hL.le h1.2) (refIn_of_inSubspace hL.le h2.2)
    exact hlm (heq ▸ List.getElem_mem hi)
  obtain ⟨i, hi, rfl⟩ := List.mem_iff_getElem.1 hlm
  obtain ⟨j, hj, hpj⟩ := List.mem_iff_getElem.1 hpl
  have hj' : j < subspaceCount refs levels[i] := by
    rw [← length_points h.ref hL hl]; exact hj
  have hit := he.hit i hi (by rw [gridOf_levels hL.le.length_eq]; exact hl) (List.mem_range.2 hi)
    (by rw [hsz i hi hl]; omega) j hj
  have hpj' : (getFGPointsOfSubspace (gridOf refs L x).dims levels[i])[j]'hj = p := hpj
  rw [hpj'] at hit
  rw [hit, hF i hi hl j hj']
  unfold valueAtPlace
  congr 1
  apply List.map_congr_left
  intro m hm
  exact localSum_place h.ref (h.comp m (List.mem_range.1 hm)) hL hi hl hj hpj

theorem isCombined_of_extracted [Ring K] {refs : List RefDim} {levels : List (List ℕ)} {n : ℕ}
    {T : ℕ → List (K × List ℕ × (ℕ → K))} (h : ValidSystem refs levels n T)
    (sizes : ℕ → List ℕ) (F : ℕ → ℕ → ℕ → K) (S' : ℕ → Group K)
    (hex : ∀ g < n, ExtractedAll levels (sizes g) (List.range levels.length) (F g)
      (tasksOf refs (T g)) (S' g).tasks)
    (hsz : ∀ g < n, ∀ i (hi : i < levels.length), HoldsLevel T g levels[i] →
      (sizes g).getD i 0 = subspaceCount refs levels[i])
    (hF : ∀ g < n, ∀ i (hi : i < levels.length), HoldsLevel T g levels[i] →
      ∀ j < subspaceCount refs levels[i],
        F g i j = ((List.range n).map fun m => localSum levels (tasksOf refs (T m)) i j).sum) :
    IsCombined refs n T S' := by
  intro g hg
  have hx := hex g hg
  unfold ExtractedAll tasksOf at hx
  rw [List.forall₂_map_left_iff] at hx
  rw [List.forall₂_iff_get] at hx ⊢
  refine ⟨hx.1, fun k h1 h2 => ?_⟩
  obtain ⟨e1, e2⟩ := hx.2 k h1 h2
  have ht : (T g).get ⟨k, h1⟩ ∈ T g := List.get_mem _ _
  generalize (T g).get ⟨k, h1⟩ = t at e1 e2 ht ⊢
  generalize (S' g).tasks.get ⟨k, h2⟩ = t' at e1 e2 ⊢
  simp only at e1 e2
  have hL := h.comp g hg t ht
  exact ⟨e1, e2.dims, e2.len, extracted_task h hL (h.value_of_alone hg ht) e2
    (fun i hi hl => hsz g hg i hi ⟨t, ht, hl⟩) fun i hi hl => hF g hg i hi ⟨t, ht, hl⟩⟩

/-! ### Sizes and communicators -/

theorem registered_eq [Ring K] {refs : List RefDim} {levels : List (List ℕ)} {n : ℕ}
    {T : ℕ → List (K × List ℕ × (ℕ → K))} (h : ValidSystem refs levels n T) {g : ℕ} (hg : g < n) :
    ∃ d : Dsg K, (tasksOf refs (T g)).foldlM (fun d t => registerDistributedFullGrid d t.2)
        (Dsg.empty levels) = some d ∧ d.levels = levels ∧ d.sizes.length = levels.length ∧
      d.sel = [] ∧ (∀ i (hi : i < levels.length),
        (HoldsLevel T g levels[i] → d.sizes.getD i 0 = subspaceCount refs levels[i]) ∧
        (¬ HoldsLevel T g levels[i] → d.sizes.getD i 0 = 0)) := by
  have hglev : ∀ t ∈ T g, (gridOf refs t.2.1 t.2.2).levels = t.2.1 :=
    fun t ht => gridOf_levels (h.comp g hg t ht).le.length_eq _
  have hz : ∀ i, (Dsg.empty levels : Dsg K).sizes.getD i 0 = 0 := by
    intro i
    simp only [Dsg.empty]
    by_cases hi : i < levels.length
    · rw [List.getD_eq_getElem _ _ (by rw [List.length_replicate]; exact hi),
        List.getElem_replicate]
    · rw [List.getD_eq_default _ _ (by rw [List.length_replicate]; omega)]
  obtain ⟨d, r1, r2, r3, r4, r5⟩ := registerAll_eq (subspaceCount refs)
    ((T g).map fun t => gridOf refs t.2.1 t.2.2) (Dsg.empty levels) h.sorted (by simp [Dsg.empty])
    (by
      intro t htm l hl
      obtain ⟨t, ht, rfl⟩ := List.mem_map.1 htm
      rw [hglev t ht] at hl
      exact h.first hg ht l hl)
    (by
      intro t htm l hl
      obtain ⟨t, ht, rfl⟩ := List.mem_map.1 htm
      rw [hglev t ht] at hl
      exact numPoints_component h.ref (h.comp g hg t ht) _ hl)
    (fun i _ => Or.inl (hz i))
  refine ⟨d, ?_, r2, by rw [r3]; simp [Dsg.empty], r4, ?_⟩
  · unfold registerAll at r1
    unfold tasksOf
    rw [List.foldlM_map] at r1 ⊢
    exact r1
  · intro i hi
    have := r5 i hi
    rw [hz] at this
    have hiff : (∃ t ∈ (T g).map fun t => gridOf refs t.2.1 t.2.2,
        (Dsg.empty levels : Dsg K).levels[i] ∈ getDownSet t.levels) ↔ HoldsLevel T g levels[i] := by
      constructor
      · rintro ⟨t, htm, hh⟩
        obtain ⟨t, ht, rfl⟩ := List.mem_map.1 htm
        rw [hglev t ht] at hh
        exact ⟨t, ht, hh⟩
      · rintro ⟨t, ht, hh⟩
        exact ⟨_, List.mem_map.2 ⟨t, ht, rfl⟩, by rw [hglev t ht]; exact hh⟩
    rw [this]
    refine ⟨fun hh => ?_, fun hh => ?_⟩
    · rw [if_pos (hiff.2 hh)]; rfl
    · rw [if_neg (fun hc => hh (hiff.1 hc))]

/-- What the sparse grids of the groups are before the sizes are exchanged. -/
structure Initialised [Zero K] (refs : List RefDim) (levels : List (List ℕ)) (n : ℕ)
    (T : ℕ → List (K × List ℕ × (ℕ → K))) (dsgs : List (Dsg K)) : Prop where
  len : dsgs.length = n
  lev : ∀ g < n, (dsgs.getD g (Dsg.empty levels)).levels = levels
  slen : ∀ g < n, (dsgs.getD g (Dsg.empty levels)).sizes.length = levels.length
  sel : ∀ g < n, (dsgs.getD g (Dsg.empty levels)).sel = [] ∨
    (dsgs.getD g (Dsg.empty levels)).sel = List.range levels.length
  hold : ∀ g < n, ∀ i (hi : i < levels.length), HoldsLevel T g levels[i] →
    (dsgs.getD g (Dsg.empty levels)).sizes.getD i 0 = subspaceCount refs levels[i]
  nohold : ∀ g < n, ∀ i (hi : i < levels.length), ¬ HoldsLevel T g levels[i] →
    (dsgs.getD g (Dsg.empty levels)).sizes.getD i 0 = 0

theorem initDsgs_eq [Ring K] {refs : List RefDim} {levels : List (List ℕ)} {n : ℕ}
    {T : ℕ → List (K × List ℕ × (ℕ → K))} (h : ValidSystem refs levels n T)
    (variant : CombinationVariant) :
    ∃ dsgs, initDsgs variant levels n (fun g => tasksOf refs (T g)) = some dsgs ∧
      Initialised refs levels n T dsgs := by
  classical
  have hone : ∀ g, ∃ d : Dsg K, g < n → initDsg variant levels (tasksOf refs (T g)) = some d ∧
      d.levels = levels ∧ d.sizes.length = levels.length ∧
      (d.sel = [] ∨ d.sel = List.range levels.length) ∧ (∀ i (hi : i < levels.length),
        (HoldsLevel T g levels[i] → d.sizes.getD i 0 = subspaceCount refs levels[i]) ∧
        (¬ HoldsLevel T g levels[i] → d.sizes.getD i 0 = 0)) := by
    intro g
    by_cases hg : g < n
    · obtain ⟨d, r1, r2, r3, r4, r5⟩ := registered_eq h hg
      by_cases hv : variant = .chunkedOutgroupSparseGridReduce
      · refine ⟨d, fun _ => ⟨?_, r2, r3, Or.inl r4, r5⟩⟩
        unfold initDsg
        rw [r1]
        simp only [Option.bind_eq_bind, Option.bind_some]
        rw [if_pos hv]
        rfl
      · have hk := createKahan_eq d (by rw [r4]; exact List.Pairwise.nil) (by rw [r4]; simp)
        refine ⟨{ d with
          sel := selected d.sel d.sizes.length
          kahan := ⟨selOffset d.sizes (selected d.sel d.sizes.length) d.sizes.length, fun _ => 0⟩
          kptr := pointersLoop (selected d.sel d.sizes.length) 0 0 d.sizes },
          fun _ => ⟨?_, r2, r3, Or.inr ?_, r5⟩⟩
        · unfold initDsg
          rw [r1]
          simp only [Option.bind_eq_bind, Option.bind_some]
          rw [if_neg hv]
          exact hk
        · simp only
          rw [r4, r3]
          rfl
    · exact ⟨Dsg.empty levels, fun hc => absurd hc hg⟩
  choose d hd using hone
  have hm : initDsgs variant levels n (fun g => tasksOf refs (T g)) =
      some ((List.range n).map d) :=
    mapM_some_map _ _ _ fun g hg => (hd g (List.mem_range.1 hg)).1
  have hget : ∀ g < n, ((List.range n).map d).getD g (Dsg.empty levels) = d g := by
    intro g hg
    rw [List.getD_eq_getElem _ _ (by simpa using hg), List.getElem_map, List.getElem_range]
  refine ⟨_, hm, ?_⟩
  constructor
  · simp
  · intro g hg
    rw [hget g hg]; exact (hd g hg).2.1
  · intro g hg
    rw [hget g hg]; exact (hd g hg).2.2.1
  · intro g hg
    rw [hget g hg]; exact (hd g hg).2.2.2.1
  · intro g hg i hi
    rw [hget g hg]; exact ((hd g hg).2.2.2.2 i hi).1
  · intro g hg i hi
    rw [hget g hg]; exact ((hd g hg).2.2.2.2 i hi).2

theorem Initialised.holds_iff [Zero K] {refs : List RefDim} {levels : List (List ℕ)} {n : ℕ}
    {T : ℕ → List (K × List ℕ × (ℕ → K))} {dsgs : List (Dsg K)}
    (h : Initialised refs levels n T dsgs) {g i : ℕ} :
    Holds (dsgs.map (·.sizes)) g i ↔
      g < n ∧ ∃ hi : i < levels.length, HoldsLevel T g levels[i] ∧
        0 < subspaceCount refs levels[i] := by
  unfold Holds
  constructor
  · rintro ⟨s, hs, hp⟩
    rw [List.getElem?_map] at hs
    obtain ⟨d, hd, rfl⟩ := Option.map_eq_some_iff.1 hs
    obtain ⟨hg, hdg⟩ := List.getElem?_eq_some_iff.1 hd
    have hgn : g < n := by rw [← h.len]; exact hg
    have hd' : dsgs.getD g (Dsg.empty levels) = d := by
      rw [List.getD_eq_getElem _ _ hg, hdg]
    have hi : i < levels.length := by
      by_contra hc
      rw [List.getD_eq_default _ _ (by rw [← hd', h.slen g hgn]; omega)] at hp
      omega
    refine ⟨hgn, hi, ?_⟩
    by_cases hh : HoldsLevel T g levels[i]
    · have := h.hold g hgn i hi hh
      rw [hd'] at this
      exact ⟨hh, by omega⟩
    · have := h.nohold g hgn i hi hh
      rw [hd'] at this
      omega
  · rintro ⟨hg, hi, hh, hp⟩
    refine ⟨(dsgs.getD g (Dsg.empty levels)).sizes, ?_, ?_⟩
    · rw [List.getElem?_map, List.getElem?_eq_getElem (by rw [h.len]; exact hg),
        List.getD_eq_getElem _ _ (by rw [h.len]; exact hg)]
      rfl
    · rw [h.hold g hg i hi hh]
      exact hp

theorem Initialised.size_len [Zero K] {refs : List RefDim} {levels : List (List ℕ)} {n : ℕ}
    {T : ℕ → List (K × List ℕ × (ℕ → K))} {dsgs : List (Dsg K)}
    (h : Initialised refs levels n T dsgs) : ∀ s ∈ dsgs.map (·.sizes), s.length = levels.length := by
  intro s hs
  obtain ⟨d, hd, rfl⟩ := List.mem_map.1 hs
  obtain ⟨g, hg, rfl⟩ := List.mem_iff_getElem.1 hd
  have := h.slen g (by rw [← h.len]; exact hg)
  rw [List.getD_eq_getElem _ _ hg] at this
  exact this

theorem foldl_max_eq {l : List ℕ} {N : ℕ} (hall : ∀ x ∈ l, x = 0 ∨ x = N) (a : ℕ)
    (ha : a = 0 ∨ a = N) : l.foldl max a = if a = N ∨ N ∈ l then N else 0 := by
  induction l generalizing a with
  | nil =>
    simp only [List.foldl_nil, List.not_mem_nil, or_false]
    split
    · assumption
    · tauto
  | cons x xs ih =>
    rw [List.foldl_cons, ih (fun y hy => hall y (by simp [hy]))]
    · have hx := hall x (by simp)
      simp only [List.mem_cons]
      congr 1
      apply propext
      rcases ha with rfl | rfl <;> rcases hx with rfl | rfl <;> simp
      all_goals tauto
    · rcases ha with rfl | rfl <;> rcases hall x (by simp) with h | h <;> simp [h]

theorem Initialised.outgroupSizes_eq [Zero K] {refs : List RefDim} {levels : List (List ℕ)} {n : ℕ}
    {T : ℕ → List (K × List ℕ × (ℕ → K))} {dsgs : List (Dsg K)}
    (h : Initialised refs levels n T dsgs) {g : ℕ} (hg : g < n) (shared : List ℕ) :
    (outgroupSizes (dsgs.map (·.sizes)) shared (dsgs.getD g (Dsg.empty levels)).sizes).length =
        levels.length ∧
    ∀ i (hi : i < levels.length), (HoldsLevel T g levels[i] ∨
        (i ∈ shared ∧ ∃ g' < n, HoldsLevel T g' levels[i]) →
        (outgroupSizes (dsgs.map (·.sizes)) shared
          (dsgs.getD g (Dsg.empty levels)).sizes).getD i 0 = subspaceCount refs levels[i]) ∧
      (outgroupSizes (dsgs.map (·.sizes)) shared
          (dsgs.getD g (Dsg.empty levels)).sizes).getD i 0 ≤ subspaceCount refs levels[i] := by
  unfold outgroupSizes
  refine ⟨by rw [List.length_map, List.length_range, h.slen g hg], fun i hi => ?_⟩
  rw [List.getD_eq_getElem _ _ (by
    rw [List.length_map, List.length_range, h.slen g hg]; exact hi), List.getElem_map,
    List.getElem_range]
  have hall : ∀ x ∈ (dsgs.map (·.sizes)).map (fun s => s.getD i 0),
      x = 0 ∨ x = subspaceCount refs levels[i] := by
    intro x hx
    rw [List.map_map] at hx
    obtain ⟨d, hd, rfl⟩ := List.mem_map.1 hx
    obtain ⟨g', hg', rfl⟩ := List.mem_iff_getElem.1 hd
    have hgn : g' < n := by rw [← h.len]; exact hg'
    have e := List.getD_eq_getElem dsgs (Dsg.empty levels) hg'
    simp only [Function.comp]
    rw [← e]
    by_cases hh : HoldsLevel T g' levels[i]
    · exact Or.inr (h.hold g' hgn i hi hh)
    · exact Or.inl (h.nohold g' hgn i hi hh)
  have hmax := foldl_max_eq hall 0 (Or.inl rfl)
  have hmem : ∀ g' < n, HoldsLevel T g' levels[i] →
      subspaceCount refs levels[i] ∈ (dsgs.map (·.sizes)).map (fun s => s.getD i 0) := by
    intro g' hg' hh
    rw [List.map_map, List.mem_map]
    refine ⟨dsgs.getD g' (Dsg.empty levels), ?_, h.hold g' hg' i hi hh⟩
    rw [List.getD_eq_getElem _ _ (by rw [h.len]; exact hg')]
    exact List.getElem_mem _
  constructor
  · intro hcase
    split
    · rw [hmax]
      rcases hcase with hh | ⟨-, g', hg', hh⟩
      · rw [if_pos (Or.inr (hmem g hg hh))]
      · rw [if_pos (Or.inr (hmem g' hg' hh))]
    · rename_i hs
      rcases hcase with hh | ⟨hs', -⟩
      · exact h.hold g hg i hi hh
      · exact absurd hs' hs
  · split
    · rw [hmax]
      split <;> omega
    · by_cases hh : HoldsLevel T g levels[i]
      · rw [h.hold g hg i hi hh]
      · rw [h.nohold g hg i hi hh]; omega

theorem afterSizes_ok [Ring K] {refs : List RefDim} {levels : List (List ℕ)} {n : ℕ}
    {T : ℕ → List (K × List ℕ × (ℕ → K))} (h : ValidSystem refs levels n T) {dsgs : List (Dsg K)}
    (hi : Initialised refs levels n T dsgs) {g : ℕ} (hg : g < n) (sizes : List ℕ)
    (hsz : ∀ i (hi : i < levels.length), HoldsLevel T g levels[i] →
      sizes.getD i 0 = subspaceCount refs levels[i]) :
    let G := afterSizes (dsgs.getD g (Dsg.empty levels)) sizes (tasksOf refs (T g))
    GroupOk levels sizes G ∧ G.dsg.data.len = 0 ∧ G.dsg.kahan.len = 0 ∧
      (G.dsg.sel = [] ∨ G.dsg.sel = List.range levels.length) := by
  refine ⟨⟨hi.lev g hg, rfl, ?_⟩, rfl, rfl, hi.sel g hg⟩
  intro t' ht'
  obtain ⟨t, ht, rfl⟩ := List.mem_map.1 ht'
  exact taskOk_component h.ref (h.comp g hg t ht) (h.first hg ht) _
    fun i hi hl => hsz i hi ⟨t, ht, hl⟩

theorem toFinset_range (n : ℕ) : (List.range n).toFinset = Finset.range n := by
  ext m
  simp

theorem sum_range_single [AddCommMonoid K] {n g : ℕ} (hg : g < n) (f : ℕ → K)
    (h : ∀ m < n, m ≠ g → f m = 0) : ((List.range n).map f).sum = f g := by
  rw [← List.sum_toFinset f List.nodup_range, toFinset_range]
  exact Finset.sum_eq_single_of_mem g (Finset.mem_range.2 hg)
    fun m hm hne => h m (Finset.mem_range.1 hm) hne

theorem sum_range_members [AddCommMonoid K] {n : ℕ} {members : List ℕ} (hn : members.Nodup)
    (hlt : ∀ m ∈ members, m < n) (f : ℕ → K) (h : ∀ m < n, m ∉ members → f m = 0) :
    (members.map f).sum = ((List.range n).map f).sum := by
  rw [← List.sum_toFinset f List.nodup_range, toFinset_range, ← List.sum_toFinset f hn]
  apply Finset.sum_subset
  · intro m hm
    exact Finset.mem_range.2 (hlt m (List.mem_toFinset.1 hm))
  · intro m hm hne
    exact h m (Finset.mem_range.1 hm) fun hc => hne (List.mem_toFinset.2 hc)

theorem sum_le_total {refs : List RefDim} {levels : List (List ℕ)} {sizes : List ℕ}
    (hlen : sizes.length = levels.length)
    (hle : ∀ i (hi : i < levels.length), sizes.getD i 0 ≤ subspaceCount refs levels[i]) :
    sizes.sum ≤ (levels.map (subspaceCount refs)).sum := by
  apply List.Forall₂.sum_le_sum
  rw [List.forall₂_iff_get]
  refine ⟨by simp [hlen], fun i a b => ?_⟩
  have hi : i < levels.length := by simpa using b
  have := hle i hi
  rw [List.getD_eq_getElem _ _ a] at this
  simpa using this

/-! ### The variants -/

/-- Sparse grids with the given levels and sizes that are ready for a combination (`whole`: with
everything allocated), and the tasks `T`. -/
structure ReadyFor [Zero K] (whole : Prop) (refs : List RefDim) (levels : List (List ℕ)) (n : ℕ)
    (sizes : ℕ → List ℕ) (T : ℕ → List (K × List ℕ × (ℕ → K))) (S : ℕ → Group K) : Prop where
  lev : ∀ g < n, (S g).dsg.levels = levels
  siz : ∀ g < n, (S g).dsg.sizes = sizes g
  zero : whole → ∀ g < n, CanZero levels.length (S g).dsg
  tasks : ∀ g < n, (S g).tasks = tasksOf refs (T g)

theorem ReadyFor.groupOk [Ring K] {refs : List RefDim} {levels : List (List ℕ)} {n : ℕ}
    {T : ℕ → List (K × List ℕ × (ℕ → K))} (h : ValidSystem refs levels n T) {whole : Prop}
    {sizes : ℕ → List ℕ} {S : ℕ → Group K} (hS : ReadyFor whole refs levels n sizes T S)
    (hheld : ∀ g < n, ∀ i (hi : i < levels.length), HoldsLevel T g levels[i] →
      (sizes g).getD i 0 = subspaceCount refs levels[i]) :
    ∀ g < n, GroupOk levels (sizes g) (S g) := by
  intro g hg
  refine ⟨hS.lev g hg, hS.siz g hg, ?_⟩
  rw [hS.tasks g hg]
  intro t' ht'
  obtain ⟨t, ht, rfl⟩ := List.mem_map.1 ht'
  exact taskOk_component h.ref (h.comp g hg t ht) (h.first hg ht) _
    fun i hi hl => hheld g hg i hi ⟨t, ht, hl⟩

theorem readyFor_afterSizes [Ring K] {refs : List RefDim} {levels : List (List ℕ)} {n : ℕ}
    {T : ℕ → List (K × List ℕ × (ℕ → K))} {dsgs : List (Dsg K)}
    (hi : Initialised refs levels n T dsgs) (whole : Prop) (sizes : ℕ → List ℕ) :
    ReadyFor whole refs levels n sizes T fun g =>
      afterSizes (dsgs.getD g (Dsg.empty levels)) (sizes g) (tasksOf refs (T g)) :=
  ⟨fun g hg => hi.lev g hg, fun _ _ => rfl, fun _ g hg => Or.inl ⟨rfl, rfl, hi.sel g hg⟩,
    fun _ _ => rfl⟩

/-- Reduction of the whole sparse grid, from any state of the sparse grids; `F` are their values
afterwards. -/
theorem sparseGridReduce_from [Ring K] {refs : List RefDim} {levels : List (List ℕ)} {n : ℕ}
    {T : ℕ → List (K × List ℕ × (ℕ → K))} (h : ValidSystem refs levels n T)
    (maxChunk : ℕ) (hpos : 0 < maxChunk) (hmax : maxChunk < 2 ^ 31) (sizes : List ℕ)
    (hlen : sizes.length = levels.length) (hlt : sizes.sum < 2 ^ 32)
    (hheld : ∀ g < n, ∀ i (hi : i < levels.length), HoldsLevel T g levels[i] →
      sizes.getD i 0 = subspaceCount refs levels[i]) (S : ℕ → Group K)
    (hS : ReadyFor True refs levels n (fun _ => sizes) T S) :
    ∃ (S' : ℕ → Group K) (F : ℕ → ℕ → ℕ → K), combineSparseGridReduce maxChunk n S = some S' ∧
      IsCombined refs n T S' ∧ (∀ g < n, Holding levels sizes (F g) (S' g).dsg) ∧
      ∀ g < n, ∀ i < levels.length, ∀ j < sizes.getD i 0,
        F g i j = ((List.range n).map fun m => localSum levels (tasksOf refs (T m)) i j).sum := by
  obtain ⟨S', F, e1, e2, e3, e4⟩ := combineSparseGridReduce_eq h.sorted n sizes hlen maxChunk hpos
    hmax hlt S fun g hg => ⟨hS.groupOk h hheld g hg, hS.zero trivial g hg⟩
  have e3' : ∀ g < n, ∀ i < levels.length, ∀ j < sizes.getD i 0,
      F g i j = ((List.range n).map fun m => localSum levels (tasksOf refs (T m)) i j).sum := by
    intro g hg i hi j hj
    rw [e3 g hg i hi j hj]
    congr 1
    apply List.map_congr_left
    intro m hm
    rw [hS.tasks m (List.mem_range.1 hm)]
  refine ⟨S', F, e1, ?_, e4, e3'⟩
  refine isCombined_of_extracted h (fun _ => sizes) F S' ?_ hheld fun g hg i hi hh j hj =>
    e3' g hg i hi j (by rw [hheld g hg i hi hh]; exact hj)
  intro g hg
  rw [← hS.tasks g hg]
  exact e2 g hg

/-- C34, reduction of the whole sparse grid. -/
theorem C34_sparseGridReduce [Ring K] (refs : List RefDim) (levels : List (List ℕ)) (n : ℕ)
    (T : ℕ → List (K × List ℕ × (ℕ → K))) (h : ValidSystem refs levels n T)
    (maxChunk : ℕ) (hpos : 0 < maxChunk) (hmax : maxChunk < 2 ^ 31)
    (htotal : (levels.map (subspaceCount refs)).sum < 2 ^ 32) :
    ∃ S', combineVariant .sparseGridReduce maxChunk levels n (fun g => tasksOf refs (T g)) = some S' ∧
      IsCombined refs n T S' := by
  obtain ⟨dsgs, i1, i2⟩ := initDsgs_eq h .sparseGridReduce
  rcases Nat.eq_zero_or_pos n with rfl | hn
  · refine ⟨fun g => let d := dsgs.getD g (Dsg.empty levels)
      afterSizes d (outgroupSizes (dsgs.map (·.sizes)) (List.range levels.length) d.sizes)
        (tasksOf refs (T g)), ?_, by intro g hg; omega⟩
    unfold combineVariant
    rw [i1]
    rfl
  have hsame : ∀ g < n, outgroupSizes (dsgs.map (·.sizes)) (List.range levels.length)
      (dsgs.getD g (Dsg.empty levels)).sizes = outgroupSizes (dsgs.map (·.sizes))
        (List.range levels.length) (dsgs.getD 0 (Dsg.empty levels)).sizes := by
    intro g hg
    unfold outgroupSizes
    rw [i2.slen g hg, i2.slen 0 hn]
    apply List.map_congr_left
    intro i hi
    rw [if_pos hi, if_pos hi]
  generalize hsz : outgroupSizes (dsgs.map (·.sizes)) (List.range levels.length)
    (dsgs.getD 0 (Dsg.empty levels)).sizes = sizes at hsame
  have hs0 := i2.outgroupSizes_eq hn (List.range levels.length)
  rw [hsz] at hs0
  have hheld : ∀ g < n, ∀ i (hi : i < levels.length), HoldsLevel T g levels[i] →
      sizes.getD i 0 = subspaceCount refs levels[i] := fun g hg i hi hh =>
    (hs0.2 i hi).1 (Or.inr ⟨List.mem_range.2 hi, g, hg, hh⟩)
  obtain ⟨S', F, e1, e2, -⟩ := sparseGridReduce_from h maxChunk hpos hmax sizes hs0.1
    (lt_of_le_of_lt (sum_le_total hs0.1 fun i hi => (hs0.2 i hi).2) htotal) hheld
    (fun g => afterSizes (dsgs.getD g (Dsg.empty levels)) (outgroupSizes (dsgs.map (·.sizes))
      (List.range levels.length) (dsgs.getD g (Dsg.empty levels)).sizes) (tasksOf refs (T g))) (by
      obtain ⟨a, -, c, d⟩ := readyFor_afterSizes i2 True fun g => outgroupSizes (dsgs.map (·.sizes))
        (List.range levels.length) (dsgs.getD g (Dsg.empty levels)).sizes
      exact ⟨a, hsame, c, d⟩)
  refine ⟨S', ?_, e2⟩
  unfold combineVariant
  rw [i1]
  exact e1

/-- Reduction of subspaces on one communicator for each set of groups, from any state of the sparse
grids. -/
theorem subspaceReduce_from [Ring K] {refs : List RefDim} {levels : List (List ℕ)} {n : ℕ}
    (hn : n ≤ 256) {T : ℕ → List (K × List ℕ × (ℕ → K))} (h : ValidSystem refs levels n T)
    (maxChunk : ℕ) (hmax : maxChunk < 2 ^ 31)
    (htotal : (levels.map (subspaceCount refs)).sum < 2 ^ 31) {dsgs : List (Dsg K)}
    (i2 : Initialised refs levels n T dsgs) :
    ∃ votes, getSubspaceVote levels.length (dsgs.map (·.sizes)) = some votes ∧ ∀ S : ℕ → Group K,
      ReadyFor True refs levels n (fun g => (dsgs.getD g (Dsg.empty levels)).sizes) T S →
      ∃ S', combineAllocated maxChunk n
          ((subspacesByVote votes).map fun kv => (ranksOfVote kv.1, kv.2)) S = some S' ∧
        IsCombined refs n T S' ∧ ∀ g < n, ∃ F, Holding levels
          (dsgs.getD g (Dsg.empty levels)).sizes F (S' g).dsg := by
  obtain ⟨votes, v1, v2, v3⟩ := getSubspaceVote_spec levels.length (dsgs.map (·.sizes)) i2.size_len
    (by rw [List.length_map, i2.len]; exact hn)
  refine ⟨votes, v1, fun S hS => ?_⟩
  obtain ⟨hsort, hmem⟩ := subspacesByVote_prefix votes votes.length (le_refl _)
  have htab : ∀ w is, (w, is) ∈ subspacesByVote votes ↔
      manyBits w = true ∧ is = withVote votes votes.length w ∧ is ≠ [] := hmem
  have hsort' : (subspacesByVote votes).Pairwise fun a b => a.1 < b.1 := hsort
  have key : ∀ (w : ℕ) (is : List ℕ) (i : ℕ), (w, is) ∈ subspacesByVote votes → i ∈ is →
      i < levels.length ∧ ∀ r, w.testBit r = true ↔ Holds (dsgs.map (·.sizes)) r i := by
    intro w is i hw hi
    rw [htab] at hw
    rw [hw.2.1, mem_withVote] at hi
    have hin : i < levels.length := by omega
    exact ⟨hin, (votes_eq_iff v2 v3 hin).1 hi.2⟩
  have hranks : ∀ (w : ℕ) (is : List ℕ) (i : ℕ), (w, is) ∈ subspacesByVote votes → i ∈ is →
      ∀ r', r' ∈ ranksOfVote w ↔ Holds (dsgs.map (·.sizes)) r' i := by
    intro w is i hw hi r'
    rw [mem_ranksOfVote, (key w is i hw hi).2 r']
    refine ⟨fun h => h.2, fun h => ⟨?_, h⟩⟩
    have := (i2.holds_iff.1 h).1
    omega
  let size : ℕ → ℕ := fun i => subspaceCount refs (levels.getD i [])
  have hsize : ∀ i (hi : i < levels.length), size i = subspaceCount refs levels[i] := by
    intro i hi
    change subspaceCount refs (levels.getD i []) = _
    rw [List.getD_eq_getElem _ _ hi]
  let sizes : ℕ → List ℕ := fun g => if g < n then (dsgs.getD g (Dsg.empty levels)).sizes else
    List.replicate levels.length 0
  have hsz : ∀ g < n, sizes g = (dsgs.getD g (Dsg.empty levels)).sizes := by
    intro g hg
    change (if g < n then _ else _) = _
    rw [if_pos hg]
  have hslen : ∀ g, (sizes g).length = levels.length := by
    intro g
    change (if g < n then _ else _ : List ℕ).length = _
    split
    · rename_i hg
      exact i2.slen g hg
    · simp
  have hheld : ∀ g < n, ∀ i (hi : i < levels.length), HoldsLevel T g levels[i] →
      (sizes g).getD i 0 = subspaceCount refs levels[i] := by
    intro g hg i hi hh
    rw [hsz g hg]
    exact i2.hold g hg i hi hh
  have hle : ∀ g < n, ∀ i (hi : i < levels.length),
      (sizes g).getD i 0 ≤ subspaceCount refs levels[i] := by
    intro g hg i hi
    by_cases hh : HoldsLevel T g levels[i]
    · rw [hheld g hg i hi hh]
    · rw [hsz g hg, i2.nohold g hg i hi hh]; omega
  have hone : ∀ i (hi : i < levels.length), subspaceCount refs levels[i] < 2 ^ 31 := by
    intro i hi
    refine lt_of_le_of_lt ?_ htotal
    exact List.single_le_sum (fun _ _ => Nat.zero_le _) _
      (List.mem_map.2 ⟨_, List.getElem_mem hi, rfl⟩)
  obtain ⟨S', F, e1, e2, e3, e4, e5⟩ := combineAllocated_eq h.sorted n sizes hslen maxChunk
    (le_of_lt hmax) size
    (fun g hg => lt_of_le_of_lt (sum_le_total (hslen g) (hle g hg)) htotal)
    ((subspacesByVote votes).map fun kv => (ranksOfVote kv.1, kv.2))
    (by
      intro c hc g hg
      obtain ⟨⟨w, is⟩, hk, rfl⟩ := List.mem_map.1 hc
      obtain ⟨i, hi⟩ := List.exists_mem_of_ne_nil _ ((htab _ _).1 hk).2.2
      exact (i2.holds_iff.1 ((hranks w is i hk hi g).1 hg)).1)
    (by
      intro c hc
      obtain ⟨⟨w, is⟩, hk, rfl⟩ := List.mem_map.1 hc
      refine ⟨?_, fun i hi => (key w is i hk hi).1, fun g hg i hi => ?_⟩
      · simp only
        rw [((htab _ _).1 hk).2.1]
        exact List.pairwise_lt_range.filter _
      · obtain ⟨hgn, hil, hh, -⟩ := i2.holds_iff.1 ((hranks w is i hk hi g).1 hg)
        rw [hsize i hil]
        exact hheld g hgn i hil hh)
    (by
      intro c hc i hi
      obtain ⟨⟨w, is⟩, hk, rfl⟩ := List.mem_map.1 hc
      rw [hsize i (key w is i hk hi).1]
      exact hone i _)
    (by
      rw [List.pairwise_map]
      refine List.Pairwise.imp_of_mem ?_ hsort'
      rintro ⟨w, is⟩ ⟨w', is'⟩ hk hk' hlt i hi hi'
      have : w = w' := by
        apply Nat.eq_of_testBit_eq
        intro r
        rw [Bool.eq_iff_iff, (key w is i hk hi).2, (key w' is' i hk' hi').2]
      simp only at hlt
      omega)
    S (by
      intro g hg
      rw [hsz g hg]
      exact ⟨hS.groupOk h i2.hold g hg, hS.zero trivial g hg⟩)
  have hloc : ∀ g < n, ∀ i j, localSum levels (S g).tasks i j =
      localSum levels (tasksOf refs (T g)) i j := by
    intro g hg i j
    rw [hS.tasks g hg]
  refine ⟨S', e1, ?_, fun g hg => ⟨F g, by rw [← hsz g hg]; exact e5 g hg⟩⟩
  · refine isCombined_of_extracted h sizes F S' (fun g hg => by
      rw [← hS.tasks g hg]; exact e2 g hg) hheld ?_
    intro g hg i hi hh j hj
    have hgh : Holds (dsgs.map (·.sizes)) g i := i2.holds_iff.2 ⟨hg, hi, hh, by omega⟩
    by_cases hsh : ∃ w is, (w, is) ∈ subspacesByVote votes ∧ i ∈ is
    · obtain ⟨w, is, hk, hii⟩ := hsh
      rw [e3 (ranksOfVote w, is) (List.mem_map.2 ⟨_, hk, rfl⟩) g ((hranks w is i hk hii g).2 hgh) i
        hii j (by rw [hsize i hi]; exact hj)]
      rw [List.map_congr_left fun m hm =>
        hloc m (i2.holds_iff.1 ((hranks w is i hk hii m).1 hm)).1 i j]
      refine sum_range_members (List.nodup_range.filter _) ?_ _ ?_
      · intro m hm
        exact (i2.holds_iff.1 ((hranks w is i hk hii m).1 hm)).1
      · intro m hm hno
        refine localSum_zero (h.comp m hm) hi ?_ j
        intro hhm
        exact hno ((hranks w is i hk hii m).2 (i2.holds_iff.2 ⟨hm, hi, hhm, by omega⟩))
    · rw [e4 g hg i hi ?_ j (by rw [hheld g hg i hi hh]; exact hj)]
      · rw [hloc g hg]
        symm
        refine sum_range_single hg (fun m => localSum levels (tasksOf refs (T m)) i j) ?_
        intro m hm hne
        refine localSum_zero (h.comp m hm) hi ?_ j
        intro hhm
        apply hsh
        have hmh : Holds (dsgs.map (·.sizes)) m i := i2.holds_iff.2 ⟨hm, hi, hhm, by omega⟩
        have hvi : votes[i]? = some (votes.getD i 0) := by
          rw [List.getD_eq_getElem _ _ (by omega), List.getElem?_eq_getElem (by omega)]
        have hii : i ∈ withVote votes votes.length (votes.getD i 0) :=
          mem_withVote.2 ⟨by omega, hvi⟩
        refine ⟨_, _, (htab _ _).2 ⟨(manyBits_iff _).2 ⟨g, m, fun hc => hne hc.symm, (v3 i g).2 hgh,
          (v3 i m).2 hmh⟩, rfl, List.ne_nil_of_mem hii⟩, hii⟩
      · intro c hc _ hic
        obtain ⟨⟨w, is⟩, hk, rfl⟩ := List.mem_map.1 hc
        exact hsh ⟨w, is, hk, hic⟩

/-- C34, reduction of subspaces on one communicator for each set of groups. -/
theorem C34_subspaceReduce [Ring K] (refs : List RefDim) (levels : List (List ℕ)) (n : ℕ)
    (hn : n ≤ 256) (T : ℕ → List (K × List ℕ × (ℕ → K))) (h : ValidSystem refs levels n T)
    (maxChunk : ℕ) (hmax : maxChunk < 2 ^ 31)
    (htotal : (levels.map (subspaceCount refs)).sum < 2 ^ 31) :
    ∃ S', combineVariant .subspaceReduce maxChunk levels n (fun g => tasksOf refs (T g)) = some S' ∧
      IsCombined refs n T S' := by
  obtain ⟨dsgs, i1, i2⟩ := initDsgs_eq h .subspaceReduce
  obtain ⟨votes, v1, hc⟩ := subspaceReduce_from hn h maxChunk hmax htotal i2
  obtain ⟨S', e1, e2, -⟩ := hc _ (readyFor_afterSizes i2 True fun g =>
    (dsgs.getD g (Dsg.empty levels)).sizes)
  refine ⟨S', ?_, e2⟩
  unfold combineVariant
  rw [i1]
  simp only [Option.bind_some]
  unfold subspaceReduceVariant
  rw [v1]
  exact e1

/-- Reduction of the shared subspaces on one communicator, from any state of the sparse grids. -/
theorem outgroup_from [Ring K] {refs : List RefDim} {levels : List (List ℕ)} {n : ℕ}
    (hn : n ≤ 256) {T : ℕ → List (K × List ℕ × (ℕ → K))} (h : ValidSystem refs levels n T)
    (hshare : (∀ g < n, Shares refs n T g) ∨ ∀ g < n, ¬ Shares refs n T g)
    (maxChunk : ℕ) (hmax : maxChunk < 2 ^ 31)
    (hsmall : ∀ l ∈ levels, subspaceCount refs l < 2 ^ 31) {dsgs : List (Dsg K)}
    (i2 : Initialised refs levels n T dsgs) :
    ∃ votes comms, getSubspaceVote levels.length (dsgs.map (·.sizes)) = some votes ∧
      (List.range n).mapM (fun g => setOutgroupCommunicator levels.length (dsgs.map (·.sizes)) g) =
        some comms ∧
      ((List.range n).filter (fun g => (comms.getD g none).isSome) = [] ∨
        (List.range n).filter (fun g => (comms.getD g none).isSome) = List.range n) ∧
      (∀ S : ℕ → Group K, ReadyFor False refs levels n (fun g => outgroupSizes (dsgs.map (·.sizes))
          (subspacesForMany votes).1 (dsgs.getD g (Dsg.empty levels)).sizes) T S →
        ∃ S', collectReduceDistribute maxChunk n (fun g => comms.getD g none) S = some S' ∧
          IsCombined refs n T S' ∧ ∀ g < n, (S' g).dsg.levels = levels ∧
            (S' g).dsg.sizes = outgroupSizes (dsgs.map (·.sizes))
              (subspacesForMany votes).1 (dsgs.getD g (Dsg.empty levels)).sizes) ∧
      ((levels.map (subspaceCount refs)).sum < 2 ^ 31 → ∀ S : ℕ → Group K,
        ReadyFor True refs levels n (fun g => outgroupSizes (dsgs.map (·.sizes))
          (subspacesForMany votes).1 (dsgs.getD g (Dsg.empty levels)).sizes) T S →
        ∃ S', combineAllocated maxChunk n
            (if (List.range n).filter (fun g => (comms.getD g none).isSome) = [] then []
              else [((List.range n).filter (fun g => (comms.getD g none).isSome),
                (subspacesForMany votes).1)]) S = some S' ∧
          IsCombined refs n T S' ∧ ∀ g < n, ∃ F, Holding levels (outgroupSizes (dsgs.map (·.sizes))
            (subspacesForMany votes).1 (dsgs.getD g (Dsg.empty levels)).sizes) F (S' g).dsg) := by
  obtain ⟨votes, v1, v2, v3⟩ := getSubspaceVote_spec levels.length (dsgs.map (·.sizes)) i2.size_len
    (by rw [List.length_map, i2.len]; exact hn)
  obtain ⟨hm, hb⟩ := subspacesForMany_spec levels.length (dsgs.map (·.sizes)) votes v2 v3
  have hsorted : (subspacesForMany votes).1.Pairwise (· < ·) := by
    have h1 : (subspacesForMany votes).1 = (List.range votes.length).filter
        fun i => manyBits (votes.getD i 0) :=
      (subspacesForMany_prefix votes votes.length (le_refl _)).1
    rw [h1]
    exact List.pairwise_lt_range.filter _
  have hset : ∀ r, setOutgroupCommunicator levels.length (dsgs.map (·.sizes)) r =
      some (if r ∈ ranksOfVote (subspacesForMany votes).2 then some (subspacesForMany votes).1
        else none) := by
    intro r
    unfold setOutgroupCommunicator
    rw [v1]
    rfl
  have hrank : ∀ g < n, (g ∈ ranksOfVote (subspacesForMany votes).2 ↔ Shares refs n T g) := by
    intro g hg
    rw [mem_ranksOfVote, hb]
    constructor
    · rintro ⟨-, i, hi, ⟨a, b, hab, ha, hb'⟩, hh⟩
      obtain ⟨-, hil, hh1, hc⟩ := i2.holds_iff.1 hh
      refine ⟨levels[i], hc, hh1, ?_⟩
      by_cases hag : a = g
      · obtain ⟨q1, _, q2, _⟩ := i2.holds_iff.1 hb'
        exact ⟨b, q1, by omega, q2⟩
      · obtain ⟨q1, _, q2, _⟩ := i2.holds_iff.1 ha
        exact ⟨a, q1, hag, q2⟩
    · rintro ⟨l, hc, hh, g', hg', hne, hh'⟩
      obtain ⟨t, ht, hl⟩ := hh
      obtain ⟨i, hi, rfl⟩ := List.mem_iff_getElem.1
        (h.mem_of_shared hg hg' (fun e => hne e.symm) ⟨t, ht, hl⟩ hh')
      have a1 : Holds (dsgs.map (·.sizes)) g i := i2.holds_iff.2 ⟨hg, hi, ⟨t, ht, hl⟩, hc⟩
      have a2 : Holds (dsgs.map (·.sizes)) g' i := i2.holds_iff.2 ⟨hg', hi, hh', hc⟩
      exact ⟨by omega, i, hi, ⟨g, g', fun hc => hne hc.symm, a1, a2⟩, a1⟩
  generalize hshd : (subspacesForMany votes).1 = shared at *
  have hshm : ∀ i, i ∈ shared → i < levels.length ∧ ∃ g < n, ∃ hi : i < levels.length,
      HoldsLevel T g levels[i] := by
    intro i hi
    obtain ⟨hil, a, b, -, ha, -⟩ := (hm i).1 hi
    obtain ⟨q1, q2, q3, -⟩ := i2.holds_iff.1 ha
    exact ⟨hil, a, q1, q2, q3⟩
  -- communicators of the groups
  let comm : ℕ → Option (List ℕ) := fun g =>
    if g ∈ ranksOfVote (subspacesForMany votes).2 then some shared else none
  have hcomms : (List.range n).mapM
      (fun g => setOutgroupCommunicator levels.length (dsgs.map (·.sizes)) g) =
      some ((List.range n).map comm) :=
    mapM_some_map _ _ _ fun g _ => hset g
  have hget : ∀ g < n, ((List.range n).map comm).getD g none = comm g := by
    intro g hg
    rw [List.getD_eq_getElem _ _ (by simpa using hg), List.getElem_map, List.getElem_range]
  have hcase : (∀ g < n, ((List.range n).map comm).getD g none = some shared) ∨
      (shared = [] ∧ ∀ g < n, ((List.range n).map comm).getD g none = none) := by
    rcases hshare with hs | hs
    · left
      intro g hg
      rw [hget g hg]
      change (if _ then _ else _) = _
      rw [if_pos ((hrank g hg).2 (hs g hg))]
    · right
      refine ⟨?_, ?_⟩
      · rw [List.eq_nil_iff_forall_not_mem]
        intro i hi
        obtain ⟨hil, a, b, hab, ha, hb'⟩ := (hm i).1 hi
        have han := (i2.holds_iff.1 ha).1
        apply hs a han
        rw [← hrank a han, mem_ranksOfVote, hb]
        exact ⟨by omega, i, hil, ⟨a, b, hab, ha, hb'⟩, ha⟩
      · intro g hg
        rw [hget g hg]
        change (if _ then _ else _) = _
        rw [if_neg fun hc => hs g hg ((hrank g hg).1 hc)]
  have hmembers : (List.range n).filter (fun g => (((List.range n).map comm).getD g none).isSome) =
      if shared = [] ∧ ∀ g < n, ((List.range n).map comm).getD g none = none then [] else
        List.range n := by
    split
    · rename_i hc
      rw [List.filter_eq_nil_iff]
      intro g hg
      rw [hc.2 g (List.mem_range.1 hg)]
      simp
    · rename_i hc
      rw [List.filter_eq_self]
      intro g hg
      rw [(hcase.resolve_right hc) g (List.mem_range.1 hg)]
      rfl
  -- sizes
  let sizes : ℕ → List ℕ := fun g => if g < n then outgroupSizes (dsgs.map (·.sizes)) shared
    (dsgs.getD g (Dsg.empty levels)).sizes else List.replicate levels.length 0
  have hsz : ∀ g < n, sizes g = outgroupSizes (dsgs.map (·.sizes)) shared
      (dsgs.getD g (Dsg.empty levels)).sizes := by
    intro g hg
    change (if g < n then _ else _) = _
    rw [if_pos hg]
  have hslen : ∀ g, (sizes g).length = levels.length := by
    intro g
    change (if g < n then _ else _ : List ℕ).length = _
    split
    · rename_i hg
      exact (i2.outgroupSizes_eq hg shared).1
    · simp
  have hheld : ∀ g < n, ∀ i (hi : i < levels.length), HoldsLevel T g levels[i] →
      (sizes g).getD i 0 = subspaceCount refs levels[i] := by
    intro g hg i hi hh
    rw [hsz g hg]
    exact ((i2.outgroupSizes_eq hg shared).2 i hi).1 (Or.inl hh)
  have hle : ∀ g < n, ∀ i (hi : i < levels.length),
      (sizes g).getD i 0 ≤ subspaceCount refs levels[i] := by
    intro g hg i hi
    rw [hsz g hg]
    exact ((i2.outgroupSizes_eq hg shared).2 i hi).2
  let size : ℕ → ℕ := fun i => subspaceCount refs (levels.getD i [])
  have hsize : ∀ i (hi : i < levels.length), size i = subspaceCount refs levels[i] := by
    intro i hi
    change subspaceCount refs (levels.getD i []) = _
    rw [List.getD_eq_getElem _ _ hi]
  have hshsz : ∀ g < n, ∀ i ∈ shared, (sizes g).getD i 0 = size i := by
    intro g hg i hi
    obtain ⟨hil, g', hg', _, hh⟩ := hshm i hi
    rw [hsz g hg, hsize i hil]
    exact ((i2.outgroupSizes_eq hg shared).2 i hil).1 (Or.inr ⟨hi, g', hg', hh⟩)
  -- a subspace that is not shared is held by one group only
  have hsingle : ∀ g < n, ∀ i (hi : i < levels.length), HoldsLevel T g levels[i] →
      0 < subspaceCount refs levels[i] → i ∉ shared → ∀ j,
      localSum levels (tasksOf refs (T g)) i j =
        ((List.range n).map fun m => localSum levels (tasksOf refs (T m)) i j).sum := by
    intro g hg i hi hh hpos hno j
    symm
    refine sum_range_single hg (fun m => localSum levels (tasksOf refs (T m)) i j) ?_
    intro m hmn hne
    refine localSum_zero (h.comp m hmn) hi ?_ j
    intro hhm
    exact hno ((hm i).2 ⟨hi, g, m, fun hc => hne hc.symm, i2.holds_iff.2 ⟨hg, hi, hh, hpos⟩,
      i2.holds_iff.2 ⟨hmn, hi, hhm, hpos⟩⟩)
  have hgrp : ∀ (whole : Prop) (S : ℕ → Group K), ReadyFor whole refs levels n (fun g =>
      outgroupSizes (dsgs.map (·.sizes)) shared (dsgs.getD g (Dsg.empty levels)).sizes) T S →
      ∀ g < n, GroupOk levels (sizes g) (S g) := by
    intro whole S hS g hg
    rw [hsz g hg]
    exact hS.groupOk h (fun g hg i hi hh => by
      have := hheld g hg i hi hh
      rw [hsz g hg] at this
      exact this) g hg
  refine ⟨votes, (List.range n).map comm, v1, hcomms, ?_, ?_, ?_⟩
  · rw [hmembers]
    split
    · exact Or.inl rfl
    · exact Or.inr rfl
  · intro S hS
    rw [hshd] at hS ⊢
    have hloc : ∀ g < n, ∀ i j, localSum levels (S g).tasks i j =
        localSum levels (tasksOf refs (T g)) i j := by
      intro g hg i j
      rw [hS.tasks g hg]
    obtain ⟨S', e1, e2⟩ := collectReduceDistribute_eq h.sorted n sizes hslen maxChunk (le_of_lt hmax)
      shared hsorted (fun i hi => (hshm i hi).1) size
      (fun g hg i hi => lt_of_le_of_lt (hle g hg i hi) (hsmall _ (List.getElem_mem hi))) hshsz
      (fun g => ((List.range n).map comm).getD g none) hcase S (hgrp _ S hS)
    refine ⟨S', e1, ?_, fun g hg => ⟨(e2 g hg).2.1, by rw [← hsz g hg]; exact (e2 g hg).2.2⟩⟩
    refine isCombined_of_extracted h sizes (combined n levels shared S) S' (fun g hg => by
      rw [← hS.tasks g hg]; exact (e2 g hg).1) hheld ?_
    intro g hg i hi hh j hj
    unfold combined
    split
    · congr 1
      exact List.map_congr_left fun m hm => hloc m (List.mem_range.1 hm) i j
    · rename_i hno
      rw [hloc g hg]
      exact hsingle g hg i hi hh (by omega) hno j
  · intro htotal S hS
    rw [hshd] at hS ⊢
    have hloc : ∀ g < n, ∀ i j, localSum levels (S g).tasks i j =
        localSum levels (tasksOf refs (T g)) i j := by
      intro g hg i j
      rw [hS.tasks g hg]
    obtain ⟨S', F, e1, e2, e3, e4, e5⟩ := combineAllocated_eq h.sorted n sizes hslen maxChunk
      (le_of_lt hmax) size
      (fun g hg => lt_of_le_of_lt (sum_le_total (hslen g) (hle g hg)) htotal)
      (if (List.range n).filter (fun g => (((List.range n).map comm).getD g none).isSome) = [] then []
        else [((List.range n).filter (fun g => (((List.range n).map comm).getD g none).isSome),
          shared)])
      (by
        intro c hc g hg
        split at hc
        · simp at hc
        · rw [List.mem_singleton] at hc
          subst hc
          exact List.mem_range.1 (List.mem_filter.1 hg).1)
      (by
        intro c hc
        split at hc
        · simp at hc
        · rw [List.mem_singleton] at hc
          subst hc
          exact ⟨hsorted, fun i hi => (hshm i hi).1, fun g hg i hi =>
            hshsz g (List.mem_range.1 (List.mem_filter.1 hg).1) i hi⟩)
      (by
        intro c hc i hi
        split at hc
        · simp at hc
        · rw [List.mem_singleton] at hc
          subst hc
          rw [hsize i (hshm i hi).1]
          exact hsmall _ (List.getElem_mem _))
      (by split <;> simp) S (fun g hg => ⟨hgrp _ S hS g hg, hS.zero trivial g hg⟩)
    refine ⟨S', e1, ?_, fun g hg => ⟨F g, by rw [← hsz g hg]; exact e5 g hg⟩⟩
    · refine isCombined_of_extracted h sizes F S' (fun g hg => by
        rw [← hS.tasks g hg]; exact e2 g hg) hheld ?_
      intro g hg i hi hh j hj
      by_cases hno : i ∈ shared
      · have hmem : (List.range n).filter
            (fun g => (((List.range n).map comm).getD g none).isSome) = List.range n := by
          rw [hmembers, if_neg]
          rintro ⟨hc, -⟩
          rw [hc] at hno
          simp at hno
        rw [hmem, if_neg (by rw [List.range_eq_nil]; omega)] at e3
        rw [e3 _ (List.mem_singleton.2 rfl) g (List.mem_range.2 hg) i hno j (by
          rw [hsize i hi]; exact hj)]
        congr 1
        exact List.map_congr_left fun m hm => hloc m (List.mem_range.1 hm) i j
      · rw [e4 g hg i hi ?_ j (by rw [hheld g hg i hi hh]; exact hj)]
        · rw [hloc g hg]
          exact hsingle g hg i hi hh (by omega) hno j
        · intro c hc _ hic
          split at hc
          · simp at hc
          · rw [List.mem_singleton] at hc
            subst hc
            exact hno hic

/-- C34 (partial: all or no groups share subspaces on this process), reduction of the
shared subspaces on one communicator, with everything allocated or chunk by chunk. Either all groups share subspaces with others or none (see `C66_outgroup_violated`). The bound
on the total size is only needed with everything allocated. -/
theorem C34_outgroup_partial [Ring K] (refs : List RefDim) (levels : List (List ℕ)) (n : ℕ)
    (hn : n ≤ 256) (T : ℕ → List (K × List ℕ × (ℕ → K))) (h : ValidSystem refs levels n T)
    (hshare : (∀ g < n, Shares refs n T g) ∨ ∀ g < n, ¬ Shares refs n T g)
    (maxChunk : ℕ) (hmax : maxChunk < 2 ^ 31)
    (hsmall : ∀ l ∈ levels, subspaceCount refs l < 2 ^ 31) (variant : CombinationVariant)
    (hv : variant = .chunkedOutgroupSparseGridReduce ∨ variant = .outgroupSparseGridReduce ∧
      (levels.map (subspaceCount refs)).sum < 2 ^ 31) :
    ∃ S', combineVariant variant maxChunk levels n (fun g => tasksOf refs (T g)) = some S' ∧
      IsCombined refs n T S' := by
  obtain ⟨dsgs, i1, i2⟩ := initDsgs_eq h variant
  obtain ⟨votes, comms, v1, v2, v3, c1, c2⟩ := outgroup_from hn h hshare maxChunk hmax hsmall i2
  have hR := fun whole => readyFor_afterSizes i2 whole fun g => outgroupSizes (dsgs.map (·.sizes))
    (subspacesForMany votes).1 (dsgs.getD g (Dsg.empty levels)).sizes
  rcases hv with rfl | ⟨rfl, htotal⟩
  · obtain ⟨S', e1, e2, -⟩ := c1 _ (hR False)
    refine ⟨S', ?_, e2⟩
    unfold combineVariant
    rw [i1]
    simp only [Option.bind_some]
    unfold outgroupVariant
    simp only [v1, v2, Option.bind_eq_bind, Option.bind_some]
    rw [if_pos v3]
    exact e1
  · obtain ⟨S', e1, e2, -⟩ := c2 htotal _ (hR True)
    refine ⟨S', ?_, e2⟩
    unfold combineVariant
    rw [i1]
    simp only [Option.bind_some]
    unfold outgroupVariant
    simp only [v1, v2, Option.bind_eq_bind, Option.bind_some]
    rw [if_pos v3]
    exact e1

/-- C34 (partial: all or no groups share subspaces on this process, and sizes within the range of
`int`): combining chunk by chunk, with any chunk sizes, yields the same component grids as combining
with the whole sparse grid allocated, and so do all other variants. -/
theorem C34_variants_agree_partial [Ring K] (refs : List RefDim) (levels : List (List ℕ)) (n : ℕ)
    (hn : n ≤ 256) (T : ℕ → List (K × List ℕ × (ℕ → K))) (h : ValidSystem refs levels n T)
    (hshare : (∀ g < n, Shares refs n T g) ∨ ∀ g < n, ¬ Shares refs n T g)
    (htotal : (levels.map (subspaceCount refs)).sum < 2 ^ 31)
    (variant variant' : CombinationVariant) (maxChunk maxChunk' : ℕ)
    (h0 : 0 < maxChunk) (h1 : maxChunk < 2 ^ 31) (h0' : 0 < maxChunk') (h1' : maxChunk' < 2 ^ 31) :
    ∃ S S', combineVariant variant maxChunk levels n (fun g => tasksOf refs (T g)) = some S ∧
      combineVariant variant' maxChunk' levels n (fun g => tasksOf refs (T g)) = some S' ∧
      ∀ g < n, List.Forall₂ (fun t t' : K × Dfg K => t.1 = t'.1 ∧ t.2.dims = t'.2.dims ∧
        t.2.data.len = t'.2.data.len ∧ ∀ p < t.2.data.len, t.2.data.val p = t'.2.data.val p)
        (S g).tasks (S' g).tasks := by
  have hsmall : ∀ l ∈ levels, subspaceCount refs l < 2 ^ 31 := by
    intro l hl
    refine lt_of_le_of_lt ?_ htotal
    exact List.single_le_sum (fun _ _ => Nat.zero_le _) _ (List.mem_map.2 ⟨_, hl, rfl⟩)
  have hall : ∀ (v : CombinationVariant) (c : ℕ), 0 < c → c < 2 ^ 31 →
      ∃ S, combineVariant v c levels n (fun g => tasksOf refs (T g)) = some S ∧
        IsCombined refs n T S := by
    intro v c hc hc'
    cases v with
    | sparseGridReduce =>
      exact C34_sparseGridReduce refs levels n T h c hc hc' (lt_trans htotal (by norm_num))
    | subspaceReduce => exact C34_subspaceReduce refs levels n hn T h c hc' htotal
    | outgroupSparseGridReduce =>
      exact C34_outgroup_partial refs levels n hn T h hshare c hc' hsmall _ (Or.inr ⟨rfl, htotal⟩)
    | chunkedOutgroupSparseGridReduce =>
      exact C34_outgroup_partial refs levels n hn T h hshare c hc' hsmall _ (Or.inl rfl)
  obtain ⟨S, e1, e2⟩ := hall variant maxChunk h0 h1
  obtain ⟨S', f1, f2⟩ := hall variant' maxChunk' h0' h1'
  refine ⟨S, S', e1, f1, fun g hg => ?_⟩
  have a := List.forall₂_iff_get.1 (e2 g hg)
  have b := List.forall₂_iff_get.1 (f2 g hg)
  rw [List.forall₂_iff_get]
  refine ⟨by omega, fun k k1 k2 => ?_⟩
  obtain ⟨p1, p2, p3, p4⟩ := a.2 k (by omega) k1
  obtain ⟨q1, q2, q3, q4⟩ := b.2 k (by omega) k2
  refine ⟨p1.trans q1.symm, p2.trans q2.symm, p3.trans q3.symm, fun p hp => ?_⟩
  rw [p3] at hp
  rw [p4 p hp, q4 p hp]

/-- Two groups with the component grids of a two-dimensional scheme, on the second of two processes in
each direction. -/
def exampleRefs : List RefDim := [⟨3, 2, [0, 4], 1⟩, ⟨3, 1, [0, 4], 1⟩]

/-- The component grids. -/
def exampleSystem (g : ℕ) : List (ℚ × List ℕ × (ℕ → ℚ)) :=
  if g = 0 then [(1, [1, 2], fun q => q + 1), (-1, [1, 1], fun q => q * q)]
  else [(1, [2, 1], fun q => 7 * q + 3)]

example : ValidSystem exampleRefs [[1, 1], [1, 2], [2, 1]] 2 exampleSystem ∧
    (∀ g < 2, Shares exampleRefs 2 exampleSystem g) ∧
    ([[1, 1], [1, 2], [2, 1]].map (subspaceCount exampleRefs)).sum < 2 ^ 31 ∧
    0 < subspaceCount exampleRefs [1, 1] := by
  refine ⟨.of_full ?_ (by decide) ?_ ?_, ?_, by decide +kernel, by decide +kernel⟩
  · intro r hr
    simp only [exampleRefs, List.mem_cons, List.not_mem_nil, or_false] at hr
    rcases hr with rfl | rfl
    · exact ⟨by decide, ⟨rfl, by decide, by decide⟩, by decide⟩
    · exact ⟨by decide, ⟨rfl, by decide, by decide⟩, by decide⟩
  · intro g hg t ht
    unfold exampleSystem at ht
    split at ht
    · simp only [List.mem_cons, List.not_mem_nil, or_false] at ht
      rcases ht with rfl | rfl <;> exact ⟨by decide, by simp [exampleRefs]⟩
    · simp only [List.mem_cons, List.not_mem_nil, or_false] at ht
      rcases ht with rfl
      exact ⟨by decide, by simp [exampleRefs]⟩
  · intro g hg t ht
    unfold exampleSystem at ht
    split at ht
    · simp only [List.mem_cons, List.not_mem_nil, or_false] at ht
      rcases ht with rfl | rfl <;> decide +kernel
    · simp only [List.mem_cons, List.not_mem_nil, or_false] at ht
      rcases ht with rfl
      decide +kernel
  · have h0 : HoldsLevel exampleSystem 0 [1, 1] :=
      ⟨(1, [1, 2], fun q => q + 1), by simp [exampleSystem], by decide +kernel⟩
    have h1 : HoldsLevel exampleSystem 1 [1, 1] :=
      ⟨(1, [2, 1], fun q => 7 * q + 3), by simp [exampleSystem], by decide +kernel⟩
    intro g hg
    refine ⟨[1, 1], by decide +kernel, ?_⟩
    have : g = 0 ∨ g = 1 := by omega
    rcases this with rfl | rfl
    · exact ⟨h0, 1, by decide, by decide, h1⟩
    · exact ⟨h1, 0, by decide, by decide, h0⟩

/-- Three groups on a process that has only points of level 2 and 3; the third group has none. -/
def unevenRefs : List RefDim := [⟨3, 1, [0, 5], 1⟩]

/-- The component grids of the three groups. -/
def unevenSystem (g : ℕ) : List (ℚ × List ℕ × (ℕ → ℚ)) :=
  if g < 2 then [(1, [3], fun q => q)] else [(1, [1], fun q => q)]

/-- C34 is violated if some but not all groups share subspaces on a process: the collective calls of
the variants with one outgroup communicator do not match (the first two groups wait for the third),
although the combination is well defined and computed by the other variants. Only a debug assertion
guards against it. -/
theorem C34_violated :
    ValidSystem unevenRefs [[1], [2], [3]] 3 unevenSystem ∧
      (combineVariant .chunkedOutgroupSparseGridReduce 5 [[1], [2], [3]] 3
        fun g => tasksOf unevenRefs (unevenSystem g)).isNone = true ∧
      (combineVariant .subspaceReduce 5 [[1], [2], [3]] 3
        fun g => tasksOf unevenRefs (unevenSystem g)).isSome = true := by
  refine ⟨.of_full ?_ (by decide) ?_ ?_, by decide +kernel, by decide +kernel⟩
  · intro r hr
    simp only [unevenRefs, List.mem_cons, List.not_mem_nil, or_false] at hr
    rcases hr with rfl
    exact ⟨by decide, ⟨rfl, by decide, by decide⟩, by decide⟩
  · intro g hg t ht
    unfold unevenSystem at ht
    split at ht
    · simp only [List.mem_cons, List.not_mem_nil, or_false] at ht
      rcases ht with rfl
      exact ⟨by decide, by simp [unevenRefs]⟩
    · simp only [List.mem_cons, List.not_mem_nil, or_false] at ht
      rcases ht with rfl
      exact ⟨by decide, by simp [unevenRefs]⟩
  · intro g hg t ht
    unfold unevenSystem at ht
    split at ht
    · simp only [List.mem_cons, List.not_mem_nil, or_false] at ht
      rcases ht with rfl
      decide +kernel
    · simp only [List.mem_cons, List.not_mem_nil, or_false] at ht
      rcases ht with rfl
      decide +kernel

end Verif

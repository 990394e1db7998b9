import Verif.Model.CombinedValues
import Verif.Lemmas.NestedBases
import Verif.Props.InterpolateValues
import Verif.Props.DistributedCombine

/-!
# Helper lemmas for the values of the combined solution
-/

namespace Verif

open Interpolation

section nested

variable {K : Type} [Field K] [LinearOrder K] [FloorRing K] [IsStrictOrderedRing K]

/-- A hat function is the interpolant of its values on every finer grid. -/
theorem hat_nested (L b l i : ℕ) (hb : b ≤ 2) (hl : l ≤ L) (hi : i < nodal l b) (x : K) (h0 : 0 ≤ x)
    (h1 : x ≤ 1) :
    ∑ j ∈ Finset.range (nodal L b), hat L b j x * hat l b i (((pos b j : ℕ) : K) / 2 ^ L) =
      hat l b i x := by
  obtain ⟨m, hm, s, hs0, hs1, hx⟩ := exists_cell L x h0 h1
  have hp : (2 : K) ^ L ≠ 0 := by positivity
  have hx' : x = ((m : K) + s) / 2 ^ L := by field_simp; exact hx
  rw [sum_hat_cell L b hb m hm s hs0 hs1 x hx fun p => hat l b i ((p : K) / 2 ^ L)]
  · conv_rhs => rw [hx']
    exact (hat_affine l L b i hl m s hs0 hs1).symm
  · intro hb0
    subst hb0
    push_cast
    rw [zero_div, div_self hp, hat_left, hat_right l 0 i hb hi (by omega)]
    simp [pos]
  · intro hb1
    subst hb1
    push_cast
    rw [zero_div, div_self hp, hat_left, hat_right l 1 i hb hi (by omega)]
    simp [pos]

omit [FloorRing K] [IsStrictOrderedRing K] in
theorem interp_lin (as : List (Axis K)) (n : ℕ) (c : ℕ → K) (F : ℕ → List ℕ → K) :
    interp as (fun js => ∑ i ∈ Finset.range n, c i * F i js) =
      ∑ i ∈ Finset.range n, c i * interp as (F i) := by
  induction as generalizing F with
  | nil => rfl
  | cons a as ih =>
    simp only [interp, smul_eq_mul]
    simp_rw [ih fun i is => F i (_ :: is), Finset.mul_sum]
    rw [Finset.sum_comm]
    refine Finset.sum_congr rfl fun i _ => Finset.sum_congr rfl fun j _ => ?_
    ring

/-- The interpolant of a grid is the interpolant of its values on every finer grid. -/
theorem interp_nested {axes axes' : List GridAxis}
    (h : List.Forall₂ (fun a a' => a.level ≤ a'.level ∧ a.boundary = a'.boundary ∧ a.boundary ≤ 2)
      axes axes') (xs : List K) (hx : xs.length = axes.length) (h01 : ∀ x ∈ xs, 0 ≤ x ∧ x ≤ 1)
    (f : List ℕ → K) :
    interp (Interpolation.axesAt axes' xs) (fun js =>
        interp (Interpolation.axesAt axes (gridPoint (K := K) axes' js)) f) =
      interp (Interpolation.axesAt axes xs) f := by
  induction h generalizing xs f with
  | nil => cases xs <;> rfl
  | @cons a a' axes axes' h1 h2 ih =>
    cases xs with
    | nil => simp at hx
    | cons x xs =>
      obtain ⟨hl, hb, hb2⟩ := h1
      have ih' := ih xs (by simpa using hx) fun y hy => h01 y (by simp [hy])
      obtain ⟨hx0, hx1⟩ := h01 x (by simp)
      simp only [Interpolation.axesAt, gridPoint, List.zipWith_cons_cons, interp, GridAxis.at,
        smul_eq_mul] at ih' ⊢
      simp_rw [interp_lin, Finset.mul_sum]
      rw [Finset.sum_comm]
      refine Finset.sum_congr rfl fun i hi => ?_
      simp_rw [ih', ← mul_assoc]
      rw [← Finset.sum_mul, ← hb, hat_nested a'.level a.boundary a.level i hb2 hl
        (Finset.mem_range.1 hi) x hx0 hx1]

end nested

/-! ### Grids of the tasks -/

/-- The dimensions of the component grid of level `L`. -/
def gridAxes (refs : List RefDim) (L : List ℕ) : List GridAxis :=
  (compGrid refs L).map fun d => ⟨d.level, d.boundary, d.dec⟩

theorem gridAxes_cons (r : RefDim) (refs : List RefDim) (l : ℕ) (L : List ℕ) :
    gridAxes (r :: refs) (l :: L) =
      ⟨l, r.boundary, downsampleDecomposition1d r.dec r.level l r.boundary⟩ :: gridAxes refs L := rfl

theorem length_gridAxes {refs : List RefDim} {L : List ℕ} (hL : L.length = refs.length) :
    (gridAxes refs L).length = refs.length := by
  simp [gridAxes, compGrid, hL]

/-- A finer grid. -/
theorem gridAxes_le {refs : List RefDim} (hr : ∀ r ∈ refs, r.boundary ≤ 2) {L M : List ℕ}
    (hL : L.length = refs.length) (h : List.Forall₂ (· ≤ ·) L M) :
    List.Forall₂ (fun a a' : GridAxis => a.level ≤ a'.level ∧ a.boundary = a'.boundary ∧ a.boundary ≤ 2)
      (gridAxes refs L) (gridAxes refs M) := by
  induction h generalizing refs with
  | nil => cases refs <;> exact .nil
  | @cons l m L M h1 h2 ih =>
    cases refs with
    | nil => simp at hL
    | cons r refs =>
      rw [gridAxes_cons, gridAxes_cons]
      exact .cons ⟨h1, rfl, hr r (by simp)⟩ (ih (fun r h => hr r (by simp [h])) (by simpa using hL))

section link

variable {K : Type} [Field K] [LinearOrder K] [IsStrictOrderedRing K]

/-- The interpolant at a point of the grid of level `M`. -/
theorem interpAt_gridPoint {refs : List RefDim} {L M : List ℕ} (hL : L.length = refs.length)
    (hM : List.Forall₂ (fun l (r : RefDim) => l ≤ r.level) M refs) {js : List ℕ}
    (hjs : InBox (wholeSizes refs M) js) (f : List ℕ → K) :
    interp (axesAt (K := K) refs L (placeOf refs M js)) f =
      interp (Interpolation.axesAt (gridAxes refs L) (gridPoint (K := K) (gridAxes refs M) js)) f := by
  induction hM generalizing L js f with
  | nil => cases L <;> cases hjs <;> rfl
  | @cons m r M refs h1 h2 ih =>
    cases L with
    | nil => simp at hL
    | cons l L =>
      unfold wholeSizes at hjs
      rw [List.zipWith_cons_cons] at hjs
      cases hjs with
      | @cons j _ js _ hj hjs =>
        have ih' := ih (L := L) (by simpa using hL) hjs
        unfold placeOf at ih' ⊢
        rw [List.zipWith_cons_cons, List.zipWith_cons_cons, axesAt, gridAxes_cons, gridAxes_cons]
        simp only [Interpolation.axesAt, gridPoint, List.zipWith_cons_cons, GridAxis.at, interp] at ih' ⊢
        simp_rw [ih']
        rw [C16_refIndex_same_point]
        have e : (2 : K) ^ r.level = 2 ^ m * 2 ^ (r.level - m) := by
          rw [← pow_add]; congr 1; omega
        have e2 : (((pos r.boundary j * 2 ^ (r.level - m) : ℕ) : K)) / 2 ^ r.level =
            ((pos r.boundary j : ℕ) : K) / 2 ^ m := by
          rw [e]
          push_cast
          have : (2 : K) ^ (r.level - m) ≠ 0 := by positivity
          field_simp
        rw [e2]

/-- The combination of the interpolants of the component grids of `n` groups. -/
def combinedAt (refs : List RefDim) (n : ℕ) (T : ℕ → List (K × List ℕ × (ℕ → K))) (xs : List K) : K :=
  ((List.range n).map fun g => ((T g).map fun t =>
    t.1 * interp (Interpolation.axesAt (gridAxes refs t.2.1) xs)
      fun is => t.2.2 (sequentialIndex (wholeSizes refs t.2.1) is)).sum).sum

/-- The combination is the interpolant of its values on every grid that is finer than all component grids. -/
theorem combinedAt_grid [FloorRing K] {refs : List RefDim} (hr : ∀ r ∈ refs, r.boundary ≤ 2) {n : ℕ}
    {T : ℕ → List (K × List ℕ × (ℕ → K))} {M : List ℕ} (hM : M.length = refs.length)
    (hT : ∀ g < n, ∀ t ∈ T g, List.Forall₂ (· ≤ ·) t.2.1 M) (xs : List K)
    (hx : xs.length = refs.length) (h01 : ∀ x ∈ xs, 0 ≤ x ∧ x ≤ 1) :
    combinedAt refs n T xs = interp (Interpolation.axesAt (gridAxes refs M) xs) fun js =>
      combinedAt refs n T (gridPoint (K := K) (gridAxes refs M) js) := by
  unfold combinedAt
  rw [interp_sum (Interpolation.axesAt (gridAxes refs M) xs) (List.range n) fun g js =>
    ((T g).map fun t => t.1 * interp (Interpolation.axesAt (gridAxes refs t.2.1)
      (gridPoint (K := K) (gridAxes refs M) js))
        fun is => t.2.2 (sequentialIndex (wholeSizes refs t.2.1) is)).sum]
  congr 1
  refine List.map_congr_left fun g hg => ?_
  rw [interp_sum (Interpolation.axesAt (gridAxes refs M) xs) (T g) fun t js =>
    t.1 * interp (Interpolation.axesAt (gridAxes refs t.2.1)
      (gridPoint (K := K) (gridAxes refs M) js))
        fun is => t.2.2 (sequentialIndex (wholeSizes refs t.2.1) is)]
  congr 1
  refine List.map_congr_left fun t ht => ?_
  have hle := hT g (List.mem_range.1 hg) t ht
  have hl : t.2.1.length = refs.length := by rw [hle.length_eq, hM]
  have := interp_lin (Interpolation.axesAt (gridAxes refs M) xs) 1 (fun _ => t.1) fun _ js =>
    interp (Interpolation.axesAt (gridAxes refs t.2.1)
      (gridPoint (K := K) (gridAxes refs M) js))
        fun is => t.2.2 (sequentialIndex (wholeSizes refs t.2.1) is)
  simp only [Finset.sum_range_one] at this
  rw [this, interp_nested (gridAxes_le hr hl hle) xs (by rw [length_gridAxes hl, hx]) h01]

theorem inGrid_gridAxes {refs : List RefDim} {M js : List ℕ} (hM : M.length = refs.length)
    (h : InGrid (gridAxes refs M) js) : InBox (wholeSizes refs M) js := by
  unfold InGrid at h
  induction refs generalizing M js with
  | nil =>
    cases M with
    | nil => cases h; exact .nil
    | cons m M => simp at hM
  | cons r refs ih =>
    cases M with
    | nil => simp at hM
    | cons m M =>
      rw [gridAxes_cons] at h
      cases h with
      | cons h1 h2 => exact .cons h1 (ih (by simpa using hM) h2)

/-- The values of all component grids after a complete combination. -/
def afterCombination (refs : List RefDim) (n : ℕ) (H D : List ℕ → (ℕ → K) → ℕ → K)
    (T : ℕ → List (K × List ℕ × (ℕ → K))) (g : ℕ) : List (K × List ℕ × (ℕ → K)) :=
  (T g).map fun t => (t.1, t.2.1, D t.2.1 fun q =>
    valueAtPlace (oneProcess refs) n (hierVals H T) (spatialOf (oneProcess refs) t.2.1 q))

variable {refs : List RefDim} {n : ℕ} {T : ℕ → List (K × List ℕ × (ℕ → K))}
  {levels : List (List ℕ)} {P : CombineParams} {H D : List ℕ → (ℕ → K) → ℕ → K}

omit [LinearOrder K] [IsStrictOrderedRing K] in
theorem afterCombination_levels (g : ℕ) : (afterCombination refs n H D T g).map (fun t => (t.1, t.2.1)) =
    (T g).map fun t => (t.1, t.2.1) := by
  unfold afterCombination
  rw [List.map_map]
  rfl

omit [LinearOrder K] [IsStrictOrderedRing K] in
/-- The combined surpluses after a combination are those before. -/
theorem valueAtPlace_after [CharZero K] (h : ValidSystem refs levels n T) (hP : ParamsOk refs P)
    (hc : Consistent n T)
    (hm : ∀ L, ValidComponent refs L →
      GridMaps (compDims (oneProcess refs) P L) (selectedDims P.sel) (H L) (D L)) (z : List ℕ) :
    valueAtPlace (oneProcess refs) n (hierVals H (afterCombination refs n H D T)) z =
      valueAtPlace (oneProcess refs) n (hierVals H T) z := by
  have hs := serial_oneProcess refs
  have hP1 := paramsOk_oneProcess hP
  have h1 := validSystem_oneProcess h
  have hmem : ∀ g, ∀ t1 ∈ hierVals H (afterCombination refs n H D T) g, ∃ t ∈ T g,
      t1 = (t.1, t.2.1, H t.2.1 (D t.2.1 fun q =>
        valueAtPlace (oneProcess refs) n (hierVals H T) (spatialOf (oneProcess refs) t.2.1 q))) := by
    intro g t1 ht1
    obtain ⟨t', ht', rfl⟩ := List.mem_map.1 ht1
    obtain ⟨t, ht, rfl⟩ := List.mem_map.1 ht'
    exact ⟨t, ht, rfl⟩
  have hv : Agrees (oneProcess refs) n (hierVals H (afterCombination refs n H D T))
      (valueAtPlace (oneProcess refs) n (hierVals H T)) := by
    intro g hg t1 ht1 p hp
    obtain ⟨t, ht, rfl⟩ := hmem g t1 ht1
    have hL := h1.comp g hg t ht
    have hnum : ((compDims (oneProcess refs) P t.2.1).map fun s => nodal s.lmax s.b).prod =
        numLocal (oneProcess refs) t.2.1 := by
      rw [compDims_sizes hs hP1 hL.le.length_eq]; rfl
    exact ((hm _ (validComponent_oneProcess.1 hL)).inv _ p (by rw [hnum]; exact hp)).2
  have hl : ∀ g < n, (hierVals H (afterCombination refs n H D T) g).map (fun t => (t.1, t.2.1)) =
      (T g).map fun t => (t.1, t.2.1) := by
    intro g _
    have e := afterCombination_levels (refs := refs) (n := n) (H := H) (D := D) (T := T) g
    rw [← e]
    change ((afterCombination refs n H D T g).map _).map _ = _
    rw [List.map_map]
    rfl
  by_cases hz : ∃ g < n, ∃ t ∈ T g, ∃ p < numLocal (oneProcess refs) t.2.1,
      spatialOf (oneProcess refs) t.2.1 p = z
  · obtain ⟨g, hg, t, ht, p, hp, rfl⟩ := hz
    have hL := h1.comp g hg t ht
    obtain ⟨l, hl1, hl2⟩ := exists_subspace_of_point h1.ref hL hp
    have ht1 : (t.1, t.2.1, H t.2.1 (D t.2.1 fun q =>
        valueAtPlace (oneProcess refs) n (hierVals H T) (spatialOf (oneProcess refs) t.2.1 q))) ∈
        hierVals H (afterCombination refs n H D T) g :=
      List.mem_map.2 ⟨_, List.mem_map.2 ⟨t, ht, rfl⟩, rfl⟩
    rw [valueAtPlace_agrees (retask_valid h1 hl) hv hg ht1 hl1 hl2,
      retask_consistent hc hl g hg _ ht1 l ((mem_downSet_iff _ _).1 hl1).2, one_mul]
  · push Not at hz
    have hzero : ∀ U : ℕ → List (K × List ℕ × (ℕ → K)), (∀ g < n, ∀ t1 ∈ U g, ∃ t ∈ T g, t1.2.1 = t.2.1) →
        valueAtPlace (oneProcess refs) n U z = 0 := by
      intro U hU
      unfold valueAtPlace
      refine List.sum_eq_zero fun a ha => ?_
      obtain ⟨g, hg, rfl⟩ := List.mem_map.1 ha
      refine List.sum_eq_zero fun a ha => ?_
      obtain ⟨t1, ht1, rfl⟩ := List.mem_map.1 ha
      obtain ⟨t, ht, e⟩ := hU g (List.mem_range.1 hg) t1 ht1
      rw [Finset.sum_eq_zero, mul_zero]
      intro q hq
      rw [Finset.mem_filter, Finset.mem_range, e] at hq
      exact absurd hq.2 (hz g (List.mem_range.1 hg) t ht q hq.1)
    rw [hzero _ fun g _ t1 ht1 => by
      obtain ⟨t, ht, rfl⟩ := hmem g t1 ht1
      exact ⟨t, ht, rfl⟩, hzero _ fun g _ t1 ht1 => by
      obtain ⟨t, ht, rfl⟩ := List.mem_map.1 ht1
      exact ⟨t, ht, rfl⟩]

/-- A complete combination does not change the combination of the interpolants. -/
theorem combinedAt_after [FloorRing K] (h : ValidSystem refs levels n T) (hP : ParamsOk refs P)
    (hnest : ∀ β ∈ P.bases, NestedBasis β) (hc : Consistent n T)
    (hm : ∀ L, ValidComponent refs L →
      GridMaps (compDims (oneProcess refs) P L) (selectedDims P.sel) (H L) (D L))
    {M : List ℕ} (hM : ValidComponent refs M)
    (hT : ∀ g < n, ∀ t ∈ T g, List.Forall₂ (· ≤ ·) t.2.1 M ∧
      List.Forall₂ (· ≤ ·) (effectiveLMin P.boundary P.lmin) t.2.1 ∧
      ∀ k < refs.length, P.sel.getD k false = false → M.getD k 0 ≤ t.2.1.getD k 0)
    (xs : List K) (hx : xs.length = refs.length) (h01 : ∀ x ∈ xs, 0 ≤ x ∧ x ≤ 1) :
    combinedAt refs n (afterCombination refs n H D T) xs = combinedAt refs n T xs := by
  have hmem : ∀ g, ∀ t1 ∈ afterCombination refs n H D T g, ∃ t ∈ T g, t1.2.1 = t.2.1 := by
    intro g t1 ht1
    obtain ⟨t, ht, rfl⟩ := List.mem_map.1 ht1
    exact ⟨t, ht, rfl⟩
  have hb := fun r hr => (h.ref r hr).boundary
  have hlM := hM.le.length_eq
  have hT' : ∀ g < n, ∀ t ∈ afterCombination refs n H D T g, List.Forall₂ (· ≤ ·) t.2.1 M ∧
      List.Forall₂ (· ≤ ·) (effectiveLMin P.boundary P.lmin) t.2.1 ∧
      ∀ k < refs.length, P.sel.getD k false = false → M.getD k 0 ≤ t.2.1.getD k 0 := by
    intro g hg t1 ht1
    obtain ⟨t, ht, e⟩ := hmem g t1 ht1
    rw [e]
    exact hT g hg t ht
  have hC' : ∀ g < n, ∀ t ∈ afterCombination refs n H D T g, ValidComponent refs t.2.1 := by
    intro g hg t1 ht1
    obtain ⟨t, ht, e⟩ := hmem g t1 ht1
    rw [e]
    exact h.comp g hg t ht
  rw [combinedAt_grid hb hlM (fun g hg t ht => (hT' g hg t ht).1) xs hx h01,
    combinedAt_grid hb hlM (fun g hg t ht => (hT g hg t ht).1) xs hx h01]
  refine interp_congr (gridAxes refs M) xs (by rw [length_gridAxes hlM, hx]) _ _ fun js hjs => ?_
  have hbox := inGrid_gridAxes hlM hjs
  have hq : sequentialIndex (wholeSizes refs M) js < numLocal (oneProcess refs) M := by
    unfold numLocal
    rw [sizes_oneProcess]
    exact sequentialIndex_lt _ _ hbox
  have hnum : ((compDims (oneProcess refs) P M).map fun s => nodal s.lmax s.b).prod =
      numLocal (oneProcess refs) M := by
    rw [compDims_sizes (serial_oneProcess refs) (paramsOk_oneProcess hP)
      (validComponent_oneProcess.2 hM).le.length_eq]; rfl
  have key : ∀ U : ℕ → List (K × List ℕ × (ℕ → K)), (∀ g < n, ∀ t ∈ U g, ValidComponent refs t.2.1) →
      ((List.range n).map fun m => ((U m).map fun t =>
        t.1 * interpAt refs t.2.1 t.2.2 (spatialOf (oneProcess refs) M
          (sequentialIndex (wholeSizes refs M) js))).sum).sum =
        combinedAt refs n U (gridPoint (K := K) (gridAxes refs M) js) := by
    intro U hU
    unfold combinedAt
    congr 1
    refine List.map_congr_left fun g hg => ?_
    congr 1
    refine List.map_congr_left fun t ht => ?_
    rw [spatial_oneProcess, getVectorIndex_sequentialIndex _ _ hbox]
    unfold interpAt
    rw [interpAt_gridPoint (hU g (List.mem_range.1 hg) t ht).le.length_eq hM.le hbox]
  rw [← key T h.comp, ← key _ hC',
    ← nested_interp h.ref hP hnest hm hM (fun g hg t ht => ⟨h.comp g hg t ht, hT g hg t ht⟩) hq,
    ← nested_interp h.ref hP hnest hm hM (fun g hg t ht => ⟨hC' g hg t ht, hT' g hg t ht⟩) hq]
  exact ((hm M hM).congr _ _ (by
    intro q _
    exact valueAtPlace_after h hP hc hm _) _ (by rw [hnum]; exact hq)).2

end link

/-! ### Interpolation on the processes -/

section processes

variable {K : Type} [Field K] {refs : List RefDim}

theorem gather_congr {β : Type} {f f' : ℕ → Outcome β} (is : List ℕ) (h : ∀ i ∈ is, f i = f' i) :
    gather f is = gather f' is := by
  induction is with
  | nil => rfl
  | cons i is ih =>
    rw [gather, gather, h i (by simp), ih fun j hj => h j (by simp [hj])]

/-- The component grid `t`, which the tasks `gt` of a group hold, for `interpolateValues`. -/
def combiOf (refs : List RefDim) (cart : ℕ → List ℕ) (t : K × List ℕ × (ℕ → K)) (gt : GroupTask K) :
    CombiGrid K K :=
  ⟨t.1, gridAxes refs t.2.1, fun is => t.2.2 (sequentialIndex (wholeSizes refs t.2.1) is),
    fun r => (List.range (gt.data (cart r)).len).map (gt.data (cart r)).val⟩

theorem evalOn_combiOf {t : K × List ℕ × (ℕ → K)} {gt : GroupTask K} (h : HoldsParts refs t gt)
    (cart : ℕ → List ℕ) (r : ℕ) :
    gt.evalOn (cart r) = (combiOf refs cart t gt).on (cart r) r := by
  obtain ⟨h1, h2, -⟩ := h
  unfold GroupTask.evalOn CombiGrid.on combiOf gridAxes
  rw [h1, h2, List.zipWith_map_left]
  rfl

theorem sizes_gridAxes {c L : List ℕ} :
    (dimsOf ((gridAxes refs L).map (·.at (0 : K))) c).map (fun p => p.1.size) = partOf refs c L ∧
      lowers ((gridAxes refs L).map (·.at (0 : K))) c = firstOf refs c L := by
  induction refs generalizing c L with
  | nil => exact ⟨rfl, rfl⟩
  | cons r refs ih =>
    cases L with
    | nil =>
      cases c with
      | nil => exact ⟨rfl, rfl⟩
      | cons a c => exact ⟨rfl, rfl⟩
    | cons l L =>
      cases c with
      | nil => exact ⟨rfl, rfl⟩
      | cons a c =>
        obtain ⟨e1, e2⟩ := ih (c := c) (L := L)
        rw [gridAxes_cons]
        constructor
        · rw [List.map_cons, dimsOf, List.map_cons, e1]
          rfl
        · rw [List.map_cons, lowers, e2]
          rfl

theorem combiOf_ok {t : K × List ℕ × (ℕ → K)} {gt : GroupTask K}
    (hL : ValidComponent refs t.2.1) (h : HoldsParts refs t gt) {p : ℕ} {cart : ℕ → List ℕ}
    (hg : ProcGrid p cart (refs.map fun r => r.dec.length)) :
    (combiOf refs cart t gt).Ok p cart (refs.map fun r => r.dec.length) := by
  have hl := hL.le.length_eq
  constructor
  · change (gridAxes refs t.2.1).map _ = _
    unfold gridAxes compGrid
    rw [List.map_map]
    apply List.ext_getElem
    · simp [hl]
    · intro k h1 h2
      simp only [List.length_map] at h2
      simp only [List.getElem_map, List.getElem_zipWith, Function.comp]
      rw [downsample_eq_map, List.length_map]
  · intro r hrp
    have hc : InGroup refs (cart r) := by
      have := (hg.mem (cart r)).1 (List.mem_map.2 ⟨r, List.mem_range.2 hrp, rfl⟩)
      rwa [List.forall₂_map_right_iff] at this
    obtain ⟨h1, h2⟩ := h.2.2 (cart r) hc
    obtain ⟨e1, e2⟩ := sizes_gridAxes (K := K) (refs := refs) (c := cart r) (L := t.2.1)
    unfold IsLocalData combiOf
    simp only
    rw [e1, e2]
    refine ⟨by rw [List.length_map, List.length_range, h1]; rfl, fun is his => ?_⟩
    have hlt := sequentialIndex_lt _ is his
    rw [List.getElem?_map, List.getElem?_range (by rw [h1]; exact hlt), Option.map_some, h2 _ hlt]
    unfold globalOf
    rw [getVectorIndex_sequentialIndex _ _ his]

/-- Coordinates in the domain, without the right end of periodic dimensions. -/
def InUnitCube [LinearOrder K] (refs : List RefDim) (xs : List K) : Prop :=
  List.Forall₂ (fun x (r : RefDim) => 0 ≤ x ∧ x ≤ 1 ∧ (r.boundary = 1 → x < 1)) xs refs

theorem axisOk_of [LinearOrder K] {r : RefDim} (hr : ValidRef r) {l : ℕ} (hl : l ≤ r.level)
    (hne : 0 < (localOf { r with c := 0 } l).size) {x : K}
    (hx : 0 ≤ x ∧ x ≤ 1 ∧ (r.boundary = 1 → x < 1)) :
    AxisOk (⟨l, r.boundary, downsampleDecomposition1d r.dec r.level l r.boundary, x⟩ : Axis K) := by
  have hv := validDec_downsample r.dec r.level l r.boundary hr.boundary hl hr.dec
  have hlen := hv.length_pos
  obtain ⟨lo, hi, h1, h2, h3, h4⟩ := bounds1d hv (c := 0) hlen
  simp only [localOf, h1, h2, Option.getD_some] at hne
  refine ⟨hr.boundary, hv, by unfold Axis.points; simp only; omega, ?_, hx.1, hx.2.1, hx.2.2⟩
  simp only
  generalize downsampleDecomposition1d r.dec r.level l r.boundary = dec at *
  intro c hc
  cases dec with
  | nil => simp at hlen
  | cons d dec =>
    cases dec with
    | nil => simp at hc
    | cons e dec =>
      have : hi = e := by
        have : upperBound1d (d :: e :: dec) (nodal l r.boundary) 0 = some e := by
          simp [upperBound1d, lowerBound1d]
        rw [this] at h2
        exact (Option.some.inj h2).symm
      have hs := hv.sorted
      rw [List.pairwise_cons, List.pairwise_cons] at hs
      rw [List.tail_cons, List.mem_cons] at hc
      rcases hc with rfl | hc
      · omega
      · have := hs.2.1 c hc
        omega

theorem combiOf_coordOk [LinearOrder K] {t : K × List ℕ × (ℕ → K)} {gt : GroupTask K}
    (hr : ∀ r ∈ refs, ValidRef r) (hL : ValidComponent refs t.2.1)
    (hne : ∀ c, InGroup refs c → ∀ d ∈ List.zipWith localOf (atProcess refs c) t.2.1, 0 < d.size)
    (cart : ℕ → List ℕ) {xs : List K} (hx : InUnitCube refs xs) :
    CoordOk (combiOf refs cart t gt) xs := by
  have hl := hL.le.length_eq
  refine ⟨by rw [hx.length_eq]; exact (length_gridAxes hl).symm, ?_⟩
  intro a ha
  obtain ⟨k, hk, rfl⟩ := List.mem_iff_getElem.1 ha
  have hk' := hk
  change k < (List.zipWith _ (gridAxes refs t.2.1) xs).length at hk'
  rw [List.length_zipWith, length_gridAxes hl] at hk'
  have hkr : k < refs.length := by omega
  have hkL : k < t.2.1.length := by omega
  have hkx : k < xs.length := by omega
  have hle := (List.forall₂_iff_get.1 hL.le).2 k hkL hkr
  have hxk := (List.forall₂_iff_get.1 hx).2 k hkx hkr
  simp only [List.get_eq_getElem] at hle hxk
  have h0 : InGroup refs (refs.map fun _ => 0) := by
    unfold InGroup
    rw [List.forall₂_map_left_iff]
    exact List.forall₂_same.2 fun r h => (hr r h).dec.length_pos
  have hn : 0 < (localOf { refs[k] with c := 0 } t.2.1[k]).size := by
    refine hne _ h0 _ (List.mem_iff_getElem.2 ⟨k, ?_, ?_⟩)
    · simp [atProcess]; omega
    · simp [atProcess]
  have := axisOk_of (hr _ (List.getElem_mem hkr)) hle hn hxk
  simpa [Interpolation.axesAt, combiOf, gridAxes, compGrid, GridAxis.at] using this

/-- The values which `interpolateValues` yields for the tasks of the groups. -/
theorem groupInterpolateValues_eq [LinearOrder K] [FloorRing K] [IsStrictOrderedRing K]
    (hr : ∀ r ∈ refs, ValidRef r) {n : ℕ} {T : ℕ → List (K × List ℕ × (ℕ → K))}
    (hcomp : ∀ g < n, ∀ t ∈ T g, ValidComponent refs t.2.1) (hne : NonEmptyParts refs n T)
    {S : ℕ → List (GroupTask K)} (hS : ∀ g < n, List.Forall₂ (HoldsParts refs) (T g) (S g))
    {p : ℕ} {cart : ℕ → List ℕ} (hg : ProcGrid p cart (refs.map fun r => r.dec.length))
    {coords : List (List K)} (hlen : coords.length < 2 ^ 31) (hx : ∀ xs ∈ coords, InUnitCube refs xs) :
    groupInterpolateValues n p cart S coords = .ok (coords.map (combinedAt refs n T)) := by
  have hz : ∀ g < n, ∀ r, (S g).map (fun t => t.evalOn (cart r)) =
      (List.zipWith (combiOf refs cart) (T g) (S g)).map fun t => t.on (cart r) r := by
    intro g hgn r
    have := hS g hgn
    generalize T g = ts at this
    generalize S g = ss at this
    induction this with
    | nil => rfl
    | cons h1 h2 ih =>
      rw [List.map_cons, List.zipWith_cons_cons, List.map_cons, ← ih, evalOn_combiOf h1]
  have hmem : ∀ g < n, ∀ t ∈ List.zipWith (combiOf refs cart) (T g) (S g), ∃ t1 ∈ T g, ∃ gt,
      HoldsParts refs t1 gt ∧ t = combiOf refs cart t1 gt := by
    intro g hgn t ht
    have h1 := List.forall₂_iff_get.1 (hS g hgn)
    obtain ⟨k, hk, rfl⟩ := List.mem_iff_getElem.1 ht
    have hk' := hk
    rw [List.length_zipWith] at hk'
    exact ⟨_, List.getElem_mem (show k < (T g).length by omega), _,
      h1.2 k (by omega) (by omega), by rw [List.getElem_zipWith]; rfl⟩
  have h1 := C74_interpolateValues_partial n p cart (refs.map fun r => r.dec.length) hg
    (fun g => List.zipWith (combiOf refs cart) (T g) (S g)) (by
      intro g hgn t ht
      obtain ⟨t1, ht1, gt, h2, rfl⟩ := hmem g hgn t ht
      exact combiOf_ok (hcomp g hgn t1 ht1) h2 hg) coords hlen (by
      intro g hgn t ht xs hxs
      obtain ⟨t1, ht1, gt, h2, rfl⟩ := hmem g hgn t ht
      exact combiOf_coordOk hr (hcomp g hgn t1 ht1) (hne g hgn t1 ht1) cart (hx xs hxs))
  have h2 : groupInterpolateValues n p cart S coords = interpolateValues n p (fun g r =>
      (List.zipWith (combiOf refs cart) (T g) (S g)).map fun t => t.on (cart r) r) coords := by
    unfold groupInterpolateValues interpolateValues
    split
    · rfl
    · congr 1
      refine gather_congr _ fun g hgn => ?_
      have : (fun r => localValues ((S g).map fun t => t.evalOn (cart r)) coords) = fun r =>
          localValues ((List.zipWith (combiOf refs cart) (T g) (S g)).map fun t => t.on (cart r) r)
            coords := by
        funext r
        rw [hz g (List.mem_range.1 hgn) r]
      rw [this]
  rw [h2, h1]
  congr 2
  funext xs
  unfold Interpolation.combined combinedAt
  congr 1
  refine List.map_congr_left fun g hgn => ?_
  congr 1
  beta_reduce
  have := hS g (List.mem_range.1 hgn)
  generalize T g = ts at this
  generalize S g = ss at this
  induction this with
  | nil => rfl
  | cons h1 h2 ih => rw [List.zipWith_cons_cons, List.map_cons, List.map_cons, ih]; rfl

end processes

end Verif

import Verif.Lemmas.CombinedValues

/-!
# C99: a combination does not change the combined solution

The combined solution at a point is the sum of the interpolants of all component grids, weighted with their
coefficients; `interpolateValues` yields it. A complete combination replaces the values of every component
grid.
-/

namespace Verif

open Interpolation

variable {K : Type}

/-- C99: with hat functions or the periodic biorthogonal basis in every dimension, consistent coefficients
and a minimum level no component grid is below, the values which `interpolateValues` yields are the same
before and after a complete combination, for all layouts of the groups and all variants. In dimensions that
are not hierarchized all component grids have the same level. -/
theorem C99_unchanged_partial [Field K] [LinearOrder K] [FloorRing K] [IsStrictOrderedRing K]
    (refs : List RefDim) (levels : List (List ℕ)) (n : ℕ) (hn : n ≤ 256)
    (T : ℕ → List (K × List ℕ × (ℕ → K))) (h : ValidSystem refs levels n T)
    (P : CombineParams) (hP : ParamsOk refs P) (hnest : ∀ β ∈ P.bases, NestedBasis β)
    (hne : NonEmptyParts refs n T)
    (htotal : ∀ c, InGroup refs c → (levels.map (subspaceCount (atProcess refs c))).sum < 2 ^ 31)
    (hc : Consistent n T) (variant : CombinationVariant) (maxChunk : ℕ)
    (hu : ∀ c, InGroup refs c → Usable (atProcess refs c) n T variant maxChunk)
    (hmin : ∀ g < n, ∀ t ∈ T g, List.Forall₂ (· ≤ ·) (effectiveLMin P.boundary P.lmin) t.2.1)
    (hsel : ∀ g < n, ∀ t ∈ T g, ∀ g' < n, ∀ t' ∈ T g', ∀ k < refs.length,
      P.sel.getD k false = false → t.2.1.getD k 0 = t'.2.1.getD k 0)
    (S : ℕ → List (GroupTask K)) (hS : ∀ g < n, List.Forall₂ (HoldsParts refs) (T g) (S g))
    (junk junk' : ℕ → ℕ → List ℕ → ℕ → ℕ → ℕ → K)
    (p : ℕ) (cart : ℕ → List ℕ) (hg : ProcGrid p cart (refs.map fun r => r.dec.length))
    (coords : List (List K)) (hlen : coords.length < 2 ^ 31) (hx : ∀ xs ∈ coords, InUnitCube refs xs) :
    ∃ R vals, distributedCombineAtOnce (refs.map fun r => r.dec.length) P variant maxChunk levels n
        junk junk' S = some R ∧
      groupInterpolateValues n p cart S coords = .ok vals ∧
      groupInterpolateValues n p cart R coords = .ok vals := by
  have h1 := validSystem_oneProcess h
  obtain ⟨H, D, hm⟩ := compMaps (K := K) h1.ref (serial_oneProcess refs) (paramsOk_oneProcess hP)
  have hm' := fun L (hL : ValidComponent refs L) => hm L (validComponent_oneProcess.2 hL)
  obtain ⟨R, a1, a2⟩ := distributed_formula hn h hP hne htotal hu hm' junk junk' hS
  have a2' : ∀ g < n, List.Forall₂ (HoldsParts refs) (afterCombination refs n H D T g) (R g) := a2
  have hmem : ∀ g, ∀ t1 ∈ afterCombination refs n H D T g, ∃ t ∈ T g, t1.2.1 = t.2.1 := by
    intro g t1 ht1
    obtain ⟨t, ht, rfl⟩ := List.mem_map.1 ht1
    exact ⟨t, ht, rfl⟩
  refine ⟨R, _, a1, groupInterpolateValues_eq h.ref h.comp hne hS hg hlen hx, ?_⟩
  rw [groupInterpolateValues_eq h.ref (fun g hg t1 ht1 => by
      obtain ⟨t, ht, e⟩ := hmem g t1 ht1
      rw [e]
      exact h.comp g hg t ht) (fun g hg t1 ht1 => by
      obtain ⟨t, ht, e⟩ := hmem g t1 ht1
      rw [e]
      exact hne g hg t ht) a2' hg hlen hx]
  congr 1
  refine List.map_congr_left fun xs hxs => ?_
  have hx' := hx xs hxs
  have h01 : ∀ x ∈ xs, 0 ≤ x ∧ x ≤ 1 := by
    intro x hxm
    obtain ⟨k, hk, rfl⟩ := List.mem_iff_getElem.1 hxm
    have := (List.forall₂_iff_get.1 hx').2 k hk (by rw [← hx'.length_eq]; exact hk)
    exact ⟨this.1, this.2.1⟩
  by_cases hex : ∃ g < n, ∃ t, t ∈ T g
  · obtain ⟨g0, hg0, t0, ht0⟩ := hex
    have hL0 := h.comp g0 hg0 t0 ht0
    have hl0 := hL0.le.length_eq
    refine combinedAt_after (M := (List.range refs.length).map fun k =>
      if P.sel.getD k false then (refs.map (·.level)).getD k 0 else t0.2.1.getD k 0)
      h hP hnest hc hm' ⟨?_, ?_⟩ ?_ xs hx'.length_eq h01
    · intro l hl
      obtain ⟨k, hk, rfl⟩ := List.mem_map.1 hl
      rw [List.mem_range] at hk
      have hk0 : k < t0.2.1.length := by omega
      have h2 := hL0.pos _ (List.getElem_mem hk0)
      have h3 := (List.forall₂_iff_get.1 hL0.le).2 k hk0 hk
      simp only [List.get_eq_getElem] at h3
      have e : (refs.map (·.level)).getD k 0 = refs[k].level := by
        rw [List.getD_eq_getElem _ _ (by simpa using hk), List.getElem_map]
      rw [List.getD_eq_getElem t0.2.1 _ hk0, e]
      split <;> omega
    · refine List.forall₂_iff_get.2 ⟨by simp, fun k hk1 hk => ?_⟩
      have hk0 : k < t0.2.1.length := by omega
      have h3 := (List.forall₂_iff_get.1 hL0.le).2 k hk0 hk
      simp only [List.get_eq_getElem, List.getElem_map, List.getElem_range] at h3 ⊢
      have e : (refs.map (·.level)).getD k 0 = refs[k].level := by
        rw [List.getD_eq_getElem _ _ (by simpa using hk), List.getElem_map]
      rw [List.getD_eq_getElem t0.2.1 _ hk0, e]
      split <;> omega
    · intro g hg t ht
      have hL := h.comp g hg t ht
      have hl := hL.le.length_eq
      refine ⟨?_, hmin g hg t ht, fun k hk hs => ?_⟩
      · refine List.forall₂_iff_get.2 ⟨by simp [hl], fun k hk1 hk => ?_⟩
        have hkr : k < refs.length := by omega
        have h3 := (List.forall₂_iff_get.1 hL.le).2 k hk1 hkr
        simp only [List.get_eq_getElem, List.getElem_map, List.getElem_range] at h3 ⊢
        split
        · rw [List.getD_eq_getElem _ _ (by simpa using hkr), List.getElem_map]
          exact h3
        · rename_i hs
          rw [← hsel g hg t ht g0 hg0 t0 ht0 k hkr (by simpa using hs), List.getD_eq_getElem _ _ hk1]
      · rw [List.getD_eq_getElem _ _ (by simpa using hk), List.getElem_map, List.getElem_range,
          if_neg (by simpa using hs)]
        exact (hsel g hg t ht g0 hg0 t0 ht0 k hk hs).ge
  · push Not at hex
    have e : ∀ U : ℕ → List (K × List ℕ × (ℕ → K)), (∀ g < n, U g = []) → combinedAt refs n U xs = 0 := by
      intro U hU
      unfold combinedAt
      refine List.sum_eq_zero fun a ha => ?_
      obtain ⟨g, hg, rfl⟩ := List.mem_map.1 ha
      rw [hU g (List.mem_range.1 hg), List.map_nil, List.sum_nil]
    rw [e T fun g hg => List.eq_nil_iff_forall_not_mem.2 (hex g hg),
      e _ fun g hg => List.eq_nil_iff_forall_not_mem.2 fun t1 ht1 => by
        obtain ⟨t, ht, -⟩ := hmem g t1 ht1
        exact hex g hg t ht]

/-! ### The hypotheses can be met -/

/-- The coordinates of two processes along the first dimension. -/
theorem procGrid_two : ProcGrid 2 (fun r => [r, 0]) [2, 1] := by
  refine ⟨by decide, fun c => ?_⟩
  constructor
  · intro hc
    simp only [List.mem_map, List.mem_range] at hc
    obtain ⟨r, hr, rfl⟩ := hc
    exact .cons hr (.cons (by omega) .nil)
  · intro hc
    cases hc with
    | cons h1 h2 =>
      cases h2 with
      | cons h3 h4 =>
        cases h4
        refine List.mem_map.2 ⟨_, List.mem_range.2 h1, ?_⟩
        rw [Nat.lt_one_iff.1 h3]

example (v : List ℕ → ℚ) : ValidSystem layoutRefs [[1, 1], [1, 2], [2, 1]] 2 (serialSystem v) ∧
    ParamsOk layoutRefs ⟨[2, 0], [true, true], [.hat, .hat], [1, 1]⟩ ∧
    ParamsOk [⟨3, 1, [0], 0⟩, ⟨2, 2, [0, 2], 0⟩]
      ⟨[1, 2], [true, true], [.biorthogonalPeriodic, .hat], [1, 1]⟩ ∧
    NonEmptyParts layoutRefs 2 (serialSystem v) ∧ Consistent 2 (serialSystem v) ∧
    (∀ g < 2, ∀ t ∈ serialSystem v g, List.Forall₂ (· ≤ ·) (effectiveLMin [2, 0] [1, 1]) t.2.1) ∧
    (∀ c, InGroup layoutRefs c →
      Usable (atProcess layoutRefs c) 2 (serialSystem v) .sparseGridReduce 5) ∧
    (∀ g < 2, List.Forall₂ (HoldsParts layoutRefs) (serialSystem v g) (layoutTasks v g)) ∧
    ProcGrid 2 (fun r => [r, 0]) (layoutRefs.map fun r => r.dec.length) ∧
    InUnitCube layoutRefs [(1 : ℚ) / 3, 3 / 8] := by
  refine ⟨layoutRefs_valid v, ⟨rfl, rfl, rfl, ?_⟩, ⟨rfl, rfl, rfl, ?_⟩, layoutRefs_nonEmpty v,
    serialSystem_consistent v, ?_, ?_, ?_, procGrid_two, ?_⟩
  · exact .cons (Or.inl ⟨rfl, by decide⟩) (.cons (Or.inl ⟨rfl, by decide⟩) .nil)
  · exact .cons (Or.inr (by decide)) (.cons (Or.inl ⟨rfl, by decide⟩) .nil)
  · intro g _ t ht
    have h : t.2.1 = [1, 1] ∨ t.2.1 = [1, 2] ∨ t.2.1 = [2, 1] := by simpa using (serialSystem_mem ht).1
    rcases h with h | h | h <;> rw [h] <;> decide +kernel
  · intro c hc
    exact ⟨by decide, by decide, Or.inl rfl⟩
  · intro g _
    unfold layoutTasks
    rw [List.forall₂_map_right_iff]
    exact List.forall₂_same.2 fun t _ => ⟨rfl, rfl, fun c _ => ⟨rfl, fun _ _ => rfl⟩⟩
  · exact .cons (by norm_num) (.cons (by norm_num) .nil)

/-! ### Without the conditions the values change -/

/-- Two dimensions of level 2 with five points each, on one process per group. -/
def squareRefs : List RefDim := [⟨2, 2, [0], 0⟩, ⟨2, 2, [0], 0⟩]

/-- The tasks which hold the grids of `T`. -/
def wholeTasks (T : ℕ → List (ℚ × List ℕ × (ℕ → ℚ))) (g : ℕ) : List (GroupTask ℚ) :=
  (T g).map fun t => ⟨t.1, compGrid squareRefs t.2.1, fun c =>
    ⟨numLocal (atProcess squareRefs c) t.2.1, fun q => t.2.2 (globalOf squareRefs c t.2.1 q)⟩⟩

/-- The grids of `serialSystem`; only the one of level `[2, 1]` has values different from zero. -/
def oneGridSystem (f : ℕ → ℚ) (g : ℕ) : List (ℚ × List ℕ × (ℕ → ℚ)) :=
  if g = 0 then [(1, [1, 2], fun _ => 0), (-1, [1, 1], fun _ => 0)] else [(1, [2, 1], f)]

/-- The values which `interpolateValues` yields before and after a complete combination. -/
def valuesBeforeAfter (P : CombineParams) (T : ℕ → List (ℚ × List ℕ × (ℕ → ℚ)))
    (coords : List (List ℚ)) : Option (Outcome (List ℚ) × Outcome (List ℚ)) :=
  (distributedCombineAtOnce [1, 1] P .sparseGridReduce 5 [[1, 1], [1, 2], [2, 1]] 2
    (fun _ _ _ _ _ _ => 0) (fun _ _ _ _ _ _ => 0) (wholeTasks T)).map fun R =>
      (groupInterpolateValues 2 1 (fun _ => [0, 0]) (wholeTasks T) coords,
        groupInterpolateValues 2 1 (fun _ => [0, 0]) R coords)

theorem oneGridSystem_ok (f : ℕ → ℚ) :
    ValidSystem squareRefs [[1, 1], [1, 2], [2, 1]] 2 (oneGridSystem f) ∧
    Consistent 2 (oneGridSystem f) ∧
    ∀ g < 2, List.Forall₂ (HoldsParts squareRefs) (oneGridSystem f g) (wholeTasks (oneGridSystem f) g) := by
  have hlev : ∀ g, ∀ t ∈ oneGridSystem f g, t.2.1 = [1, 1] ∨ t.2.1 = [1, 2] ∨ t.2.1 = [2, 1] := by
    intro g t ht
    unfold oneGridSystem at ht
    split at ht
    · simp only [List.mem_cons, List.not_mem_nil, or_false] at ht
      rcases ht with rfl | rfl <;> simp
    · simp only [List.mem_cons, List.not_mem_nil, or_false] at ht
      rcases ht with rfl
      simp
  refine ⟨.of_full ?_ (by decide) ?_ ?_, ?_, ?_⟩
  · intro r hr
    simp only [squareRefs, List.mem_cons, List.not_mem_nil, or_false] at hr
    rcases hr with rfl | rfl <;> exact ⟨by decide, ⟨rfl, by decide, by decide⟩, by decide⟩
  · intro g hg t ht
    rcases hlev g t ht with h | h | h <;> rw [h] <;> exact ⟨by decide, by simp [squareRefs]⟩
  · intro g hg t ht
    rcases hlev g t ht with h | h | h <;> rw [h] <;> decide +kernel
  · refine retask_consistent (serialSystem_consistent fun _ => 0) fun g _ => ?_
    unfold oneGridSystem serialSystem
    split <;> rfl
  · intro g _
    unfold wholeTasks
    rw [List.forall₂_map_right_iff]
    exact List.forall₂_same.2 fun t _ => ⟨rfl, rfl, fun c _ => ⟨rfl, fun _ _ => rfl⟩⟩

/-- C99 is violated if the component grids have different levels in a dimension that is not hierarchized:
the combined solution is 1 everywhere before, but not after the combination, since points of this
dimension are combined without interpolating the coarser grids. -/
theorem C99_not_hierarchized_violated :
    valuesBeforeAfter ⟨[2, 2], [true, false], [.hat, .hat], [1, 1]⟩ (oneGridSystem fun _ => 1)
      [[1 / 3, 1 / 4], [1 / 2, 1 / 2], [0, 3 / 8]] = some (.ok [1, 1, 1], .ok [0, 1, 1 / 2]) ∧
    valuesBeforeAfter ⟨[2, 2], [true, true], [.hat, .hat], [1, 1]⟩ (oneGridSystem fun _ => 1)
      [[1 / 3, 1 / 4], [1 / 2, 1 / 2], [0, 3 / 8]] = some (.ok [1, 1, 1], .ok [1, 1, 1]) := by
  decide +kernel

/-- C99 is violated if the minimum level is above the level of a component grid. -/
theorem C99_lmin_violated :
    valuesBeforeAfter ⟨[2, 2], [true, true], [.hat, .hat], [2, 2]⟩ (oneGridSystem fun _ => 1)
      [[1 / 3, 1 / 4], [1 / 2, 1 / 2], [0, 3 / 8]] = some (.ok [1, 1, 1], .ok [0, 1, 1 / 2]) := by
  decide +kernel

/-- C99 is violated with the full weighting basis: the value at the corner of the domain
grows. -/
theorem C99_fullWeighting_violated :
    valuesBeforeAfter ⟨[2, 2], [true, true], [.fullWeighting, .fullWeighting], [1, 1]⟩
      (oneGridSystem fun q => if q = 0 then 1 else 0)
      [[1 / 3, 1 / 4], [1 / 2, 1 / 2], [0, 0]] = some (.ok [0, 0, 1], .ok [0, 0, 5 / 4]) ∧
    valuesBeforeAfter ⟨[2, 2], [true, true], [.hat, .hat], [1, 1]⟩
      (oneGridSystem fun q => if q = 0 then 1 else 0)
      [[1 / 3, 1 / 4], [1 / 2, 1 / 2], [0, 0]] = some (.ok [0, 0, 1], .ok [0, 0, 1]) := by
  decide +kernel

/-- C99 is violated with the biorthogonal basis in dimensions that are not periodic, which the code treats as
full weighting. -/
theorem C99_biorthogonal_violated :
    valuesBeforeAfter ⟨[2, 2], [true, true], [.biorthogonal, .biorthogonal], [1, 1]⟩
      (oneGridSystem fun q => if q = 0 then 1 else 0) [[0, 0]] = some (.ok [1], .ok [5 / 4]) := by
  decide +kernel

end Verif

import Verif.Lemmas.CombinedMass
import Verif.Props.CombinedValues
import Verif.Props.SystemAtOnce

/-!
# C111: combinations conserve mass

The bases full weighting and biorthogonal are chosen so that a combination conserves mass, the integral of the
solution. The mass of a component grid is the integral of its piecewise linear interpolant (`mass`, in
`Lemmas/CombinedMass`); the combined mass is the sum of the masses of all component grids, weighted with their
coefficients.
-/

namespace Verif

variable {K : Type}

/-- C111: if the bases of all hierarchized dimensions conserve mass, every component grid has the combined
mass after a complete combination, for all layouts of the groups, coefficients, values and variants; with
coefficients whose sum is one the combined mass is the same as before. No component grid is below the
minimum level, and in dimensions that are not hierarchized all component grids have the same level. -/
theorem C111_mass_partial [Field K] [CharZero K]
    (refs : List RefDim) (levels : List (List ℕ)) (n : ℕ) (hn : n ≤ 256)
    (T : ℕ → List (K × List ℕ × (ℕ → K))) (h : ValidSystem refs levels n T)
    (P : CombineParams) (hP : ParamsOk refs P)
    (hmc : ∀ k, P.sel.getD k false = true → ∀ β, P.bases[k]? = some β → β.massConserving = true)
    (hne : NonEmptyParts refs n T)
    (htotal : ∀ c, InGroup refs c → (levels.map (subspaceCount (atProcess refs c))).sum < 2 ^ 31)
    (variant : CombinationVariant) (maxChunk : ℕ)
    (hu : ∀ c, InGroup refs c → Usable (atProcess refs c) n T variant maxChunk)
    (hmin : ∀ g < n, ∀ t ∈ T g, List.Forall₂ (· ≤ ·) (effectiveLMin P.boundary P.lmin) t.2.1)
    (hsel : ∀ g < n, ∀ t ∈ T g, ∀ g' < n, ∀ t' ∈ T g', ∀ k < refs.length,
      P.sel.getD k false = false → t.2.1.getD k 0 = t'.2.1.getD k 0)
    (S : ℕ → List (GroupTask K)) (hS : ∀ g < n, List.Forall₂ (HoldsParts refs) (T g) (S g))
    (junk junk' : ℕ → ℕ → List ℕ → ℕ → ℕ → ℕ → K) :
    ∃ R, ∃ T' : ℕ → List (K × List ℕ × (ℕ → K)), distributedCombineAtOnce (refs.map fun r => r.dec.length) P variant maxChunk levels n
        junk junk' S = some R ∧
      (∀ g < n, List.Forall₂ (HoldsParts refs) (T' g) (R g)) ∧
      (∀ g < n, (T' g).map (fun t => (t.1, t.2.1)) = (T g).map fun t => (t.1, t.2.1)) ∧
      (∀ g < n, ∀ t ∈ T' g, massOf refs t = combinedMass refs n T) ∧
      ((((List.range n).flatMap T).map fun t => t.1).sum = 1 →
        combinedMass refs n T' = combinedMass refs n T) := by
  have h1 := validSystem_oneProcess h
  obtain ⟨H, D, hm⟩ := compMaps (K := K) h1.ref (serial_oneProcess refs) (paramsOk_oneProcess hP)
  have hm' := fun L (hL : ValidComponent refs L) => hm L (validComponent_oneProcess.2 hL)
  obtain ⟨R, a1, a2⟩ := distributed_formula hn h hP hne htotal hu hm' junk junk' hS
  have hmass : ∀ g < n, ∀ t ∈ afterCombination refs n H D T g, massOf refs t = combinedMass refs n T :=
    fun g hg t ht => mass_after h.ref hP hmc h.comp hm' hmin hsel hg ht
  refine ⟨R, afterCombination refs n H D T, a1, a2, fun g _ => afterCombination_levels g, hmass, fun hc => ?_⟩
  have e : combinedMass refs n (afterCombination refs n H D T) =
      (((List.range n).flatMap T).map fun t => t.1).sum * combinedMass refs n T := by
    conv_lhs => unfold combinedMass
    rw [sum_flatMap_map, ← List.sum_map_mul_right]
    congr 1
    refine List.map_congr_left fun g hg => ?_
    rw [List.mem_range] at hg
    rw [← List.sum_map_mul_right]
    conv_lhs => unfold afterCombination
    rw [List.map_map]
    congr 1
    refine List.map_congr_left fun t ht => ?_
    have := hmass g hg _ (List.mem_map.2 ⟨t, ht, rfl⟩)
    simp only [Function.comp]
    rw [this]
  rw [e, hc, one_mul]

/-- C111 for several systems: every component grid of every system has the mass combined over all systems
after a complete combination of the systems. `ExchangeUsable` excludes the variants and exchanges in which C85,
C86 or C87 fail. -/
theorem C111_systems_partial [Field K] [CharZero K] (refs : List RefDim)
    (levels : List (List ℕ)) (k : ℕ) (hk : 0 < k) (n o : ℕ → ℕ) (T : ℕ → ℕ → List (K × List ℕ × (ℕ → K)))
    (h : ValidSystems refs levels k n T) (P : CombineParams) (hP : ParamsOk refs P)
    (hmc : ∀ i, P.sel.getD i false = true → ∀ β, P.bases[i]? = some β → β.massConserving = true)
    (hne : ∀ s < k, NonEmptyParts refs (n s) (T s))
    (variant : CombinationVariant) (exchange : SystemExchange) (maxChunk : ℕ)
    (hu : ∀ c, InGroup refs c →
      ExchangeUsable (atProcess refs c) levels k n o T variant exchange maxChunk)
    (hmin : ∀ s < k, ∀ g < n s, ∀ t ∈ T s g,
      List.Forall₂ (· ≤ ·) (effectiveLMin P.boundary P.lmin) t.2.1)
    (hsel : ∀ s < k, ∀ g < n s, ∀ t ∈ T s g, ∀ s' < k, ∀ g' < n s', ∀ t' ∈ T s' g', ∀ i < refs.length,
      P.sel.getD i false = false → t.2.1.getD i 0 = t'.2.1.getD i 0)
    (S : ℕ → ℕ → List (GroupTask K))
    (hS : ∀ s < k, ∀ g < n s, List.Forall₂ (HoldsParts refs) (T s g) (S s g))
    (junk junk' : ℕ → ℕ → ℕ → List ℕ → ℕ → ℕ → ℕ → K) :
    ∃ R, ∃ T' : ℕ → ℕ → List (K × List ℕ × (ℕ → K)), systemsCombineAtOnce (refs.map fun r => r.dec.length) P variant exchange maxChunk levels k
        junk junk' (fun s => ⟨n s, o s, S s⟩) = some R ∧
      (∀ s < k, ∀ g < n s, List.Forall₂ (HoldsParts refs) (T' s g) (R s g)) ∧
      (∀ s < k, ∀ g < n s, (T' s g).map (fun t => (t.1, t.2.1)) = (T s g).map fun t => (t.1, t.2.1)) ∧
      ∀ s < k, ∀ g < n s, ∀ t ∈ T' s g,
        massOf refs t = ((List.range k).map fun s' => combinedMass refs (n s') (T s')).sum := by
  obtain ⟨H, D, hm⟩ := compMaps (K := K) (validSystem_oneProcess (h.each 0 hk)).ref
    (serial_oneProcess refs) (paramsOk_oneProcess hP)
  have hm' := fun L (hL : ValidComponent refs L) => hm L (validComponent_oneProcess.2 hL)
  obtain ⟨R, a1, a2⟩ := systems_formula h hP hne hu hm' junk junk' hS
  have hperm : ((List.range 1).flatMap fun _ => allTasks k n T).Perm (allTasks k n T) := by
    simp
  have hall : ∀ t, t ∈ allTasks k n T → ∃ s < k, ∃ g < n s, t ∈ T s g := fun t => mem_allTasks.1
  have e : ∀ z, valueAtPlace (oneProcess refs) 1 (hierVals H fun _ => allTasks k n T) z =
      valueOfSystems (oneProcess refs) k n (fun s => hierVals H (T s)) z := by
    intro z
    apply valueOfSystems_perm
    rw [hierVals_flat, hierVals_all]
    exact hperm.map _
  have ec : combinedMass refs 1 (fun _ => allTasks k n T) =
      ((List.range k).map fun s' => combinedMass refs (n s') (T s')).sum := by
    unfold combinedMass allTasks
    simp only [List.range_one, List.map_cons, List.map_nil, List.sum_cons, List.sum_nil, add_zero]
    rw [sum_flatMap_map]
    congr 1
    refine List.map_congr_left fun s _ => ?_
    rw [sum_flatMap_map]
  refine ⟨R, fun s g => (T s g).map fun t => (t.1, t.2.1, D t.2.1 fun q =>
    valueOfSystems (oneProcess refs) k n (fun s => hierVals H (T s))
      (spatialOf (oneProcess refs) t.2.1 q)), a1, a2, ?_, ?_⟩
  · intro s _ g _
    rw [List.map_map]
    rfl
  · intro s hs g hg t1 ht1
    obtain ⟨t, ht, rfl⟩ := List.mem_map.1 ht1
    rw [← ec]
    refine mass_after (g := 0) (T := fun _ => allTasks k n T) (H := H) (D := D) (h.each 0 hk).ref hP hmc ?_
      hm' ?_ ?_ Nat.one_pos ?_
    · intro _ _ t ht
      obtain ⟨s, hs, g, hg, ht⟩ := hall t ht
      exact (h.each s hs).comp g hg t ht
    · intro _ _ t ht
      obtain ⟨s, hs, g, hg, ht⟩ := hall t ht
      exact hmin s hs g hg t ht
    · intro _ _ t ht _ _ t' ht'
      obtain ⟨s, hs, g, hg, ht⟩ := hall t ht
      obtain ⟨s', hs', g', hg', ht'⟩ := hall t' ht'
      exact hsel s hs g hg t ht s' hs' g' hg' t' ht'
    · unfold afterCombination
      simp only [e]
      exact List.mem_map.2 ⟨t, mem_allTasks.2 ⟨s, hs, g, hg, ht⟩, rfl⟩

/-! ### Without the conditions masses differ -/

/-- The masses of the component grids after a complete combination of two groups with one process each, and
the combined mass before. -/
def massesAfter (P : CombineParams) (T : ℕ → List (ℚ × List ℕ × (ℕ → ℚ))) : Option (List ℚ × ℚ) :=
  (distributedCombineAtOnce [1, 1] P .sparseGridReduce 5 [[1, 1], [1, 2], [2, 1]] 2
    (fun _ _ _ _ _ _ => 0) (fun _ _ _ _ _ _ => 0) (wholeTasks T)).map fun R =>
      ((List.range 2).flatMap fun g => (R g).map fun t =>
        mass squareRefs (t.dims.map (·.level)) fun x =>
          (t.data [0, 0]).val (sequentialIndex (wholeSizes squareRefs (t.dims.map (·.level))) x),
        combinedMass squareRefs 2 T)

/-- The mass is not combined with hat functions: only one of the component grids keeps the mass of a peak, all
the others have none, while with bases that conserve mass all have the combined mass. -/
theorem C111_hat_violated :
    massesAfter ⟨[2, 2], [true, true], [.hat, .hat], [1, 1]⟩
      (oneGridSystem fun q => if q = 6 then 1 else 0) = some ([0, 0, 1 / 8], 1 / 8) ∧
    massesAfter ⟨[2, 2], [true, true], [.fullWeighting, .biorthogonal], [1, 1]⟩
      (oneGridSystem fun q => if q = 6 then 1 else 0) = some ([1 / 8, 1 / 8, 1 / 8], 1 / 8) := by
  decide +kernel

/-- Masses differ if the minimum level is above the level of a component grid. -/
theorem C111_lmin_violated :
    massesAfter ⟨[2, 2], [true, true], [.fullWeighting, .fullWeighting], [2, 2]⟩
      (oneGridSystem fun q => if q = 6 then 1 else 0) = some ([0, 0, 1 / 8], 1 / 8) := by
  decide +kernel

/-- Masses differ if the component grids have different levels in a dimension that is not hierarchized. -/
theorem C111_not_hierarchized_violated :
    massesAfter ⟨[2, 2], [false, true], [.fullWeighting, .fullWeighting], [1, 1]⟩
      (oneGridSystem fun q => if q = 6 then 1 else 0) = some ([0, 0, 1 / 8], 1 / 8) := by
  decide +kernel

/-! ### The hypotheses can be met -/

/-- Two processes along a periodic dimension, and a dimension with two boundary points. -/
def ringRefs : List RefDim := [⟨2, 1, [0, 2], 0⟩, ⟨2, 2, [0], 0⟩]

theorem ringRefs_group {c : List ℕ} (h : InGroup ringRefs c) : c = [0, 0] ∨ c = [1, 0] := by
  unfold InGroup ringRefs at h
  cases h with
  | cons h1 h2 =>
    cases h2 with
    | cons h3 h4 =>
      cases h4
      simp only [List.length_cons, List.length_nil] at h1 h3
      rename_i a b
      interval_cases a <;> interval_cases b <;> simp

theorem ringRefs_ref : ∀ r ∈ ringRefs, ValidRef r := by
  intro r hr
  simp only [ringRefs, List.mem_cons, List.not_mem_nil, or_false] at hr
  rcases hr with rfl | rfl <;> exact ⟨by decide, ⟨rfl, by decide, by decide⟩, by decide⟩

/-- The grids of one system spread over the processes. -/
def ringTasks (v : List ℕ → ℚ) (g : ℕ) : List (GroupTask ℚ) :=
  (serialSystem v g).map fun t => ⟨t.1, compGrid ringRefs t.2.1, fun c =>
    ⟨numLocal (atProcess ringRefs c) t.2.1, fun q => t.2.2 (globalOf ringRefs c t.2.1 q)⟩⟩

/-- The parameters: one periodic dimension with the biorthogonal basis, and full weighting. -/
def ringParams : CombineParams := ⟨[1, 2], [true, true], [.biorthogonalPeriodic, .fullWeighting], [1, 0]⟩

theorem ring_ok (v : List ℕ → ℚ) : ValidSystem ringRefs [[1, 1], [1, 2], [2, 1]] 2 (serialSystem v) ∧
    ParamsOk ringRefs ringParams ∧
    (∀ k, ringParams.sel.getD k false = true → ∀ β, ringParams.bases[k]? = some β →
      β.massConserving = true) ∧
    NonEmptyParts ringRefs 2 (serialSystem v) ∧
    (∀ g < 2, ∀ t ∈ serialSystem v g,
      List.Forall₂ (· ≤ ·) (effectiveLMin ringParams.boundary ringParams.lmin) t.2.1) ∧
    ∀ k < ringRefs.length, ringParams.sel.getD k false ≠ false := by
  have hlev : ∀ g, ∀ t ∈ serialSystem v g, t.2.1 = [1, 1] ∨ t.2.1 = [1, 2] ∨ t.2.1 = [2, 1] := by
    intro g t ht
    simpa using (serialSystem_mem ht).1
  refine ⟨.of_full ringRefs_ref (by decide) ?_ ?_, ⟨rfl, rfl, rfl, ?_⟩, ?_, ?_, ?_, by decide⟩
  · intro g hg t ht
    rcases hlev g t ht with h | h | h <;> rw [h] <;> exact ⟨by decide, by simp [ringRefs]⟩
  · intro g hg t ht
    rcases hlev g t ht with h | h | h <;> rw [h] <;> decide +kernel
  · exact .cons (Or.inr (by decide)) (.cons (Or.inr (by decide)) .nil)
  · intro k _ β hβ
    have h1 : β ∈ ringParams.bases := List.mem_of_getElem? hβ
    simp only [ringParams, List.mem_cons, List.not_mem_nil, or_false] at h1
    rcases h1 with rfl | rfl <;> rfl
  · intro g hg t ht c hc
    rcases ringRefs_group hc with rfl | rfl <;> rcases hlev g t ht with h | h | h <;> rw [h] <;>
      decide +kernel
  · intro g _ t ht
    rcases hlev g t ht with h | h | h <;> rw [h] <;> decide +kernel

/-- The hypotheses of `C111_mass_partial` hold for these grids. -/
example (v : List ℕ → ℚ) : ValidSystem ringRefs [[1, 1], [1, 2], [2, 1]] 2 (serialSystem v) ∧
    ParamsOk ringRefs ringParams ∧
    NonEmptyParts ringRefs 2 (serialSystem v) ∧
    (∀ c, InGroup ringRefs c →
      ([[1, 1], [1, 2], [2, 1]].map (subspaceCount (atProcess ringRefs c))).sum < 2 ^ 31) ∧
    (∀ c, InGroup ringRefs c → Usable (atProcess ringRefs c) 2 (serialSystem v) .sparseGridReduce 5) ∧
    (∀ g < 2, List.Forall₂ (HoldsParts ringRefs) (serialSystem v g) (ringTasks v g)) ∧
    (((List.range 2).flatMap (serialSystem v)).map fun t => t.1).sum = 1 := by
  refine ⟨(ring_ok v).1, (ring_ok v).2.1, (ring_ok v).2.2.2.1, ?_, ?_, ?_, ?_⟩
  · intro c hc
    rcases ringRefs_group hc with rfl | rfl <;> decide +kernel
  · intro c hc
    exact ⟨by decide, by decide, Or.inl rfl⟩
  · intro g _
    unfold ringTasks
    rw [List.forall₂_map_right_iff]
    exact List.forall₂_same.2 fun t _ => ⟨rfl, rfl, fun c _ => ⟨rfl, fun _ _ => rfl⟩⟩
  · simp [List.range_succ, serialSystem]

/-- The hypotheses of `C111_systems_partial` hold for two systems with these grids. -/
example (v : List ℕ → ℚ) :
    ValidSystems ringRefs [[1, 1], [1, 2], [2, 1]] 2 (fun _ => 1) (twoSystems v) ∧
    (∀ s < 2, NonEmptyParts ringRefs 1 (twoSystems v s)) ∧
    (∀ c, InGroup ringRefs c → ExchangeUsable (atProcess ringRefs c) [[1, 1], [1, 2], [2, 1]] 2
      (fun _ => 1) (fun _ => 0) (twoSystems v) .sparseGridReduce (.files fun s => [1 - s]) 5) ∧
    (∀ s < 2, ∀ g < 1, List.Forall₂ (HoldsParts ringRefs) (twoSystems v s g) (ringTasks v s)) ∧
    ∀ s < 2, ∀ g < 1, ∀ t ∈ twoSystems v s g,
      List.Forall₂ (· ≤ ·) (effectiveLMin ringParams.boundary ringParams.lmin) t.2.1 := by
  have hf : ∀ s < 2, FullLevels [[1, 1], [1, 2], [2, 1]] 1 (twoSystems v s) := by
    intro s _ g _ t ht
    rcases twoSystems_level ht with h | h | h <;> rw [h] <;> decide +kernel
  obtain ⟨h1, h2⟩ := twoSystems_conj v
  refine ⟨.of_full (fun s hs => .of_full ringRefs_ref (by decide) ?_ (hf s hs)) hf, ?_, fun c hc => ?_, ?_,
    fun s hs g _ t ht => (ring_ok v).2.2.2.2.1 s hs t ht⟩
  · intro g _ t ht
    rcases twoSystems_level ht with h | h | h <;> rw [h] <;> exact ⟨by decide, by simp [ringRefs]⟩
  · intro s hs g _ t ht
    exact (ring_ok v).2.2.2.1 s hs t ht
  · refine ⟨by decide, ⟨[1, 1], ?_, 0, by decide, 1, by decide, by decide, h1, h2⟩, by decide, by decide,
      ?_, ?_, ⟨Or.inl rfl, by decide +kernel, Or.inl rfl⟩⟩
    · rcases ringRefs_group hc with rfl | rfl <;> decide +kernel
    · rcases ringRefs_group hc with rfl | rfl <;> decide +kernel
    · rcases ringRefs_group hc with rfl | rfl <;> decide +kernel
  · intro s _ g _
    unfold ringTasks twoSystems
    rw [List.forall₂_map_right_iff]
    exact List.forall₂_same.2 fun t _ => ⟨rfl, rfl, fun c _ => ⟨rfl, fun _ _ => rfl⟩⟩

end Verif

import Verif.Lemmas.ReduceLmax
import Verif.Props.DistributedHistory
import Verif.Props.SystemOutgroup
import Verif.Props.Plot

/-!
# C97: leaving the highest subspaces out of the sparse grid does not change the combination

With `reduceCombinationDimsLmax = (1, ..., 1)` the sparse grid lacks the highest subspaces of the component
grids. The claim is that these subspaces need not be combined, because each is part of one grid only.
-/

namespace Verif

variable {K : Type}

/-- Reducing by one level in all dimensions is harmless. -/
theorem harmless_ones {lmin lmax : List ℕ} (hne : lmax ≠ []) :
    Harmless lmin lmax (List.replicate lmax.length 1) := by
  refine ⟨by simp, fun r hr => by rw [List.eq_of_mem_replicate hr], Or.inr ?_⟩
  obtain ⟨i, hi, hmin⟩ := Finset.exists_min_image (Finset.range lmax.length)
    (fun i => lmax.getD i 0 - lmin.getD i 0)
    ⟨0, Finset.mem_range.2 (List.length_pos_iff.2 hne)⟩
  have hi := Finset.mem_range.1 hi
  refine ⟨i, hi, ?_, fun j hj => hmin j (Finset.mem_range.2 hj)⟩
  rw [List.getD_eq_getElem _ _ (by simpa using hi), List.getElem_replicate]

/-- Everything about the grids of a classical scheme that is needed here. -/
theorem classical_top (lmin lmax : List ℕ) (hne : lmax ≠ []) (hpos : ∀ x ∈ lmin, 1 ≤ x)
    (hlt : List.Forall₂ (· < ·) lmin lmax) (fuel : ℕ) (s : Scheme)
    (hs : createClassicalCombischeme fuel lmin lmax = some s) :
    ∃ m : ℕ, IsMinDiff lmax (toInt lmin) m ∧ 0 < m ∧ (∀ b ∈ lmax, m < b) ∧
      s.combiSpaces.length = s.coefficients.length ∧ s.combiSpaces.Nodup ∧
      (∀ g ∈ s.combiSpaces, VecLe (lmax.map (· - m)) g ∧ g.sum ≤ (lmax.map (· - m)).sum + m) ∧
      ∀ gc ∈ s.combiSpaces.zip s.coefficients, gc.1.sum = (lmax.map (· - m)).sum + m → gc.2 = 1 := by
  have hvalid : ValidMinMax lmin lmax := ⟨hne, hpos, hlt.imp fun _ _ h => le_of_lt h⟩
  have hlen := hlt.length_eq
  have hF : freeOf lmax lmin lmax = lmax := freeOf_of_lt lmin lmax lmax hlt rfl
  have hG : freeOf lmax lmin lmin = lmin := freeOf_of_lt lmin lmax lmin hlt hlen
  obtain ⟨m, hmd, hd, hn, hsp, hco, hlm, hlev, hTlen, hTnd, hTall, hTF, hGr⟩ :=
    classical_result lmin lmax hvalid (insertOk_of_lt lmin lmax hlt) (by rw [hF]; exact hne)
      fuel s hs
  rw [hF, hG] at *
  have hnemm : lmin ≠ lmax := by
    rintro rfl
    cases hlt with
    | nil => exact hne rfl
    | cons h _ => omega
  have h63 := C63_one_coefficient_per_grid_partial lmin lmax hvalid (insertOk_of_lt lmin lmax hlt) hnemm
    fuel s hs
  have hg := C03_classical_grids lmin lmax hne hpos hlt m hmd fuel s hs
  have hget := (List.forall₂_iff_get.1 hlt).2
  refine ⟨m, hmd, ?_, ?_, h63.1, h63.2, fun g hgm => ?_, ?_⟩
  · obtain ⟨-, i, hi, hi', e⟩ := hmd
    simp only [toInt, List.length_map, List.getElem_map] at hi' e
    have := hget i hi' hi
    simp only [List.get_eq_getElem] at this
    omega
  · intro b hb
    obtain ⟨i, hi, rfl⟩ := List.mem_iff_getElem.1 hb
    have hi' : i < lmin.length := by omega
    have h1 := hmd.1 i hi (by simpa [toInt] using hi')
    simp only [toInt, List.getElem_map] at h1
    have := hpos _ (List.getElem_mem hi')
    omega
  · obtain ⟨h1, p, -, h2⟩ := (hg g).1 hgm
    exact ⟨h1, by omega⟩
  · intro gc hgc hsum
    rw [hsp, hco, List.zip_map', List.mem_map] at hgc
    obtain ⟨t, ht, rfl⟩ := hgc
    have htl : t.length = lmax.length := by
      rw [classicalSpaces_eq_filter, List.mem_filter] at ht
      exact hTlen t ht.1
    simp only [mergeDims_of_lt lmin lmax t hlt htl] at hsum ⊢
    unfold classicalCoeff levelSum
    rw [hsum]
    simp

/-- C97: in a classical scheme, a subspace of a component grid is in the sparse grid with reduced maximum
level, or it belongs to that grid only, and the coefficient of the grid is one. -/
theorem C97_missing_alone (lmin lmax : List ℕ) (hne : lmax ≠ []) (hpos : ∀ x ∈ lmin, 1 ≤ x)
    (hlt : List.Forall₂ (· < ·) lmin lmax) (fuel : ℕ) (s : Scheme)
    (hs : createClassicalCombischeme fuel lmin lmax = some s) (reduce : List ℕ)
    (hh : Harmless lmin lmax reduce) (levels : List (List ℕ))
    (hl : combinedLevels lmin lmax reduce = some levels) (g : List ℕ) (c : ℤ)
    (hg : (g, c) ∈ s.combiSpaces.zip s.coefficients) (k : List ℕ) (hk1 : ∀ x ∈ k, 1 ≤ x)
    (hk : VecLe k g) :
    k ∈ levels ∨ (c = 1 ∧ ∀ g' ∈ s.combiSpaces, VecLe k g' → g' = g) := by
  obtain ⟨m, m1, m2, m3, m4, m5, m6, m7⟩ := classical_top lmin lmax hne hpos hlt fuel s hs
  have hgm := (List.of_mem_zip hg).1
  obtain ⟨g1, g2⟩ := m6 g hgm
  by_cases hex : topExcess m k lmax < m
  · left
    refine mem_combinedLevels hlt hh m1 hl ?_ hk1 hex
    have := g1.length_eq
    rw [hk.length_eq, ← this, List.length_map]
  · right
    have huniq : ∀ g' ∈ s.combiSpaces, VecLe k g' →
        g'.sum = (lmax.map (· - m)).sum + m ∧ g' = List.zipWith max k (lmax.map (· - m)) := by
      intro g' hg' hkg
      obtain ⟨h1, h2⟩ := m6 g' hg'
      obtain ⟨e1, e2⟩ := eq_of_excess (fun b hb => le_of_lt (m3 b hb)) hkg h1
      have : g'.sum = (lmax.map (· - m)).sum + m := by omega
      exact ⟨this, e2 (by omega)⟩
    refine ⟨m7 (g, c) hg (huniq g hgm hk).1, fun g' hg' hkg => ?_⟩
    rw [(huniq g' hg' hkg).2, (huniq g hgm hk).2]

/-- The tasks of the groups of `k` systems together are the component grids of the scheme, each on one
group of one system. -/
def FromSchemes [Ring K] (k : ℕ) (n : ℕ → ℕ) (T : ℕ → ℕ → List (K × List ℕ × (ℕ → K))) (s : Scheme) :
    Prop :=
  ((List.range k).flatMap fun σ => (List.range (n σ)).flatMap fun g => (T σ g).map fun t =>
    (t.2.1, t.1)).Perm ((s.combiSpaces.zip s.coefficients).map fun lc => (lc.1, ((lc.2 : ℤ) : K)))

/-- C97: the tasks of a classical scheme on the groups of any number of systems, with sparse grids without
the highest subspaces, meet the condition of the theorems on the combination of systems (C85, C86, C87). -/
theorem C97_systems [Ring K] (lmin lmax : List ℕ) (hne : lmax ≠ []) (hpos : ∀ x ∈ lmin, 1 ≤ x)
    (hlt : List.Forall₂ (· < ·) lmin lmax) (fuel : ℕ) (s : Scheme)
    (hs : createClassicalCombischeme fuel lmin lmax = some s) (reduce : List ℕ)
    (hh : Harmless lmin lmax reduce) (levels : List (List ℕ))
    (hl : combinedLevels lmin lmax reduce = some levels) (refs : List RefDim)
    (hr : ∀ r ∈ refs, ValidRef r) (hmax : List.Forall₂ (fun l r => l ≤ r.level) lmax refs) (k : ℕ)
    (n : ℕ → ℕ) (T : ℕ → ℕ → List (K × List ℕ × (ℕ → K))) (hT : FromSchemes k n T s) :
    ValidSystems refs levels k n T := by
  obtain ⟨m, m1, m2, m3, m4, m5, m6, m7⟩ := classical_top lmin lmax hne hpos hlt fuel s hs
  have halone := C97_missing_alone lmin lmax hne hpos hlt fuel s hs reduce hh levels hl
  -- the tasks
  have htask : ∀ σ < k, ∀ g < n σ, ∀ t ∈ T σ g, ∃ c : ℤ, (t.2.1, c) ∈ s.combiSpaces.zip s.coefficients ∧
      t.1 = (c : K) := by
    intro σ hσ g hg t ht
    have : (t.2.1, t.1) ∈ (s.combiSpaces.zip s.coefficients).map fun lc => (lc.1, ((lc.2 : ℤ) : K)) :=
      hT.mem_iff.1 (List.mem_flatMap.2 ⟨σ, List.mem_range.2 hσ, List.mem_flatMap.2
        ⟨g, List.mem_range.2 hg, List.mem_map.2 ⟨t, ht, rfl⟩⟩⟩)
    obtain ⟨lc, hlc, e⟩ := List.mem_map.1 this
    obtain ⟨e1, e2⟩ := Prod.mk.inj e
    exact ⟨lc.2, by rw [← e1]; exact hlc, e2.symm⟩
  have hnd : ((List.range k).flatMap fun σ => ((List.range (n σ)).flatMap (T σ)).map fun t => t.2.1).Nodup := by
    have h1 := (hT.map Prod.fst).nodup_iff.2 (by
      rw [List.map_map]
      have : (Prod.fst ∘ fun lc : List ℕ × ℤ => (lc.1, ((lc.2 : ℤ) : K))) = Prod.fst := rfl
      rw [this, List.map_fst_zip (by omega)]
      exact m5)
    rw [List.map_flatMap] at h1
    convert h1 using 3
    rw [List.map_flatMap, List.map_flatMap]
    congr 1
    funext g
    rw [List.map_map]
    rfl
  rw [List.nodup_flatMap] at hnd
  obtain ⟨hnd1, hnd2⟩ := hnd
  have hcomp : ∀ σ < k, ∀ g < n σ, ∀ t ∈ T σ g, ValidComponent refs t.2.1 := by
    intro σ hσ g hg t ht
    obtain ⟨c, hc, -⟩ := htask σ hσ g hg t ht
    obtain ⟨g1, g2⟩ := m6 _ (List.of_mem_zip hc).1
    have hle : VecLe t.2.1 lmax := le_of_sum (fun b hb => le_of_lt (m3 b hb)) g1 le_rfl g2
    refine ⟨fun x hx => ?_, ?_⟩
    · obtain ⟨i, hi, rfl⟩ := List.mem_iff_getElem.1 hx
      have hl1 := g1.length_eq
      have h2 := (List.forall₂_iff_get.1 g1).2 i (by omega) hi
      simp only [List.get_eq_getElem, List.getElem_map] at h2
      rw [List.length_map] at hl1
      have := m3 _ (List.getElem_mem (show i < lmax.length by omega))
      omega
    · have h1 := List.forall₂_iff_get.1 hmax
      have h2 := List.forall₂_iff_get.1 hle
      refine List.forall₂_iff_get.2 ⟨h2.1.trans h1.1, fun i hi hi' => ?_⟩
      exact le_trans (h2.2 i hi (by omega)) (h1.2 i (by omega) hi')
  -- a missing subspace belongs to one grid of the scheme
  have hone : ∀ σ < k, ∀ g < n σ, ∀ t ∈ T σ g, ∀ l ∈ getDownSet t.2.1, l ∉ levels →
      t.1 = 1 ∧ ∀ σ' < k, ∀ g' < n σ', ∀ t' ∈ T σ' g', l ∈ getDownSet t'.2.1 → t'.2.1 = t.2.1 := by
    intro σ hσ g hg t ht l hlt hnm
    obtain ⟨c, hc, e⟩ := htask σ hσ g hg t ht
    rw [mem_downSet_iff] at hlt
    obtain ⟨c1, hu⟩ := (halone _ c hc l hlt.1 hlt.2).resolve_left hnm
    refine ⟨by rw [e, c1, Int.cast_one], fun σ' hσ' g' hg' t' ht' hl' => ?_⟩
    obtain ⟨c', hc', -⟩ := htask σ' hσ' g' hg' t' ht'
    exact hu _ (List.of_mem_zip hc').1 ((mem_downSet_iff _ _).1 hl').2
  obtain ⟨l', e1, -, -⟩ := reduceLmax_some hlt hh.1 hh.2.1
  have hsorted : levels.Pairwise (· < ·) := by
    unfold combinedLevels at hl
    rw [e1, Option.map_some, Option.some.injEq] at hl
    rw [← hl]
    exact C02_truncated_sorted _ _
  refine ⟨fun σ hσ => ⟨hr, hsorted, hcomp σ hσ, fun g hg t ht => ?_, fun g hg t ht l hlm => ?_⟩, ?_⟩
  · refine mem_combinedLevels hlt hh m1 hl (by rw [List.length_replicate, hmax.length_eq])
      (fun x hx => by rw [List.eq_of_mem_replicate hx]) ?_
    rw [topExcess_ones m3]
    exact m2
  · by_cases hnm : l ∈ levels
    · exact Or.inl hnm
    · obtain ⟨a1, a2⟩ := hone σ hσ g hg t ht l hlm hnm
      refine Or.inr ⟨a1, ?_⟩
      refine filter_length_one (hnd1 σ (List.mem_range.2 hσ)) (mem_holders hg ht hlm) ?_
      intro t' ht'
      obtain ⟨h1, h2⟩ := List.mem_filter.1 ht'
      obtain ⟨g', hg', ht'⟩ := List.mem_flatMap.1 h1
      exact a2 σ hσ g' (List.mem_range.1 hg') t' ht' (by simpa using h2)
  · rintro σ hσ l ⟨g, hg, t, ht, hlm⟩
    by_cases hnm : l ∈ levels
    · exact Or.inl hnm
    · refine Or.inr fun σ' hσ' hne' => ?_
      rintro ⟨g', hg', t', ht', hlm'⟩
      have e := (hone σ hσ g hg t ht l hlm hnm).2 σ' hσ' g' hg' t' ht' hlm'
      have hmem : ∀ (σ g : ℕ) (t : K × List ℕ × (ℕ → K)), g < n σ → t ∈ T σ g →
          t.2.1 ∈ ((List.range (n σ)).flatMap (T σ)).map fun t => t.2.1 := fun σ g t hg ht =>
        List.mem_map.2 ⟨t, List.mem_flatMap.2 ⟨g, List.mem_range.2 hg, ht⟩, rfl⟩
      have hd := List.pairwise_iff_getElem.1 hnd2
      rcases Nat.lt_or_gt_of_ne hne' with h | h
      · have := hd σ' σ (by simpa using hσ') (by simpa using hσ) h
        simp only [List.getElem_range] at this
        exact this (hmem σ' g' t' hg' ht') (by rw [e]; exact hmem σ g t hg ht)
      · have := hd σ σ' (by simpa using hσ) (by simpa using hσ') h
        simp only [List.getElem_range] at this
        exact this (hmem σ g t hg ht) (by rw [← e]; exact hmem σ' g' t' hg' ht')

/-- C97: the same for the groups of one system, the condition of the theorems on the combination of the
groups (C34, C73, C84). -/
theorem C97_system [Ring K] (lmin lmax : List ℕ) (hne : lmax ≠ []) (hpos : ∀ x ∈ lmin, 1 ≤ x)
    (hlt : List.Forall₂ (· < ·) lmin lmax) (fuel : ℕ) (s : Scheme)
    (hs : createClassicalCombischeme fuel lmin lmax = some s) (reduce : List ℕ)
    (hh : Harmless lmin lmax reduce) (levels : List (List ℕ))
    (hl : combinedLevels lmin lmax reduce = some levels) (refs : List RefDim)
    (hr : ∀ r ∈ refs, ValidRef r) (hmax : List.Forall₂ (fun l r => l ≤ r.level) lmax refs) (n : ℕ)
    (T : ℕ → List (K × List ℕ × (ℕ → K))) (hT : FromScheme n T s) :
    ValidSystem refs levels n T := by
  have := C97_systems lmin lmax hne hpos hlt fuel s hs reduce hh levels hl refs hr hmax 1 (fun _ => n)
    (fun _ => T) (by simpa [FromSchemes, FromScheme] using hT)
  exact this.each 0 (by omega)

/-- C97: the combination of the groups with a sparse grid without the highest subspaces gives the values of
the combination of all component grids, at all their points. -/
theorem C97_combine_partial [Ring K] (lmin lmax : List ℕ) (hne : lmax ≠ []) (hpos : ∀ x ∈ lmin, 1 ≤ x)
    (hlt : List.Forall₂ (· < ·) lmin lmax) (fuel : ℕ) (s : Scheme)
    (hs : createClassicalCombischeme fuel lmin lmax = some s) (reduce : List ℕ)
    (hh : Harmless lmin lmax reduce) (levels : List (List ℕ))
    (hl : combinedLevels lmin lmax reduce = some levels) (refs : List RefDim)
    (hr : ∀ r ∈ refs, ValidRef r) (hmax : List.Forall₂ (fun l r => l ≤ r.level) lmax refs) (n : ℕ)
    (hn : n ≤ 256) (T : ℕ → List (K × List ℕ × (ℕ → K))) (hT : FromScheme n T s)
    (htotal : (levels.map (subspaceCount refs)).sum < 2 ^ 31) (variant : CombinationVariant)
    (maxChunk : ℕ) (hu : Usable refs n T variant maxChunk) :
    ∃ S, combineVariant variant maxChunk levels n (fun g => tasksOf refs (T g)) = some S ∧
      IsCombined refs n T S :=
  combined_of_usable hn
    (C97_system lmin lmax hne hpos hlt fuel s hs reduce hh levels hl refs hr hmax n T hT) htotal hu

/-! ### Examples -/

/-- the hypotheses hold for the scheme from (1,1) to (2,2) and one level less in both dimensions: only the
subspace of the coarsest grid is combined -/
example (v : List ℕ → ℚ) : ∃ s, createClassicalCombischeme 10 [1, 1] [2, 2] = some s ∧
    List.Forall₂ (· < ·) [1, 1] [2, 2] ∧ Harmless [1, 1] [2, 2] [1, 1] ∧
    combinedLevels [1, 1] [2, 2] [1, 1] = some [[1, 1]] ∧ (∀ r ∈ serialRefs, ValidRef r) ∧
    List.Forall₂ (fun l (r : RefDim) => l ≤ r.level) [2, 2] serialRefs ∧
    FromScheme 2 (serialSystem v) s ∧
    FromSchemes 2 (fun _ => 1) (fun σ _ => serialSystem v σ) s ∧
    ([[1, 1]].map (subspaceCount serialRefs)).sum < 2 ^ 31 ∧
    Usable serialRefs 2 (serialSystem v) .sparseGridReduce 5 := by
  have h : (createClassicalCombischeme 10 [1, 1] [2, 2]).map (fun s => s.combiSpaces.zip s.coefficients) =
      some [([1, 1], -1), ([1, 2], 1), ([2, 1], 1)] := by decide +kernel
  obtain ⟨s, hs, hz⟩ := Option.map_eq_some_iff.1 h
  refine ⟨s, hs, by simp, harmless_ones (by simp), by decide +kernel, ?_, by simp [serialRefs], ?_, ?_,
    by decide +kernel, by decide, by decide, Or.inl rfl⟩
  · intro r hr
    simp only [serialRefs, List.mem_cons, List.not_mem_nil, or_false] at hr
    rcases hr with rfl | rfl
    · exact ⟨by decide, ⟨rfl, by decide, by decide⟩, by decide⟩
    · exact ⟨by decide, ⟨rfl, by decide, by decide⟩, by decide⟩
  · simp only [FromScheme, hz, serialSystem, List.range_succ, List.range_zero]
    simp
    exact List.Perm.swap _ _ _
  · simp only [FromSchemes, hz, serialSystem, List.range_succ, List.range_zero]
    simp
    exact List.Perm.swap _ _ _

/-! ### Violations -/

/-- Three dimensions of level 3 on one process. -/
def cubeRefs : List RefDim := [⟨3, 0, [0], 0⟩, ⟨3, 0, [0], 0⟩, ⟨3, 0, [0], 0⟩]

/-- The component grids from (1,1,1) to (2,3,3) with constant values. -/
def cubeSystem (_ : ℕ) : List (ℚ × List ℕ × (ℕ → ℚ)) :=
  [(-2, [1, 2, 2], fun _ => 0), (1, [1, 2, 3], fun _ => 4), (1, [1, 3, 2], fun _ => 2),
    (1, [2, 2, 2], fun _ => 1)]

/-- The values of the first grid after a combination with the given levels. -/
def cubeCombined (levels : List (List ℕ)) : Option (List ℚ) :=
  (combineVariant .sparseGridReduce 5 levels 1 fun g => tasksOf cubeRefs (cubeSystem g)).bind fun S =>
    (S 0).tasks.head?.map fun t => (List.range t.2.data.len).map t.2.data.val

/-- C97 is violated if the level is reduced only in dimensions in which `lmax` is further away from `lmin`
than in another one. Then subspaces of all grids are missing: here (1,2,2), at whose points the combination is
7, but the grid keeps its own values. -/
theorem C97_uneven_violated :
    (createClassicalCombischeme 10 [1, 1, 1] [2, 3, 3]).map (fun s => s.combiSpaces.zip s.coefficients) =
      some [([1, 2, 2], -2), ([1, 2, 3], 1), ([1, 3, 2], 1), ([2, 2, 2], 1)] ∧
    combinedLevels [1, 1, 1] [2, 3, 3] [0, 1, 1] =
      some [[1, 1, 1], [1, 1, 2], [1, 2, 1], [2, 1, 1]] ∧
    (∀ p < 9, valueAtPlace cubeRefs 1 cubeSystem (spatialOf cubeRefs [1, 2, 2] p) = 7) ∧
    cubeCombined [[1, 1, 1], [1, 1, 2], [1, 2, 1], [2, 1, 1]] = some [0, 7, 0, 7, 7, 7, 0, 7, 0] := by
  refine ⟨by decide +kernel, by decide +kernel, by decide +kernel, by decide +kernel⟩

/-- C97 is violated if a task is moved: it is filled from the sparse grid on the new group, and what it had
in the missing subspaces is lost. -/
theorem C97_move_violated :
    combinedLevels [1, 1] [2, 2] [1, 1] = some [[1, 1]] ∧
    ((List.range 2).map fun g => ([.combine, .move 1 0 0].foldl (specStep serialRefs 2)
      (serialSystem fun _ => 1) g).map fun t => (List.range (numLocal serialRefs t.2.1)).map t.2.2) =
      [[[1, 1, 1, 1, 1, 1, 1, 1, 1], [1, 1, 1], [1, 1, 1, 1, 1]], []] ∧
    (history .sparseGridReduce 5 [[1, 1], [1, 2], [2, 1]] 2
      (fun g => tasksOf serialRefs (serialSystem (fun _ => 1) g)) [.combine, .move 1 0 0]).map gridValues =
        some [[[1, 1, 1, 1, 1, 1, 1, 1, 1], [1, 1, 1], [1, 1, 1, 1, 1]], []] ∧
    (history .sparseGridReduce 5 [[1, 1]] 2
      (fun g => tasksOf serialRefs (serialSystem (fun _ => 1) g)) [.combine, .move 1 0 0]).map gridValues =
        some [[[1, 1, 1, 1, 1, 1, 1, 1, 1], [1, 1, 1], [1, 0, 1, 0, 1]], []] :=
  ⟨by decide +kernel, by decide +kernel, by decide +kernel, by decide +kernel⟩

/-- The grid of the scheme from (1) to (2), on one process. -/
def peakTasks (_ : ℕ) : List (GroupTask ℚ) :=
  [⟨1, compGrid moveRefs [2], fun c => ⟨numLocal (atProcess moveRefs c) [2], fun q => if q = 0 then 8 else 2⟩⟩]

/-- What is plotted on level 2 with the given levels of the sparse grid. -/
def peakPlotted (levels : List (List ℕ)) : Option (List (List ℚ)) :=
  (combineAndPlot [1] ⟨[0], [true], [.hat], [0]⟩ .sparseGridReduce 5 levels 1 (fun _ _ _ _ _ _ => 0)
    (fun _ _ _ _ _ => 0) peakTasks 0 (refGrid moveRefs) [2]).map fun r =>
      r.map fun x => (List.range (x [0]).len).map (x [0]).val

/-- C97 is violated by what is plotted: it is filled from the sparse grid and lacks the highest subspaces. -/
theorem C97_plot_violated :
    combinedLevels [1] [2] [0] = some [[1], [2]] ∧ peakPlotted [[1], [2]] = some [[8, 2, 2]] ∧
    combinedLevels [1] [2] [1] = some [[1]] ∧ peakPlotted [[1]] = some [[1, 2, 1]] :=
  ⟨by decide +kernel, by decide +kernel, by decide +kernel, by decide +kernel⟩

end Verif

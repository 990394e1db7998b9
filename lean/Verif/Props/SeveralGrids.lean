import Verif.Lemmas.SeveralGrids
import Verif.Props.DistributedCombine

/-!
# C98: tasks with several grids

A task may have several grids (species), which all have the coefficient of the task. `T g m` lists the grids
with number `g` of the tasks of group `m`: coefficient, level and values of the whole grid. `HoldsGrid refs g`
says that the processes of a group store their parts of such a grid as grid number `g` of the task.
-/

namespace Verif

variable {K : Type}

/-- After a combination, the grids with number `g` are what a complete combination with one process per group
would make of the grids `T` if they were the only grids of their tasks. -/
def CombinedAlone [Field K] (refs : List RefDim) (P : CombineParams) (variant : CombinationVariant)
    (maxChunk : ℕ) (levels : List (List ℕ)) (n : ℕ) (T : ℕ → List (K × List ℕ × (ℕ → K))) (g : ℕ)
    (S' : ℕ → List (GridsTask K)) : Prop :=
  ∀ junk junk', ∃ T' : ℕ → List (K × List ℕ × (ℕ → K)),
    combineAtOnce P variant maxChunk levels n junk junk' (fun m => tasksOf (oneProcess refs) (T m)) =
      some (fun m => tasksOf (oneProcess refs) (T' m)) ∧
    ∀ m < n, List.Forall₂ (HoldsGrid refs g) (T' m) (S' m)

/-- Grids with the values of a complete combination with one process per group are combined as if they were
the only ones. -/
theorem combinedAlone_of [Field K] [CharZero K] {refs : List RefDim} {levels : List (List ℕ)} {n : ℕ}
    (hn : n ≤ 256) {T : ℕ → List (K × List ℕ × (ℕ → K))} (h : ValidSystem refs levels n T)
    {P : CombineParams} (hP : ParamsOk refs P)
    (htotal : (levels.map (subspaceCount (oneProcess refs))).sum < 2 ^ 31)
    {variant : CombinationVariant} {maxChunk : ℕ} (hu : Usable (oneProcess refs) n T variant maxChunk)
    {H D : List ℕ → (ℕ → K) → ℕ → K}
    (hm : ∀ L, ValidComponent (oneProcess refs) L →
      GridMaps (compDims (oneProcess refs) P L) (selectedDims P.sel) (H L) (D L))
    {g : ℕ} {S' : ℕ → List (GridsTask K)}
    (hS : ∀ m < n, List.Forall₂ (HoldsGrid refs g) ((T m).map fun t => (t.1, t.2.1, D t.2.1 fun q =>
      valueAtPlace (oneProcess refs) n (hierVals H T) (spatialOf (oneProcess refs) t.2.1 q))) (S' m)) :
    CombinedAlone refs P variant maxChunk levels n T g S' := by
  intro junk junk'
  obtain ⟨T', a1, a2⟩ := atOnce_formula hn (validSystem_oneProcess h) (serial_oneProcess refs)
    (paramsOk_oneProcess hP) htotal hu hm junk junk'
  refine ⟨T', a1, fun m hmn => ?_⟩
  have ha := a2 m hmn
  have hb := hS m hmn
  unfold Transformed at ha
  rw [List.forall₂_map_left_iff] at hb
  rw [List.forall₂_iff_get] at ha hb ⊢
  refine ⟨by rw [← ha.1, hb.1], fun i h1 h2 => ?_⟩
  have h3 : i < (T m).length := by rw [ha.1]; exact h1
  obtain ⟨e1, e2, e3⟩ := ha.2 i h3 h1
  obtain ⟨gt, f1, f2⟩ := hb.2 i h3 h2
  exact ⟨gt, f1, holdsParts_congr h.ref f2 e1.symm e2.symm
    (h.comp m hmn ((T m).get ⟨i, h3⟩) (List.get_mem _ ⟨i, h3⟩)) fun q hq => (e3 q hq).symm⟩

/-- C98, partial: a complete combination of tasks with `G` grids goes through. The first grids are combined as
if they were the only ones. The other grids are not hierarchized: each of their values becomes the weighted
sum of the values at the same place, over the grids with that place only (`valueAtPlace` of the values
themselves). What is missing for them is shown by `C98_violated`. -/
theorem C98_grids_partial [Field K] [CharZero K] (refs : List RefDim) (levels : List (List ℕ)) (n : ℕ)
    (hn : n ≤ 256) (G : ℕ) (hG : 0 < G) (T : ℕ → ℕ → List (K × List ℕ × (ℕ → K)))
    (h : ∀ g < G, ValidSystem refs levels n (T g)) (P : CombineParams) (hP : ParamsOk refs P)
    (hne : NonEmptyParts refs n (T 0))
    (htotal : ∀ c, InGroup refs c → (levels.map (subspaceCount (atProcess refs c))).sum < 2 ^ 31)
    (htotal' : (levels.map (subspaceCount (oneProcess refs))).sum < 2 ^ 31)
    (variant variant' : CombinationVariant) (maxChunk maxChunk' : ℕ)
    (hv : variant ≠ .chunkedOutgroupSparseGridReduce ∨ G = 1)
    (hu : ∀ g < G, ∀ c, InGroup refs c → Usable (atProcess refs c) n (T g) variant maxChunk)
    (hu' : Usable (oneProcess refs) n (T 0) variant' maxChunk')
    (S : ℕ → List (GridsTask K))
    (hS : ∀ g < G, ∀ m < n, List.Forall₂ (HoldsGrid refs g) (T g m) (S m))
    (junk junk' : ℕ → ℕ → ℕ → List ℕ → ℕ → ℕ → ℕ → K) :
    ∃ S', gridsCombineAtOnce (refs.map fun r => r.dec.length) P variant maxChunk levels G n junk
        junk' S = some S' ∧
      CombinedAlone refs P variant' maxChunk' levels n (T 0) 0 S' ∧
      ∀ g < G, g ≠ 0 → ∀ m < n, List.Forall₂ (HoldsGrid refs g) ((T g m).map fun t => (t.1, t.2.1, fun q =>
        valueAtPlace (oneProcess refs) n (T g) (spatialOf (oneProcess refs) t.2.1 q))) (S' m) := by
  have h1 := validSystem_oneProcess (h 0 hG)
  obtain ⟨H, D, hm⟩ := compMaps (K := K) h1.ref (serial_oneProcess refs) (paramsOk_oneProcess hP)
  obtain ⟨S', b1, b2, b3⟩ := grids_formula hn hG h hP hne htotal hv hu
    (fun L hL => hm L (validComponent_oneProcess.2 hL)) junk junk' hS
  exact ⟨S', b1, combinedAlone_of hn (h 0 hG) hP htotal' hu' hm b2, b3⟩

/-- C98: if no dimension is hierarchized, all grids are combined as if they were the only ones. -/
theorem C98_unselected [Field K] [CharZero K] (refs : List RefDim) (levels : List (List ℕ)) (n : ℕ)
    (hn : n ≤ 256) (G : ℕ) (hG : 0 < G) (T : ℕ → ℕ → List (K × List ℕ × (ℕ → K)))
    (h : ∀ g < G, ValidSystem refs levels n (T g)) (P : CombineParams) (hP : ParamsOk refs P)
    (hsel : ∀ s ∈ P.sel, s = false) (hne : NonEmptyParts refs n (T 0))
    (htotal : ∀ c, InGroup refs c → (levels.map (subspaceCount (atProcess refs c))).sum < 2 ^ 31)
    (htotal' : (levels.map (subspaceCount (oneProcess refs))).sum < 2 ^ 31)
    (variant variant' : CombinationVariant) (maxChunk maxChunk' : ℕ)
    (hv : variant ≠ .chunkedOutgroupSparseGridReduce ∨ G = 1)
    (hu : ∀ g < G, ∀ c, InGroup refs c → Usable (atProcess refs c) n (T g) variant maxChunk)
    (hu' : ∀ g < G, Usable (oneProcess refs) n (T g) variant' maxChunk')
    (S : ℕ → List (GridsTask K))
    (hS : ∀ g < G, ∀ m < n, List.Forall₂ (HoldsGrid refs g) (T g m) (S m))
    (junk junk' : ℕ → ℕ → ℕ → List ℕ → ℕ → ℕ → ℕ → K) :
    ∃ S', gridsCombineAtOnce (refs.map fun r => r.dec.length) P variant maxChunk levels G n junk
        junk' S = some S' ∧
      ∀ g < G, CombinedAlone refs P variant' maxChunk' levels n (T g) g S' := by
  have hd : selectedDims P.sel = [] := by
    unfold selectedDims
    rw [List.filter_eq_nil_iff]
    intro k _ hk
    simp only [List.getD_eq_getElem?_getD] at hk
    cases e : P.sel[k]? with
    | none => simp [e] at hk
    | some s => rw [e, hsel s (List.mem_of_getElem? e)] at hk; simp at hk
  have hm : ∀ L, ValidComponent (oneProcess refs) L →
      GridMaps (compDims (oneProcess refs) P L) (selectedDims P.sel) (fun u : ℕ → K => u) fun u => u := by
    intro L _
    rw [hd]
    exact ⟨fun _ d _ => ⟨d, rfl, rfl, fun _ _ => rfl⟩, fun _ d _ => ⟨d, rfl, rfl, fun _ _ => rfl⟩,
      fun _ _ e i hi => ⟨e i hi, e i hi⟩, fun _ _ _ => ⟨rfl, rfl⟩⟩
  have e : ∀ g, hierVals (fun _ u => u) (T g) = T g := by
    intro g
    funext m
    simp [hierVals]
  obtain ⟨S', b1, b2, b3⟩ := grids_formula hn hG h hP hne htotal hv hu (H := fun _ u => u)
    (D := fun _ u => u) (fun L hL => hm L (validComponent_oneProcess.2 hL)) junk junk' hS
  refine ⟨S', b1, fun g hg => combinedAlone_of hn (h g hg) hP htotal' (hu' g hg) (H := fun _ u => u)
    (D := fun _ u => u) hm ?_⟩
  by_cases hg0 : g = 0
  · subst hg0
    exact b2
  · rw [e g]
    exact b3 g hg hg0

/-- C98: with hat functions and consistent coefficients nothing changes if the grids with number `g` hold the
values of one function `f g` of the place. So exact values cannot show that some grids are not hierarchized. -/
theorem C98_samples_unchanged [Field K] [CharZero K] (refs : List RefDim) (levels : List (List ℕ)) (n : ℕ)
    (hn : n ≤ 256) (G : ℕ) (hG : 0 < G) (T : ℕ → ℕ → List (K × List ℕ × (ℕ → K)))
    (h : ∀ g < G, ValidSystem refs levels n (T g)) (P : CombineParams) (hP : ParamsOk refs P)
    (hhat : ∀ β ∈ P.bases, β = .hat) (hne : NonEmptyParts refs n (T 0))
    (htotal : ∀ c, InGroup refs c → (levels.map (subspaceCount (atProcess refs c))).sum < 2 ^ 31)
    (hc : ∀ g < G, Consistent n (T g)) (f : ℕ → List ℕ → K)
    (hf : ∀ g < G, Agrees (oneProcess refs) n (T g) (f g))
    (variant : CombinationVariant) (maxChunk : ℕ)
    (hv : variant ≠ .chunkedOutgroupSparseGridReduce ∨ G = 1)
    (hu : ∀ g < G, ∀ c, InGroup refs c → Usable (atProcess refs c) n (T g) variant maxChunk)
    (S : ℕ → List (GridsTask K))
    (hS : ∀ g < G, ∀ m < n, List.Forall₂ (HoldsGrid refs g) (T g m) (S m))
    (junk junk' : ℕ → ℕ → ℕ → List ℕ → ℕ → ℕ → ℕ → K) :
    ∃ S', gridsCombineAtOnce (refs.map fun r => r.dec.length) P variant maxChunk levels G n junk
        junk' S = some S' ∧
      ∀ g < G, ∀ m < n, List.Forall₂ (HoldsGrid refs g) (T g m) (S' m) := by
  have hs := serial_oneProcess refs
  have hP1 := paramsOk_oneProcess hP
  have h1 := validSystem_oneProcess (h 0 hG)
  obtain ⟨H, D, hm⟩ := compMaps (K := K) h1.ref hs hP1
  obtain ⟨v, hv0⟩ := hier_samples h1.ref hs hP1 hhat hm (f 0)
  have hv' : Agrees (oneProcess refs) n (hierVals H (T 0)) v := by
    intro g hg t ht p hp
    obtain ⟨t', ht', rfl⟩ := List.mem_map.1 ht
    exact hv0 _ (h1.comp g hg t' ht') _ (fun q hq => hf 0 hG g hg t' ht' q hq) p hp
  obtain ⟨S', b1, b2, b3⟩ := grids_formula hn hG h hP hne htotal hv hu
    (fun L hL => hm L (validComponent_oneProcess.2 hL)) junk junk' hS
  refine ⟨S', b1, fun g hg m hmn => ?_⟩
  have hall : ∀ F : K × List ℕ × (ℕ → K) → ℕ → K,
      (∀ t ∈ T g m, ∀ q < numLocal (oneProcess refs) t.2.1, F t q = t.2.2 q) →
      List.Forall₂ (HoldsGrid refs g) ((T g m).map fun t => (t.1, t.2.1, F t)) (S' m) →
      List.Forall₂ (HoldsGrid refs g) (T g m) (S' m) := by
    intro F hF hb
    rw [List.forall₂_map_left_iff] at hb
    rw [List.forall₂_iff_get] at hb ⊢
    refine ⟨hb.1, fun i h3 h4 => ?_⟩
    have ht := List.get_mem (T g m) ⟨i, h3⟩
    obtain ⟨gt, f1, f2⟩ := hb.2 i h3 h4
    exact ⟨gt, f1, holdsParts_congr (h g hg).ref f2 rfl rfl
      ((h g hg).comp m hmn ((T g m).get ⟨i, h3⟩) ht) (hF _ ht)⟩
  by_cases hg0 : g = 0
  · subst hg0
    exact hall _ (fun t ht q hq => formula_unchanged h1 hs hP1 (hc 0 hG) hm hv' hmn ht hq) (b2 m hmn)
  · refine hall _ (fun t ht q hq => ?_) (b3 g hg hg0 m hmn)
    have h2 := validSystem_oneProcess (h g hg)
    obtain ⟨l, hl1, hl2⟩ := exists_subspace_of_point h2.ref (h2.comp m hmn t ht) hq
    rw [valueAtPlace_agrees h2 (hf g hg) hmn ht hl1 hl2, hc g hg m hmn t ht l
      ((mem_downSet_iff _ _).1 hl1).2, one_mul, hf g hg m hmn t ht q hq]

/-- C98: `chunkedOutgroupSparseGridReduce` fails if the tasks have several grids. -/
theorem C98_chunked_violated [Field K] (layout : List ℕ) (hl : ∀ p ∈ layout, 0 < p) (P : CombineParams)
    (maxChunk : ℕ) (levels : List (List ℕ)) (G n : ℕ) (hG : G ≠ 1)
    (junk junk' : ℕ → ℕ → ℕ → List ℕ → ℕ → ℕ → ℕ → K) (S : ℕ → List (GridsTask K)) :
    gridsCombineAtOnce layout P .chunkedOutgroupSparseGridReduce maxChunk levels G n junk junk' S =
      none := by
  have hmem : getVectorIndex layout 0 ∈ groupProcesses layout :=
    List.mem_map.2 ⟨0, List.mem_range.2 (List.prod_pos hl), rfl⟩
  unfold gridsCombineAtOnce
  cases onGridsGroups n fun m => gridsHierarchize P (junk m) (S m) with
  | none => rfl
  | some hs =>
    have : combineGridsPositions layout .chunkedOutgroupSparseGridReduce maxChunk levels G n hs = none := by
      unfold combineGridsPositions
      rw [if_neg]
      intro hc
      have := List.all_eq_true.1 hc _ hmem
      simp [combineGrids, combineOnlyGrid, hG] at this
    rw [Option.bind_some, this, Option.bind_none]

/-! ### The hypotheses can be met, and the claim fails for the second grids -/

/-- Tasks with two grids, which store the grids `T 0` and `T 1` on the processes of `layoutRefs`. -/
def twoGridsTasks (T : ℕ → ℕ → List (ℚ × List ℕ × (ℕ → ℚ))) (m : ℕ) : List (GridsTask ℚ) :=
  List.zipWith (fun t t' => ⟨t.1, [t, t'].map fun x => (compGrid layoutRefs x.2.1, fun c =>
    ⟨numLocal (atProcess layoutRefs c) x.2.1, fun q => x.2.2 (globalOf layoutRefs c x.2.1 q)⟩)⟩)
    (T 0 m) (T 1 m)

theorem twoGridsTasks_holds {T : ℕ → ℕ → List (ℚ × List ℕ × (ℕ → ℚ))} {m : ℕ}
    (h : List.Forall₂ (fun t t' : ℚ × List ℕ × (ℕ → ℚ) => t.1 = t'.1) (T 0 m) (T 1 m)) :
    ∀ g < 2, List.Forall₂ (HoldsGrid layoutRefs g) (T g m) (twoGridsTasks T m) := by
  unfold twoGridsTasks
  intro g hg
  interval_cases g
  · generalize T 0 m = a, T 1 m = b at h
    induction h with
    | nil => exact .nil
    | cons h1 _ ih =>
      exact .cons ⟨_, rfl, rfl, rfl, fun _ _ => ⟨rfl, fun _ _ => rfl⟩⟩ ih
  · generalize T 0 m = a, T 1 m = b at h
    induction h with
    | nil => exact .nil
    | cons h1 _ ih =>
      exact .cons ⟨_, rfl, h1, rfl, fun _ _ => ⟨rfl, fun _ _ => rfl⟩⟩ ih

theorem serialSystem_coeffs (v w : List ℕ → ℚ) (m : ℕ) :
    List.Forall₂ (fun t t' : ℚ × List ℕ × (ℕ → ℚ) => t.1 = t'.1) (serialSystem v m)
      (serialSystem w m) := by
  unfold serialSystem
  split
  · exact .cons rfl (.cons rfl .nil)
  · exact .cons rfl .nil

example (v : ℕ → List ℕ → ℚ) :
    (∀ g < 2, ValidSystem layoutRefs [[1, 1], [1, 2], [2, 1]] 2 (serialSystem (v g))) ∧
    ParamsOk layoutRefs ⟨[2, 0], [true, true], [.hat, .hat], [1, 1]⟩ ∧
    ParamsOk layoutRefs ⟨[2, 0], [false, false], [.hat, .hat], [1, 1]⟩ ∧
    NonEmptyParts layoutRefs 2 (serialSystem (v 0)) ∧
    (∀ c, InGroup layoutRefs c →
      ([[1, 1], [1, 2], [2, 1]].map (subspaceCount (atProcess layoutRefs c))).sum < 2 ^ 31) ∧
    ([[1, 1], [1, 2], [2, 1]].map (subspaceCount (oneProcess layoutRefs))).sum < 2 ^ 31 ∧
    (∀ g < 2, ∀ c, InGroup layoutRefs c →
      Usable (atProcess layoutRefs c) 2 (serialSystem (v g)) .sparseGridReduce 5) ∧
    (∀ g < 2, Usable (oneProcess layoutRefs) 2 (serialSystem (v g)) .sparseGridReduce 5) ∧
    (∀ g < 2, Consistent 2 (serialSystem (v g))) ∧
    (∀ g < 2, Agrees (oneProcess layoutRefs) 2 (serialSystem (v g)) (v g)) ∧
    (∀ g < 2, ∀ m < 2, List.Forall₂ (HoldsGrid layoutRefs g) (serialSystem (v g) m)
      (twoGridsTasks (fun g => serialSystem (v g)) m)) ∧
    numLocal (atProcess layoutRefs [1, 0]) [1, 2] = 6 := by
  refine ⟨fun g _ => layoutRefs_valid (v g), ⟨rfl, rfl, rfl, ?_⟩, ⟨rfl, rfl, rfl, ?_⟩,
    layoutRefs_nonEmpty (v 0), ?_, by decide +kernel, fun _ _ c hc => ⟨by decide, by decide, Or.inl rfl⟩,
    fun _ _ => ⟨by decide, by decide, Or.inl rfl⟩, fun g _ => serialSystem_consistent (v g), ?_,
    fun g hg m _ => twoGridsTasks_holds (T := fun g => serialSystem (v g))
      (serialSystem_coeffs (v 0) (v 1) m) g hg, by decide +kernel⟩
  · exact .cons (Or.inl ⟨rfl, by decide⟩) (.cons (Or.inl ⟨rfl, by decide⟩) .nil)
  · exact .cons (Or.inl ⟨rfl, by decide⟩) (.cons (Or.inl ⟨rfl, by decide⟩) .nil)
  · intro c hc
    rcases layoutRefs_group hc with rfl | rfl <;> decide +kernel
  · intro g _ m _ t ht p _
    exact (serialSystem_mem ht).2 p

/-- The levels and coefficients of `serialSystem`: only the grid of level (1,2) has a value other than zero, at
the centre. -/
def bumpSystem (m : ℕ) : List (ℚ × List ℕ × (ℕ → ℚ)) :=
  if m = 0 then [(1, [1, 2], fun q => if q = 4 then 1 else 0), (-1, [1, 1], fun _ => 0)]
  else [(1, [2, 1], fun _ => 0)]

/-- The values of grid number `g` of the first task of the second group on the two processes. -/
def secondGroupValues (g : ℕ) (S : ℕ → List (GridsTask ℚ)) : List (List ℚ) :=
  [[0, 0], [1, 0]].map fun c => (((S 1)[0]?.bind fun t => t.grid g).map fun t =>
    (List.range (t.data c).len).map (t.data c).val).getD []

theorem secondGroupValues_of {g : ℕ} {S : ℕ → List (GridsTask ℚ)} {q : ℚ} {rest : List ℕ} {u : ℕ → ℚ}
    {ts : List (ℚ × List ℕ × (ℕ → ℚ))}
    (h : List.Forall₂ (HoldsGrid layoutRefs g) ((q, 2 :: 1 :: rest, u) :: ts) (S 1)) :
    secondGroupValues g S = [[u 0, u 1], [u 2, u 3, u 4]] := by
  have e1 : numLocal (atProcess layoutRefs [0, 0]) (2 :: 1 :: rest) = 2 := by
    change numLocal (atProcess layoutRefs [0, 0]) [2, 1] = 2
    decide +kernel
  have e2 : numLocal (atProcess layoutRefs [1, 0]) (2 :: 1 :: rest) = 3 := by
    change numLocal (atProcess layoutRefs [1, 0]) [2, 1] = 3
    decide +kernel
  have e3 : ∀ q, globalOf layoutRefs [0, 0] (2 :: 1 :: rest) q = globalOf layoutRefs [0, 0] [2, 1] q :=
    fun _ => rfl
  have e4 : ∀ q, globalOf layoutRefs [1, 0] (2 :: 1 :: rest) q = globalOf layoutRefs [1, 0] [2, 1] q :=
    fun _ => rfl
  cases hS : S 1 with
  | nil => rw [hS] at h; cases h
  | cons st sts =>
    rw [hS] at h
    cases h with
    | cons h2 _ =>
      obtain ⟨gt, f1, -, -, f2⟩ := h2
      obtain ⟨a1, a2⟩ := f2 [0, 0] (.cons (by decide) (.cons (by decide) .nil))
      obtain ⟨b1, b2⟩ := f2 [1, 0] (.cons (by decide) (.cons (by decide) .nil))
      simp only [e1, e2, e3, e4] at a1 a2 b1 b2
      unfold secondGroupValues
      simp only [hS, List.getElem?_cons_zero, Option.bind_some, f1, Option.map_some, Option.getD_some,
        List.map_cons, List.map_nil, a1, b1, List.range_succ, List.range_zero, List.nil_append,
        List.cons_append]
      rw [a2 0 (by decide), a2 1 (by decide), b2 0 (by decide), b2 1 (by decide), b2 2 (by decide),
        show globalOf layoutRefs [0, 0] [2, 1] 0 = 0 by decide +kernel,
        show globalOf layoutRefs [0, 0] [2, 1] 1 = 1 by decide +kernel,
        show globalOf layoutRefs [1, 0] [2, 1] 0 = 2 by decide +kernel,
        show globalOf layoutRefs [1, 0] [2, 1] 1 = 3 by decide +kernel,
        show globalOf layoutRefs [1, 0] [2, 1] 2 = 4 by decide +kernel]

/-- C98 is violated: each task has two grids with the same values, and the coefficients are consistent. After a
combination the grid of level (2,1) has the values 0, 1/2, 1, 1/2, 0 as first grid, but 0, 0, 1, 0, 0 as second
grid: the first grids are combined as if they were the only ones, the second ones are not. -/
theorem C98_violated :
    ∃ S', gridsCombineAtOnce [2, 1] ⟨[2, 0], [true, true], [.hat, .hat], [1, 1]⟩ .sparseGridReduce 5
        [[1, 1], [1, 2], [2, 1]] 2 2 (fun _ _ _ _ _ _ _ => 0) (fun _ _ _ _ _ _ _ => 0)
        (twoGridsTasks fun _ => bumpSystem) = some S' ∧
      Consistent 2 bumpSystem ∧
      (∀ g < 2, ∀ m < 2, List.Forall₂ (HoldsGrid layoutRefs g) (bumpSystem m)
        (twoGridsTasks (fun _ => bumpSystem) m)) ∧
      secondGroupValues 0 S' = [[0, 1 / 2], [1, 1 / 2, 0]] ∧
      secondGroupValues 1 S' = [[0, 0], [1, 0, 0]] ∧
      CombinedAlone layoutRefs ⟨[2, 0], [true, true], [.hat, .hat], [1, 1]⟩ .sparseGridReduce 5
        [[1, 1], [1, 2], [2, 1]] 2 bumpSystem 0 S' ∧
      ¬ CombinedAlone layoutRefs ⟨[2, 0], [true, true], [.hat, .hat], [1, 1]⟩ .sparseGridReduce 5
        [[1, 1], [1, 2], [2, 1]] 2 bumpSystem 1 S' := by
  have hl : ∀ m < 2, (bumpSystem m).map (fun t => (t.1, t.2.1)) =
      (serialSystem (fun _ => 0) m).map fun t => (t.1, t.2.1) := by
    intro m hm
    interval_cases m <;> rfl
  have hP : ParamsOk layoutRefs ⟨[2, 0], [true, true], [.hat, .hat], [1, 1]⟩ :=
    ⟨rfl, rfl, rfl, .cons (Or.inl ⟨rfl, by decide⟩) (.cons (Or.inl ⟨rfl, by decide⟩) .nil)⟩
  have hval := retask_valid (layoutRefs_valid fun _ => 0) hl
  have hne : NonEmptyParts layoutRefs 2 bumpSystem := by
    intro g hg t ht
    obtain ⟨t', ht', -, e⟩ := mem_levels (hl g hg) ht
    rw [← e]
    exact layoutRefs_nonEmpty _ g hg t' ht'
  have hS : ∀ g < 2, ∀ m < 2, List.Forall₂ (HoldsGrid layoutRefs g) (bumpSystem m)
      (twoGridsTasks (fun _ => bumpSystem) m) := fun g hg m _ =>
    twoGridsTasks_holds (T := fun _ => bumpSystem) (List.forall₂_same.2 fun _ _ => rfl) g hg
  obtain ⟨S', a1, a2, a3⟩ := C98_grids_partial layoutRefs [[1, 1], [1, 2], [2, 1]] 2 (by decide) 2 (by decide)
    (fun _ => bumpSystem) (fun _ _ => hval) _ hP hne (fun c hc => by
      rcases layoutRefs_group hc with rfl | rfl <;> decide +kernel) (by decide +kernel)
    .sparseGridReduce .sparseGridReduce 5 5 (Or.inl (by decide))
    (fun _ _ c hc => ⟨by decide, by decide, Or.inl rfl⟩) ⟨by decide, by decide, Or.inl rfl⟩ _ hS
    (fun _ _ _ _ _ _ _ => 0) fun _ _ _ _ _ _ _ => 0
  have hal : (combineAtOnce ⟨[2, 0], [true, true], [.hat, .hat], [1, 1]⟩ .sparseGridReduce 5
      [[1, 1], [1, 2], [2, 1]] 2 (fun _ _ _ _ _ => 0) (fun _ _ _ _ _ => 0)
      (fun m => tasksOf (oneProcess layoutRefs) (bumpSystem m))).map (fun f => (f 1).map fun x =>
        (x.2.dims.map (·.level), (List.range 5).map x.2.data.val)) =
        some [([2, 1], [0, 1 / 2, 1, 1 / 2, 0])] := by decide +kernel
  have halone : ∀ g, CombinedAlone layoutRefs ⟨[2, 0], [true, true], [.hat, .hat], [1, 1]⟩ .sparseGridReduce 5
      [[1, 1], [1, 2], [2, 1]] 2 bumpSystem g S' →
      secondGroupValues g S' = [[0, 1 / 2], [1, 1 / 2, 0]] := by
    intro g hc
    obtain ⟨T', c1, c2⟩ := hc (fun _ _ _ _ _ => 0) fun _ _ _ _ _ => 0
    rw [c1, Option.map_some, Option.some.injEq] at hal
    beta_reduce at hal
    have h1 := c2 1 (by decide)
    cases hT1 : T' 1 with
    | nil => rw [hT1] at hal; simp [tasksOf] at hal
    | cons t ts =>
      rw [hT1] at h1 hal
      obtain ⟨q, L, u⟩ := t
      match L, h1, hal with
      | [], _, hal => simp [tasksOf, gridOf, layoutRefs] at hal
      | [_], _, hal => simp [tasksOf, gridOf, layoutRefs, oneProcess] at hal
      | a :: b :: rest, h1, hal =>
        simp only [tasksOf, gridOf, layoutRefs, oneProcess, localOf, List.map_cons, List.map_nil,
          List.zipWith_cons_cons, List.zipWith_nil_left, List.cons.injEq, Prod.mk.injEq, and_true,
          List.range_succ, List.range_zero, List.nil_append, List.cons_append] at hal
        obtain ⟨⟨⟨rfl, rfl⟩, h0, h1', h2, h3, h4⟩, -⟩ := hal
        rw [secondGroupValues_of h1, h0, h1', h2, h3, h4]
  have hsecond : secondGroupValues 1 S' = [[0, 0], [1, 0, 0]] := by
    rw [secondGroupValues_of (a3 1 (by decide) (by decide) 1 (by decide))]
    decide +kernel
  refine ⟨S', a1, retask_consistent (serialSystem_consistent _) hl, hS, halone 0 a2, hsecond, a2,
    fun hc => ?_⟩
  have := halone 1 hc
  rw [hsecond] at this
  exact absurd this (by decide +kernel)

end Verif

import Verif.Lemmas.DistributedCombine

/-!
# C92: a complete combination does not depend on how the groups are laid out

`refs` gives, per dimension, the level and the decomposition of the reference grid; the groups have one
process for each choice of a part in every dimension. Component grids use the downsampled decompositions
(`compGrid`). `T` lists the component grids of all groups with the values of the whole grids, and
`HoldsParts` says that every process of a group stores the values at its points.
-/

namespace Verif

variable {K : Type}

/-- The grids of the groups as the single process of each group would have them. -/
theorem validSystem_oneProcess [One K] {refs : List RefDim} {levels : List (List ℕ)} {n : ℕ}
    {T : ℕ → List (K × List ℕ × (ℕ → K))} (h : ValidSystem refs levels n T) :
    ValidSystem (oneProcess refs) levels n T :=
  ⟨validRef_oneProcess h.ref, h.sorted,
    fun g hg t ht => validComponent_oneProcess.2 (h.comp g hg t ht),
    fun g hg t ht => by simpa [oneProcess] using h.low g hg t ht, h.mem⟩

theorem holdsParts_congr {refs : List RefDim} (hr : ∀ r ∈ refs, ValidRef r)
    {t t' : K × List ℕ × (ℕ → K)} {gt : GroupTask K} (h : HoldsParts refs t gt) (h1 : t.1 = t'.1)
    (h2 : t.2.1 = t'.2.1) (hL : ValidComponent refs t.2.1)
    (h3 : ∀ q < numLocal (oneProcess refs) t.2.1, t.2.2 q = t'.2.2 q) : HoldsParts refs t' gt := by
  obtain ⟨a, b, e⟩ := h
  refine ⟨a.trans h1, by rw [b, h2], fun c hc => ?_⟩
  obtain ⟨e1, e2⟩ := e c hc
  rw [← h2]
  refine ⟨e1, fun q hq => ?_⟩
  rw [e2 q hq]
  exact h3 _ (globalOf_spec hr hL hc hq).1

/-- C92: if every process of every group stores its part of the component grids, a complete combination
goes through, and in the end every process stores its part of the component grids which the same
combination would produce with one process per group. The two runs may use different variants. -/
theorem C92_same_as_one_process [Field K] [CharZero K] (refs : List RefDim) (levels : List (List ℕ))
    (n : ℕ) (hn : n ≤ 256) (T : ℕ → List (K × List ℕ × (ℕ → K))) (h : ValidSystem refs levels n T)
    (P : CombineParams) (hP : ParamsOk refs P) (hne : NonEmptyParts refs n T)
    (htotal : ∀ c, InGroup refs c → (levels.map (subspaceCount (atProcess refs c))).sum < 2 ^ 31)
    (htotal' : (levels.map (subspaceCount (oneProcess refs))).sum < 2 ^ 31)
    (variant variant' : CombinationVariant) (maxChunk maxChunk' : ℕ)
    (hu : ∀ c, InGroup refs c → Usable (atProcess refs c) n T variant maxChunk)
    (hu' : Usable (oneProcess refs) n T variant' maxChunk')
    (S : ℕ → List (GroupTask K)) (hS : ∀ g < n, List.Forall₂ (HoldsParts refs) (T g) (S g))
    (junk1 junk2 : ℕ → ℕ → List ℕ → ℕ → ℕ → ℕ → K) (junk3 junk4 : ℕ → ℕ → ℕ → ℕ → ℕ → K) :
    ∃ (T' : ℕ → List (K × List ℕ × (ℕ → K))) (S' : ℕ → List (GroupTask K)),
      combineAtOnce P variant' maxChunk' levels n junk3 junk4
        (fun g => tasksOf (oneProcess refs) (T g)) =
          some (fun g => tasksOf (oneProcess refs) (T' g)) ∧
      distributedCombineAtOnce (refs.map fun r => r.dec.length) P variant maxChunk levels n junk1 junk2
        S = some S' ∧
      ∀ g < n, List.Forall₂ (HoldsParts refs) (T' g) (S' g) := by
  have h1 := validSystem_oneProcess h
  obtain ⟨H, D, hm⟩ := compMaps (K := K) h1.ref (serial_oneProcess refs) (paramsOk_oneProcess hP)
  obtain ⟨T', a1, a2⟩ := atOnce_formula hn h1 (serial_oneProcess refs) (paramsOk_oneProcess hP)
    htotal' hu' hm junk3 junk4
  obtain ⟨S', b1, b2⟩ := distributed_formula hn h hP hne htotal hu
    (fun L hL => hm L (validComponent_oneProcess.2 hL)) junk1 junk2 hS
  refine ⟨T', S', a1, b1, fun g hg => ?_⟩
  have ha := a2 g hg
  have hb := b2 g hg
  unfold Transformed at ha
  rw [List.forall₂_map_left_iff] at hb
  rw [List.forall₂_iff_get] at ha hb ⊢
  refine ⟨by rw [← ha.1, hb.1], fun i h1 h2 => ?_⟩
  have h3 : i < (T g).length := by rw [ha.1]; exact h1
  obtain ⟨e1, e2, e3⟩ := ha.2 i h3 h1
  exact holdsParts_congr h.ref (hb.2 i h3 h2) e1.symm e2.symm
    (h.comp g hg ((T g).get ⟨i, h3⟩) (List.get_mem _ ⟨i, h3⟩)) fun q hq => (e3 q hq).symm

/-- C92: two layouts of the groups for the same reference grid give the same component grids, although
their processes store different parts and hierarchize and combine with different messages. -/
theorem C92_layout_independent [Field K] [CharZero K] (refs refs' : List RefDim)
    (hrefs : oneProcess refs = oneProcess refs') (levels : List (List ℕ))
    (n : ℕ) (hn : n ≤ 256) (T : ℕ → List (K × List ℕ × (ℕ → K))) (h : ValidSystem refs levels n T)
    (h' : ValidSystem refs' levels n T)
    (P : CombineParams) (hP : ParamsOk refs P) (hP' : ParamsOk refs' P)
    (hne : NonEmptyParts refs n T) (hne' : NonEmptyParts refs' n T)
    (htotal : ∀ c, InGroup refs c → (levels.map (subspaceCount (atProcess refs c))).sum < 2 ^ 31)
    (htotal' : ∀ c, InGroup refs' c → (levels.map (subspaceCount (atProcess refs' c))).sum < 2 ^ 31)
    (variant variant' : CombinationVariant) (maxChunk maxChunk' : ℕ)
    (hu : ∀ c, InGroup refs c → Usable (atProcess refs c) n T variant maxChunk)
    (hu' : ∀ c, InGroup refs' c → Usable (atProcess refs' c) n T variant' maxChunk')
    (S S' : ℕ → List (GroupTask K)) (hS : ∀ g < n, List.Forall₂ (HoldsParts refs) (T g) (S g))
    (hS' : ∀ g < n, List.Forall₂ (HoldsParts refs') (T g) (S' g))
    (junk1 junk2 junk3 junk4 : ℕ → ℕ → List ℕ → ℕ → ℕ → ℕ → K) :
    ∃ (T' : ℕ → List (K × List ℕ × (ℕ → K))) (R R' : ℕ → List (GroupTask K)),
      distributedCombineAtOnce (refs.map fun r => r.dec.length) P variant maxChunk levels n
        junk1 junk2 S = some R ∧
      distributedCombineAtOnce (refs'.map fun r => r.dec.length) P variant' maxChunk' levels n junk3
        junk4 S' = some R' ∧
      (∀ g < n, List.Forall₂ (HoldsParts refs) (T' g) (R g)) ∧
      ∀ g < n, List.Forall₂ (HoldsParts refs') (T' g) (R' g) := by
  have h1 := validSystem_oneProcess h
  obtain ⟨H, D, hm⟩ := compMaps (K := K) h1.ref (serial_oneProcess refs) (paramsOk_oneProcess hP)
  obtain ⟨R, a1, a2⟩ := distributed_formula hn h hP hne htotal hu
    (fun L hL => hm L (validComponent_oneProcess.2 hL)) junk1 junk2 hS
  obtain ⟨R', b1, b2⟩ := distributed_formula hn h' hP' hne' htotal' hu'
    (fun L hL => by
      rw [← hrefs]
      exact hm L (by rw [hrefs]; exact validComponent_oneProcess.2 hL)) junk3 junk4 hS'
  refine ⟨_, R, R', a1, b1, a2, ?_⟩
  rw [hrefs]
  exact b2

/-- If the hierarchical values agree and the coefficients are consistent, the values computed by a
complete combination are the old ones. -/
theorem formula_unchanged [Field K] [CharZero K] {refs : List RefDim} {levels : List (List ℕ)}
    {n : ℕ} {T : ℕ → List (K × List ℕ × (ℕ → K))} (h : ValidSystem refs levels n T)
    (hs : Serial refs) {P : CombineParams} (hP : ParamsOk refs P) (hc : Consistent n T)
    {H D : List ℕ → (ℕ → K) → ℕ → K}
    (hm : ∀ L, ValidComponent refs L →
      GridMaps (compDims refs P L) (selectedDims P.sel) (H L) (D L))
    {v : List ℕ → K} (hv : Agrees refs n (hierVals H T) v) {g : ℕ} (hg : g < n)
    {t : K × List ℕ × (ℕ → K)} (ht : t ∈ T g) {p : ℕ} (hp : p < numLocal refs t.2.1) :
    D t.2.1 (fun q => valueAtPlace refs n (hierVals H T) (spatialOf refs t.2.1 q)) p = t.2.2 p := by
  have hL := h.comp g hg t ht
  have hnum : ((compDims refs P t.2.1).map fun s => nodal s.lmax s.b).prod =
      numLocal refs t.2.1 := by
    rw [compDims_sizes hs hP hL.le.length_eq]; rfl
  have hl : ∀ g < n, (hierVals H T g).map (fun t => (t.1, t.2.1)) =
      (T g).map fun t => (t.1, t.2.1) := by
    intro g _
    unfold hierVals
    rw [List.map_map]
    rfl
  have hh := retask_valid h hl
  have hc' := retask_consistent hc hl
  have ht' : (t.1, t.2.1, H t.2.1 t.2.2) ∈ hierVals H T g := List.mem_map.2 ⟨t, ht, rfl⟩
  have e : ∀ q < numLocal refs t.2.1, valueAtPlace refs n (hierVals H T) (spatialOf refs t.2.1 q) =
      H t.2.1 t.2.2 q := by
    intro q hq
    obtain ⟨l, hl1, hl2⟩ := exists_subspace_of_point h.ref hL hq
    rw [valueAtPlace_agrees hh hv hg ht' hl1 hl2, ← hv g hg _ ht' q hq,
      hc' g hg _ ht' l ((mem_downSet_iff _ _).1 hl1).2, one_mul]
  rw [((hm _ hL).congr _ _ (by rw [hnum]; exact e) p (by rw [hnum]; exact hp)).2,
    ((hm _ hL).inv _ p (by rw [hnum]; exact hp)).1]

/-- C92: on groups of any layout a second complete combination changes nothing on any process: the
processes store parts of the same grids after it. -/
theorem C92_combine_twice [Field K] [CharZero K] (refs : List RefDim) (levels : List (List ℕ))
    (n : ℕ) (hn : n ≤ 256) (T : ℕ → List (K × List ℕ × (ℕ → K))) (h : ValidSystem refs levels n T)
    (P : CombineParams) (hP : ParamsOk refs P) (hne : NonEmptyParts refs n T)
    (htotal : ∀ c, InGroup refs c → (levels.map (subspaceCount (atProcess refs c))).sum < 2 ^ 31)
    (hc : Consistent n T) (variant variant' : CombinationVariant) (maxChunk maxChunk' : ℕ)
    (hu : ∀ c, InGroup refs c → Usable (atProcess refs c) n T variant maxChunk)
    (hu' : ∀ c, InGroup refs c → Usable (atProcess refs c) n T variant' maxChunk')
    (S : ℕ → List (GroupTask K)) (hS : ∀ g < n, List.Forall₂ (HoldsParts refs) (T g) (S g))
    (junk1 junk2 junk3 junk4 : ℕ → ℕ → List ℕ → ℕ → ℕ → ℕ → K) :
    ∃ (T' : ℕ → List (K × List ℕ × (ℕ → K))) (R R' : ℕ → List (GroupTask K)),
      distributedCombineAtOnce (refs.map fun r => r.dec.length) P variant maxChunk levels n
        junk1 junk2 S = some R ∧
      distributedCombineAtOnce (refs.map fun r => r.dec.length) P variant' maxChunk' levels n junk3
        junk4 R = some R' ∧
      (∀ g < n, List.Forall₂ (HoldsParts refs) (T' g) (R g)) ∧
      ∀ g < n, List.Forall₂ (HoldsParts refs) (T' g) (R' g) := by
  have hs := serial_oneProcess refs
  have hP1 := paramsOk_oneProcess hP
  have h1 := validSystem_oneProcess h
  obtain ⟨H, D, hm⟩ := compMaps (K := K) h1.ref hs hP1
  have hm' := fun L (hL : ValidComponent refs L) => hm L (validComponent_oneProcess.2 hL)
  obtain ⟨R, a1, a2⟩ := distributed_formula hn h hP hne htotal hu hm' junk1 junk2 hS
  set T' : ℕ → List (K × List ℕ × (ℕ → K)) := fun g => (T g).map fun t =>
    (t.1, t.2.1, D t.2.1 fun q =>
      valueAtPlace (oneProcess refs) n (hierVals H T) (spatialOf (oneProcess refs) t.2.1 q)) with hT'
  have hl : ∀ g < n, (T' g).map (fun t => (t.1, t.2.1)) = (T g).map fun t => (t.1, t.2.1) := by
    intro g _
    rw [hT']
    simp only [List.map_map]
    rfl
  have h' := retask_valid h hl
  have hmem : ∀ g, ∀ t' ∈ T' g, ∃ t ∈ T g, t' = (t.1, t.2.1, D t.2.1 fun q =>
      valueAtPlace (oneProcess refs) n (hierVals H T) (spatialOf (oneProcess refs) t.2.1 q)) := by
    intro g t' ht'
    obtain ⟨t, ht, rfl⟩ := List.mem_map.1 ht'
    exact ⟨t, ht, rfl⟩
  have hne' : NonEmptyParts refs n T' := by
    intro g hg t' ht'
    obtain ⟨t, ht, rfl⟩ := hmem g t' ht'
    exact hne g hg t ht
  obtain ⟨R', b1, b2⟩ := distributed_formula hn h' hP hne' htotal
    (fun c hc => usable_congr hl (hu' c hc)) hm' junk3 junk4 a2
  refine ⟨T', R, R', a1, b1, a2, fun g hg => ?_⟩
  have hv : Agrees (oneProcess refs) n (hierVals H T')
      (valueAtPlace (oneProcess refs) n (hierVals H T)) := by
    intro g hg t1 ht1 p hp
    obtain ⟨t', ht', rfl⟩ := List.mem_map.1 ht1
    obtain ⟨t, ht, rfl⟩ := hmem g t' ht'
    have hL := h1.comp g hg t ht
    have hnum : ((compDims (oneProcess refs) P t.2.1).map fun s => nodal s.lmax s.b).prod =
        numLocal (oneProcess refs) t.2.1 := by
      rw [compDims_sizes hs hP1 hL.le.length_eq]; rfl
    exact ((hm _ hL).inv _ p (by rw [hnum]; exact hp)).2
  have hb := b2 g hg
  rw [List.forall₂_map_left_iff] at hb
  rw [List.forall₂_iff_get] at hb ⊢
  refine ⟨hb.1, fun i h3 h4 => ?_⟩
  have ht := List.get_mem (T' g) ⟨i, h3⟩
  exact holdsParts_congr h.ref (hb.2 i h3 h4) rfl rfl (h'.comp g hg ((T' g).get ⟨i, h3⟩) ht)
    fun q hq => formula_unchanged (validSystem_oneProcess h') hs hP1 (retask_consistent hc hl) hm hv
      hg ht hq

/-- C92: with hat functions, a complete combination on groups of any layout changes nothing on any
process if the component grids hold the values of one function `f` of the place. -/
theorem C92_samples_unchanged [Field K] [CharZero K] (refs : List RefDim) (levels : List (List ℕ))
    (n : ℕ) (hn : n ≤ 256) (T : ℕ → List (K × List ℕ × (ℕ → K))) (h : ValidSystem refs levels n T)
    (P : CombineParams) (hP : ParamsOk refs P) (hhat : ∀ β ∈ P.bases, β = .hat)
    (hne : NonEmptyParts refs n T)
    (htotal : ∀ c, InGroup refs c → (levels.map (subspaceCount (atProcess refs c))).sum < 2 ^ 31)
    (hc : Consistent n T) (f : List ℕ → K) (hf : Agrees (oneProcess refs) n T f)
    (variant : CombinationVariant) (maxChunk : ℕ)
    (hu : ∀ c, InGroup refs c → Usable (atProcess refs c) n T variant maxChunk)
    (S : ℕ → List (GroupTask K)) (hS : ∀ g < n, List.Forall₂ (HoldsParts refs) (T g) (S g))
    (junk junk' : ℕ → ℕ → List ℕ → ℕ → ℕ → ℕ → K) :
    ∃ R, distributedCombineAtOnce (refs.map fun r => r.dec.length) P variant maxChunk levels n
        junk junk' S = some R ∧
      ∀ g < n, List.Forall₂ (HoldsParts refs) (T g) (R g) := by
  have hs := serial_oneProcess refs
  have hP1 := paramsOk_oneProcess hP
  have h1 := validSystem_oneProcess h
  obtain ⟨H, D, hm⟩ := compMaps (K := K) h1.ref hs hP1
  obtain ⟨v, hv⟩ := hier_samples h1.ref hs hP1 hhat hm f
  have hv' : Agrees (oneProcess refs) n (hierVals H T) v := by
    intro g hg t ht p hp
    obtain ⟨t', ht', rfl⟩ := List.mem_map.1 ht
    exact hv _ (h1.comp g hg t' ht') _ (fun q hq => hf g hg t' ht' q hq) p hp
  obtain ⟨R, a1, a2⟩ := distributed_formula hn h hP hne htotal hu
    (fun L (hL : ValidComponent refs L) => hm L (validComponent_oneProcess.2 hL)) junk junk' hS
  refine ⟨R, a1, fun g hg => ?_⟩
  have ha := a2 g hg
  rw [List.forall₂_map_left_iff] at ha
  rw [List.forall₂_iff_get] at ha ⊢
  refine ⟨ha.1, fun i h3 h4 => ?_⟩
  have ht := List.get_mem (T g) ⟨i, h3⟩
  exact holdsParts_congr h.ref (ha.2 i h3 h4) rfl rfl (h.comp g hg ((T g).get ⟨i, h3⟩) ht)
    fun q hq => formula_unchanged h1 hs hP1 hc hm hv' hg ht hq

/-! ### The hypotheses can be met -/

/-- Two dimensions of level 2: five points on two processes, and three points on one. -/
def layoutRefs : List RefDim := [⟨2, 2, [0, 2], 0⟩, ⟨2, 0, [0], 0⟩]

/-- The grids of `serialSystem` spread over the processes. -/
def layoutTasks (v : List ℕ → ℚ) (g : ℕ) : List (GroupTask ℚ) :=
  (serialSystem v g).map fun t => ⟨t.1, compGrid layoutRefs t.2.1, fun c =>
    ⟨numLocal (atProcess layoutRefs c) t.2.1, fun q => t.2.2 (globalOf layoutRefs c t.2.1 q)⟩⟩

theorem layoutRefs_group {c : List ℕ} (h : InGroup layoutRefs c) : c = [0, 0] ∨ c = [1, 0] := by
  unfold InGroup layoutRefs at h
  cases h with
  | cons h1 h2 =>
    cases h2 with
    | cons h3 h4 =>
      cases h4
      simp only [List.length_cons, List.length_nil] at h1 h3
      rename_i a b
      interval_cases a <;> interval_cases b <;> simp

theorem layoutRefs_valid (v : List ℕ → ℚ) :
    ValidSystem layoutRefs [[1, 1], [1, 2], [2, 1]] 2 (serialSystem v) := by
  have hlev : ∀ g, ∀ t ∈ serialSystem v g, t.2.1 = [1, 1] ∨ t.2.1 = [1, 2] ∨ t.2.1 = [2, 1] := by
    intro g t ht
    simpa using (serialSystem_mem ht).1
  refine .of_full ?_ (by decide) ?_ ?_
  · intro r hr
    simp only [layoutRefs, List.mem_cons, List.not_mem_nil, or_false] at hr
    rcases hr with rfl | rfl <;> exact ⟨by decide, ⟨rfl, by decide, by decide⟩, by decide⟩
  · intro g hg t ht
    rcases hlev g t ht with h | h | h <;> rw [h] <;> exact ⟨by decide, by simp [layoutRefs]⟩
  · intro g hg t ht
    rcases hlev g t ht with h | h | h <;> rw [h] <;> decide +kernel

theorem layoutRefs_nonEmpty (v : List ℕ → ℚ) : NonEmptyParts layoutRefs 2 (serialSystem v) := by
  intro g hg t ht c hc
  have h : t.2.1 = [1, 1] ∨ t.2.1 = [1, 2] ∨ t.2.1 = [2, 1] := by simpa using (serialSystem_mem ht).1
  rcases layoutRefs_group hc with rfl | rfl <;> rcases h with h | h | h <;> rw [h] <;>
    decide +kernel

example (v : List ℕ → ℚ) : ValidSystem layoutRefs [[1, 1], [1, 2], [2, 1]] 2 (serialSystem v) ∧
    ParamsOk layoutRefs ⟨[2, 0], [true, true], [.hat, .hat], [1, 1]⟩ ∧
    NonEmptyParts layoutRefs 2 (serialSystem v) ∧
    (∀ c, InGroup layoutRefs c →
      ([[1, 1], [1, 2], [2, 1]].map (subspaceCount (atProcess layoutRefs c))).sum < 2 ^ 31) ∧
    (∀ c, InGroup layoutRefs c →
      Usable (atProcess layoutRefs c) 2 (serialSystem v) .sparseGridReduce 5) ∧
    oneProcess layoutRefs = serialRefs ∧
    (∀ g < 2, List.Forall₂ (HoldsParts layoutRefs) (serialSystem v g) (layoutTasks v g)) ∧
    InGroup layoutRefs [1, 0] ∧ numLocal (atProcess layoutRefs [1, 0]) [1, 2] = 6 := by
  refine ⟨layoutRefs_valid v, ⟨rfl, rfl, rfl, ?_⟩, layoutRefs_nonEmpty v, ?_, ?_, rfl, ?_,
    .cons (by decide) (.cons (by decide) .nil), by decide +kernel⟩
  · exact .cons (Or.inl ⟨rfl, by decide⟩) (.cons (Or.inl ⟨rfl, by decide⟩) .nil)
  · intro c hc
    rcases layoutRefs_group hc with rfl | rfl <;> decide +kernel
  · intro c hc
    exact ⟨by decide, by decide, Or.inl rfl⟩
  · intro g _
    unfold layoutTasks
    rw [List.forall₂_map_right_iff]
    exact List.forall₂_same.2 fun t _ => ⟨rfl, rfl, fun c _ => ⟨rfl, fun _ _ => rfl⟩⟩

end Verif

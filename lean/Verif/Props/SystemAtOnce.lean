import Verif.Lemmas.SystemAtOnce

/-!
# Property C102: complete combinations of several systems

A complete combination (hierarchization, combination, dehierarchization) of several systems, on all
processes of all groups. The result is compared with a complete combination in a single system that has all
the component grids, and with the values of the component grids themselves.
-/

namespace Verif

variable {K : Type}

/-- **C102** (partial: `ExchangeUsable` excludes the variants and exchanges in which C85, C86 or C87 fail, see
`C102_violated`). A complete combination of several systems goes through, and a complete combination of the same
component grids in one system, distributed in any way to its groups, goes through. In both every component
grid gets the values `V L`, where `L` is its level, and every process stores its part of them. Layout of the
groups and variant of the combination may differ. -/
theorem C102_same_as_one_system_partial [Field K] [CharZero K] (refs : List RefDim)
    (levels : List (List ℕ)) (k : ℕ) (hk : 0 < k) (n o : ℕ → ℕ) (T : ℕ → ℕ → List (K × List ℕ × (ℕ → K)))
    (h : ValidSystems refs levels k n T) (P : CombineParams) (hP : ParamsOk refs P)
    (hne : ∀ s < k, NonEmptyParts refs (n s) (T s))
    (variant : CombinationVariant) (exchange : SystemExchange) (maxChunk : ℕ)
    (hu : ∀ c, InGroup refs c →
      ExchangeUsable (atProcess refs c) levels k n o T variant exchange maxChunk)
    (S : ℕ → ℕ → List (GroupTask K))
    (hS : ∀ s < k, ∀ g < n s, List.Forall₂ (HoldsParts refs) (T s g) (S s g))
    (refs1 : List RefDim) (hrefs : oneProcess refs1 = oneProcess refs)
    (hr1 : ∀ r ∈ refs1, ValidRef r) (N : ℕ) (hN : N ≤ 256) (T1 : ℕ → List (K × List ℕ × (ℕ → K)))
    (hT1 : ((List.range N).flatMap T1).Perm
      ((List.range k).flatMap fun s => (List.range (n s)).flatMap (T s)))
    (hP1 : ParamsOk refs1 P) (hne1 : NonEmptyParts refs1 N T1)
    (htotal1 : ∀ c, InGroup refs1 c → (levels.map (subspaceCount (atProcess refs1 c))).sum < 2 ^ 31)
    (variant1 : CombinationVariant) (maxChunk1 : ℕ)
    (hu1 : ∀ c, InGroup refs1 c → Usable (atProcess refs1 c) N T1 variant1 maxChunk1)
    (S1 : ℕ → List (GroupTask K)) (hS1 : ∀ g < N, List.Forall₂ (HoldsParts refs1) (T1 g) (S1 g))
    (junk junk' : ℕ → ℕ → ℕ → List ℕ → ℕ → ℕ → ℕ → K)
    (junk1 junk2 : ℕ → ℕ → List ℕ → ℕ → ℕ → ℕ → K) :
    ∃ (V : List ℕ → ℕ → K) (R : ℕ → ℕ → List (GroupTask K)) (R1 : ℕ → List (GroupTask K)),
      systemsCombineAtOnce (refs.map fun r => r.dec.length) P variant exchange maxChunk levels k
        junk junk' (fun s => ⟨n s, o s, S s⟩) = some R ∧
      (∀ s < k, ∀ g < n s, List.Forall₂ (HoldsParts refs)
        ((T s g).map fun t => (t.1, t.2.1, V t.2.1)) (R s g)) ∧
      distributedCombineAtOnce (refs1.map fun r => r.dec.length) P variant1 maxChunk1 levels N
        junk1 junk2 S1 = some R1 ∧
      ∀ g < N, List.Forall₂ (HoldsParts refs1)
        ((T1 g).map fun t => (t.1, t.2.1, V t.2.1)) (R1 g) := by
  have h1 := validSystem_relayout hrefs hr1 (joined_valid hk h hT1)
  obtain ⟨H, D, hm⟩ := compMaps (K := K) (validSystem_oneProcess (h.each 0 hk)).ref
    (serial_oneProcess refs) (paramsOk_oneProcess hP)
  obtain ⟨R, a1, a2⟩ := systems_formula h hP hne hu
    (fun L hL => hm L (validComponent_oneProcess.2 hL)) junk junk' hS
  obtain ⟨R1, b1, b2⟩ := distributed_formula hN h1 hP1 hne1 htotal1 hu1
    (fun L hL => by
      rw [hrefs]
      exact hm L (by rw [← hrefs]; exact validComponent_oneProcess.2 hL)) junk1 junk2 hS1
  refine ⟨fun L => D L fun q => valueOfSystems (oneProcess refs) k n (fun s => hierVals H (T s))
    (spatialOf (oneProcess refs) L q), R, R1, a1, a2, b1, fun g hg => ?_⟩
  have hb := b2 g hg
  rw [hrefs] at hb
  have e : ∀ z, valueAtPlace (oneProcess refs) N (hierVals H T1) z =
      valueOfSystems (oneProcess refs) k n (fun s => hierVals H (T s)) z := by
    intro z
    apply valueOfSystems_perm
    rw [hierVals_flat, hierVals_all]
    exact hT1.map _
  simp only [e] at hb
  exact hb

/-- **C102** (partial: as above). With hat functions, and coefficients of all systems together that are
consistent, a complete combination of several systems changes nothing on any process if the component
grids hold the values of one function `f` of the place. -/
theorem C102_samples_unchanged_partial [Field K] [CharZero K] (refs : List RefDim)
    (levels : List (List ℕ)) (k : ℕ) (hk : 0 < k) (n o : ℕ → ℕ)
    (T : ℕ → ℕ → List (K × List ℕ × (ℕ → K))) (h : ValidSystems refs levels k n T)
    (P : CombineParams) (hP : ParamsOk refs P) (hhat : ∀ β ∈ P.bases, β = .hat)
    (hne : ∀ s < k, NonEmptyParts refs (n s) (T s))
    (hc : Consistent 1 fun _ => (List.range k).flatMap fun s => (List.range (n s)).flatMap (T s))
    (f : List ℕ → K) (hf : ∀ s < k, Agrees (oneProcess refs) (n s) (T s) f)
    (variant : CombinationVariant) (exchange : SystemExchange) (maxChunk : ℕ)
    (hu : ∀ c, InGroup refs c →
      ExchangeUsable (atProcess refs c) levels k n o T variant exchange maxChunk)
    (S : ℕ → ℕ → List (GroupTask K))
    (hS : ∀ s < k, ∀ g < n s, List.Forall₂ (HoldsParts refs) (T s g) (S s g))
    (junk junk' : ℕ → ℕ → ℕ → List ℕ → ℕ → ℕ → ℕ → K) :
    ∃ R, systemsCombineAtOnce (refs.map fun r => r.dec.length) P variant exchange maxChunk levels k
        junk junk' (fun s => ⟨n s, o s, S s⟩) = some R ∧
      ∀ s < k, ∀ g < n s, List.Forall₂ (HoldsParts refs) (T s g) (R s g) := by
  have hs := serial_oneProcess refs
  have hP1 := paramsOk_oneProcess hP
  have hr1 := (validSystem_oneProcess (h.each 0 hk)).ref
  obtain ⟨H, D, hm⟩ := compMaps (K := K) hr1 hs hP1
  obtain ⟨v, hv⟩ := hier_samples hr1 hs hP1 hhat hm f
  have hv' : ∀ s < k, Agrees (oneProcess refs) (n s) (hierVals H (T s)) v := by
    intro s hs g hg t ht p hp
    obtain ⟨t', ht', rfl⟩ := List.mem_map.1 ht
    exact hv _ (validComponent_oneProcess.2 ((h.each s hs).comp g hg t' ht')) _
      (fun q hq => hf s hs g hg t' ht' q hq) p hp
  obtain ⟨R, a1, a2⟩ := systems_formula h hP hne hu
    (fun L hL => hm L (validComponent_oneProcess.2 hL)) junk junk' hS
  refine ⟨R, a1, fun s hs g hg => ?_⟩
  have ha := a2 s hs g hg
  rw [List.forall₂_map_left_iff] at ha
  rw [List.forall₂_iff_get] at ha ⊢
  refine ⟨ha.1, fun i h3 h4 => ?_⟩
  have ht := List.get_mem (T s g) ⟨i, h3⟩
  exact holdsParts_congr (h.each s hs).ref (ha.2 i h3 h4) rfl rfl
    ((h.each s hs).comp g hg ((T s g).get ⟨i, h3⟩) ht)
    fun q hq => systems_unchanged hk h hP hc hm hv' hs hg ht hq

/-- **C102** (partial: as above). With coefficients of all systems together that are consistent, a second
complete combination, by the same or another exchange, changes nothing on any process, whatever the values
were before the first. -/
theorem C102_combine_twice_partial [Field K] [CharZero K] (refs : List RefDim)
    (levels : List (List ℕ)) (k : ℕ) (hk : 0 < k) (n o o' : ℕ → ℕ)
    (T : ℕ → ℕ → List (K × List ℕ × (ℕ → K))) (h : ValidSystems refs levels k n T)
    (P : CombineParams) (hP : ParamsOk refs P) (hne : ∀ s < k, NonEmptyParts refs (n s) (T s))
    (hc : Consistent 1 fun _ => (List.range k).flatMap fun s => (List.range (n s)).flatMap (T s))
    (variant variant' : CombinationVariant) (exchange exchange' : SystemExchange)
    (maxChunk maxChunk' : ℕ)
    (hu : ∀ c, InGroup refs c →
      ExchangeUsable (atProcess refs c) levels k n o T variant exchange maxChunk)
    (hu' : ∀ c, InGroup refs c →
      ExchangeUsable (atProcess refs c) levels k n o' T variant' exchange' maxChunk')
    (S : ℕ → ℕ → List (GroupTask K))
    (hS : ∀ s < k, ∀ g < n s, List.Forall₂ (HoldsParts refs) (T s g) (S s g))
    (junk1 junk2 junk3 junk4 : ℕ → ℕ → ℕ → List ℕ → ℕ → ℕ → ℕ → K) :
    ∃ (T' : ℕ → ℕ → List (K × List ℕ × (ℕ → K))) (R R' : ℕ → ℕ → List (GroupTask K)),
      systemsCombineAtOnce (refs.map fun r => r.dec.length) P variant exchange maxChunk levels k
        junk1 junk2 (fun s => ⟨n s, o s, S s⟩) = some R ∧
      systemsCombineAtOnce (refs.map fun r => r.dec.length) P variant' exchange' maxChunk' levels k
        junk3 junk4 (fun s => ⟨n s, o' s, R s⟩) = some R' ∧
      (∀ s < k, ∀ g < n s, List.Forall₂ (HoldsParts refs) (T' s g) (R s g)) ∧
      ∀ s < k, ∀ g < n s, List.Forall₂ (HoldsParts refs) (T' s g) (R' s g) := by
  have hs1 := serial_oneProcess refs
  have hP1 := paramsOk_oneProcess hP
  obtain ⟨H, D, hm⟩ := compMaps (K := K) (validSystem_oneProcess (h.each 0 hk)).ref hs1 hP1
  have hm' := fun L (hL : ValidComponent refs L) => hm L (validComponent_oneProcess.2 hL)
  obtain ⟨R, a1, a2⟩ := systems_formula h hP hne hu hm' junk1 junk2 hS
  set T' : ℕ → ℕ → List (K × List ℕ × (ℕ → K)) := fun s g => (T s g).map fun t =>
    (t.1, t.2.1, D t.2.1 fun q => valueOfSystems (oneProcess refs) k n (fun s => hierVals H (T s))
      (spatialOf (oneProcess refs) t.2.1 q)) with hT'
  have hl : ∀ s < k, ∀ g < n s, (T' s g).map (fun t => (t.1, t.2.1)) =
      (T s g).map fun t => (t.1, t.2.1) := by
    intro s _ g _
    rw [hT']
    simp only [List.map_map]
    rfl
  have h' := retask_systems h hl
  have hmem : ∀ s g, ∀ t' ∈ T' s g, ∃ t ∈ T s g, t' = (t.1, t.2.1, D t.2.1 fun q =>
      valueOfSystems (oneProcess refs) k n (fun s => hierVals H (T s))
        (spatialOf (oneProcess refs) t.2.1 q)) := by
    intro s g t' ht'
    obtain ⟨t, ht, rfl⟩ := List.mem_map.1 ht'
    exact ⟨t, ht, rfl⟩
  have hne' : ∀ s < k, NonEmptyParts refs (n s) (T' s) := by
    intro s hs g hg t' ht'
    obtain ⟨t, ht, rfl⟩ := hmem s g t' ht'
    exact hne s hs g hg t ht
  have hc' : Consistent 1 fun _ => allTasks k n T' := by
    refine retask_consistent hc fun _ _ => ?_
    unfold allTasks
    simp only [List.map_flatMap]
    refine List.flatMap_congr fun s hs => List.flatMap_congr fun g hg => ?_
    exact hl s (List.mem_range.1 hs) g (List.mem_range.1 hg)
  obtain ⟨R', b1, b2⟩ := systems_formula h' hP hne'
    (fun c hc => exchangeUsable_congr hl (hu' c hc)) hm' junk3 junk4 a2
  have hv : ∀ s < k, Agrees (oneProcess refs) (n s) (hierVals H (T' s))
      (valueOfSystems (oneProcess refs) k n fun s => hierVals H (T s)) := by
    intro s hs g hg t ht p hp
    obtain ⟨t', ht', rfl⟩ := List.mem_map.1 ht
    obtain ⟨u, hu, rfl⟩ := hmem s g t' ht'
    have hL := (h.each s hs).comp g hg u hu
    have hnum : ((compDims (oneProcess refs) P u.2.1).map fun s => nodal s.lmax s.b).prod =
        numLocal (oneProcess refs) u.2.1 := by
      rw [compDims_sizes hs1 hP1 (by simpa [oneProcess] using hL.le.length_eq)]; rfl
    exact ((hm' _ hL).inv _ p (by rw [hnum]; exact hp)).2
  refine ⟨T', R, R', a1, b1, a2, fun s hs g hg => ?_⟩
  have hb := b2 s hs g hg
  rw [List.forall₂_map_left_iff] at hb
  rw [List.forall₂_iff_get] at hb ⊢
  refine ⟨hb.1, fun i h3 h4 => ?_⟩
  have ht := List.get_mem (T' s g) ⟨i, h3⟩
  exact holdsParts_congr (h'.each s hs).ref (hb.2 i h3 h4) rfl rfl
    ((h'.each s hs).comp g hg ((T' s g).get ⟨i, h3⟩) ht)
    fun q hq => systems_unchanged hk h' hP hc' hm hv hs hg ht hq

/-! ### The hypotheses can be met -/

/-- Two systems with one group each: the component grids of the two groups of `serialSystem`. -/
def twoSystems (v : List ℕ → ℚ) (s _g : ℕ) : List (ℚ × List ℕ × (ℕ → ℚ)) := serialSystem v s

theorem twoSystems_level {v : List ℕ → ℚ} {s g : ℕ} {t : ℚ × List ℕ × (ℕ → ℚ)}
    (ht : t ∈ twoSystems v s g) : t.2.1 = [1, 1] ∨ t.2.1 = [1, 2] ∨ t.2.1 = [2, 1] := by
  simpa using (serialSystem_mem ht).1

theorem twoSystems_valid (v : List ℕ → ℚ) :
    ValidSystems layoutRefs [[1, 1], [1, 2], [2, 1]] 2 (fun _ => 1) (twoSystems v) := by
  have hf : ∀ s < 2, FullLevels [[1, 1], [1, 2], [2, 1]] 1 (twoSystems v s) := by
    intro s _ g _ t ht
    rcases twoSystems_level ht with h | h | h <;> rw [h] <;> decide +kernel
  refine .of_full (fun s hs => .of_full (layoutRefs_valid v).ref (by decide) ?_ (hf s hs)) hf
  intro g _ t ht
  rcases twoSystems_level ht with h | h | h <;> rw [h] <;> exact ⟨by decide, by simp [layoutRefs]⟩

theorem twoSystems_conj (v : List ℕ → ℚ) : SystemHolds 1 (twoSystems v 0) [1, 1] ∧
    SystemHolds 1 (twoSystems v 1) [1, 1] := by
  have h1 : [1, 1] ∈ getDownSet [1, 1] := by decide +kernel
  have h2 : [1, 1] ∈ getDownSet [2, 1] := by decide +kernel
  exact ⟨⟨0, by decide, (-1, [1, 1], _), by simp [twoSystems, serialSystem]; rfl, h1⟩,
    ⟨0, by decide, (1, [2, 1], _), by simp [twoSystems, serialSystem]; rfl, h2⟩⟩

theorem twoSystems_usable (v : List ℕ → ℚ) (c : List ℕ) (hc : InGroup layoutRefs c)
    {variant : CombinationVariant} {exchange : SystemExchange}
    (h : match exchange with
      | .manager _ _ => variant = .sparseGridReduce
      | .files order => order = (fun s => [1 - s]) ∧ variant ≠ .subspaceReduce) :
    ExchangeUsable (atProcess layoutRefs c) [[1, 1], [1, 2], [2, 1]] 2 (fun _ => 1) (fun _ => 0)
      (twoSystems v) variant exchange 5 := by
  obtain ⟨h1, h2⟩ := twoSystems_conj v
  refine ⟨by decide, ⟨[1, 1], ?_, 0, by decide, 1, by decide, by decide, h1, h2⟩, by decide, by decide,
    ?_, ?_, ?_⟩
  · rcases layoutRefs_group hc with rfl | rfl <;> decide +kernel
  · rcases layoutRefs_group hc with rfl | rfl <;> decide +kernel
  · rcases layoutRefs_group hc with rfl | rfl <;> decide +kernel
  · cases exchange with
    | manager e f => exact ⟨rfl, h⟩
    | files order =>
      obtain ⟨rfl, h⟩ := h
      refine ⟨Or.inl rfl, by decide +kernel, ?_⟩
      cases variant with
      | sparseGridReduce => exact Or.inl rfl
      | subspaceReduce => exact absurd rfl h
      | outgroupSparseGridReduce => exact Or.inr ⟨Or.inl rfl, by decide, fun s _ => Or.inl rfl⟩
      | chunkedOutgroupSparseGridReduce => exact Or.inr ⟨Or.inr rfl, by decide, fun s _ => Or.inl rfl⟩

/-- The hypotheses of C102 hold for these systems: over the third-level manager, and by files in all three
variants. -/
example (v : List ℕ → ℚ) :
    ValidSystems layoutRefs [[1, 1], [1, 2], [2, 1]] 2 (fun _ => 1) (twoSystems v) ∧
    ParamsOk layoutRefs ⟨[2, 0], [true, true], [.hat, .hat], [1, 1]⟩ ∧
    (∀ s < 2, NonEmptyParts layoutRefs 1 (twoSystems v s)) ∧
    (∀ c, InGroup layoutRefs c → ∀ e f, ExchangeUsable (atProcess layoutRefs c)
      [[1, 1], [1, 2], [2, 1]] 2 (fun _ => 1) (fun _ => 0) (twoSystems v) .sparseGridReduce
      (.manager e f) 5) ∧
    (∀ c, InGroup layoutRefs c → ∀ variant, variant ≠ .subspaceReduce →
      ExchangeUsable (atProcess layoutRefs c) [[1, 1], [1, 2], [2, 1]] 2 (fun _ => 1) (fun _ => 0)
        (twoSystems v) variant (.files fun s => [1 - s]) 5) ∧
    (∀ s < 2, ∀ g < 1, List.Forall₂ (HoldsParts layoutRefs) (twoSystems v s g) (layoutTasks v s)) ∧
    oneProcess serialRefs = oneProcess layoutRefs ∧
    ((List.range 2).flatMap (serialSystem v)).Perm
      ((List.range 2).flatMap fun s => (List.range 1).flatMap (twoSystems v s)) ∧
    Consistent 1 (fun _ => (List.range 2).flatMap fun s => (List.range 1).flatMap (twoSystems v s)) ∧
    ∀ s < 2, Agrees (oneProcess layoutRefs) 1 (twoSystems v s) v := by
  refine ⟨twoSystems_valid v, ⟨rfl, rfl, rfl, ?_⟩, ?_, fun c hc e f => twoSystems_usable v c hc rfl,
    fun c hc variant hv => twoSystems_usable v c hc ⟨rfl, hv⟩, ?_, rfl, ?_, ?_, ?_⟩
  · exact .cons (Or.inl ⟨rfl, by decide⟩) (.cons (Or.inl ⟨rfl, by decide⟩) .nil)
  · intro s hs g _ t ht
    exact layoutRefs_nonEmpty v s hs t ht
  · intro s _ g _
    unfold layoutTasks twoSystems
    rw [List.forall₂_map_right_iff]
    exact List.forall₂_same.2 fun t _ => ⟨rfl, rfl, fun c _ => ⟨rfl, fun _ _ => rfl⟩⟩
  · exact .refl _
  · intro g hg t ht l hl
    have ht' : t.2.1 = [1, 1] ∨ t.2.1 = [1, 2] ∨ t.2.1 = [2, 1] := by
      obtain ⟨s, -, h1⟩ := List.mem_flatMap.1 ht
      obtain ⟨g, -, h2⟩ := List.mem_flatMap.1 h1
      exact twoSystems_level h2
    obtain ⟨a, b, rfl⟩ : ∃ a b, l = [a, b] := by
      have := hl.length_eq
      match l, this with
      | [], h => rcases ht' with e | e | e <;> rw [e] at h <;> simp at h
      | [a], h => rcases ht' with e | e | e <;> rw [e] at h <;> simp at h
      | [a, b], _ => exact ⟨a, b, rfl⟩
      | _ :: _ :: _ :: _, h => rcases ht' with e | e | e <;> rw [e] at h <;> simp at h
    have hab : (a ≤ 1 ∧ b ≤ 2) ∨ (a ≤ 2 ∧ b ≤ 1) := by
      rcases ht' with e | e | e <;> rw [e] at hl <;> simp at hl <;> omega
    unfold coeffAbove
    simp only [List.range_succ, List.range_zero, List.nil_append, List.map_cons, List.map_nil,
      List.sum_cons, List.sum_nil, List.flatMap_cons, List.flatMap_nil,
      List.append_nil, twoSystems, serialSystem, List.cons_append, if_true, one_ne_zero, if_false,
      List.forall₂_cons, List.Forall₂.nil, and_true]
    rcases hab with ⟨h1, h2⟩ | ⟨h1, h2⟩ <;> interval_cases a <;> interval_cases b <;> norm_num
  · intro s _ g _ t ht p hp
    exact (serialSystem_mem ht).2 p

/-! ### The outgroup variant over the third-level manager -/

/-- Two dimensions of level 3 without boundary points, on one process. -/
def lostRefs : List RefDim := [⟨3, 0, [0], 0⟩, ⟨3, 0, [0], 0⟩]

/-- The classical scheme of level 3 on two systems, with the value one everywhere: the first system has two
groups. -/
def lostSystems (s g : ℕ) : List (ℚ × List ℕ × (ℕ → ℚ)) :=
  if s = 0 then
    if g = 0 then [(1, [1, 3], fun _ => 1), (-1, [1, 2], fun _ => 1)] else [(1, [2, 2], fun _ => 1)]
  else [(1, [3, 1], fun _ => 1), (-1, [2, 1], fun _ => 1)]

/-- The tasks of the groups. -/
def lostTasks (s g : ℕ) : List (GroupTask ℚ) :=
  (lostSystems s g).map fun t => ⟨t.1, compGrid lostRefs t.2.1, fun c =>
    ⟨numLocal (atProcess lostRefs c) t.2.1, fun q => t.2.2 (globalOf lostRefs c t.2.1 q)⟩⟩

theorem lost_result (e : Bool) : (systemsCombineAtOnce [1, 1] ⟨[0, 0], [true, true], [.hat, .hat], [1, 1]⟩
    .outgroupSparseGridReduce (.manager e true) 5 [[1, 1], [1, 2], [1, 3], [2, 1], [2, 2], [3, 1]] 2
    (fun _ _ _ _ _ _ _ => 0) (fun _ _ _ _ _ _ _ => 0)
    (fun s => ⟨2 - s, 0, lostTasks s⟩)).map (fun R => (R 1 0).map fun t => (t.data [0, 0]).val 0) =
      some [3 / 4, 1 / 2] := by
  cases e <;> decide +kernel

theorem lostSystems_level {s g : ℕ} {t : ℚ × List ℕ × (ℕ → ℚ)} (ht : t ∈ lostSystems s g) :
    (t.2.1 = [1, 3] ∨ t.2.1 = [1, 2] ∨ t.2.1 = [2, 2] ∨ t.2.1 = [3, 1] ∨ t.2.1 = [2, 1]) ∧
      ∀ q, t.2.2 q = 1 := by
  unfold lostSystems at ht
  split at ht
  · split at ht <;> simp only [List.mem_cons, List.not_mem_nil, or_false] at ht
    · rcases ht with rfl | rfl <;> simp
    · rcases ht with rfl; simp
  · simp only [List.mem_cons, List.not_mem_nil, or_false] at ht
    rcases ht with rfl | rfl <;> simp

theorem lostSystems_valid : ValidSystems lostRefs [[1, 1], [1, 2], [1, 3], [2, 1], [2, 2], [3, 1]] 2
    (fun s => 2 - s) lostSystems := by
  have hf : ∀ s < 2, FullLevels [[1, 1], [1, 2], [1, 3], [2, 1], [2, 2], [3, 1]] (2 - s)
      (lostSystems s) := by
    intro s _ g _ t ht
    rcases (lostSystems_level ht).1 with h | h | h | h | h <;> rw [h] <;> decide +kernel
  refine .of_full (fun s hs => .of_full ?_ (by decide) ?_ (hf s hs)) hf
  · intro r hr
    simp only [lostRefs, List.mem_cons, List.not_mem_nil, or_false] at hr
    rcases hr with rfl | rfl <;> exact ⟨by decide, ⟨rfl, by decide, by decide⟩, by decide⟩
  · intro g _ t ht
    rcases (lostSystems_level ht).1 with h | h | h | h | h <;> rw [h] <;>
      exact ⟨by decide, by simp [lostRefs]⟩

theorem lostSystems_consistent : Consistent 1 (fun _ =>
    (List.range 2).flatMap fun s => (List.range (2 - s)).flatMap (lostSystems s)) := by
  intro g hg t ht l hl
  have ht' : t.2.1 = [1, 3] ∨ t.2.1 = [1, 2] ∨ t.2.1 = [2, 2] ∨ t.2.1 = [3, 1] ∨ t.2.1 = [2, 1] := by
    obtain ⟨s, -, h1⟩ := List.mem_flatMap.1 ht
    obtain ⟨g, -, h2⟩ := List.mem_flatMap.1 h1
    exact (lostSystems_level h2).1
  have hlen : l.length = 2 := by
    rw [hl.length_eq]
    rcases ht' with e | e | e | e | e <;> rw [e] <;> rfl
  obtain ⟨a, b, rfl⟩ := List.length_eq_two.1 hlen
  have hab : (a ≤ 1 ∧ b ≤ 3) ∨ (a ≤ 2 ∧ b ≤ 2) ∨ (a ≤ 3 ∧ b ≤ 1) := by
    rcases ht' with e | e | e | e | e <;> rw [e] at hl <;> simp at hl <;> omega
  unfold coeffAbove
  simp only [List.range_succ, List.range_zero, List.nil_append, List.map_cons, List.map_nil,
    List.sum_cons, List.sum_nil, List.flatMap_cons, List.flatMap_nil, List.append_nil, lostSystems,
    List.cons_append, if_true, one_ne_zero, if_false, List.forall₂_cons, List.Forall₂.nil, and_true,
    Nat.sub_zero, Nat.add_one_sub_one]
  rcases hab with ⟨h1, h2⟩ | ⟨h1, h2⟩ | ⟨h1, h2⟩ <;> interval_cases a <;> interval_cases b <;> norm_num

/-- C102 is violated by the variant with a communicator for the subspaces that several groups share, over the
third-level manager, with and without an extra sparse grid. All component grids of a classical scheme on two
systems have the value one everywhere; a complete combination goes through and changes values of the second
system to `3 / 4` and `1 / 2`. -/
theorem C102_violated (e : Bool) :
    ValidSystems lostRefs [[1, 1], [1, 2], [1, 3], [2, 1], [2, 2], [3, 1]] 2 (fun s => 2 - s)
      lostSystems ∧
    ParamsOk lostRefs ⟨[0, 0], [true, true], [.hat, .hat], [1, 1]⟩ ∧
    (∀ s < 2, NonEmptyParts lostRefs (2 - s) (lostSystems s)) ∧
    Consistent 1 (fun _ => (List.range 2).flatMap fun s =>
      (List.range (2 - s)).flatMap (lostSystems s)) ∧
    (∀ s < 2, Agrees (oneProcess lostRefs) (2 - s) (lostSystems s) fun _ => 1) ∧
    (∀ s < 2, ∀ g < 2 - s, List.Forall₂ (HoldsParts lostRefs) (lostSystems s g) (lostTasks s g)) ∧
    ∃ R, systemsCombineAtOnce (lostRefs.map fun r => r.dec.length)
        ⟨[0, 0], [true, true], [.hat, .hat], [1, 1]⟩ .outgroupSparseGridReduce (.manager e true) 5
        [[1, 1], [1, 2], [1, 3], [2, 1], [2, 2], [3, 1]] 2 (fun _ _ _ _ _ _ _ => 0)
        (fun _ _ _ _ _ _ _ => 0) (fun s => ⟨2 - s, 0, lostTasks s⟩) = some R ∧
      ¬ ∀ s < 2, ∀ g < 2 - s, List.Forall₂ (HoldsParts lostRefs) (lostSystems s g) (R s g) := by
  have hgroup : ∀ c, InGroup lostRefs c → c = [0, 0] := by
    intro c h
    unfold InGroup lostRefs at h
    cases h with
    | cons h1 h2 =>
      cases h2 with
      | cons h3 h4 =>
        cases h4
        simp only [List.length_cons, List.length_nil] at h1 h3
        rename_i a b
        interval_cases a
        interval_cases b
        rfl
  refine ⟨lostSystems_valid, ⟨rfl, rfl, rfl, ?_⟩, ?_, lostSystems_consistent, ?_, ?_, ?_⟩
  · exact .cons (Or.inl ⟨rfl, by decide⟩) (.cons (Or.inl ⟨rfl, by decide⟩) .nil)
  · intro s _ g _ t ht c hc
    obtain rfl := hgroup c hc
    rcases (lostSystems_level ht).1 with h | h | h | h | h <;> rw [h] <;> decide +kernel
  · intro s _ g _ t ht p _
    exact (lostSystems_level ht).2 p
  · intro s _ g _
    unfold lostTasks
    rw [List.forall₂_map_right_iff]
    exact List.forall₂_same.2 fun t _ => ⟨rfl, rfl, fun c _ => ⟨rfl, fun _ _ => rfl⟩⟩
  · have h := lost_result e
    rw [Option.map_eq_some_iff] at h
    obtain ⟨R, h1, h2⟩ := h
    refine ⟨R, h1, fun hall => ?_⟩
    have h3 := hall 1 (by decide) 0 (by decide)
    simp only [lostSystems, one_ne_zero, if_false] at h3
    generalize R 1 0 = ts at h2 h3
    cases h3 with
    | cons hd tl =>
      have := (hd.2.2 [0, 0] (.cons (by decide) (.cons (by decide) .nil))).2 0 (by decide +kernel)
      simp only [List.map_cons, List.cons.injEq] at h2
      rw [h2.1] at this
      norm_num at this

end Verif

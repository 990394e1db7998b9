import Verif.Lemmas.DefaultDecomposition
import Verif.Props.DistributedCombine

/-!
# C93: default decompositions

With a given decomposition for the finest level (as in all examples: the default decomposition of the
finest grid), component grids use its downsampled version. Without one, every component grid uses the
default decomposition for its own number of points.
-/

namespace Verif

/-- C93: if the number of processes is at most the number of points of a component grid, the default
decomposition of the finest grid, downsampled to the component grid, gives every process at least one
point of it. -/
theorem C93_every_process_has_points (L l b p : ℕ) (hb : b ≤ 2) (hl : l ≤ L) (hp : 1 ≤ p)
    (h : p ≤ nodal l b) (forward : Bool) :
    ∃ dec d, getDefaultDecomposition1d (nodal L b) p forward = some dec ∧
      componentDecomposition1d (some dec) L l b p forward = some d ∧ d.length = p ∧
      ValidDec d (nodal l b) ∧ ∀ c < p, ∃ y < nodal l b, Owns1d d (nodal l b) c y := by
  have hL : p ≤ nodal L b := by
    have : 2 ^ l ≤ 2 ^ L := Nat.pow_le_pow_right (by omega) hl
    unfold nodal at h ⊢
    omega
  obtain ⟨dec, h1, h2, h3, -⟩ := (C12_default_decomposition (nodal L b) p hp forward).1 hL
  obtain ⟨v1, v2⟩ := C16_downsample dec L l b hb hl h3
  refine ⟨dec, _, h1, rfl, ?_, v1, fun c hc => ?_⟩
  · rw [downsample_eq_map, List.length_map, h2]
  · rw [getDefaultDecomposition1d_eq hL, Option.some.injEq] at h1
    obtain ⟨y, y1, y2⟩ := coarse_between hb hl hp h forward hc
    have how := owns_default forward hc hp y1 y2
    have hy : y < nodal l b := by
      rw [nodal_ref b L l y hb hl]
      exact lt_of_lt_of_le y2 (defaultBound_le hp forward hc)
    exact ⟨y, hy, (v2 c y hy).2 (by rw [← h1]; exact how)⟩

/-- With more processes than points some process has none, whatever the decomposition. -/
theorem C93_too_many_processes (dec : List ℕ) (n : ℕ) (h : ValidDec dec n) (hn : n < dec.length) :
    ∃ c < dec.length, ∀ y < n, ¬ Owns1d dec n c y := by
  by_contra hcon
  push Not at hcon
  have hall : ∀ c, ∃ y, c < dec.length → y < n ∧ Owns1d dec n c y := by
    intro c
    by_cases hc : c < dec.length
    · obtain ⟨y, h1, h2⟩ := hcon c hc
      exact ⟨y, fun _ => ⟨h1, h2⟩⟩
    · exact ⟨0, fun hc' => absurd hc' hc⟩
  choose y hy using hall
  have := Finset.card_le_card_of_injOn (s := Finset.range dec.length) (t := Finset.range n) y
    (fun c hc => by
      simp only [Finset.coe_range, Set.mem_Iio] at hc ⊢
      exact (hy c hc).1) (fun c hc c' hc' he => by
      simp only [Finset.coe_range, Set.mem_Iio] at hc hc'
      have h1 := (owns1d_iff h c _ (hy c hc).1).1 (hy c hc).2
      have h2 := (owns1d_iff h c' _ (hy c' hc').1).1 (hy c' hc').2
      rw [he] at h1
      omega)
  simp only [Finset.card_range] at this
  omega

/-- C93 for the preconditions of C92: default decompositions of the finest grid, and in every dimension
at most as many processes as every component grid has points. -/
theorem C93_nonEmptyParts {K : Type} (refs : List RefDim) (hr : ∀ r ∈ refs, ValidRef r)
    (hdec : ∀ r ∈ refs, ∃ forward,
      getDefaultDecomposition1d (nodal r.level r.boundary) r.dec.length forward = some r.dec)
    (n : ℕ) (T : ℕ → List (K × List ℕ × (ℕ → K)))
    (hT : ∀ g < n, ∀ t ∈ T g, ValidComponent refs t.2.1 ∧
      List.Forall₂ (fun l (r : RefDim) => r.dec.length ≤ nodal l r.boundary) t.2.1 refs) :
    NonEmptyParts refs n T := by
  intro g hg t ht c hc d hd
  obtain ⟨hL, hp⟩ := hT g hg t ht
  obtain ⟨k, hk, rfl⟩ := List.mem_iff_getElem.1 hd
  have hl := length_atProcess hc
  have hk' : k < refs.length := by
    rw [List.length_zipWith] at hk
    omega
  have hkL : k < t.2.1.length := by rw [hL.le.length_eq]; exact hk'
  have hkc : k < c.length := by rw [hc.length_eq]; exact hk'
  have hle := (List.forall₂_iff_get.1 hL.le).2 k hkL hk'
  have hpk := (List.forall₂_iff_get.1 hp).2 k hkL hk'
  have hck := (List.forall₂_iff_get.1 hc).2 k hkc hk'
  simp only [List.get_eq_getElem] at hle hpk hck
  have hv := hr _ (List.getElem_mem hk')
  obtain ⟨forward, hf⟩ := hdec _ (List.getElem_mem hk')
  obtain ⟨dec, d, e1, e2, -, -, e5⟩ := C93_every_process_has_points refs[k].level t.2.1[k]
    refs[k].boundary refs[k].dec.length hv.boundary hle hv.dec.length_pos hpk forward
  rw [hf, Option.some.injEq] at e1
  subst e1
  obtain rfl := Option.some.inj e2
  obtain ⟨y, y1, lo, hi, h1, h2, h3, h4⟩ := e5 _ hck
  rw [List.getElem_zipWith]
  rw [getElem_atProcess hc hk']
  unfold localOf
  simp only [h1, h2, Option.getD_some]
  omega

/-- C93 for component grids without a given decomposition: if the number of processes is a power of two,
the decompositions of a component grid and of the finest grid line up.
Missing: other numbers of processes, for which they do not (`C93_line_up_violated`). -/
theorem C93_line_up_partial (L l b k : ℕ) (hb : b ≤ 2) (hl : l ≤ L) (hl1 : 1 ≤ l)
    (h : 2 ^ k ≤ nodal l b) (forward : Bool) (hf : b = 1 → forward = false) :
    ∃ dec d, componentDecomposition1d none L L b (2 ^ k) forward = some dec ∧
      componentDecomposition1d none L l b (2 ^ k) forward = some d ∧
      d = downsampleDecomposition1d dec L l b ∧
      ∀ c y, y < nodal l b →
        (Owns1d d (nodal l b) c y ↔ Owns1d dec (nodal L b) c (refIndex b (L - l) y)) := by
  have hL : 2 ^ k ≤ nodal L b := by
    have : 2 ^ l ≤ 2 ^ L := Nat.pow_le_pow_right (by omega) hl
    unfold nodal at h ⊢
    omega
  have hk : k ≤ l := by
    by_contra hcon
    have h1 : 2 ^ (l + 1) ≤ 2 ^ k := Nat.pow_le_pow_right (by omega) (by omega)
    have h2 : 2 ^ 1 ≤ 2 ^ l := Nat.pow_le_pow_right (by omega) hl1
    rw [pow_succ] at h1
    unfold nodal at h
    omega
  have hno : ¬ (b = 1 ∧ forward = true) := by
    rintro ⟨h1, h2⟩
    rw [hf h1] at h2
    simp at h2
  have hp : 1 ≤ 2 ^ k := Nat.one_le_two_pow
  obtain ⟨dec, h1, -, h3, -⟩ := (C12_default_decomposition (nodal L b) (2 ^ k) hp forward).1 hL
  refine ⟨dec, downsampleDecomposition1d dec L l b, ?_, ?_, rfl, (C16_downsample dec L l b hb hl h3).2⟩
  · unfold componentDecomposition1d
    rw [if_neg hno]
    exact h1
  · unfold componentDecomposition1d
    rw [if_neg hno]
    refine (getDefaultDecomposition1d_eq h forward).trans ?_
    rw [getDefaultDecomposition1d_eq hL, Option.some.injEq] at h1
    rw [← h1, downsample_eq_map, List.map_map, Option.some.injEq]
    refine List.map_congr_left fun j hj => ?_
    exact (down1_defaultBound hb hl hk forward (List.mem_range.1 hj)).symm

/-- For no other number of processes do the decompositions line up on all levels (with boundary points
and the default of `forwardDecomposition`): there are neighbouring levels, as high as one likes, on which
some point belongs to different processes. -/
theorem C93_line_up_violated (p b : ℕ) (hp : ∀ k, p ≠ 2 ^ k) (hp0 : 1 ≤ p) (hb : b = 1 ∨ b = 2)
    (l0 : ℕ) (h0 : p ≤ nodal l0 b) : ∃ l ≥ l0, ∃ dec d,
      componentDecomposition1d none (l + 1) (l + 1) b p false = some dec ∧
      componentDecomposition1d none (l + 1) l b p false = some d ∧
      ∃ y < nodal l b, ∃ c, Owns1d d (nodal l b) c y ∧
        ¬ Owns1d dec (nodal (l + 1) b) c (refIndex b 1 y) := by
  obtain ⟨l, hl, hne⟩ := down1_defaultBound_ne hp hp0 hb l0
  have hpl : p ≤ nodal l b := by
    have : 2 ^ l0 ≤ 2 ^ l := Nat.pow_le_pow_right (by omega) hl
    unfold nodal at h0 ⊢
    omega
  have hpL : p ≤ nodal (l + 1) b := by
    have : 2 ^ l ≤ 2 ^ (l + 1) := Nat.pow_le_pow_right (by omega) (by omega)
    unfold nodal at hpl ⊢
    omega
  have h2 : 2 ≤ p := by
    have := hp 0
    omega
  obtain ⟨dec, a1, a2, a3, -⟩ := (C12_default_decomposition (nodal (l + 1) b) p hp0 false).1 hpL
  obtain ⟨d, b1, b2, b3, -, b5⟩ := (C12_default_decomposition (nodal l b) p hp0 false).1 hpl
  refine ⟨l, hl, dec, d, (if_neg (by simp)).trans a1,
    (if_neg (by simp)).trans b1, ?_⟩
  by_contra hcon
  push Not at hcon
  have hb2 : b ≤ 2 := by omega
  obtain ⟨v1, v2⟩ := C16_downsample dec (l + 1) l b hb2 (by omega) a3
  rw [show l + 1 - l = 1 by omega] at v2
  -- the owners agree, so the second bounds agree
  have hown : ∀ y < nodal l b, stdLowerBound d (y + 1) =
      stdLowerBound (downsampleDecomposition1d dec (l + 1) l b) (y + 1) := by
    intro y hy
    have hpos := stdLowerBound_pos b3 y
    have h1 : Owns1d d (nodal l b) (stdLowerBound d (y + 1) - 1) y :=
      (owns1d_iff b3 _ _ hy).2 (by omega)
    have h3 := (owns1d_iff v1 _ _ hy).1 ((v2 _ y hy).2 (hcon y hy _ h1))
    omega
  rw [getDefaultDecomposition1d_eq hpL, Option.some.injEq] at a1
  rw [getDefaultDecomposition1d_eq hpl, Option.some.injEq] at b1
  have hlen : (downsampleDecomposition1d dec (l + 1) l b).length = p := by
    rw [downsample_eq_map, List.length_map, a2]
  have e1 : d[1]'(by omega) = defaultBound (nodal l b) p false 1 := by
    simp [← b1]
  have e2 : (downsampleDecomposition1d dec (l + 1) l b)[1]'(by omega) =
      down1 b 1 (defaultBound (nodal (l + 1) b) p false 1) := by
    simp only [downsample_eq_map, ← a1, List.getElem_map, List.getElem_range]
    rw [show l + 1 - l = 1 by omega]
  have hlt1 : d[1]'(by omega) < nodal l b := b5 _ (List.getElem_mem _)
  have key : ∀ y < nodal l b, d[1]'(by omega) ≤ y ↔
      (downsampleDecomposition1d dec (l + 1) l b)[1]'(by omega) ≤ y := by
    intro y hy
    have h1 := lt_stdLowerBound_iff d b3.sorted (y + 1) 1 (by omega)
    have h3 := lt_stdLowerBound_iff _ v1.sorted (y + 1) 1 (by omega)
    rw [hown y hy] at h1
    have := h1.symm.trans h3
    omega
  have k1 := (key _ hlt1).1 (le_refl _)
  have k2 := (key ((downsampleDecomposition1d dec (l + 1) l b)[1]'(by omega)) (by omega)).2 (le_refl _)
  rw [e1] at k1 k2
  rw [e2] at k1 k2
  omega

/-- With a one-sided boundary and `forwardDecomposition`, default decompositions line up for every number
of processes; this is the case which the assertion of l.638-640 excludes. -/
theorem C93_one_sided_forward (L l p : ℕ) (hl : l ≤ L) (hp : 1 ≤ p) (h : p ≤ nodal l 1) :
    ∃ dec, getDefaultDecomposition1d (nodal L 1) p true = some dec ∧
      getDefaultDecomposition1d (nodal l 1) p true = some (downsampleDecomposition1d dec L l 1) ∧
      componentDecomposition1d none L l 1 p true = none := by
  have hs : 0 < 2 ^ (L - l) := by positivity
  have hL2 : 2 ^ L = 2 ^ l * 2 ^ (L - l) := by rw [← pow_add]; congr 1; omega
  have hL : p ≤ nodal L 1 := by
    have : 2 ^ l ≤ 2 ^ L := Nat.pow_le_pow_right (by omega) hl
    unfold nodal at h ⊢
    omega
  refine ⟨_, getDefaultDecomposition1d_eq hL true, ?_, rfl⟩
  rw [getDefaultDecomposition1d_eq h, downsample_eq_map, List.map_map, Option.some.injEq]
  refine List.map_congr_left fun j _ => ?_
  refine eq_of_forall_ge_iff fun y => ?_
  rw [Function.comp_apply, down1, downsample_le_iff]
  unfold defaultBound nodal refIndex
  simp only [if_true, one_ne_zero, if_false, Nat.add_sub_cancel]
  rw [ceilDiv'_le_iff _ _ _ hp, ceilDiv'_le_iff _ _ _ hp, hL2]
  have e1 : 2 ^ l * 2 ^ (L - l) * j = 2 ^ l * j * 2 ^ (L - l) := by ring
  have e2 : y * 2 ^ (L - l) * p = y * p * 2 ^ (L - l) := by ring
  rw [e1, e2]
  exact (Nat.mul_le_mul_right_iff hs).symm

/-- The grids of levels 2 (first group) and 3 (second group) with values 10 and 100 and coefficients 1 on
three processes, as process 0 of the groups has them; `d2` and `d3` are the decompositions. -/
def misalignedTasks (d2 d3 : List ℕ) (g : ℕ) : List (ℤ × Dfg ℤ) :=
  if g = 0 then [(GroupTask.mk 1 [⟨2, 2, d2⟩] fun _ => ⟨1, fun _ => 10⟩).onProcess [0]]
  else [(GroupTask.mk 1 [⟨3, 2, d3⟩] fun _ => ⟨3, fun _ => 100⟩).onProcess [0]]

/-- Grids that do not line up are combined without any complaint, and the result is wrong: on three
processes without a given decomposition, process 0 has the first three of nine points of the grid of
level 3. The last of them is also on the grid of level 2, where it belongs to process 1; its value stays
100 although the combination of the grids is 110. -/
theorem C93_combination_violated : ∃ d2 d3,
    componentDecomposition1d none 3 2 2 3 false = some d2 ∧
    componentDecomposition1d none 3 3 2 3 false = some d3 ∧
    (misalignedTasks d2 d3 1).map (fun t => t.2.dims) = [[⟨3, 2, 0, 3⟩]] ∧
    refIndex 2 1 1 = 2 ∧ Owns1d d2 5 1 1 ∧ Owns1d d3 9 0 2 ∧
    ∀ variant, variant = .sparseGridReduce ∨ variant = .subspaceReduce →
      (combineVariant variant 5 [[1], [2], [3]] 2 (misalignedTasks d2 d3)).map (fun S =>
        (S 1).tasks.map fun t => (List.range t.2.data.len).map t.2.data.val) =
          some [[110, 100, 100]] := by
  refine ⟨[0, 1, 3], [0, 3, 6], by decide, by decide, rfl, by decide,
    ⟨1, 3, by decide, by decide, by decide, by decide⟩,
    ⟨0, 3, by decide, by decide, by decide, by decide⟩, ?_⟩
  rintro variant (rfl | rfl) <;> decide +kernel

/-- The decompositions of the tests (`getStandardDecomposition`) for one, two and four processes are the
default decompositions with `forwardDecomposition` of grids with boundary points. -/
theorem C93_standard_decomposition (l k : ℕ) (hk : k ≤ 2) (hl : k ≤ l) :
    getStandardDecomposition1d l (2 ^ k) = getDefaultDecomposition1d (nodal l 2) (2 ^ k) true := by
  have h2 : 2 ^ k ≤ 2 ^ l := Nat.pow_le_pow_right (by omega) hl
  rw [getDefaultDecomposition1d_eq (by unfold nodal; omega)]
  have hb : ∀ j < 2 ^ k, defaultBound (nodal l 2) (2 ^ k) true j =
      if j = 0 then 0 else 2 ^ (l - k) * j + 1 := by
    intro j hj
    rw [defaultBound_pow (by omega) hl true hj]
    simp
  rw [List.map_congr_left fun j hj => hb j (List.mem_range.1 hj)]
  have hk' : k = 0 ∨ k = 1 ∨ k = 2 := by omega
  have hpow : 2 ^ l = 2 ^ k * 2 ^ (l - k) := by rw [← pow_add]; congr 1; omega
  rcases hk' with rfl | rfl | rfl
  · rfl
  · have hpow' : 2 ^ l = 2 * 2 ^ (l - 1) := hpow
    rw [show getStandardDecomposition1d l (2 ^ 1) = some [0, 2 ^ l / 2 + 1] from rfl,
      show List.range (2 ^ 1) = [0, 1] from rfl, hpow']
    generalize 2 ^ (l - 1) = e
    simp only [List.map_cons, List.map_nil, Option.some.injEq, List.cons.injEq, and_true, true_and,
      if_true,
      one_ne_zero, if_false]
    omega
  · have hpow' : 2 ^ l = 4 * 2 ^ (l - 2) := hpow
    rw [show getStandardDecomposition1d l (2 ^ 2) =
        some [0, 2 ^ l / 4 + 1, 2 * 2 ^ l / 4 + 1, 3 * 2 ^ l / 4 + 1] from rfl,
      show List.range (2 ^ 2) = [0, 1, 2, 3] from rfl, hpow']
    generalize 2 ^ (l - 2) = e
    simp only [List.map_cons, List.map_nil, Option.some.injEq, List.cons.injEq, and_true, true_and,
      if_true,
      one_ne_zero, if_false, OfNat.ofNat_ne_zero]
    omega

/-- For three processes they are not (`tests/test_integration.cpp` l.141 says they should be). -/
theorem C93_standard_violated : getStandardDecomposition1d 2 3 = some [0, 2, 3] ∧
    getDefaultDecomposition1d (nodal 2 2) 3 true = some [0, 2, 4] := by decide

/-! ### The hypotheses can be met -/

/-- Four processes, levels 2 and 5: also without boundary points the processes have points. -/
example : (4 ≤ nodal 2 2) ∧ ¬ (4 ≤ nodal 2 0) ∧ 3 ≤ nodal 2 0 ∧
    getDefaultDecomposition1d (nodal 5 0) 3 false = some [0, 10, 20] ∧
    componentDecomposition1d (some [0, 10, 20]) 5 2 0 3 false = some [0, 1, 2] := by decide

example : ValidDec [0, 1, 1] 2 ∧ 2 < [0, 1, 1].length := ⟨⟨rfl, by decide, by decide⟩, by decide⟩

example : componentDecomposition1d none 3 3 2 4 false = some [0, 2, 4, 6] ∧
    componentDecomposition1d none 3 2 2 4 false = some [0, 1, 2, 3] := by decide

example : (∀ k, 3 ≠ 2 ^ k) ∧ 3 ≤ nodal 1 2 := by
  refine ⟨fun k => ?_, by decide⟩
  match k with
  | 0 => decide
  | 1 => decide
  | k + 2 =>
    have : 0 < 2 ^ k := by positivity
    rw [pow_add]
    omega

/-- `layoutRefs` of C92 uses a default decomposition. -/
example (v : List ℕ → ℚ) :
    (∀ r ∈ layoutRefs, ∃ forward,
      getDefaultDecomposition1d (nodal r.level r.boundary) r.dec.length forward = some r.dec) ∧
    ∀ g < 2, ∀ t ∈ serialSystem v g, ValidComponent layoutRefs t.2.1 ∧
      List.Forall₂ (fun l (r : RefDim) => r.dec.length ≤ nodal l r.boundary) t.2.1 layoutRefs := by
  constructor
  · intro r hr
    simp only [layoutRefs, List.mem_cons, List.not_mem_nil, or_false] at hr
    rcases hr with rfl | rfl
    · exact ⟨false, by decide⟩
    · exact ⟨false, by decide⟩
  · intro g _ t ht
    have h : t.2.1 = [1, 1] ∨ t.2.1 = [1, 2] ∨ t.2.1 = [2, 1] := by
      simpa using (serialSystem_mem ht).1
    rcases h with h | h | h <;> rw [h] <;>
      exact ⟨⟨by decide, by simp [layoutRefs]⟩, by simp [layoutRefs, nodal]⟩

end Verif

import Verif.Lemmas.RoundedTotal
import Verif.Props.CombinedValues
import Verif.Props.Kahan

/-!
# C114: a complete combination in rounded arithmetic is the combination of the component interpolants up to
a small multiple of the unit roundoff

`refs` gives the reference grid and the decomposition in every dimension, `T` the component grids of all
groups with the values of the whole grids. `A` are the additions and subtractions of the machine, `mul` its
multiplication; their relative error is at most `u`. `order c g i` is the order in which MPI adds the
elements with index `i` of the groups for the processes at position `c` of group `g`. `interpAt refs L v z`
is the multilinear interpolant of the values `v` on the grid of level `L`, at the point of the reference grid
with index `z`.
-/

namespace Verif

variable {K : Type} [Field K]

section Errors

variable [LinearOrder K] [IsStrictOrderedRing K]

theorem combineFactor_le {u : K} (u0 : 0 ≤ u) {N n p : ℕ} (hNu : 8 * (N * u) ≤ 1)
    (hs : (4 * (p + n) + 39) * u ≤ 1) :
    combineFactor u N n * (2 + 4 * u) ^ p - 2 ^ p + 6 * u * (2 ^ p - 1) ≤
      2 ^ p * ((4 * (p + n) + 39) * u) := by
  have h1 : combineFactor u N n ≤ (1 + 11 * u) * (1 + 2 * u) ^ n := by
    unfold combineFactor
    have e1 : 17 * N * u ^ 2 ≤ 3 * u := by
      have := mul_le_mul_of_nonneg_right hNu u0
      nlinarith
    have e2 : (1 + u) ^ (n - 1) ≤ (1 + 2 * u) ^ n :=
      (pow_le_pow_left₀ (by linarith) (by linarith) _).trans
        (pow_le_pow_right₀ (by linarith) (Nat.sub_le _ _))
    have e3 : (0 : K) ≤ 17 * N * u ^ 2 := by positivity
    exact mul_le_mul (by linarith) e2 (by positivity) (by positivity)
  have hp0 : (0 : K) < 2 ^ p := by positivity
  have h2 : (2 + 4 * u) ^ p = 2 ^ p * (1 + 2 * u) ^ p := by
    rw [← mul_pow]
    congr 1
    ring
  have hm0 : (0 : K) ≤ (p + n) * u := by positivity
  have h3 : (1 + 2 * u) ^ (n + p) ≤ 1 + 4 * ((p + n) * u) := by
    have := one_add_pow_le (x := 2 * u) (by positivity) (n + p) (by push_cast; nlinarith)
    push_cast at this
    nlinarith
  have h4 : combineFactor u N n * (2 + 4 * u) ^ p ≤
      2 ^ p * ((1 + 11 * u) * (1 + 4 * ((p + n) * u))) := by
    rw [h2]
    have e1 : (1 + 11 * u) * (1 + 2 * u) ^ (n + p) ≤ (1 + 11 * u) * (1 + 4 * ((p + n) * u)) :=
      mul_le_mul_of_nonneg_left h3 (by positivity)
    have e2 := mul_le_mul_of_nonneg_right h1 (show 0 ≤ (1 + 2 * u) ^ p by positivity)
    have e3 := mul_le_mul_of_nonneg_left (e2.trans (le_of_eq (by rw [pow_add]; ring) : _ ≤
      (1 + 11 * u) * (1 + 2 * u) ^ (n + p))) hp0.le
    have e4 := mul_le_mul_of_nonneg_left e1 hp0.le
    calc _ = 2 ^ p * (combineFactor u N n * (1 + 2 * u) ^ p) := by ring
      _ ≤ _ := e3
      _ ≤ _ := e4
  have h5 : (1 + 11 * u) * (1 + 4 * ((p + n) * u)) ≤ 1 + (4 * (p + n) + 33) * u := by
    have : 4 * ((p + n) * u) ≤ 1 := by nlinarith
    have := mul_le_mul_of_nonneg_left this (show 0 ≤ 11 * u by positivity)
    nlinarith
  have h6 := mul_le_mul_of_nonneg_left h5 hp0.le
  nlinarith

/-- C114 (partial: with the variant `sparseGridReduce` and hat functions; the minimum level does not exceed
the levels of the tasks; dimensions which are not hierarchized have the same level in all tasks). The values
of the `n` groups are at most `M`, `N` is the largest number of tasks of a group, `D` the number of
hierarchized dimensions. At every point of every process, the value after the combination differs from the sum over all component grids of
coefficient times interpolated value by at most `2^D (4 (D + n) + 39) u` times the sum of the absolute values of
the coefficients times `M`, times the product over the hierarchized dimensions of the number of levels plus
one. -/
theorem C114_combine_partial [FloorRing K]
    (refs : List RefDim) (P : CombineParams) (levels : List (List ℕ)) (n : ℕ)
    (T : ℕ → List (K × List ℕ × (ℕ → K))) (h : ValidSystem refs levels n T) (hP : ParamsOk refs P)
    (hhat : ∀ β ∈ P.bases, β = .hat) (hne : NonEmptyParts refs n T)
    (htotal : ∀ c, InGroup refs c → (levels.map (subspaceCount (atProcess refs c))).sum < 2 ^ 32)
    (maxChunk : ℕ) (hpos : 0 < maxChunk) (hmax : maxChunk < 2 ^ 31)
    (hT : ∀ g < n, ∀ t ∈ T g,
      List.Forall₂ (· ≤ ·) (effectiveLMin P.boundary P.lmin) t.2.1 ∧
      ∀ g' < n, ∀ t' ∈ T g', ∀ k < refs.length, P.sel.getD k false = false →
        t'.2.1.getD k 0 = t.2.1.getD k 0)
    (S : ℕ → List (GroupTask K)) (hS : ∀ g < n, List.Forall₂ (HoldsParts refs) (T g) (S g))
    (u : K) (u0 : 0 ≤ u) (u1 : 16 * u ≤ 1) (A : Adder K) (hA : Rounds u A) (mul : K → K → K)
    (hmul : ∀ a b, |mul a b - a * b| ≤ u * |a * b|) (order : List ℕ → ℕ → ℕ → SumOrder)
    (horder : ∀ c, InGroup refs c → ∀ g < n, ∀ i, (order c g i).Valid n)
    (N : ℕ) (hN : ∀ g < n, (T g).length ≤ N) (hNu : 8 * (N * u) ≤ 1) (M : K) (hM : 0 ≤ M)
    (hval : ∀ g < n, ∀ t ∈ T g, ∀ p < numLocal (oneProcess refs) t.2.1, |t.2.2 p| ≤ M)
    (D : ℕ) (hD : D = (selectedDims P.sel).length)
    (hsmall : ∀ g < n, ∀ t ∈ T g,
      (levelProduct P t.2.1 : K) * (2 ^ D * ((4 * (D + n) + 39) * u)) ≤ 1)
    (junk junk' : ℕ → ℕ → List ℕ → ℕ → ℕ → ℕ → K) :
    ∃ R, roundedCombineAtOnce A mul order (refs.map fun r => r.dec.length) P maxChunk levels n junk junk' S =
        some R ∧
      ∀ g < n, List.Forall₂ (fun t gt => gt.coeff = t.1 ∧ gt.dims = compGrid refs t.2.1 ∧
        ∀ c, InGroup refs c → (gt.data c).len = numLocal (atProcess refs c) t.2.1 ∧
          ∀ q < numLocal (atProcess refs c) t.2.1,
            |(gt.data c).val q - ((List.range n).map fun m => ((T m).map fun t' =>
              t'.1 * interpAt refs t'.2.1 t'.2.2 (spatialOf (atProcess refs c) t.2.1 q)).sum).sum| ≤
            levelProduct P t.2.1 * (2 ^ D * ((4 * (D + n) + 39) * u)) *
              (((List.range n).map fun m => ((T m).map fun t' => |t'.1|).sum).sum * M)) (T g) (R g) := by
  subst hD
  have hlp : ∀ L, (1 : K) ≤ levelProduct P L := by
    intro L
    have : 0 < levelProduct P L := by
      unfold levelProduct
      refine List.prod_pos fun x hx => ?_
      obtain ⟨k, -, rfl⟩ := List.mem_map.1 hx
      omega
    exact_mod_cast this
  have hcf : ∀ g < n, ∀ t ∈ T g, combineFactor u N n * (2 + 4 * u) ^ (selectedDims P.sel).length -
      2 ^ (selectedDims P.sel).length + 6 * u * (2 ^ (selectedDims P.sel).length - 1) ≤
      2 ^ (selectedDims P.sel).length * ((4 * ((selectedDims P.sel).length + n) + 39) * u) := by
    intro g hg t ht
    refine combineFactor_le u0 hNu ?_
    have h1 := hsmall g hg t ht
    have h2 := hlp t.2.1
    have h3 : (1 : K) ≤ 2 ^ (selectedDims P.sel).length := one_le_pow₀ (by norm_num)
    have h4 : (0 : K) ≤ (4 * ((selectedDims P.sel).length + n) + 39) * u := by positivity
    have h5 := mul_le_mul_of_nonneg_right h3 h4
    have h6 := mul_le_mul_of_nonneg_right h2 (h4.trans (by linarith : _ ≤
      2 ^ (selectedDims P.sel).length * ((4 * ((selectedDims P.sel).length + n) + 39) * u)))
    linarith
  obtain ⟨R, r1, r2⟩ := total_close (N := N) u0 u1 hA hmul horder h hP hhat hne hpos hmax htotal
    (fun g hg t ht => ⟨(hT g hg t ht).1, fun g' hg' t' ht' k hk hs =>
      le_of_eq ((hT g hg t ht).2 g' hg' t' ht' k hk hs)⟩) hS hN hNu hM hval (fun g hg t ht =>
      (mul_le_mul_of_nonneg_left (hcf g hg t ht) (by linarith [hlp t.2.1])).trans (hsmall g hg t ht))
    junk junk'
  refine ⟨R, r1, fun g hg => ?_⟩
  rw [List.forall₂_iff_get]
  refine ⟨(r2 g hg).length_eq, fun i hi hi' => ?_⟩
  obtain ⟨W, ⟨w1, w2, w3⟩, w4⟩ := (List.forall₂_iff_get.1 (r2 g hg)).2 i hi hi'
  have ht := List.get_mem (T g) ⟨i, hi⟩
  refine ⟨w1, w2, fun c hc => ⟨(w3 c hc).1, fun q hq => ?_⟩⟩
  obtain ⟨g1, g2⟩ := globalOf_spec h.ref (h.comp g hg _ ht) hc hq
  rw [(w3 c hc).2 q hq, ← g2]
  have hb := mul_le_mul_of_nonneg_left (mul_le_mul_of_nonneg_right (hcf g hg _ ht)
    (mul_nonneg (absSum_nonneg n T) hM)) (zero_le_one.trans (hlp ((T g).get ⟨i, hi⟩).2.1))
  exact ((w4 _ g1).trans hb).trans (le_of_eq (mul_assoc _ _ _).symm)

end Errors

/-! ### Without rounding -/

theorem SumOrder.eval_sum (x : ℕ → K) (o : SumOrder) :
    o.eval (fun a b => a + b) x = (o.groups.map x).sum := by
  induction o with
  | one g => simp [SumOrder.eval, SumOrder.groups]
  | add a b iha ihb => simp [SumOrder.eval, SumOrder.groups, iha, ihb]

theorem allreduceCallWith_exact {n : ℕ} {order : ℕ → ℕ → SumOrder}
    (h : ∀ g < n, ∀ i, (order g i).Valid n) {ds : List (Buf K)} (hl : ds.length = n) (offset count : ℕ) :
    allreduceCallWith (Adder.exact K).add order ds offset count = allreduceCall ds offset count := by
  unfold allreduceCallWith allreduceCall
  apply List.ext_getElem
  · simp
  · intro g h1 h2
    have hg : g < n := by simpa [hl] using h2
    simp only [List.getElem_map, List.getElem_zipIdx, Nat.zero_add]
    congr 1
    funext i
    split
    · have e : (order g i).eval (Adder.exact K).add (fun g => (ds.map fun e => e.val i).getD g 0) =
          ((order g i).groups.map fun g => (ds.map fun e => e.val i).getD g 0).sum :=
        SumOrder.eval_sum _ _
      rw [e, ((h g hg i).map _).sum_eq]
      congr 1
      apply List.ext_getElem
      · simp [hl]
      · intro j j1 j2
        rw [List.getElem_map, List.getElem_range, List.getD_eq_getElem]
    · rfl

theorem sparseGridReduce_congr {n : ℕ} {c1 c2 : List (Buf K) → ℕ → ℕ → List (Buf K)}
    (h : ∀ ds, ds.length = n → ∀ o k, c1 ds o k = c2 ds o k ∧ (c2 ds o k).length = n) (chunk : ℤ)
    (ds : List (Buf K)) (hl : ds.length = n) : sparseGridReduce c1 chunk ds = sparseGridReduce c2 chunk ds := by
  unfold sparseGridReduce
  congr 1
  funext calls
  cases calls with
  | nil => rfl
  | cons cs rest =>
    simp only
    split
    · clear * - h hl
      induction cs generalizing ds with
      | nil => rfl
      | cons c cs ih =>
        rw [List.foldlM_cons, List.foldlM_cons]
        split
        · obtain ⟨e1, e2⟩ := h ds hl c.1 c.2.toNat
          rw [e1]
          exact ih _ e2
        · rfl
    · rfl

theorem machine_exact (g : List DistDim) (junk : List ℕ → ℕ → ℕ → ℕ → K) (dims : List ℕ)
    (S : List ℕ → Buf K) :
    distributedHierarchizeWith (Arith.machine (Adder.exact K)) g junk dims S =
      distributedHierarchize g junk dims S ∧
    distributedDehierarchizeWith (Arith.machine (Adder.exact K)) g junk dims S =
      distributedDehierarchize g junk dims S :=
  C113_exact g junk dims S

/-- C114, without rounding: the model with the arithmetic of a machine is the one of C68 and C94. -/
theorem C114_exact (layout : List ℕ) (P : CombineParams) (maxChunk : ℕ) (levels : List (List ℕ)) (n : ℕ)
    (order : List ℕ → ℕ → ℕ → SumOrder) (horder : ∀ c, ∀ g < n, ∀ i, (order c g i).Valid n)
    (junk junk' : ℕ → ℕ → List ℕ → ℕ → ℕ → ℕ → K) (S : ℕ → List (GroupTask K)) :
    roundedCombineAtOnce (Adder.exact K) (fun a b => a * b) order layout P maxChunk levels n junk junk' S =
      distributedCombineAtOnce layout P .sparseGridReduce maxChunk levels n junk junk' S := by
  have h1 : groupHierarchizeWith (Arith.machine (Adder.exact K)) P = groupHierarchize P := by
    funext junk tasks
    unfold groupHierarchizeWith groupHierarchize
    simp only [(machine_exact _ _ _ _).1]
  have h2 : groupDehierarchizeWith (Arith.machine (Adder.exact K)) P = groupDehierarchize P := by
    funext junk tasks
    unfold groupDehierarchizeWith groupDehierarchize
    simp only [(machine_exact _ _ _ _).2]
  have h3 : ∀ c (tasks : ℕ → List (K × Dfg K)),
      combineRounded (Adder.exact K) (fun a b => a * b) (order c) maxChunk levels n tasks =
        combineVariant .sparseGridReduce maxChunk levels n tasks := by
    intro c tasks
    unfold combineRounded combineVariant sparseGridReduceVariant combineSparseGridReduceWith
      combineSparseGridReduce
    congr 1
    funext dsgs
    congr 1
    funext S
    rw [sparseGridReduce_congr (n := n) (c2 := allreduceCall) (fun ds hl o k =>
      ⟨allreduceCallWith_exact (horder c) hl o k, by unfold allreduceCall; simpa using hl⟩) _ _ (by simp)]
  unfold roundedCombineAtOnce distributedCombineAtOnce combinePositionsRounded combinePositions
  rw [h1, h2]
  simp only [h3]

/-! ### Example -/

/-- the hypotheses hold with a relative error of 2⁻⁵³ on two processes per group, for groups with values of at
most one -/
example (v : List ℕ → ℚ) (hv : ∀ z, |v z| ≤ 1) :
    let P : CombineParams := ⟨[2, 0], [true, true], [.hat, .hat], [1, 1]⟩
    let u : ℚ := 1 / 2 ^ 53
    let o : SumOrder := .add (.one 1) (.one 0)
    ValidSystem layoutRefs [[1, 1], [1, 2], [2, 1]] 2 (serialSystem v) ∧ ParamsOk layoutRefs P ∧
    NonEmptyParts layoutRefs 2 (serialSystem v) ∧
    (∀ g < 2, List.Forall₂ (HoldsParts layoutRefs) (serialSystem v g) (layoutTasks v g)) ∧
    Rounds u (roundUp u) ∧ (∀ a b : ℚ, |a * b * (1 + u) - a * b| ≤ u * |a * b|) ∧ o.Valid 2 ∧
    (∀ g < 2, (serialSystem v g).length ≤ 2) ∧ 8 * (2 * u) ≤ 1 ∧
    (∀ g < 2, ∀ t ∈ serialSystem v g, ∀ p < numLocal (oneProcess layoutRefs) t.2.1, |t.2.2 p| ≤ 1) ∧
    2 = (selectedDims P.sel).length ∧
    (∀ g < 2, ∀ t ∈ serialSystem v g,
      (levelProduct P t.2.1 : ℚ) * (2 ^ 2 * ((4 * ((2 : ℕ) + (2 : ℕ)) + 39) * u)) ≤ 1) := by
  refine ⟨layoutRefs_valid v, ⟨rfl, rfl, rfl, ?_⟩, layoutRefs_nonEmpty v, ?_,
    rounds_roundUp _ (by norm_num), fun a b => ?_, ?_, ?_, by norm_num, ?_, by decide +kernel, ?_⟩
  · exact .cons (Or.inl ⟨rfl, by decide⟩) (.cons (Or.inl ⟨rfl, by decide⟩) .nil)
  · intro g _
    unfold layoutTasks
    rw [List.forall₂_map_right_iff]
    exact List.forall₂_same.2 fun t _ => ⟨rfl, rfl, fun c _ => ⟨rfl, fun _ _ => rfl⟩⟩
  · rw [show a * b * (1 + 1 / 2 ^ 53) - a * b = 1 / 2 ^ 53 * (a * b) by ring, abs_mul,
      abs_of_nonneg (by norm_num : (0 : ℚ) ≤ 1 / 2 ^ 53)]
  · unfold SumOrder.Valid
    decide +kernel
  · intro g _
    unfold serialSystem
    split <;> simp
  · intro g _ t ht p _
    rw [(serialSystem_mem ht).2 p]
    exact hv _
  · intro g _ t ht
    have h : t.2.1 = [1, 1] ∨ t.2.1 = [1, 2] ∨ t.2.1 = [2, 1] := by simpa using (serialSystem_mem ht).1
    have h2 : levelProduct ⟨[2, 0], [true, true], [.hat, .hat], [1, 1]⟩ t.2.1 ≤ 6 := by
      rcases h with h | h | h <;> rw [h] <;> decide +kernel
    have h3 : (levelProduct ⟨[2, 0], [true, true], [.hat, .hat], [1, 1]⟩ t.2.1 : ℚ) ≤ 6 := by
      exact_mod_cast h2
    refine (mul_le_mul_of_nonneg_right h3 (by norm_num)).trans ?_
    norm_num

end Verif

import Verif.Model.IndexRange
import Verif.Props.Indexing
import Mathlib.Algebra.Order.BigOperators.Group.List
import Mathlib.Algebra.Order.BigOperators.GroupWithZero.List
import Mathlib.Tactic.Ring

/-!
# C90: index arithmetic stays within its integer type
-/

namespace Verif.IndexRange

private lemma prod_pos {es : List ℕ} (h : ∀ e ∈ es, 0 < e) : 0 < es.prod := by
  induction es with
  | nil => simp
  | cons e es ih =>
    rw [List.prod_cons]
    exact Nat.mul_pos (h e (by simp)) (ih fun x hx => h x (by simp [hx]))

private lemma int32_ok {x : ℕ} (h : x < 2 ^ 31) : int32 x = .ok x := if_pos h

private lemma offsetsLoop32_eq : ∀ (es : List ℕ) (a : ℕ), (∀ e ∈ es, 0 < e) →
    a * es.prod < 2 ^ 31 → offsetsLoop32 es a = .ok (offsetsLoop es a, a * es.prod)
  | [], a, _, _ => by simp [offsetsLoop32, offsetsLoop]
  | e :: es, a, hpos, hlt => by
    have hp := prod_pos fun x hx => hpos x (List.mem_cons_of_mem e hx)
    have h1 : a * e * es.prod < 2 ^ 31 := by rw [mul_assoc, ← List.prod_cons]; exact hlt
    have h2 : a * e < 2 ^ 31 := lt_of_le_of_lt (Nat.le_mul_of_pos_right _ hp) h1
    have ih := offsetsLoop32_eq es (a * e) (fun x hx => hpos x (by simp [hx])) h1
    simp only [offsetsLoop32, int32_ok h2, Outcome.bind, ih, offsetsLoop, List.prod_cons, mul_assoc]

private lemma productLoop_eq : ∀ (es : List ℕ) (a : ℕ), (∀ e ∈ es, 0 < e) →
    a * es.prod < 2 ^ 31 → productLoop es a = .ok (a * es.prod)
  | [], a, _, _ => by simp [productLoop]
  | e :: es, a, hpos, hlt => by
    have hp := prod_pos fun x hx => hpos x (List.mem_cons_of_mem e hx)
    have h1 : a * e * es.prod < 2 ^ 31 := by rw [mul_assoc, ← List.prod_cons]; exact hlt
    have h2 : a * e < 2 ^ 31 := lt_of_le_of_lt (Nat.le_mul_of_pos_right _ hp) h1
    have ih := productLoop_eq es (a * e) (fun x hx => hpos x (by simp [hx])) h1
    simp only [productLoop, int32_ok h2, Outcome.bind, ih, List.prod_cons, mul_assoc]

/-- What `size` accumulates is the number of elements modulo `2 ^ 32`. -/
theorem accumulated_eq (es : List ℕ) : accumulated es = es.prod % 2 ^ 32 := by
  have h : ∀ (es : List ℕ) (a : ℕ),
      es.foldl (fun a e => a * e % 2 ^ 32) (a % 2 ^ 32) = a * es.prod % 2 ^ 32 := by
    intro es
    induction es with
    | nil => intro a; simp
    | cons e es ih =>
      intro a
      rw [List.foldl_cons, Nat.mod_mul_mod, ih, List.prod_cons, mul_assoc]
  have := h es 1
  rwa [one_mul] at this

private lemma size32_eq {es : List ℕ} (hne : es ≠ []) (hlt : es.prod < 2 ^ 31 - 1) :
    size32 es = .ok es.prod := by
  have e : accumulated es = es.prod := by rw [accumulated_eq, Nat.mod_eq_of_lt (by omega)]
  rw [size32, if_neg hne, e, if_pos hlt]

private lemma indexer_new {es : List ℕ} (hne : es ≠ []) (hpos : ∀ e ∈ es, 0 < e)
    (hlt : es.prod < 2 ^ 31 - 1) : Indexer.new es = .ok ⟨es, tensorOffsets es⟩ := by
  rw [Indexer.new, offsetsLoop32_eq es 1 hpos (by omega)]
  simp only [Outcome.bind, size32_eq hne hlt, one_mul, if_true]
  rfl

private lemma innerProduct_eq : ∀ (es is : List ℕ) (a acc : ℕ), List.Forall₂ (· < ·) is es →
    acc + a * sequentialIndex es is < 2 ^ 31 →
    innerProduct is (offsetsLoop es a) acc = .ok (acc + a * sequentialIndex es is) := by
  intro es is a acc h
  induction h generalizing a acc with
  | nil => intro _; simp [innerProduct, sequentialIndex_nil]
  | cons h1 h2 ih =>
    rename_i i e is es
    intro hlt
    rw [sequentialIndex_cons] at hlt ⊢
    have e1 : acc + a * (i + e * sequentialIndex es is) =
        acc + i * a + a * e * sequentialIndex es is := by ring
    rw [e1] at hlt ⊢
    have hia : i * a < 2 ^ 31 := by omega
    have hacc : acc + i * a < 2 ^ 31 := by omega
    simp only [offsetsLoop, innerProduct, int32_ok hia, Outcome.bind, int32_ok hacc]
    exact ih (a * e) (acc + i * a) hlt

private lemma sequential_ok {es is : List ℕ} (his : List.Forall₂ (· < ·) is es)
    (hlt : es.prod < 2 ^ 31 - 1) :
    (Indexer.mk es (tensorOffsets es)).sequentialIndex is = .ok (Verif.sequentialIndex es is) := by
  have hs := sequentialIndex_lt es is his
  have h := innerProduct_eq es is 1 0 his (by omega)
  simpa [Indexer.sequentialIndex, tensorOffsets] using h

private lemma offsets_pos : ∀ (es : List ℕ) (a : ℕ), 0 < a → (∀ e ∈ es, 0 < e) →
    0 ∉ offsetsLoop es a
  | [], _, _, _ => by simp [offsetsLoop]
  | e :: es, a, ha, hpos => by
    simp only [offsetsLoop, List.mem_cons, not_or]
    exact ⟨by omega, offsets_pos es (a * e) (Nat.mul_pos ha (hpos e (by simp)))
      fun x hx => hpos x (by simp [hx])⟩

/-- **C90 (indices of a tensor).** For a non-empty tensor with fewer than `2 ^ 31 - 1` elements the
32-bit computations of offsets, size, linear and vector indices neither overflow nor violate an
assertion, and give the exact numbers. -/
theorem C90_tensor_partial (es : List ℕ) (hne : es ≠ []) (hpos : ∀ e ∈ es, 0 < e)
    (hlt : es.prod < 2 ^ 31 - 1) :
    ∃ t, Indexer.new es = .ok t ∧ size32 t.extents = .ok es.prod ∧
      (∀ is, List.Forall₂ (· < ·) is es →
        t.sequentialIndex is = .ok (Verif.sequentialIndex es is)) ∧
      ∀ n < es.prod, t.getVectorIndex n = .ok (Verif.getVectorIndex es n) := by
  refine ⟨⟨es, tensorOffsets es⟩, indexer_new hne hpos hlt, size32_eq hne hlt,
    fun is his => sequential_ok his hlt, fun n _ => ?_⟩
  exact if_neg (offsets_pos es 1 (by omega) hpos)

example : ∃ t, Indexer.new [1025, 1025, 1025] = .ok t ∧ size32 t.extents = .ok (1025 ^ 3) := by
  obtain ⟨t, h1, h2, _⟩ := C90_tensor_partial [1025, 1025, 1025] (by simp) (by simp) (by norm_num)
  exact ⟨t, h1, h2⟩

private lemma forall₂_lt_le {a b c : List ℕ} (h : List.Forall₂ (· < ·) a b)
    (h' : List.Forall₂ (· ≤ ·) b c) : List.Forall₂ (· < ·) a c := by
  induction h generalizing c with
  | nil => cases h'; exact List.Forall₂.nil
  | cons h1 _ ih =>
    cases h' with
    | cons h3 h4 => exact List.Forall₂.cons (lt_of_lt_of_le h1 h3) (ih h4)

private lemma local_facts {g : List Dim1} (h : ValidGrid g) {c : List ℕ} (hc : ValidCoords g c)
    (hpos : ∀ e ∈ localSizes g c, 0 < e) :
    (localSizes g c).length = g.length ∧ (localSizes g c).prod ≤ (globalSizes g).prod ∧
      (∀ e ∈ globalSizes g, 0 < e) ∧
      List.Forall₂ (· < ·) (lowerBounds g c) (globalSizes g) := by
  unfold ValidCoords at hc
  induction hc with
  | nil => simp [localSizes, lowerBounds, upperBounds, globalSizes]
  | cons hc0 hcs ih =>
    rename_i c0 d cs g
    obtain ⟨lo, hi, h1, h2, h3, h4⟩ := bounds1d (h d (by simp)) hc0
    have hl : localSizes (d :: g) (c0 :: cs) = (hi - lo) :: localSizes g cs := by
      simp [localSizes, lowerBounds, upperBounds, h1, h2]
    rw [hl] at hpos ⊢
    obtain ⟨i1, i2, i3, i4⟩ := ih (fun d hd => h d (by simp [hd]))
      (fun e he => hpos e (by simp [he]))
    have h5 := hpos (hi - lo) (by simp)
    refine ⟨by simp [i1], ?_, ?_, ?_⟩
    · rw [List.prod_cons, globalSizes, List.map_cons, List.prod_cons]
      exact Nat.mul_le_mul (by omega) i2
    · intro e he
      rw [globalSizes, List.map_cons, List.mem_cons] at he
      rcases he with rfl | he
      · omega
      · exact i3 e he
    · simp only [lowerBounds, List.zipWith_cons_cons, globalSizes, List.map_cons, h1,
        Option.getD_some]
      exact List.Forall₂.cons (by omega) i4

/-- **C90 (indices of a distributed grid).** On every process that has points of a grid with fewer
than `2 ^ 31 - 1` points the constructor and the translation of local into global indices neither
overflow nor violate an assertion, and give the exact indices. Missing from the full claim: larger
grids, for which the assertions need not fail (`C90_assertion_violated`), and the rule for the
admitted levels in the sources (`C90_levels_violated`). -/
theorem C90_grid_partial (g : List Dim1) (hne : g ≠ []) (h : ValidGrid g) (c : List ℕ)
    (hc : ValidCoords g c) (hpos : ∀ e ∈ localSizes g c, 0 < e)
    (hlt : (globalSizes g).prod < 2 ^ 31 - 1) :
    ∃ G, Grid.new g c = .ok G ∧ ∀ loc < (localSizes g c).prod,
      G.getGlobalLinearIndex loc = .ok (Verif.getGlobalLinearIndex g c loc) := by
  obtain ⟨hlen, hle, hgpos, hlow⟩ := local_facts h hc hpos
  have hne' : globalSizes g ≠ [] := by simpa [globalSizes] using hne
  have hnel : localSizes g c ≠ [] := by
    intro h0; rw [h0] at hlen; exact hne (List.length_eq_zero_iff.mp hlen.symm)
  refine ⟨⟨⟨globalSizes g, tensorOffsets (globalSizes g)⟩,
    Verif.sequentialIndex (globalSizes g) (lowerBounds g c),
    ⟨localSizes g c, tensorOffsets (localSizes g c)⟩⟩, ?_, ?_⟩
  · rw [Grid.new, productLoop_eq _ _ hgpos (by omega)]
    simp only [Outcome.bind, indexer_new hne' hgpos hlt, sequential_ok hlow hlt,
      indexer_new hnel hpos (by omega : (localSizes g c).prod < 2 ^ 31 - 1)]
  · intro loc hloc
    obtain ⟨e1, e2, e3, e4⟩ := C13_local_to_global g h c hc loc hloc
    have hbound : Verif.getGlobalLinearIndex g c loc < (globalSizes g).prod := by
      rw [e1]; exact sequentialIndex_lt _ _ e3
    obtain ⟨a1, a2⟩ := getVectorIndex_spec _ _ hloc
    have haxis : List.Forall₂ (· < ·) (Verif.getVectorIndex (localSizes g c) loc)
        (globalSizes g) := by
      have hlg : List.Forall₂ (· ≤ ·) (localSizes g c) (globalSizes g) := by
        clear a1 a2 hbound e1 e2 e3 e4 hloc hnel hne' hle hlen hlt hne hgpos hlow hpos
        unfold ValidCoords at hc
        induction hc with
        | nil => simp [localSizes, lowerBounds, upperBounds, globalSizes]
        | cons hc0 hcs ih =>
          rename_i c0 d cs g
          obtain ⟨lo, hi, h1, h2, h3, h4⟩ := bounds1d (h d (by simp)) hc0
          have hl : localSizes (d :: g) (c0 :: cs) = (hi - lo) :: localSizes g cs := by
            simp [localSizes, lowerBounds, upperBounds, h1, h2]
          rw [hl, globalSizes, List.map_cons]
          exact List.Forall₂.cons (by omega) (ih fun d hd => h d (by simp [hd]))
      exact forall₂_lt_le a1 hlg
    have hdef : Verif.getGlobalLinearIndex g c loc =
        Verif.sequentialIndex (globalSizes g) (lowerBounds g c) +
          Verif.sequentialIndex (globalSizes g) (Verif.getVectorIndex (localSizes g c) loc) := rfl
    have hvec : (Indexer.mk (localSizes g c) (tensorOffsets (localSizes g c))).getVectorIndex loc =
        .ok (Verif.getVectorIndex (localSizes g c) loc) :=
      if_neg (offsets_pos _ 1 (by omega) hpos)
    rw [Grid.getGlobalLinearIndex,
      size32_eq hnel (by omega : (localSizes g c).prod < 2 ^ 31 - 1)]
    simp only [Outcome.bind, if_pos hloc, hvec, sequential_ok haxis hlt, ← hdef,
      int32_ok (by omega : Verif.getGlobalLinearIndex g c loc < 2 ^ 31), size32_eq hne' hlt,
      if_pos hbound]

example : ∃ G, Grid.new [⟨[0, 20000], 40000⟩, ⟨[0, 10000], 50000⟩] [1, 1] = .ok G ∧
    G.getGlobalLinearIndex 799999999 = .ok 1999999999 := by
  have hv : ValidGrid [⟨[0, 20000], 40000⟩, ⟨[0, 10000], 50000⟩] := by
    intro d hd
    simp only [List.mem_cons, List.not_mem_nil, or_false] at hd
    rcases hd with rfl | rfl <;> exact ⟨rfl, by decide, by decide⟩
  have hc : ValidCoords [⟨[0, 20000], 40000⟩, ⟨[0, 10000], 50000⟩] [1, 1] := by simp [ValidCoords]
  have hl : localSizes [⟨[0, 20000], 40000⟩, ⟨[0, 10000], 50000⟩] [1, 1] = [20000, 40000] := by
    decide
  obtain ⟨G, h1, h2⟩ := C90_grid_partial _ (by simp) hv [1, 1] hc (by rw [hl]; simp)
    (by simp [globalSizes])
  refine ⟨G, h1, ?_⟩
  rw [h2 799999999 (by rw [hl]; norm_num)]
  rw [Verif.getGlobalLinearIndex, hl]
  decide +kernel

/-! ## Larger grids -/

/-- The value of `nrElements` in a build whose signed arithmetic wraps: modulo `2 ^ 32` it is the
number of elements as well. -/
def wrapsTo (n m : ℕ) : Prop := n % 2 ^ 32 = m

/-- **C90 is violated (assertions).** The assertions that shall detect a grid that is too large
compare two numbers that are both reduced modulo `2 ^ 32`. The grid with level 1 and boundary
points in 21 dimensions has more than `2 ^ 33` points; the size computed is 1870418611, which is
what the wrapped product is, and below the limit. The signed product itself overflows. -/
theorem C90_assertion_violated :
    let es := List.replicate 21 3
    2 ^ 33 < es.prod ∧ size32 es = .ok 1870418611 ∧ wrapsTo es.prod 1870418611 ∧
      offsetsLoop32 es 1 = .stuck := by
  refine ⟨by norm_num, ?_, ?_, ?_⟩
  · decide +kernel
  · unfold wrapsTo; norm_num
  · decide +kernel

/-- The number of points of a grid with boundary points on both sides in every dimension. -/
def pointsWithBoundary (levels : List ℕ) : ℕ := (levels.map fun l => 2 ^ l + 1).prod

/-- **C90 (admitted levels).** If the levels plus the number of dimensions sum up to at most `30`,
the grid has few enough points. -/
theorem C90_levels_partial (levels : List ℕ) (h : levels.sum + levels.length ≤ 30) :
    pointsWithBoundary levels < 2 ^ 31 - 1 := by
  have key : ∀ ls : List ℕ, pointsWithBoundary ls ≤ 2 ^ (ls.sum + ls.length) := by
    intro ls
    induction ls with
    | nil => simp [pointsWithBoundary]
    | cons l ls ih =>
      rw [pointsWithBoundary, List.map_cons, List.prod_cons, List.sum_cons, List.length_cons,
        show l + ls.sum + (ls.length + 1) = (l + 1) + (ls.sum + ls.length) by omega, pow_add]
      refine Nat.mul_le_mul ?_ ih
      have := Nat.one_le_two_pow (n := l)
      rw [pow_succ]
      omega
  refine lt_of_le_of_lt (key levels) (lt_of_le_of_lt (Nat.pow_le_pow_right (by omega) h) ?_)
  norm_num

example : pointsWithBoundary [7, 7, 6, 6] < 2 ^ 31 - 1 := C90_levels_partial _ (by decide)

/-- **C90 is violated (admitted levels).** `Types.hpp` states that all grids with boundary whose
levels sum up to less than 30 can be numbered with 32 bits. The grid of level 1 in 20 dimensions,
with a level sum of 20, cannot. -/
theorem C90_levels_violated :
    (List.replicate 20 1).sum < 30 ∧ ¬ pointsWithBoundary (List.replicate 20 1) < 2 ^ 31 ∧
      Indexer.new ((List.replicate 20 1).map fun l => 2 ^ l + 1) = .stuck := by
  refine ⟨by norm_num, ?_, ?_⟩
  · simp only [pointsWithBoundary]; norm_num
  · decide +kernel

end Verif.IndexRange

import Verif.Lemmas.Storage
import Verif.Lemmas.Votes
import Mathlib.Algebra.Order.Field.Rat
import Mathlib.Tactic.NormNum
import Mathlib.Tactic.Linarith
import Mathlib.Tactic.Positivity
import Mathlib.Algebra.Order.Field.Basic

/-!
# Properties C17, C20, C21, C22, C65, C66: sparse grid storage
-/

namespace Verif

/-! ### C17 -/

/-- The subspaces that get storage: those selected, or all if none are selected. -/
def selected (sel : List ℕ) (n : ℕ) : List ℕ := if sel = [] then List.range n else sel

theorem selected_spec (sel : List ℕ) (n : ℕ) (hs : sel.Pairwise (· < ·)) (hr : ∀ i ∈ sel, i < n) :
    (selected sel n).Nodup ∧ ∀ i ∈ selected sel n, i < n := by
  unfold selected
  split
  · exact ⟨List.nodup_range, fun i hi => List.mem_range.1 hi⟩
  · exact ⟨hs.imp fun h => ne_of_lt h, hr⟩

theorem createKahan_eq {K : Type} [Zero K] (d : Dsg K) (hs : d.sel.Pairwise (· < ·))
    (hr : ∀ i ∈ d.sel, i < d.sizes.length) :
    d.createKahanBuffer = some { d with
      sel := selected d.sel d.sizes.length
      kahan := ⟨selOffset d.sizes (selected d.sel d.sizes.length) d.sizes.length, fun _ => 0⟩
      kptr := pointersLoop (selected d.sel d.sizes.length) 0 0 d.sizes } := by
  obtain ⟨h1, h2⟩ := selected_spec d.sel d.sizes.length hs hr
  have e : d.selectDefault = { d with sel := selected d.sel d.sizes.length } := by
    unfold Dsg.selectDefault selected
    split <;> rfl
  unfold Dsg.createKahanBuffer
  simp only [e]
  rw [accumulatedDataSize_eq _ _ h2, ← selOffset_length _ _ h1 h2]
  rfl

theorem createData_eq {K : Type} [Zero K] (d : Dsg K) (hs : d.sel.Pairwise (· < ·))
    (hr : ∀ i ∈ d.sel, i < d.sizes.length) :
    d.createSubspaceData =
      let sel := selected d.sel d.sizes.length
      let b : Buf K := ⟨selOffset d.sizes sel d.sizes.length, fun _ => 0⟩
      let p := pointersLoop sel 0 0 d.sizes
      some { d with
        sel := sel, data := b, ptr := p
        kahan := if d.kahan.len = 0 then b else d.kahan
        kptr := if d.kahan.len = 0 then p else d.kptr } := by
  obtain ⟨h1, h2⟩ := selected_spec d.sel d.sizes.length hs hr
  have e : d.selectDefault = { d with sel := selected d.sel d.sizes.length } := by
    unfold Dsg.selectDefault selected
    split <;> rfl
  unfold Dsg.createSubspaceData
  simp only [e]
  rw [accumulatedDataSize_eq _ _ h2, ← selOffset_length _ _ h1 h2]
  have hsel : (selected d.sel d.sizes.length).Pairwise (· < ·) := by
    unfold selected
    split
    · exact List.pairwise_lt_range
    · exact hs
  have hidem : selected (selected d.sel d.sizes.length) d.sizes.length =
      selected d.sel d.sizes.length := by
    unfold selected
    split
    · split <;> rfl
    · rfl
  simp only [Option.bind_eq_bind, Option.bind_some]
  by_cases hk : d.kahan.len = 0
  · rw [if_pos hk, createKahan_eq _ hsel h2]
    simp only [hidem, if_pos hk]
  · simp only [if_neg hk]

/-- Interval of the data buffer assigned to subspace `i`. -/
def InSubspaceStorage {K : Type} (d : Dsg K) (i p : ℕ) : Prop :=
  ∃ o s, d.ptr[i]? = some o ∧ d.sizes[i]? = some s ∧ o ≤ p ∧ p < o + s

/-- C17 (partial: for a total size below `2^32`): after `createSubspaceData` the selected
subspaces tile the zeroed buffer: its length is the sum of their sizes, every position belongs to
exactly one of them, each lies within the buffer, and they follow each other in ascending order. -/
theorem C17_tiling_partial {K : Type} [Zero K] (d : Dsg K) (hs : d.sel.Pairwise (· < ·))
    (hr : ∀ i ∈ d.sel, i < d.sizes.length)
    (hlt : ((selected d.sel d.sizes.length).map fun i => d.sizes.getD i 0).sum < 2 ^ 32) :
    ∃ d', d.createSubspaceData = some d' ∧ d'.sizes = d.sizes ∧
      d'.sel = selected d.sel d.sizes.length ∧
      d'.data.len = (d'.sel.map fun i => d.sizes.getD i 0).sum ∧
      (∀ p, d'.data.val p = 0) ∧
      (∀ p, p < d'.data.len ↔ ∃ i ∈ d'.sel, InSubspaceStorage d' i p) ∧
      (∀ p, ∀ i ∈ d'.sel, ∀ j ∈ d'.sel, InSubspaceStorage d' i p → InSubspaceStorage d' j p →
        i = j) ∧
      (∀ i ∈ d'.sel, ∀ j ∈ d'.sel, i < j → ∀ p q, InSubspaceStorage d' i p →
        InSubspaceStorage d' j q → p < q) := by
  obtain ⟨h1, h2⟩ := selected_spec d.sel d.sizes.length hs hr
  refine ⟨_, createData_eq d hs hr, ?_⟩
  simp only
  generalize hS : selected d.sel d.sizes.length = S at *
  rw [← selOffset_length _ _ h1 h2] at hlt
  have hptr := fun i hi => pointersLoop_getElem? d.sizes S hlt i hi
  have hin : ∀ (d' : Dsg K), d'.ptr = pointersLoop S 0 0 d.sizes → d'.sizes = d.sizes →
      ∀ i ∈ S, ∀ p, InSubspaceStorage d' i p ↔ selOffset d.sizes S i ≤ p ∧
        p < selOffset d.sizes S i + selSize d.sizes S i := by
    intro d' hp hsz i hi p
    unfold InSubspaceStorage
    rw [hp, hsz, hptr i (h2 i hi), List.getElem?_eq_getElem (h2 i hi), selSize_of_mem hi,
      List.getD_eq_getElem _ _ (h2 i hi)]
    simp
  refine ⟨trivial, trivial, selOffset_length _ _ h1 h2, fun _ => trivial, ?_, ?_, ?_⟩
  · intro p
    constructor
    · intro hp
      obtain ⟨i, ⟨i1, i2, i3⟩, -⟩ := exists_unique_interval d.sizes S _ p hp
      have hi : i ∈ S := by
        by_contra hc
        rw [selSize, if_neg hc] at i3
        omega
      refine ⟨i, hi, ?_⟩
      exact (hin _ (by rfl) (by rfl) i hi p).2 ⟨i2, i3⟩
    · rintro ⟨i, hi, h⟩
      replace h := (hin _ (by rfl) (by rfl) i hi p).1 h
      have := selOffset_mono d.sizes S (show i + 1 ≤ d.sizes.length from h2 i hi)
      rw [selOffset_succ] at this
      omega
  · intro p i hi j hj hpi hpj
    replace hpi := (hin _ (by rfl) (by rfl) i hi p).1 hpi
    replace hpj := (hin _ (by rfl) (by rfl) j hj p).1 hpj
    have hp : p < selOffset d.sizes S d.sizes.length := by
      have := selOffset_mono d.sizes S (show i + 1 ≤ d.sizes.length from h2 i hi)
      rw [selOffset_succ] at this
      omega
    obtain ⟨k, -, hu⟩ := exists_unique_interval d.sizes S _ p hp
    rw [hu i ⟨h2 i hi, hpi⟩, hu j ⟨h2 j hj, hpj⟩]
  · intro i hi j hj hij p q hp hq
    replace hp := (hin _ (by rfl) (by rfl) i hi p).1 hp
    replace hq := (hin _ (by rfl) (by rfl) j hj q).1 hq
    have := selOffset_mono d.sizes S (show i + 1 ≤ j from hij)
    rw [selOffset_succ] at this
    omega

/-- a sparse grid with given sizes and selection -/
def exampleDsg (sizes sel : List ℕ) : Dsg ℚ :=
  ⟨[], sizes, sel, ⟨0, fun _ => 0⟩, [], ⟨0, fun _ => 0⟩, []⟩

example : (exampleDsg [2, 3, 0, 4] [0, 3]).sel.Pairwise (· < ·) ∧
    ((selected [0, 3] 4).map fun i => [2, 3, 0, 4].getD i 0).sum = 6 := by decide

/-- C17 is violated if the total reaches `2^32`: the 32-bit offset wraps around and the last
subspace shares storage with the first. -/
theorem C17_offset_overflow_violated :
    ∃ sizes : List ℕ, ∃ d', (exampleDsg sizes []).createSubspaceData = some d' ∧
      InSubspaceStorage d' 0 0 ∧ InSubspaceStorage d' 2 0 := by
  refine ⟨[2 ^ 31, 2 ^ 31, 1], _, createData_eq _ (by simp [exampleDsg]) (by simp [exampleDsg]),
    ⟨0, 2 ^ 31, ?_, rfl, by norm_num, by norm_num⟩, ⟨0, 1, ?_, rfl, by norm_num, by norm_num⟩⟩
  · rfl
  · decide

/-! ### C20 -/

/-- C20 is violated: after a look-up that misses, the hint is -1 and the next look-up is undefined
behaviour although a fresh search finds the subspace; so is the loop over the two look-ups. -/
theorem C20_hint_after_miss_violated :
    ∃ (levels : List (List ℕ)) (q q' : List ℕ), levels.Pairwise (· < ·) ∧ q < q' ∧ q' ∈ levels ∧
      getIndexInRange levels q 0 = some (-1) ∧ getIndexInRange levels q' (-1) = none ∧
      getIndex levels q' = some 1 ∧ lookups levels 0 [q, q'] = none :=
  ⟨[[1, 1], [2, 1]], [1, 2], [2, 1], by decide, by decide, by decide, by decide, by decide,
    by decide, by decide⟩

/-- C20: a fresh search returns the position of the subspace, or -1 exactly if it is absent. -/
theorem C20_fresh_search (levels : List (List ℕ)) (hs : levels.Pairwise (· < ·)) (l : List ℕ) :
    (∀ i : ℕ, getIndex levels l = some (i : ℤ) ↔ levels[i]? = some l) ∧
      (getIndex levels l = some (-1) ↔ l ∉ levels) := by
  unfold getIndex
  by_cases h : l ∈ levels
  · obtain ⟨i, hi, he⟩ := List.mem_iff_getElem.1 h
    have hit := getIndexInRange_hit levels hs l i hi he 0 (by omega) (by omega)
    refine ⟨fun j => ?_, ?_⟩
    · rw [hit]
      constructor
      · intro hj
        have : i = j := by simpa using hj
        subst this
        rw [List.getElem?_eq_getElem hi, he]
      · intro hj
        obtain ⟨hj1, hj2⟩ := List.getElem?_eq_some_iff.1 hj
        have hnd : levels.Nodup := hs.imp fun h => ne_of_lt h
        have : i = j := hnd.getElem_inj_iff.1 (he.trans hj2.symm)
        rw [this]
    · rw [hit]
      simp only [Option.some.injEq, h, not_true_eq_false, iff_false]
      omega
  · have miss := getIndexInRange_miss levels l h 0 (by omega) (by omega)
    refine ⟨fun j => ?_, ?_⟩
    · rw [miss]
      constructor
      · intro hj
        simp only [Option.some.injEq] at hj
        omega
      · intro hj
        exact absurd (List.mem_of_getElem? hj) h
    · simp [miss, h]

/-- C20 (partial: with iterators as positions, as in the common standard libraries, where starting one before
the beginning is harmless if this position is not read; no query is smaller than all subspaces): the look-ups
with hints give the answers of fresh searches, after misses, too. -/
theorem C20_positions_partial (levels : List (List ℕ)) (hs : levels.Pairwise (· < ·))
    (qs : List (List ℕ)) (hq : qs.Pairwise (· < ·))
    (hfirst : ∀ q ∈ qs, ∃ h : 0 < levels.length, levels[0] ≤ q) :
    ∃ is, lookupsFlat levels 0 qs = some is ∧
      List.Forall₂ (fun q i => getIndex levels q = some i) qs is := by
  suffices H : ∀ hint, HintOk levels qs hint → ∃ is, lookupsFlat levels hint qs = some is ∧
      List.Forall₂ (fun q i => getIndex levels q = some i) qs is from H 0 (HintOk.zero _ _)
  induction qs with
  | nil => exact fun _ _ => ⟨[], rfl, List.Forall₂.nil⟩
  | cons q qs ih =>
    intro hint hh
    have hf := C20_fresh_search levels hs q
    have ih' := ih (List.pairwise_cons.1 hq).2 fun q' hq' => hfirst q' (by simp [hq'])
    rcases hh.next hs hq hfirst with ⟨i, hi, hl, hidx, hh'⟩ | ⟨hm, hidx, hh'⟩
    · obtain ⟨is, e1, e2⟩ := ih' _ hh'
      refine ⟨i :: is, by simp [lookupsFlat, hidx, e1], .cons ((hf.1 i).2 ?_) e2⟩
      rw [List.getElem?_eq_getElem hi, hl]
    · obtain ⟨is, e1, e2⟩ := ih' _ hh'
      exact ⟨-1 :: is, by simp [lookupsFlat, hidx, e1], .cons (hf.2.2 hm) e2⟩

/-- the hypotheses hold for queries with a miss in between, and the search after it finds its subspace -/
example : [[1, 1], [2, 1]].Pairwise (· < ·) ∧ [[1, 1], [1, 2], [2, 1]].Pairwise (· < ·) ∧
    (∀ q ∈ [[1, 1], [1, 2], [2, 1]], ∃ h : 0 < [[1, 1], [2, 1]].length, [[1, 1], [2, 1]][0] ≤ q) ∧
    lookupsFlat [[1, 1], [2, 1]] 0 [[1, 1], [1, 2], [2, 1]] = some [0, -1, 1] := by decide +kernel

/-- C20 (partial: for sequences in which only the last query may miss): the look-ups with hints
give the answers of fresh searches. -/
theorem C20_hint_partial (levels : List (List ℕ)) (hs : levels.Pairwise (· < ·))
    (qs : List (List ℕ)) (hq : qs.Pairwise (· < ·)) (hmem : ∀ q ∈ qs.dropLast, q ∈ levels) :
    ∃ is, lookups levels 0 qs = some is ∧
      List.Forall₂ (fun q i => getIndex levels q = some i) qs is := by
  suffices H : ∀ hint : ℕ, hint ≤ levels.length →
      (∀ q ∈ qs, ∀ i (hi : i < levels.length), levels[i] = q → hint ≤ i) →
      ∃ is, lookups levels hint qs = some is ∧
        List.Forall₂ (fun q i => getIndex levels q = some i) qs is from
    H 0 (by omega) (by omega)
  induction qs with
  | nil => exact fun _ _ _ => ⟨[], rfl, List.Forall₂.nil⟩
  | cons q qs ih =>
    intro hint hle hlow
    rw [List.pairwise_cons] at hq
    by_cases h : q ∈ levels
    · obtain ⟨i, hi, he⟩ := List.mem_iff_getElem.1 h
      have hit := getIndexInRange_hit levels hs q i hi he hint (by omega)
        (by have := hlow q (by simp) i hi he; omega)
      have fresh := getIndexInRange_hit levels hs q i hi he 0 (by omega) (by omega)
      obtain ⟨is, e1, e2⟩ := ih hq.2 (by
        intro q' hq'
        apply hmem
        cases qs with
        | nil => simp at hq'
        | cons a as => rw [List.dropLast_cons_cons]; simp [hq']) i (by omega) (by
        intro q' hq' j hj hje
        apply sorted_index_le hs hi hj
        rw [he, hje]
        exact le_of_lt (hq.1 q' hq'))
      refine ⟨(i : ℤ) :: is, ?_, List.Forall₂.cons fresh e2⟩
      rw [lookups, hit]
      simp [e1]
    · have hnil : qs = [] := by
        cases qs with
        | nil => rfl
        | cons a as =>
          exfalso
          exact h (hmem q (by rw [List.dropLast_cons_cons]; simp))
      subst hnil
      refine ⟨[-1], ?_, List.Forall₂.cons (getIndexInRange_miss levels q h 0 (by omega) (by omega))
        List.Forall₂.nil⟩
      rw [lookups, getIndexInRange_miss levels q h hint (by omega) (by omega)]
      rfl

example : [[1, 1], [1, 2], [2, 1]].Pairwise (· < ·) ∧
    (∀ q ∈ [[1, 2], [2, 1], [2, 2]].dropLast, q ∈ [[1, 1], [1, 2], [2, 1]]) ∧
    lookups [[1, 1], [1, 2], [2, 1]] 0 [[1, 2], [2, 1], [2, 2]] = some [1, 2, -1] := by decide

/-! ### C21 -/

theorem foldl_min_spec (xs : List ℚ) (x : ℚ) :
    (xs.foldl min x ∈ x :: xs) ∧ ∀ y ∈ x :: xs, xs.foldl min x ≤ y := by
  induction xs generalizing x with
  | nil => simp
  | cons a xs ih =>
    obtain ⟨h1, h2⟩ := ih (min x a)
    rw [List.foldl_cons]
    constructor
    · rcases List.mem_cons.1 h1 with h | h
      · rcases min_choice x a with h' | h' <;> rw [h, h'] <;> simp
      · simp [h]
    · intro y hy
      have h3 := h2 (min x a) (by simp)
      rcases List.mem_cons.1 hy with rfl | hy
      · exact h3.trans (min_le_left _ _)
      · rcases List.mem_cons.1 hy with rfl | hy
        · exact h3.trans (min_le_right _ _)
        · exact h2 y (by simp [hy])

theorem foldl_max_spec (xs : List ℚ) (x : ℚ) :
    (xs.foldl max x ∈ x :: xs) ∧ ∀ y ∈ x :: xs, y ≤ xs.foldl max x := by
  induction xs generalizing x with
  | nil => simp
  | cons a xs ih =>
    obtain ⟨h1, h2⟩ := ih (max x a)
    rw [List.foldl_cons]
    constructor
    · rcases List.mem_cons.1 h1 with h | h
      · rcases max_choice x a with h' | h' <;> rw [h, h'] <;> simp
      · simp [h]
    · intro y hy
      have h3 := h2 (max x a) (by simp)
      rcases List.mem_cons.1 hy with rfl | hy
      · exact (le_max_left _ _).trans h3
      · rcases List.mem_cons.1 hy with rfl | hy
        · exact (le_max_right _ _).trans h3
        · exact h2 y (by simp [hy])

theorem foldl_accumulate (calls : List (List ℚ)) (mm : ℚ × ℚ) :
    (((calls.foldl accumulateMinMax mm).1 = mm.1 ∨
        (calls.foldl accumulateMinMax mm).1 ∈ calls.flatten) ∧
      (calls.foldl accumulateMinMax mm).1 ≤ mm.1 ∧
      ∀ y ∈ calls.flatten, (calls.foldl accumulateMinMax mm).1 ≤ y) ∧
    (((calls.foldl accumulateMinMax mm).2 = mm.2 ∨
        (calls.foldl accumulateMinMax mm).2 ∈ calls.flatten) ∧
      mm.2 ≤ (calls.foldl accumulateMinMax mm).2 ∧
      ∀ y ∈ calls.flatten, y ≤ (calls.foldl accumulateMinMax mm).2) := by
  induction calls generalizing mm with
  | nil => simp
  | cons c calls ih =>
    obtain ⟨⟨a1, a2, a3⟩, b1, b2, b3⟩ := ih (accumulateMinMax mm c)
    rw [List.foldl_cons, List.flatten_cons]
    cases c with
    | nil => exact ⟨⟨a1, a2, a3⟩, b1, b2, b3⟩
    | cons x xs =>
      obtain ⟨m1, m2⟩ := foldl_min_spec xs x
      obtain ⟨n1, n2⟩ := foldl_max_spec xs x
      simp only [accumulateMinMax] at a1 a2 a3 b1 b2 b3 ⊢
      refine ⟨⟨?_, a2.trans (min_le_left _ _), ?_⟩, ?_, (le_max_left _ _).trans b2, ?_⟩
      · rcases a1 with h | h
        · rw [h]
          rcases min_choice mm.1 (xs.foldl min x) with h' | h' <;> rw [h']
          · exact Or.inl rfl
          · exact Or.inr (List.mem_append_left _ m1)
        · exact Or.inr (List.mem_append_right _ h)
      · intro y hy
        rcases List.mem_append.1 hy with hy | hy
        · exact (a2.trans (min_le_right _ _)).trans (m2 y hy)
        · exact a3 y hy
      · rcases b1 with h | h
        · rw [h]
          rcases max_choice mm.2 (xs.foldl max x) with h' | h' <;> rw [h']
          · exact Or.inl rfl
          · exact Or.inr (List.mem_append_left _ n1)
        · exact Or.inr (List.mem_append_right _ h)
      · intro y hy
        rcases List.mem_append.1 hy with hy | hy
        · exact (n2 y hy).trans ((le_max_right _ _).trans b2)
        · exact b3 y hy

/-- C21: the reported minimum is the minimum of all data of the subspace over all calls, for
finite doubles. -/
theorem C21_minimum (calls : List (List ℚ)) (hne : calls.flatten ≠ [])
    (hfin : ∀ x ∈ calls.flatten, x ≤ dblMax) :
    (minMaxAfter calls).1 ∈ calls.flatten ∧ ∀ x ∈ calls.flatten, (minMaxAfter calls).1 ≤ x := by
  obtain ⟨⟨a1, a2, a3⟩, -⟩ := foldl_accumulate calls (dblMax, dblMin)
  refine ⟨?_, a3⟩
  rcases a1 with h | h
  · obtain ⟨x, hx⟩ := List.exists_mem_of_ne_nil _ hne
    have h1 := a3 x hx
    have h2 := hfin x hx
    simp only at h
    rw [h] at h1
    unfold minMaxAfter
    rw [h, le_antisymm h1 h2]
    exact hx
  · exact h

/-- C21 (partial: if some value is at least the smallest positive normal number): the reported
maximum is the maximum of all data of the subspace over all calls. -/
theorem C21_maximum_partial (calls : List (List ℚ)) (hpos : ∃ x ∈ calls.flatten, 1 / 2 ^ 1022 ≤ x) :
    (minMaxAfter calls).2 ∈ calls.flatten ∧ ∀ x ∈ calls.flatten, x ≤ (minMaxAfter calls).2 := by
  obtain ⟨-, b1, b2, b3⟩ := foldl_accumulate calls (dblMax, dblMin)
  refine ⟨?_, b3⟩
  rcases b1 with h | h
  · obtain ⟨x, hx, hxp⟩ := hpos
    have h1 := b3 x hx
    simp only at h
    rw [h] at h1
    unfold minMaxAfter
    rw [h, le_antisymm (show dblMin ≤ x from hxp) h1]
    exact hx
  · exact h

theorem dblMin_pos : 0 < dblMin := by unfold dblMin; positivity

theorem dblMin_le_one : dblMin ≤ 1 := by
  unfold dblMin
  rw [div_le_one (by positivity)]
  exact one_le_pow₀ (by norm_num)

theorem one_le_dblMax : (1 : ℚ) ≤ dblMax := by
  unfold dblMax
  have h1 : (1 : ℚ) ≤ 2 ^ 1023 := one_le_pow₀ (by norm_num)
  have h2 : (1 : ℚ) ≤ 2 - 1 / 2 ^ 52 := by norm_num
  calc (1 : ℚ) = 1 * 1 := by ring
    _ ≤ _ := mul_le_mul h2 h1 (by norm_num) (by linarith)

example : (∃ x ∈ [[-1, 1], [0]].flatten, (1 / 2 ^ 1022 : ℚ) ≤ x) ∧ ∀ x ∈ [[(-1 : ℚ), 1], [0]].flatten, x ≤ dblMax := by
  refine ⟨⟨1, by simp, dblMin_le_one⟩, ?_⟩
  have := one_le_dblMax
  intro x hx
  simp at hx
  rcases hx with rfl | rfl | rfl <;> linarith

/-- C21 is violated for a subspace with only negative values: a positive maximum is reported. -/
theorem C21_maximum_violated :
    ∃ calls : List (List ℚ), calls.flatten ≠ [] ∧ (∀ x ∈ calls.flatten, x < 0) ∧
      0 < (minMaxAfter calls).2 := by
  refine ⟨[[-1, -2]], by simp, by simp, ?_⟩
  obtain ⟨-, -, b2, -⟩ := foldl_accumulate [[-1, -2]] (dblMax, dblMin)
  exact lt_of_lt_of_le dblMin_pos b2

/-! ### C22 -/

/-- Subspace `i` is held by at least two ranks. -/
def SharedSubspace (sizes : List (List ℕ)) (i : ℕ) : Prop :=
  ∃ r r', r ≠ r' ∧ Holds sizes r i ∧ Holds sizes r' i

/-- C22: up to 256 ranks, all calls succeed, all ranks make the same sequence of collective
communicator creations, and each keeps the communicators it belongs to: the entries of rank `r`
are the entries of one common list that have `r` as member, in the same order. -/
theorem C22_same_calls (n : ℕ) (sizes : List (List ℕ)) (hn : ∀ s ∈ sizes, s.length = n)
    (hr : sizes.length ≤ 256) :
    ∃ T : List (List ℕ × List ℕ), commCreateCalls n sizes = some (T.map Prod.fst) ∧
      ∀ r, setSubspaceCommunicators n sizes r = some (T.filter fun e => decide (r ∈ e.1)) := by
  obtain ⟨votes, h1, -, -⟩ := getSubspaceVote_spec n sizes hn hr
  refine ⟨(subspacesByVote votes).map fun kv => (ranksOfVote kv.1, kv.2), ?_, fun r => ?_⟩
  · unfold commCreateCalls
    rw [h1]
    simp [Function.comp_def]
  · unfold setSubspaceCommunicators
    rw [h1]
    simp [List.filter_map, Function.comp_def]

theorem votes_eq_iff {n : ℕ} {sizes : List (List ℕ)} {votes : List ℕ} (hlen : votes.length = n)
    (hv : ∀ i r, (votes.getD i 0).testBit r = true ↔ Holds sizes r i)
    {i : ℕ} (hi : i < n) {w : ℕ} :
    votes[i]? = some w ↔ ∀ r, w.testBit r = true ↔ Holds sizes r i := by
  rw [List.getElem?_eq_getElem (by omega), Option.some.injEq]
  have hg : votes.getD i 0 = votes[i] := List.getD_eq_getElem _ _ (by omega)
  constructor
  · rintro rfl r
    rw [← hg]
    exact hv i r
  · intro h
    apply Nat.eq_of_testBit_eq
    intro r
    rw [Bool.eq_iff_iff, h r, ← hg]
    exact hv i r

theorem holds_lt {sizes : List (List ℕ)} {r i : ℕ} (h : Holds sizes r i) : r < sizes.length := by
  obtain ⟨s, hs, -⟩ := h
  exact (List.getElem?_eq_some_iff.1 hs).1

theorem holds_subspace_lt {n : ℕ} {sizes : List (List ℕ)} (hn : ∀ s ∈ sizes, s.length = n)
    {r i : ℕ} (h : Holds sizes r i) : i < n := by
  obtain ⟨s, hs, hp⟩ := h
  by_contra hc
  rw [List.getD_eq_default _ _ (by rw [hn s (List.mem_of_getElem? hs)]; omega)] at hp
  omega

/-- C22: on every rank `r`: a subspace is in an entry of `r` exactly if it is shared and held by
`r`; then it is in exactly one entry, and the members of that entry are exactly the ranks
holding it. Every member of an entry has the same entry. The subspaces of an entry are
ascending. -/
theorem C22_communicators (n : ℕ) (sizes : List (List ℕ)) (hn : ∀ s ∈ sizes, s.length = n)
    (hr : sizes.length ≤ 256) (r : ℕ) :
    ∃ res, setSubspaceCommunicators n sizes r = some res ∧
      (∀ i, (∃ e ∈ res, i ∈ e.2) ↔ SharedSubspace sizes i ∧ Holds sizes r i) ∧
      (∀ i, ∀ e ∈ res, i ∈ e.2 → (∀ r', r' ∈ e.1 ↔ Holds sizes r' i) ∧ e.1.Nodup ∧
        ∀ e' ∈ res, i ∈ e'.2 → e' = e) ∧
      res.Nodup ∧
      (∀ e ∈ res, e.2.Pairwise (· < ·) ∧
        ∀ r' ∈ e.1, ∃ res', setSubspaceCommunicators n sizes r' = some res' ∧ e ∈ res') := by
  obtain ⟨votes, h1, hlen, hv⟩ := getSubspaceVote_spec n sizes hn hr
  obtain ⟨hsort, hmem⟩ := subspacesByVote_prefix votes votes.length (le_refl _)
  have htab : ∀ w is, (w, is) ∈ subspacesByVote votes ↔
      manyBits w = true ∧ is = withVote votes votes.length w ∧ is ≠ [] := hmem
  have hsort' : (subspacesByVote votes).Pairwise fun a b => a.1 < b.1 := hsort
  have hres : ∀ r, setSubspaceCommunicators n sizes r =
      some (((subspacesByVote votes).filter fun kv => decide (r ∈ ranksOfVote kv.1)).map
        fun kv => (ranksOfVote kv.1, kv.2)) := by
    intro r
    unfold setSubspaceCommunicators
    rw [h1]
    rfl
  have key : ∀ (w : ℕ) (is : List ℕ) (i : ℕ), (w, is) ∈ subspacesByVote votes → i ∈ is →
      i < n ∧ ∀ r, w.testBit r = true ↔ Holds sizes r i := by
    intro w is i h hi
    rw [htab] at h
    rw [h.2.1, mem_withVote] at hi
    have hin : i < n := by omega
    exact ⟨hin, (votes_eq_iff hlen hv hin).1 hi.2⟩
  have hranks : ∀ (w : ℕ) (is : List ℕ) (i : ℕ), (w, is) ∈ subspacesByVote votes → i ∈ is →
      ∀ r', r' ∈ ranksOfVote w ↔ Holds sizes r' i := by
    intro w is i h hi r'
    rw [mem_ranksOfVote, (key w is i h hi).2 r']
    exact ⟨fun h => h.2, fun h => ⟨by have := holds_lt h; omega, h⟩⟩
  refine ⟨_, hres r, ?_, ?_, ?_, ?_⟩
  · intro i
    constructor
    · rintro ⟨e, he, hi⟩
      obtain ⟨⟨w, is⟩, hk, rfl⟩ := List.mem_map.1 he
      obtain ⟨hk1, hk2⟩ := List.mem_filter.1 hk
      simp only at hi
      rw [decide_eq_true_iff, hranks w is i hk1 hi] at hk2
      refine ⟨?_, hk2⟩
      obtain ⟨a, b, hab, ha, hb⟩ := (manyBits_iff w).1 ((htab w is).1 hk1).1
      exact ⟨a, b, hab, ((key w is i hk1 hi).2 a).1 ha, ((key w is i hk1 hi).2 b).1 hb⟩
    · rintro ⟨⟨a, b, hab, ha, hb⟩, hh⟩
      have hin := holds_subspace_lt hn hh
      have hvi : votes[i]? = some (votes.getD i 0) := by
        rw [List.getD_eq_getElem _ _ (by omega), List.getElem?_eq_getElem (by omega)]
      have hi : i ∈ withVote votes votes.length (votes.getD i 0) :=
        mem_withVote.2 ⟨by omega, hvi⟩
      have hk : (votes.getD i 0, withVote votes votes.length (votes.getD i 0)) ∈
          subspacesByVote votes := by
        rw [htab]
        exact ⟨(manyBits_iff _).2 ⟨a, b, hab, (hv i a).2 ha, (hv i b).2 hb⟩, rfl,
          List.ne_nil_of_mem hi⟩
      refine ⟨_, List.mem_map.2 ⟨_, List.mem_filter.2 ⟨hk, ?_⟩, rfl⟩, hi⟩
      rw [decide_eq_true_iff, hranks _ _ i hk hi]
      exact hh
  · intro i e he hi
    obtain ⟨⟨w, is⟩, hk, rfl⟩ := List.mem_map.1 he
    have hk1 := (List.mem_filter.1 hk).1
    refine ⟨hranks w is i hk1 hi, List.nodup_range.filter _, ?_⟩
    intro e' he' hi'
    obtain ⟨⟨w', is'⟩, hk', rfl⟩ := List.mem_map.1 he'
    have hk1' := (List.mem_filter.1 hk').1
    have : w' = w := by
      apply Nat.eq_of_testBit_eq
      intro r'
      rw [Bool.eq_iff_iff, (key w is i hk1 hi).2, (key w' is' i hk1' hi').2]
    subst this
    rw [((htab _ _).1 hk1).2.1, ((htab _ _).1 hk1').2.1]
  · have hnd : ((subspacesByVote votes).filter fun kv => decide (r ∈ ranksOfVote kv.1)).Nodup :=
      (hsort'.imp fun {a b} h => by rintro rfl; omega : (subspacesByVote votes).Nodup).filter _
    refine hnd.map_on ?_
    rintro ⟨w, is⟩ h ⟨w', is'⟩ h' he
    have hk1 := (List.mem_filter.1 h).1
    have hk1' := (List.mem_filter.1 h').1
    simp only [Prod.mk.injEq] at he
    have his : is = is' := he.2
    subst his
    obtain ⟨i, hi⟩ := List.exists_mem_of_ne_nil _ ((htab _ _).1 hk1).2.2
    have : w = w' := by
      apply Nat.eq_of_testBit_eq
      intro r'
      rw [Bool.eq_iff_iff, (key w is i hk1 hi).2, (key w' is i hk1' hi).2]
    rw [this]
  · intro e he
    obtain ⟨⟨w, is⟩, hk, rfl⟩ := List.mem_map.1 he
    have hk1 := (List.mem_filter.1 hk).1
    refine ⟨?_, fun r' hr' => ⟨_, hres r', ?_⟩⟩
    · simp only
      rw [((htab _ _).1 hk1).2.1]
      exact List.pairwise_lt_range.filter _
    · exact List.mem_map.2 ⟨_, List.mem_filter.2 ⟨hk1, by simpa using hr'⟩, rfl⟩

example : (∀ s ∈ [[1, 0, 2, 3], [1, 5, 2, 0], [1, 5, 2, 0]], s.length = 4) ∧
    setSubspaceCommunicators 4 [[1, 0, 2, 3], [1, 5, 2, 0], [1, 5, 2, 0]] 1 =
      some [([1, 2], [1]), ([0, 1, 2], [0, 2])] := by
  decide +kernel

/-- C22: with more than 256 ranks the vote throws on the ranks from 256 on. -/
theorem C22_too_many_ranks (rank : ℕ) (sizes : List ℕ) :
    ownVote rank sizes = none ↔ 256 ≤ rank := by
  unfold ownVote
  split <;> simp_all

/-! ### C66: the single outgroup communicator -/

theorem subspacesForMany_spec (n : ℕ) (sizes : List (List ℕ)) (votes : List ℕ)
    (hlen : votes.length = n)
    (hv : ∀ i r, (votes.getD i 0).testBit r = true ↔ Holds sizes r i) :
    (∀ i, i ∈ (subspacesForMany votes).1 ↔ i < n ∧ SharedSubspace sizes i) ∧
      ∀ r, (subspacesForMany votes).2.testBit r = true ↔
        ∃ i < n, SharedSubspace sizes i ∧ Holds sizes r i := by
  obtain ⟨h1, h2⟩ := subspacesForMany_prefix votes votes.length (le_refl _)
  have e1 : (subspacesForMany votes).1 = (List.range votes.length).filter
    fun i => manyBits (votes.getD i 0) := h1
  have hm : ∀ i, i ∈ (subspacesForMany votes).1 ↔ i < n ∧ SharedSubspace sizes i := by
    intro i
    rw [e1, List.mem_filter, List.mem_range, hlen, manyBits_iff]
    simp only [hv]
    rfl
  refine ⟨hm, fun r => ?_⟩
  have := h2 r
  change (subspacesForMany votes).2.testBit r = true ↔ _ at this
  rw [this]
  constructor
  · rintro ⟨i, hi, h⟩
    have hi' := (hm i).1 hi
    exact ⟨i, hi'.1, hi'.2, (hv i r).1 h⟩
  · rintro ⟨i, hi, hs, hh⟩
    exact ⟨i, (hm i).2 ⟨hi, hs⟩, (hv i r).2 hh⟩

/-- C66 (partial: if every rank holds some shared subspace): all ranks of the communicator use
it, with the same list of subspaces, which are exactly those held by several ranks. -/
theorem C66_outgroup_partial (n : ℕ) (sizes : List (List ℕ)) (hn : ∀ s ∈ sizes, s.length = n)
    (hr : sizes.length ≤ 256)
    (hall : ∀ r < sizes.length, ∃ i, SharedSubspace sizes i ∧ Holds sizes r i) :
    ∃ subs : List ℕ, (∀ i, i ∈ subs ↔ SharedSubspace sizes i) ∧
      ∀ r < sizes.length, setOutgroupCommunicator n sizes r = some (some subs) := by
  obtain ⟨votes, h1, hlen, hv⟩ := getSubspaceVote_spec n sizes hn hr
  obtain ⟨hm, hb⟩ := subspacesForMany_spec n sizes votes hlen hv
  refine ⟨(subspacesForMany votes).1, fun i => ?_, fun r hrl => ?_⟩
  · rw [hm]
    refine ⟨fun h => h.2, fun h => ⟨?_, h⟩⟩
    obtain ⟨a, b, -, ha, -⟩ := h
    exact holds_subspace_lt hn ha
  · unfold setOutgroupCommunicator
    rw [h1]
    simp only [Option.bind_eq_bind, Option.bind_some]
    rw [if_pos]
    · rfl
    · rw [mem_ranksOfVote, hb]
      obtain ⟨i, hs, hh⟩ := hall r hrl
      exact ⟨by omega, i, holds_subspace_lt hn hh, hs, hh⟩

example : (∀ s ∈ [[1, 0, 2], [1, 5, 0]], s.length = 3) ∧
    setOutgroupCommunicator 3 [[1, 0, 2], [1, 5, 0]] 1 = some (some [0]) := by decide +kernel

/-- C66: the sizes of the shared subspaces agree on all ranks afterwards and are the largest size on any
rank, all other sizes are kept. -/
theorem C66_sizes_agree (sizes : List (List ℕ)) (shared : List ℕ) (own own' : List ℕ) (i : ℕ)
    (hi : i < own.length) (hi' : i < own'.length) :
    (i ∈ shared → (outgroupSizes sizes shared own)[i]? = (outgroupSizes sizes shared own')[i]? ∧
      ∃ v, (outgroupSizes sizes shared own)[i]? = some v ∧ (∀ s ∈ sizes, s.getD i 0 ≤ v) ∧
        (v = 0 ∨ ∃ s ∈ sizes, s.getD i 0 = v)) ∧
      (i ∉ shared → (outgroupSizes sizes shared own)[i]? = own[i]?) := by
  have hmax : ∀ (l : List ℕ) (m : ℕ), m ≤ l.foldl max m ∧ (∀ v ∈ l, v ≤ l.foldl max m) ∧
      (l.foldl max m = m ∨ l.foldl max m ∈ l) := by
    intro l
    induction l with
    | nil => simp
    | cons a l ih =>
      intro m
      obtain ⟨h1, h2, h3⟩ := ih (max m a)
      simp only [List.foldl_cons, List.mem_cons]
      refine ⟨by omega, fun v hv => ?_, ?_⟩
      · rcases hv with rfl | hv
        · omega
        · exact h2 v hv
      · rcases h3 with h3 | h3
        · omega
        · exact .inr (.inr h3)
  unfold outgroupSizes
  constructor
  · intro h
    refine ⟨by simp [hi, hi', h], _, by simp [hi, h]; rfl, fun s hs => ?_, ?_⟩
    · exact (hmax _ 0).2.1 _ (List.mem_map.2 ⟨s, hs, rfl⟩)
    · rcases (hmax (sizes.map fun s => s.getD i 0) 0).2.2 with h | h
      · exact .inl h
      · obtain ⟨s, hs, he⟩ := List.mem_map.1 h
        exact .inr ⟨s, hs, he⟩
  · intro h
    simp [hi, h]

/-- C66 is violated if a rank holds no shared subspace while others do: it takes no part although
it is a member of the communicator on which the others reduce (a debug assertion only). -/
theorem C66_outgroup_violated :
    ∃ (n : ℕ) (sizes : List (List ℕ)), (∀ s ∈ sizes, s.length = n) ∧
      setOutgroupCommunicator n sizes 0 = some (some [0]) ∧ 2 < sizes.length ∧
      setOutgroupCommunicator n sizes 2 = some none :=
  ⟨2, [[1, 0], [1, 0], [0, 1]], by decide, by decide +kernel, by decide, by decide +kernel⟩

/-! ### C65: clearing the Kahan buffer -/

/-- C65 (partial): elements of the size of a pointer (such as `double` on 64-bit systems): the
buffer is cleared exactly. -/
theorem C65_kahan_memset_partial (n : ℕ) :
    (kahanMemset n 8 8).1 = (kahanMemset n 8 8).2 := rfl

/-- C65 is violated for `float` (4 bytes, pointers 8): the `memset` writes behind the end of every
nonempty buffer. -/
theorem C65_kahan_memset_float_violated (n : ℕ) (h : 0 < n) :
    (kahanMemset n 4 8).2 < (kahanMemset n 4 8).1 := by
  unfold kahanMemset; simp only; omega

/-- C65 is violated for `std::complex<double>` (16 bytes): part of every nonempty buffer is not
cleared. -/
theorem C65_kahan_memset_complex_violated (n : ℕ) (h : 0 < n) :
    (kahanMemset n 16 8).1 < (kahanMemset n 16 8).2 := by
  unfold kahanMemset; simp only; omega

end Verif

import Verif.Model.Storage
import Mathlib.Data.List.Basic
import Mathlib.Data.List.GetD
import Mathlib.Tactic.Ring
import Mathlib.Algebra.BigOperators.Group.List.Lemmas

/-!
# Lemmas on the sparse grid storage
-/

namespace Verif

/-- size of subspace `i` if selected, else 0 -/
def selSize (sizes sel : List ℕ) (i : ℕ) : ℕ := if i ∈ sel then sizes.getD i 0 else 0

/-- The offset of subspace `i`: the sizes of the selected subspaces before it. -/
def selOffset (sizes sel : List ℕ) (i : ℕ) : ℕ := ((List.range i).map (selSize sizes sel)).sum

theorem selOffset_succ (sizes sel : List ℕ) (i : ℕ) :
    selOffset sizes sel (i + 1) = selOffset sizes sel i + selSize sizes sel i := by
  simp [selOffset, List.range_succ]

theorem selOffset_mono (sizes sel : List ℕ) {i j : ℕ} (h : i ≤ j) :
    selOffset sizes sel i ≤ selOffset sizes sel j := by
  induction j with
  | zero => simp [Nat.le_zero.1 h]
  | succ j ih =>
    rcases Nat.lt_or_ge i (j + 1) with h' | h'
    · rw [selOffset_succ]
      have := ih (by omega)
      omega
    · rw [show i = j + 1 by omega]

theorem length_pointersLoop (sel : List ℕ) (o i : ℕ) (ss : List ℕ) :
    (pointersLoop sel o i ss).length = ss.length := by
  induction ss generalizing o i with
  | nil => rfl
  | cons s ss ih => simp [pointersLoop, ih]

theorem pointersLoop_eq (sizes sel : List ℕ)
    (hlt : selOffset sizes sel sizes.length < 2 ^ 32) (i : ℕ) (hi : i ≤ sizes.length) :
    pointersLoop sel (selOffset sizes sel i) i (sizes.drop i) =
      (List.range' i (sizes.length - i)).map (selOffset sizes sel) := by
  induction h : sizes.length - i generalizing i with
  | zero =>
    rw [List.drop_of_length_le (by omega)]
    rfl
  | succ n ih =>
    have hi' : i < sizes.length := by omega
    rw [List.drop_eq_getElem_cons hi', pointersLoop, List.range'_succ, List.map_cons]
    congr 1
    rw [← ih (i + 1) (by omega) (by omega)]
    congr 1
    have h1 := selOffset_succ sizes sel i
    have h2 := selOffset_mono sizes sel (show i + 1 ≤ sizes.length by omega)
    unfold selSize at h1
    by_cases hm : i ∈ sel
    · rw [if_pos hm] at h1 ⊢
      rw [List.getD_eq_getElem _ _ hi'] at h1
      rw [← h1, Nat.mod_eq_of_lt (by omega)]
    · rw [if_neg hm] at h1 ⊢
      omega

theorem pointersLoop_getElem? (sizes sel : List ℕ)
    (hlt : selOffset sizes sel sizes.length < 2 ^ 32) (i : ℕ) (hi : i < sizes.length) :
    (pointersLoop sel 0 0 sizes)[i]? = some (selOffset sizes sel i) := by
  have := pointersLoop_eq sizes sel hlt 0 (by omega)
  simp only [List.drop_zero, Nat.sub_zero] at this
  rw [show selOffset sizes sel 0 = 0 from rfl] at this
  rw [this]
  simp [hi, List.range'_eq_map_range]

theorem accumulatedDataSize_eq (sizes sel : List ℕ) (h : ∀ i ∈ sel, i < sizes.length) :
    accumulatedDataSize sizes sel = some (sel.map fun i => sizes.getD i 0).sum := by
  induction sel with
  | nil => rfl
  | cons i is ih =>
    have hi := h i (by simp)
    rw [accumulatedDataSize, ih fun j hj => h j (by simp [hj])]
    simp [List.getElem?_eq_getElem hi]

theorem sum_range_selSize (sizes sel : List ℕ) (n : ℕ) (hs : sel.Nodup) (h : ∀ i ∈ sel, i < n) :
    ((List.range n).map (selSize sizes sel)).sum = (sel.map fun i => sizes.getD i 0).sum := by
  have hp : ((List.range n).filter fun i => decide (i ∈ sel)).Perm sel := by
    rw [List.perm_ext_iff_of_nodup (List.nodup_range.filter _) hs]
    intro a
    simp only [List.mem_filter, List.mem_range, decide_eq_true_eq]
    exact ⟨fun h => h.2, fun ha => ⟨h a ha, ha⟩⟩
  rw [← (hp.map _).sum_eq]
  generalize List.range n = l
  induction l with
  | nil => rfl
  | cons a l ih =>
    rw [List.map_cons, List.sum_cons, ih, selSize]
    by_cases ha : a ∈ sel <;> simp [ha]

theorem selOffset_length (sizes sel : List ℕ) (hs : sel.Nodup) (h : ∀ i ∈ sel, i < sizes.length) :
    selOffset sizes sel sizes.length = (sel.map fun i => sizes.getD i 0).sum :=
  sum_range_selSize _ _ _ hs h

/-- every position below the total offset lies in exactly one selected interval -/
theorem exists_unique_interval (sizes sel : List ℕ) (n p : ℕ) (hp : p < selOffset sizes sel n) :
    ∃! i, i < n ∧ selOffset sizes sel i ≤ p ∧ p < selOffset sizes sel i + selSize sizes sel i := by
  induction n with
  | zero => simp [selOffset] at hp
  | succ n ih =>
    by_cases h : p < selOffset sizes sel n
    · obtain ⟨i, ⟨h1, h2, h3⟩, hu⟩ := ih h
      refine ⟨i, ⟨by omega, h2, h3⟩, ?_⟩
      rintro j ⟨j1, j2, j3⟩
      by_cases hj : j = n
      · subst hj; omega
      · exact hu j ⟨by omega, j2, j3⟩
    · rw [selOffset_succ] at hp
      refine ⟨n, ⟨by omega, by omega, hp⟩, ?_⟩
      rintro j ⟨j1, j2, j3⟩
      by_contra hne
      have := selOffset_mono sizes sel (show j + 1 ≤ n by omega)
      rw [selOffset_succ] at this
      omega

theorem selSize_of_mem {sizes sel : List ℕ} {i : ℕ} (h : i ∈ sel) :
    selSize sizes sel i = sizes.getD i 0 := if_pos h

/-! ### Look-up -/

theorem takeWhile_length_sorted (levels : List (List ℕ)) (hs : levels.Pairwise (· < ·))
    (l : List ℕ) (i : ℕ) (hi : i < levels.length) (h : levels[i] = l) :
    (levels.takeWhile fun k => decide (k < l)).length = i := by
  induction levels generalizing i with
  | nil => simp at hi
  | cons a as ih =>
    rw [List.pairwise_cons] at hs
    cases i with
    | zero =>
      rw [List.getElem_cons_zero] at h
      subst h
      simp
    | succ i =>
      rw [List.getElem_cons_succ] at h
      have ha : a < l := h ▸ hs.1 _ (List.getElem_mem _)
      rw [List.takeWhile_cons_of_pos (by simpa using ha), List.length_cons,
        ih hs.2 i (by simpa using hi) h]

theorem getIndexInRange_hit (levels : List (List ℕ)) (hs : levels.Pairwise (· < ·)) (l : List ℕ)
    (i : ℕ) (hi : i < levels.length) (h : levels[i] = l) (hint : ℤ) (h0 : 0 ≤ hint)
    (h1 : hint ≤ i) : getIndexInRange levels l hint = some (i : ℤ) := by
  unfold getIndexInRange
  rw [if_neg (by omega)]
  have e : lowerBoundFrom levels hint.toNat l = i := by
    unfold lowerBoundFrom
    have := takeWhile_length_sorted (levels.drop hint.toNat)
      (hs.sublist (List.drop_sublist _ _)) l (i - hint.toNat)
      (by rw [List.length_drop]; omega)
      (by rw [List.getElem_drop]; rw [← h]; congr 1; omega)
    rw [this]
    omega
  simp only [e]
  rw [if_pos (by rw [List.getElem?_eq_getElem hi, h])]

theorem getIndexInRange_miss (levels : List (List ℕ)) (l : List ℕ) (h : l ∉ levels) (hint : ℤ)
    (h0 : 0 ≤ hint) (h1 : hint ≤ levels.length) : getIndexInRange levels l hint = some (-1) := by
  unfold getIndexInRange
  rw [if_neg (by omega)]
  simp only
  rw [if_neg]
  intro hc
  exact h (List.mem_of_getElem? hc)

theorem sorted_index_le {levels : List (List ℕ)} (hs : levels.Pairwise (· < ·)) {i j : ℕ}
    (hi : i < levels.length) (hj : j < levels.length) (h : levels[i] ≤ levels[j]) : i ≤ j := by
  by_contra hc
  have := (List.pairwise_iff_getElem.1 hs) j i hj hi (by omega)
  exact absurd this (not_lt.2 h)

/-! ### Looking up subspaces -/

/-- The binary search finds the first position whose level is not smaller. -/
theorem lowerBoundSearch_eq (levels : List (List ℕ)) (hs : levels.Pairwise (· < ·)) (l : List ℕ)
    (len : ℕ) (first : ℤ) (h0 : -1 ≤ first) (hlen : first + len ≤ levels.length)
    (hm : first = -1 → ∃ h : 0 < levels.length, levels[0] < l)
    (hend : ∀ i (hi : i < levels.length), first + len ≤ (i : ℤ) → ¬ levels[i] < l) :
    ∃ r, lowerBoundSearch levels l first len = some r ∧ first ≤ r ∧ r ≤ first + len ∧
      (∀ i (hi : i < levels.length), first ≤ (i : ℤ) → (i : ℤ) < r → levels[i] < l) ∧
      ∀ i (hi : i < levels.length), r ≤ (i : ℤ) → ¬ levels[i] < l := by
  induction len using Nat.strong_induction_on generalizing first with
  | _ len ih =>
    cases len with
    | zero =>
      refine ⟨first, by rw [lowerBoundSearch], le_refl _, by omega, fun i _ h1 h2 => by omega, ?_⟩
      intro i hi h
      exact hend i hi (by simpa using h)
    | succ len =>
      have hmid : 0 ≤ first + (((len + 1) / 2 : ℕ) : ℤ) := by
        by_cases hf : first = -1
        · obtain ⟨hp, hlt⟩ := hm hf
          have : ¬ (first + ((len + 1 : ℕ) : ℤ) ≤ ((0 : ℕ) : ℤ)) := fun h => hend 0 hp h hlt
          omega
        · omega
      generalize hh : (len + 1) / 2 = half at hmid
      have hhalf : half ≤ len := by omega
      obtain ⟨mid, hmideq⟩ : ∃ mid : ℕ, first + (half : ℤ) = mid := ⟨(first + half).toNat, by omega⟩
      have hmlt : mid < levels.length := by omega
      rw [lowerBoundSearch]
      simp only [hh, hmideq, Int.toNat_natCast, List.getElem?_eq_getElem hmlt, Option.bind_some]
      rw [if_neg (by omega)]
      by_cases hc : levels[mid] < l
      · rw [if_pos hc]
        obtain ⟨r, r1, r2, r3, r4, r5⟩ := ih (len + 1 - half - 1) (by omega) ((mid : ℤ) + 1) (by omega)
          (by omega) (fun h => by omega) (fun i hi h => hend i hi (by omega))
        refine ⟨r, r1, by omega, by omega, fun i hi h1 h2 => ?_, r5⟩
        by_cases hle : mid + 1 ≤ i
        · exact r4 i hi (by omega) h2
        · rcases Nat.lt_or_ge i mid with h3 | h3
          · exact lt_trans (List.pairwise_iff_getElem.1 hs i mid hi hmlt h3) hc
          · have : i = mid := by omega
            subst this
            exact hc
      · rw [if_neg hc]
        have hend' : ∀ i (hi : i < levels.length), first + half ≤ (i : ℤ) → ¬ levels[i] < l := by
          intro i hi h hlt
          rcases Nat.lt_or_ge mid i with h3 | h3
          · exact hc (lt_trans (List.pairwise_iff_getElem.1 hs mid i hmlt hi h3) hlt)
          · have : i = mid := by omega
            subst this
            exact hc hlt
        obtain ⟨r, r1, r2, r3, r4, r5⟩ := ih half (by omega) first h0 (by omega) hm hend'
        exact ⟨r, r1, r2, by omega, r4, r5⟩

theorem getIndexFlat_eq (levels : List (List ℕ)) (hs : levels.Pairwise (· < ·)) (l : List ℕ)
    (hint : ℤ) (h0 : -1 ≤ hint) (h1 : hint ≤ levels.length)
    (hm : hint = -1 → ∃ h : 0 < levels.length, levels[0] < l) :
    ∃ r : ℤ, getIndexFlat levels l hint =
        some (if 0 ≤ r ∧ levels[r.toNat]? = some l then r else -1) ∧
      hint ≤ r ∧ r ≤ levels.length ∧
      (∀ i (hi : i < levels.length), hint ≤ (i : ℤ) → (i : ℤ) < r → levels[i] < l) ∧
      ∀ i (hi : i < levels.length), r ≤ (i : ℤ) → ¬ levels[i] < l := by
  obtain ⟨r, r1, r2, r3, r4, r5⟩ := lowerBoundSearch_eq levels hs l
    ((levels.length : ℤ) - hint).toNat hint h0 (by omega) hm (fun i hi h => by omega)
  exact ⟨r, by rw [getIndexFlat, r1]; rfl, r2, by omega, r4, r5⟩

theorem getIndexFlat_hit (levels : List (List ℕ)) (hs : levels.Pairwise (· < ·)) (l : List ℕ)
    (i : ℕ) (hi : i < levels.length) (h : levels[i] = l) (hint : ℤ) (h0 : -1 ≤ hint)
    (h1 : hint ≤ i) (hm : hint = -1 → ∃ h : 0 < levels.length, levels[0] < l) :
    getIndexFlat levels l hint = some (i : ℤ) := by
  obtain ⟨r, e, e1, e2, e3, e4⟩ := getIndexFlat_eq levels hs l hint h0 (by omega) hm
  have hr : r = i := by
    rcases lt_trichotomy r (i : ℤ) with hlt | heq | hgt
    · exfalso
      have hr0 : 0 ≤ r := by
        by_contra hneg
        obtain ⟨hp, hlt0⟩ := hm (by omega)
        exact e4 0 hp (by omega) hlt0
      obtain ⟨k, rfl⟩ := Int.eq_ofNat_of_zero_le hr0
      refine e4 k (by omega) (le_refl _) ?_
      rw [← h]
      exact List.pairwise_iff_getElem.1 hs k i (by omega) hi (by omega)
    · exact heq
    · have := e3 i hi h1 hgt
      rw [h] at this
      exact absurd this (lt_irrefl _)
  subst hr
  rw [e, if_pos ⟨by omega, by rw [Int.toNat_natCast, List.getElem?_eq_getElem hi, h]⟩]

theorem getIndexFlat_miss (levels : List (List ℕ)) (hs : levels.Pairwise (· < ·)) (l : List ℕ)
    (h : l ∉ levels) (hint : ℤ) (h0 : -1 ≤ hint) (h1 : hint ≤ levels.length)
    (hm : hint = -1 → ∃ h : 0 < levels.length, levels[0] < l) :
    getIndexFlat levels l hint = some (-1) := by
  obtain ⟨r, e, -⟩ := getIndexFlat_eq levels hs l hint h0 h1 hm
  rw [e, if_neg fun hc => h (List.mem_of_getElem? hc.2)]

theorem ones_le (l : List ℕ) (hl : ∀ x ∈ l, 1 ≤ x) : List.replicate l.length 1 ≤ l := by
  rw [← not_lt]
  induction l with
  | nil => exact lt_irrefl _
  | cons a l ih =>
    intro h
    rw [List.length_cons, List.replicate_succ] at h
    cases h with
    | rel h => exact absurd (hl a (by simp)) (by omega)
    | cons h => exact ih (fun x hx => hl x (by simp [hx])) h

/-- None of the levels `ls` comes before the first level of the sparse grid. -/
def Reachable (levels ls : List (List ℕ)) : Prop := ∀ l ∈ ls, ∃ h : 0 < levels.length, levels[0] ≤ l

/-- With this hint the search for the levels `ls` gives the right result. -/
structure HintOk (levels ls : List (List ℕ)) (hint : ℤ) : Prop where
  lo : -1 ≤ hint
  hi : hint ≤ levels.length
  miss : hint = -1 → ∀ l ∈ ls, ∃ h : 0 < levels.length, levels[0] < l
  low : ∀ i (h : i < levels.length), levels[i] ∈ ls → hint ≤ (i : ℤ)

theorem HintOk.zero (levels ls : List (List ℕ)) : HintOk levels ls 0 :=
  ⟨by omega, by omega, fun h => by omega, fun _ _ _ => by omega⟩

/-- One search, and the hint for the next one. -/
theorem HintOk.next {levels ls : List (List ℕ)} {l : List ℕ} {hint : ℤ}
    (hs : levels.Pairwise (· < ·)) (hls : (l :: ls).Pairwise (· < ·))
    (hr : Reachable levels (l :: ls)) (h : HintOk levels (l :: ls) hint) :
    (∃ i, ∃ hi : i < levels.length, levels[i] = l ∧ getIndexFlat levels l hint = some (i : ℤ) ∧
      HintOk levels ls i) ∨
    (l ∉ levels ∧ getIndexFlat levels l hint = some (-1) ∧ HintOk levels ls (-1)) := by
  rw [List.pairwise_cons] at hls
  by_cases hmem : l ∈ levels
  · obtain ⟨i, hi, hl⟩ := List.mem_iff_getElem.1 hmem
    refine Or.inl ⟨i, hi, hl, getIndexFlat_hit levels hs l i hi hl hint h.lo
      (h.low i hi (by simp [hl])) (fun e => h.miss e l (by simp)), by omega, by omega,
      fun e => by omega, ?_⟩
    intro i' hi' hm
    have := sorted_index_le hs hi hi' (by rw [hl]; exact le_of_lt (hls.1 _ hm))
    omega
  · refine Or.inr ⟨hmem, getIndexFlat_miss levels hs l hmem hint h.lo h.hi
      (fun e => h.miss e l (by simp)), by omega, by omega, ?_, fun _ _ _ => by omega⟩
    intro _ l' hl'
    obtain ⟨h0, hle⟩ := hr l (by simp)
    exact ⟨h0, lt_of_le_of_lt hle (hls.1 l' hl')⟩

theorem Reachable.of_mem {levels ls : List (List ℕ)} (hs : levels.Pairwise (· < ·))
    (h : ∀ l ∈ ls, l ∈ levels) : Reachable levels ls := by
  intro l hl
  obtain ⟨i, hi, rfl⟩ := List.mem_iff_getElem.1 (h l hl)
  refine ⟨by omega, ?_⟩
  rcases Nat.eq_zero_or_pos i with rfl | hp
  · exact le_refl _
  · exact le_of_lt (List.pairwise_iff_getElem.1 hs 0 i (by omega) hi hp)

/-- If the sparse grid has the level with all entries one, then all levels are reachable. -/
theorem Reachable.of_ones {levels ls : List (List ℕ)} (hs : levels.Pairwise (· < ·))
    (h : ∀ l ∈ ls, (∀ x ∈ l, 1 ≤ x) ∧ List.replicate l.length 1 ∈ levels) : Reachable levels ls := by
  intro l hl
  obtain ⟨h1, h2⟩ := h l hl
  obtain ⟨h0, hle⟩ := Reachable.of_mem hs (ls := [List.replicate l.length 1])
    (fun k hk => by rw [List.mem_singleton] at hk; rw [hk]; exact h2) _ (List.mem_singleton.2 rfl)
  exact ⟨h0, le_trans hle (ones_le l h1)⟩

end Verif

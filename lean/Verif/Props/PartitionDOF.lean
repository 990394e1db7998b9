import Verif.Lemmas.PartitionDOF

/-!
# Degrees of freedom per partition (C58, C69)
-/

namespace Verif.PartitionDOF

/-- The arguments: a decomposition of the grid with boundary points of the reference level, and subspaces
with levels from 1 up to the reference level. The table of powers of two ends at 28. -/
structure Valid (downSet : List (List ℕ)) (ref : List ℕ) (dec : List (List ℕ)) : Prop where
  table : ∀ r ∈ ref, r ≤ 28
  dec : List.Forall₂ (fun r d => ValidDec d (2 ^ r + 1)) ref dec
  levels : ∀ s ∈ downSet, List.Forall₂ (fun l r => 1 ≤ l ∧ l ≤ r) s ref

/-- The extents of a subspace. -/
def extVal : List ℕ → List ℕ → List (List ℕ) → List (List ℤ)
  | l :: ls, r :: rs, d :: ds => diffs 0 ((d.tail.map (cnt l r)) ++ [total l]) :: extVal ls rs ds
  | _, _, _ => []

lemma extents_eq {s ref : List ℕ} {dec : List (List ℕ)} (h28 : ∀ r ∈ ref, r ≤ 28)
    (hd : List.Forall₂ (fun r d => ValidDec d (2 ^ r + 1)) ref dec)
    (hl : List.Forall₂ (fun l r => 1 ≤ l ∧ l ≤ r) s ref) :
    extents s ref dec = .ok (extVal s ref dec) := by
  induction hl generalizing dec with
  | nil => cases hd; rfl
  | cons h1 h2 ih =>
    cases hd with
    | cons hd1 hd2 =>
      unfold extents
      rw [extents1d_eq h1.1 h1.2 (h28 _ List.mem_cons_self) hd1,
        ih (fun r hr => h28 r (List.mem_cons_of_mem _ hr)) hd2]
      rfl

lemma extVal_length {s ref : List ℕ} {dec : List (List ℕ)}
    (hd : List.Forall₂ (fun r d => ValidDec d (2 ^ r + 1)) ref dec)
    (hl : List.Forall₂ (fun l r => 1 ≤ l ∧ l ≤ r) s ref) :
    (extVal s ref dec).map List.length = dec.map List.length ∧ ∀ e ∈ extVal s ref dec, e ≠ [] := by
  induction hl generalizing dec with
  | nil => cases hd; simp [extVal]
  | cons h1 h2 ih =>
    cases hd with
    | @cons _ d _ _ hd1 hd2 =>
      obtain ⟨i1, i2⟩ := ih hd2
      have hne : d ≠ [] := by
        rintro rfl
        simpa using hd1.head
      constructor
      · simp only [extVal, List.map_cons, i1, diffs_length, List.length_append, List.length_map,
          List.length_tail, List.length_singleton]
        have := List.length_pos_iff.mpr hne
        rw [show d.length - 1 + 1 = d.length by omega]
      · intro e he
        rcases List.mem_cons.mp he with rfl | he
        · rw [← List.length_pos_iff, diffs_length]
          simp
        · exact i2 e he

lemma extVal_nonneg {s ref : List ℕ} {dec : List (List ℕ)}
    (hd : List.Forall₂ (fun r d => ValidDec d (2 ^ r + 1)) ref dec)
    (hl : List.Forall₂ (fun l r => 1 ≤ l ∧ l ≤ r) s ref) :
    ∀ e ∈ extVal s ref dec, ∀ x ∈ e, 0 ≤ x := by
  induction hl generalizing dec with
  | nil => cases hd; simp [extVal]
  | @cons l r _ _ h1 h2 ih =>
    cases hd with
    | @cons _ d _ _ hd1 hd2 =>
      intro e he
      rcases List.mem_cons.mp he with rfl | he
      · refine diffs_nonneg ?_
        rw [List.pairwise_cons]
        refine ⟨fun _ _ => Nat.zero_le _, ?_⟩
        rw [List.pairwise_append]
        refine ⟨?_, by simp, ?_⟩
        · rw [List.pairwise_map]
          exact (hd1.sorted.sublist (List.tail_sublist d)).imp fun h => cnt_mono h
        · intro a ha b hb
          obtain ⟨x, hx, rfl⟩ := List.mem_map.mp ha
          rw [List.mem_singleton.mp hb]
          exact cnt_le h1.1 h1.2 (hd1.le x (List.mem_of_mem_tail hx))
      · exact ih hd2 e he

lemma dofSpace_eq {s ref : List ℕ} {dec : List (List ℕ)} (h28 : ∀ r ∈ ref, r ≤ 28)
    (hd : List.Forall₂ (fun r d => ValidDec d (2 ^ r + 1)) ref dec)
    (hl : List.Forall₂ (fun l r => 1 ≤ l ∧ l ≤ r) s ref) (acc : ℤ) :
    dofSpace s acc = .ok (acc * ((extVal s ref dec).map List.sum).prod) := by
  induction hl generalizing dec acc with
  | nil => cases hd; simp [dofSpace, extVal]
  | @cons l r _ _ h1 h2 ih =>
    cases hd with
    | cons hd1 hd2 =>
      unfold dofSpace
      have hf : dofFactor l = .ok (total l : ℤ) := by
        have := h28 r List.mem_cons_self
        unfold dofFactor total
        rw [if_neg (by omega)]
        split_ifs
        · rfl
        · rw [pow2_eq (by omega)]
          rfl
      rw [hf]
      simp only [Outcome.bind]
      rw [ih (fun r hr => h28 r (List.mem_cons_of_mem _ hr)) hd2]
      simp only [extVal, List.map_cons, List.prod_cons, diffs_sum]
      congr 1
      push_cast
      ring

/-- The entries of the result. -/
lemma subspaceLoop_eq {downSet : List (List ℕ)} {ref : List ℕ} {dec : List (List ℕ)}
    (hv : Valid downSet ref dec) (acc : List ℤ) (hacc : acc.length = (dec.map List.length).prod) :
    ∃ r, subspaceLoop ref dec downSet acc = .ok r ∧ r.length = acc.length ∧
      ∀ k, k < acc.length → r.getD k 0 = acc.getD k 0 +
        (downSet.map fun s => procVal (extVal s ref dec) k).sum := by
  induction downSet generalizing acc with
  | nil => exact ⟨acc, rfl, rfl, by simp⟩
  | cons s rest ih =>
    have hs := hv.levels s List.mem_cons_self
    obtain ⟨e1, e2⟩ := extVal_length hv.dec hs
    obtain ⟨r1, a1, a2, a3⟩ := addProcs_eq
      (dims := ((tensorOffsets (dec.map List.length)).zip (extVal s ref dec)).reverse)
      (v := procVal (extVal s ref dec)) (i := 0) (xs := acc) (by
        intro j _ hj
        have := dofOf_eq (extVal s ref dec) e2 1 j one_pos (by rw [e1, one_mul, ← hacc]; omega) [] 1
        rw [e1, List.append_nil] at this
        rw [show tensorOffsets (dec.map List.length) = offsetsLoop (dec.map List.length) 1 from rfl, this]
        simp [dofOf])
    obtain ⟨r2, b1, b2, b3⟩ := ih ⟨hv.table, hv.dec, fun s hs => hv.levels s (List.mem_cons_of_mem _ hs)⟩
      r1 (by rw [a2, hacc])
    refine ⟨r2, ?_, by omega, ?_⟩
    · unfold subspaceLoop
      rw [extents_eq hv.table hv.dec hs]
      simp only [Outcome.bind, a1]
      exact b1
    · intro k hk
      rw [b3 k (by omega), a3 k hk]
      simp only [List.map_cons, List.sum_cons, zero_add]
      ring

lemma sgDOF_eq {downSet : List (List ℕ)} {ref : List ℕ} {dec : List (List ℕ)}
    (hv : Valid downSet ref dec) (acc : ℤ) :
    sgDOF downSet acc =
      .ok (acc + (downSet.map fun s => ((extVal s ref dec).map List.sum).prod).sum) := by
  induction downSet generalizing acc with
  | nil => simp [sgDOF]
  | cons s rest ih =>
    unfold sgDOF
    rw [dofSpace_eq hv.table hv.dec (hv.levels s List.mem_cons_self) 1]
    simp only [Outcome.bind]
    rw [ih ⟨hv.table, hv.dec, fun s hs => hv.levels s (List.mem_cons_of_mem _ hs)⟩]
    simp only [List.map_cons, List.sum_cons]
    congr 1
    ring

lemma sum_range_list (f : List ℕ → ℕ → ℤ) (l : List (List ℕ)) (n : ℕ) :
    ∑ k ∈ Finset.range n, (l.map fun s => f s k).sum = (l.map fun s => ∑ k ∈ Finset.range n, f s k).sum := by
  induction l with
  | nil => simp
  | cons s l ih => simp [Finset.sum_add_distrib, ih]

/-- **C58.** The degrees of freedom of the partitions are not negative and sum up to those of the sparse
grid. Partial: both are for grids with two boundary points per dimension, see `C58_violated`. -/
theorem C58_sum_partial (downSet : List (List ℕ)) (ref : List ℕ) (dec : List (List ℕ))
    (hv : Valid downSet ref dec) :
    ∃ r, partitionedNumDOF downSet ref dec = .ok r ∧ (∀ x ∈ r, 0 ≤ x) ∧ sgDOF downSet 0 = .ok r.sum := by
  unfold partitionedNumDOF
  by_cases h0 : downSet = []
  · subst h0
    exact ⟨[], by simp, by simp, by simp [sgDOF]⟩
  · rw [if_neg h0]
    obtain ⟨r, h1, h2, h3⟩ := subspaceLoop_eq hv (List.replicate (dec.map List.length).prod 0) (by simp)
    rw [List.length_replicate] at h2 h3
    have h4 : ∀ k, k < (dec.map List.length).prod →
        r.getD k 0 = (downSet.map fun s => procVal (extVal s ref dec) k).sum := by
      intro k hk
      rw [h3 k hk, List.getD_eq_getElem _ _ (by simpa using hk)]
      simp
    refine ⟨r, h1, ?_, ?_⟩
    · intro x hx
      obtain ⟨k, hk, rfl⟩ := List.mem_iff_getElem.mp hx
      have := h4 k (by omega)
      rw [List.getD_eq_getElem _ _ hk] at this
      rw [this]
      refine List.sum_nonneg ?_
      intro y hy
      obtain ⟨s, hs, rfl⟩ := List.mem_map.mp hy
      exact procVal_nonneg _ (extVal_nonneg hv.dec (hv.levels s hs)) k
    · rw [sgDOF_eq hv 0, zero_add]
      congr 1
      rw [← sum_getD r, h2, Finset.sum_congr rfl fun k hk => h4 k (Finset.mem_range.mp hk),
        sum_range_list (fun s k => procVal (extVal s ref dec) k)]
      congr 1
      refine List.map_congr_left ?_
      intro s hs
      obtain ⟨e1, e2⟩ := extVal_length hv.dec (hv.levels s hs)
      rw [← e1, sum_procVal _ e2]

/-- The degrees of freedom are those of the subspaces with two boundary points per dimension. -/
theorem C58_sgDOF (downSet : List (List ℕ)) (h : ∀ s ∈ downSet, ∀ l ∈ s, 1 ≤ l ∧ l ≤ 28) :
    sgDOF downSet 0 = .ok (((downSet.map fun s => (s.map fun l => getNumDofHierarchical l 2).prod).sum : ℕ) : ℤ) := by
  have hfac : ∀ l, 1 ≤ l → l ≤ 28 → dofFactor l = .ok (getNumDofHierarchical l 2 : ℤ) := by
    intro l h1 h2
    unfold dofFactor getNumDofHierarchical
    rw [if_neg (by omega)]
    split_ifs
    · rfl
    · rw [pow2_eq (by omega)]
      rfl
  have hsp : ∀ (s : List ℕ) (acc : ℤ), (∀ l ∈ s, 1 ≤ l ∧ l ≤ 28) →
      dofSpace s acc = .ok (acc * ((s.map fun l => getNumDofHierarchical l 2).prod : ℕ)) := by
    intro s
    induction s with
    | nil => intro acc _; simp [dofSpace]
    | cons l s ih =>
      intro acc hs
      have hl := hs l List.mem_cons_self
      unfold dofSpace
      rw [hfac l hl.1 hl.2]
      simp only [Outcome.bind]
      rw [ih _ fun l hl => hs l (List.mem_cons_of_mem _ hl)]
      simp only [List.map_cons, List.prod_cons]
      congr 1
      push_cast
      ring
  have hds : ∀ (acc : ℤ), sgDOF downSet acc =
      .ok (acc + ((downSet.map fun s => (s.map fun l => getNumDofHierarchical l 2).prod).sum : ℕ)) := by
    induction downSet with
    | nil => intro acc; simp [sgDOF]
    | cons s rest ih =>
      intro acc
      unfold sgDOF
      rw [hsp s 1 (h s List.mem_cons_self)]
      simp only [Outcome.bind]
      rw [ih fun s hs => h s (List.mem_cons_of_mem _ hs)]
      simp only [List.map_cons, List.sum_cons]
      congr 1
      push_cast
      ring
  rw [hds 0, zero_add]

lemma cnt_points {l ref n : ℕ} (hl : 1 ≤ l) (hr : l ≤ ref) (hn : n ≤ 2 ^ ref + 1)
    (h1 : l = 1 → n ≠ 2 ^ (ref - 1) ∧ n < 2 ^ ref) :
    (get1dIndicesLocal ref 2 0 n l).length = cnt l ref n := by
  unfold get1dIndicesLocal
  rw [if_neg (by omega), List.length_map, List.length_range]
  have hstart : localStartForLevel ref 2 0 l = offsetForLevel ref 2 l := by
    unfold localStartForLevel
    simp only
    have hs := stride_pos ref 2 l
    split
    · omega
    · rename_i h
      have h0 : offsetForLevel ref 2 l = 0 := by omega
      rw [h0]
      have : (0 - 0 + strideForLevel ref 2 l - 1) / strideForLevel ref 2 l = 0 :=
        Nat.div_eq_of_lt (by omega)
      rw [this]
      simp
  rw [hstart]
  unfold numPointsOnPartition offsetForLevel strideForLevel cnt
  by_cases hl1 : l = 1
  · subst hl1
    obtain ⟨m, rfl⟩ : ∃ m, ref = m + 1 := ⟨ref - 1, by omega⟩
    simp only [show m + 1 - 1 = m by omega, true_and, if_true, Nat.ofNat_pos]
    obtain ⟨hn1, hn2⟩ := h1 rfl
    simp only [show m + 1 - 1 = m by omega] at hn1
    have hp := pow_pos (show 0 < 2 by norm_num) m
    rw [pow_succ] at hn2 ⊢
    by_cases h0 : n = 0
    · subst h0
      simp
    · rw [if_neg (by omega), if_neg h0, if_neg (by omega)]
      by_cases hm : 2 ^ m ≤ n
      · rw [if_pos hm]
        have : (n - 1 - 0) / 2 ^ m = 1 := by
          rw [Nat.div_eq_iff hp]
          omega
        omega
      · rw [if_neg hm, Nat.div_eq_of_lt (by omega)]
  · simp only [hl1, false_and, if_false, gt_iff_lt, Nat.ofNat_pos, if_true]
    have hp := pow_pos (show 0 < 2 by norm_num) (ref - l)
    have hps : 2 ^ (ref - l + 1) = 2 * 2 ^ (ref - l) := by rw [pow_succ]; ring
    split_ifs with h
    · rw [Nat.div_eq_of_lt (by omega)]
    · have : n + 2 ^ (ref - l) - 1 = n - 1 - 2 ^ (ref - l) + 2 ^ (ref - l + 1) := by omega
      rw [this, Nat.add_div_right _ (by positivity)]

lemma points_split {l ref a b : ℕ} (hl : 1 ≤ l) (hr : l ≤ ref) (hab : a ≤ b) (hb : b ≤ 2 ^ ref + 1) :
    (get1dIndicesLocal ref 2 0 b l).length =
      (get1dIndicesLocal ref 2 0 a l).length + (get1dIndicesLocal ref 2 a (b - a) l).length := by
  have hnod : nodal ref 2 = 2 ^ ref + 1 := by unfold nodal; omega
  rw [get1d_eq_filter _ _ _ _ _ (by norm_num) hl (by omega) (by rw [hnod]; omega),
    get1d_eq_filter _ _ _ _ _ (by norm_num) hl (by omega) (by rw [hnod]; omega),
    get1d_eq_filter _ _ _ _ _ (by norm_num) hl (by omega) (by rw [hnod]; omega)]
  have := count_split (onLevel ref 2 l) 0 a (b - a)
  rw [show a + (b - a) = b by omega] at this
  simpa using this

/-- The parts of the grid of the reference level that belong to the partition with the coordinates `c`. -/
def partOf : List ℕ → List (List ℕ) → List ℕ → List LocalDim
  | r :: rs, d :: ds, c :: cs =>
    ⟨r, 2, (lowerBound1d d c).getD 0, (upperBound1d d (2 ^ r + 1) c).getD 0 - (lowerBound1d d c).getD 0⟩ ::
      partOf rs ds cs
  | _, _, _ => []

lemma extent_points {l ref : ℕ} (hl : 1 ≤ l) (hr : l ≤ ref) {dec : List ℕ}
    (hd : ValidDec dec (2 ^ ref + 1)) (hm : l = 1 → ∀ n ∈ dec, n ≠ 2 ^ (ref - 1) ∧ n < 2 ^ ref) (c : ℕ)
    (hc : c < dec.length) :
    (diffs 0 ((dec.tail.map (cnt l ref)) ++ [total l])).getD c 0 =
      ((get1dIndicesLocal ref 2 ((lowerBound1d dec c).getD 0)
        ((upperBound1d dec (2 ^ ref + 1) c).getD 0 - (lowerBound1d dec c).getD 0) l).length : ℤ) := by
  cases dec with
  | nil => simp at hc
  | cons a ns =>
    have ha : a = 0 := by simpa using hd.head
    subst ha
    have hfull : (get1dIndicesLocal ref 2 0 (2 ^ ref + 1) l).length = total l := by
      have := length_get1d_full ref 2 l (by norm_num) hl hr
      rw [show nodal ref 2 = 2 ^ ref + 1 from rfl] at this
      rw [this]
      unfold getNumDofHierarchical total
      split_ifs <;> rfl
    have hlo : (lowerBound1d (0 :: ns) c).getD 0 = (0 :: ns)[c] := by
      unfold lowerBound1d
      rw [List.getElem?_eq_getElem hc]
      rfl
    have hlom : (0 :: ns)[c] ∈ 0 :: ns := List.getElem_mem _
    have hlen : (diffs 0 ((ns.map (cnt l ref)) ++ [total l])).length = ns.length + 1 := by
      rw [diffs_length]; simp
    rw [List.tail_cons, List.getD_eq_getElem _ _ (by rw [hlen]; simpa using hc),
      diffs_getElem _ _ _ (by simpa using hc), hlo]
    have hprev : ((0 :: (ns.map (cnt l ref) ++ [total l]))[c]'(by simp at hc ⊢; omega)) =
        cnt l ref (0 :: ns)[c] := by
      cases c with
      | zero => simp [cnt_zero]
      | succ c =>
        simp only [List.length_cons] at hc
        simp only [List.getElem_cons_succ]
        rw [List.getElem_append_left (by simp; omega)]
        simp
    rw [hprev, ← cnt_points hl hr (hd.le _ hlom) (fun h => hm h _ hlom)]
    by_cases hlast : c = ns.length
    · subst hlast
      have hup : (upperBound1d (0 :: ns) (2 ^ ref + 1) ns.length).getD 0 = 2 ^ ref + 1 := by
        unfold upperBound1d
        simp
      rw [hup, List.getElem_append_right (by simp)]
      simp only [List.length_map, Nat.sub_self, List.getElem_singleton]
      rw [← hfull, points_split hl hr (hd.le _ hlom) le_rfl]
      push_cast
      ring
    · have hc' : c < ns.length := by simp only [List.length_cons] at hc; omega
      have hup : (upperBound1d (0 :: ns) (2 ^ ref + 1) c).getD 0 = ns[c] := by
        unfold upperBound1d lowerBound1d
        simp [hc']
      have hm' : ns[c] ∈ 0 :: ns := List.mem_cons_of_mem _ (List.getElem_mem _)
      rw [hup, List.getElem_append_left (by simpa using hc'), List.getElem_map,
        ← cnt_points hl hr (hd.le _ hm') (fun h => hm h _ hm')]
      have hle : (0 :: ns)[c] ≤ ns[c] := by
        have := List.pairwise_iff_getElem.mp hd.sorted c (c + 1) (by simpa using hc)
          (by simp; omega) (by omega)
        simpa using this
      rw [points_split hl hr hle (hd.le _ hm')]
      push_cast
      ring

/-- **C69.** If no partition begins at the middle or at the last point of the reference grid, then the
degrees of freedom of a partition are the numbers of points of the subspaces that the distributed grid of
the reference level has there. Partial: see `C69_violated`. -/
theorem C69_points_partial (downSet : List (List ℕ)) (ref : List ℕ) (dec : List (List ℕ))
    (hv : Valid downSet ref dec) (hne : downSet ≠ [])
    (hmid : List.Forall₂ (fun r d => ∀ n ∈ d, n ≠ 2 ^ (r - 1) ∧ n < 2 ^ r) ref dec)
    (c : List ℕ) (hc : List.Forall₂ (· < ·) c (dec.map List.length)) :
    ∃ r, partitionedNumDOF downSet ref dec = .ok r ∧
      r[sequentialIndex (dec.map List.length) c]? =
        some (downSet.map fun s => ((getFGPointsOfSubspace (partOf ref dec c) s).length : ℤ)).sum := by
  unfold partitionedNumDOF
  rw [if_neg hne]
  obtain ⟨r, h1, h2, h3⟩ := subspaceLoop_eq hv (List.replicate (dec.map List.length).prod 0) (by simp)
  rw [List.length_replicate] at h2 h3
  refine ⟨r, h1, ?_⟩
  have hk := sequentialIndex_lt _ _ hc
  have h4 := h3 _ hk
  rw [List.getD_eq_getElem _ _ (by omega), List.getD_eq_getElem _ _ (by simpa using hk)] at h4
  rw [List.getElem?_eq_getElem (by omega), h4]
  simp only [List.getElem_replicate, zero_add, Option.some.injEq]
  congr 1
  refine List.map_congr_left ?_
  intro s hs
  have hs' := hv.levels s hs
  obtain ⟨e1, -⟩ := extVal_length hv.dec hs'
  have := procVal_seq (extVal s ref dec) c (by rw [e1]; exact hc)
  rw [e1] at this
  rw [this]
  have hglen : (partOf ref dec c).length = s.length := by
    have hdl := hv.dec
    have hsl := hs'
    clear this e1 hk h4 h3 h2 h1 hmid hs hs' hne hv
    induction hsl generalizing dec c with
    | nil => cases hdl; simp [partOf]
    | cons _ _ ih =>
      cases hdl with
      | cons _ hd2 =>
        cases hc with
        | cons _ hc2 =>
          simp [partOf, ih _ _ hc2 hd2]
  rw [getFGPointsOfSubspace_eq _ _ hglen.symm, List.length_map, length_prodList]
  have hdl := hv.dec
  have hsl := hs'
  clear this e1 hk h4 h3 h2 h1 hs hs' hne hv hglen
  induction hsl generalizing dec c with
  | nil => cases hdl; simp [partOf, extVal, oneDLists]
  | cons h5 _ ih =>
    cases hdl with
    | cons hd1 hd2 =>
      cases hmid with
      | cons hm1 hm2 =>
        cases hc with
        | cons hc1 hc2 =>
          have := ih _ hm2 _ hc2 hd2
          simp only [extVal, partOf, oneDLists, List.zipWith_cons_cons, List.prod_cons, List.map_cons] at this ⊢
          rw [this, extent_points h5.1 h5.2 hd1 (fun _ => hm1) _ hc1]
          push_cast
          ring

/-! ### Examples and counterexamples -/

/-- Two dimensions, two times three partitions. -/
example : Valid [[1, 1], [1, 2], [2, 1], [3, 1]] [3, 3] [[0, 5], [0, 3, 6]] ∧
    partitionedNumDOF [[1, 1], [1, 2], [2, 1], [3, 1]] [3, 3] [[0, 5], [0, 3, 6]] =
      .ok [7, 5, 5, 4, 7, 5] ∧
    sgDOF [[1, 1], [1, 2], [2, 1], [3, 1]] 0 = .ok 33 := by
  refine ⟨⟨by decide, ?_, ?_⟩, by decide +kernel, by decide +kernel⟩
  · refine .cons ⟨rfl, by decide, by decide⟩ (.cons ⟨rfl, by decide, by decide⟩ .nil)
  · decide

/-- The hypothesis on the middle holds for this decomposition. -/
example : List.Forall₂ (fun r d => ∀ n ∈ d, n ≠ 2 ^ (r - 1) ∧ n < 2 ^ r) [3, 3] [[0, 5], [0, 3, 6]] ∧
    List.Forall₂ (· < ·) [1, 2] ([[0, 5], [0, 3, 6]].map List.length) := by
  refine ⟨.cons (by decide) (.cons (by decide) .nil), by decide⟩

/-- **C58 violated for one boundary point.** A subspace of level 1 is counted with three points also if
the boundary is periodic (two points) or missing (one point). -/
theorem C58_violated : sgDOF [[1]] 0 = .ok 3 ∧ partitionedNumDOF [[1]] [1] [[0]] = .ok [3] ∧
    getNumDofHierarchical 1 1 = 2 ∧ getNumDofHierarchical 1 0 = 1 := by
  decide +kernel

/-- **C69 violated.** If a partition begins at the middle of the reference grid, then the code counts the
point in the middle for the partition before, which has the points 0 to 3 only. -/
theorem C69_violated : partitionedNumDOF [[1]] [3] [[0, 4]] = .ok [2, 1] ∧
    (getFGPointsOfSubspace (partOf [3] [[0, 4]] [0]) [1]).length = 1 ∧
    (getFGPointsOfSubspace (partOf [3] [[0, 4]] [1]) [1]).length = 2 := by
  decide +kernel

end Verif.PartitionDOF

import Verif.Model.ReduceLmax
import Verif.Props.Classical

/-!
# Lemmas on leaving out the highest subspaces
-/

namespace Verif

/-- The vectors `reduce` for which leaving out subspaces does not change the combination: by at most one
level, and either in at most one dimension or in one of the dimensions with the smallest difference of `lmax`
and `lmin` (and then in any other dimensions, too). -/
def Harmless (lmin lmax reduce : List ℕ) : Prop :=
  reduce.length ≤ lmax.length ∧ (∀ r ∈ reduce, r ≤ 1) ∧
    (reduce.sum ≤ 1 ∨ ∃ i < lmax.length, reduce.getD i 0 = 1 ∧
      ∀ j < lmax.length, lmax.getD i 0 - lmin.getD i 0 ≤ lmax.getD j 0 - lmin.getD j 0)

theorem reduceLmax_some {lmin lmax reduce : List ℕ} (hlt : List.Forall₂ (· < ·) lmin lmax)
    (hlen : reduce.length ≤ lmax.length) (hone : ∀ r ∈ reduce, r ≤ 1) :
    ∃ l, reduceLmax lmin lmax reduce = some l ∧ l.length = lmax.length ∧
      ∀ i < lmax.length, l.getD i 0 + reduce.getD i 0 = lmax.getD i 0 := by
  induction hlt generalizing reduce with
  | nil =>
    have : reduce = [] := by simpa using hlen
    subst this
    exact ⟨[], rfl, rfl, by simp⟩
  | @cons a b lmin lmax hab _ ih =>
    cases reduce with
    | nil => exact ⟨b :: lmax, rfl, rfl, by simp⟩
    | cons r reduce =>
      obtain ⟨l, e1, e2, e3⟩ := ih (reduce := reduce) (by simpa using hlen)
        (fun r hr => hone r (by simp [hr]))
      have hr := hone r (by simp)
      refine ⟨max a (b - r) :: l, by rw [reduceLmax, e1]; rfl, by simp [e2], fun i hi => ?_⟩
      cases i with
      | zero =>
        simp only [List.getD_cons_zero]
        omega
      | succ i =>
        simp only [List.getD_cons_succ]
        exact e3 i (by simpa using hi)

/-- The excess of `k` over `lmax - m`. -/
def topExcess (m : ℕ) (k lmax : List ℕ) : ℕ :=
  (List.zipWith (fun (ki li : ℕ) => ((ki : ℤ) - (li - m)).toNat) k lmax).sum

theorem excess_reduced {m : ℕ} {k l lmax reduce : List ℕ} (hl : l.length = lmax.length)
    (hr : reduce.length ≤ lmax.length)
    (h : ∀ i < lmax.length, l.getD i 0 + reduce.getD i 0 = lmax.getD i 0) :
    topExcess m k l ≤ topExcess m k lmax + reduce.sum := by
  induction lmax generalizing k l reduce with
  | nil =>
    have : l = [] := by simpa using hl
    subst this
    simp [topExcess]
  | cons b lmax ih =>
    cases l with
    | nil => simp at hl
    | cons a l =>
      have h0 := h 0 (by simp)
      have h' := fun i (hi : i < lmax.length) => h (i + 1) (by simpa using hi)
      cases k with
      | nil => simp [topExcess]
      | cons x k =>
        cases reduce with
        | nil =>
          simp only [List.getD_cons_zero, List.getD_nil, List.getD_cons_succ] at h0 h'
          have := ih (k := k) (l := l) (reduce := []) (by simpa using hl) (by simp)
            (fun i hi => by rw [List.getD_nil]; exact h' i hi)
          unfold topExcess at this ⊢
          simp only [List.zipWith_cons_cons, List.sum_cons, List.sum_nil] at this ⊢
          omega
        | cons r reduce =>
          simp only [List.getD_cons_zero, List.getD_cons_succ] at h0 h'
          have := ih (k := k) (l := l) (reduce := reduce) (by simpa using hl) (by simpa using hr) h'
          unfold topExcess at this ⊢
          simp only [List.zipWith_cons_cons, List.sum_cons] at this ⊢
          omega

theorem excess_reduced_all {m : ℕ} {k l lmax : List ℕ} (hl : l.length = lmax.length)
    (h : ∀ i < lmax.length, lmax.getD i 0 ≤ l.getD i 0 + 1) :
    topExcess m k l ≤ topExcess (m + 1) k lmax := by
  induction lmax generalizing k l with
  | nil =>
    have : l = [] := by simpa using hl
    subst this
    simp [topExcess]
  | cons b lmax ih =>
    cases l with
    | nil => simp at hl
    | cons a l =>
      have h0 := h 0 (by simp)
      have h' := fun i (hi : i < lmax.length) => h (i + 1) (by simpa using hi)
      cases k with
      | nil => simp [topExcess]
      | cons x k =>
        simp only [List.getD_cons_zero, List.getD_cons_succ] at h0 h'
        have := ih (k := k) (l := l) (by simpa using hl) h'
        unfold topExcess at this ⊢
        simp only [List.zipWith_cons_cons, List.sum_cons] at this ⊢
        omega

/-- A grid above a subspace with the largest excess is the smallest one above it. -/
theorem eq_of_excess {m : ℕ} {k lmax g : List ℕ} (hm : ∀ b ∈ lmax, m ≤ b) (hk : VecLe k g)
    (hg : VecLe (lmax.map (· - m)) g) :
    (lmax.map (· - m)).sum + topExcess m k lmax ≤ g.sum ∧
      (g.sum = (lmax.map (· - m)).sum + topExcess m k lmax →
        g = List.zipWith max k (lmax.map (· - m))) := by
  induction lmax generalizing k g with
  | nil =>
    cases hg
    cases hk
    simp [topExcess]
  | cons b lmax ih =>
    cases hg with
    | cons h1 hg =>
      beta_reduce at h1
      cases hk with
      | cons h2 hk =>
        have hb := hm b (by simp)
        obtain ⟨i1, i2⟩ := ih (fun b hb => hm b (by simp [hb])) hk hg
        unfold topExcess at i1 i2 ⊢
        simp only [List.map_cons, List.sum_cons, List.zipWith_cons_cons] at i1 i2 ⊢
        refine ⟨by omega, fun h => ?_⟩
        rw [← i2 (by omega)]
        congr 1
        omega

/-- A grid of the scheme is at most of the maximum level. -/
theorem le_of_sum {m : ℕ} {lmax g : List ℕ} (hm : ∀ b ∈ lmax, m ≤ b) (hg : VecLe (lmax.map (· - m)) g)
    {e : ℕ} (he : e ≤ m) (hs : g.sum ≤ (lmax.map (· - m)).sum + e) : VecLe g lmax := by
  induction lmax generalizing g e with
  | nil =>
    cases hg
    exact .nil
  | cons b lmax ih =>
    cases hg with
    | @cons _ x _ g h1 hg =>
      beta_reduce at h1
      have hb := hm b (by simp)
      simp only [List.map_cons, List.sum_cons] at hs
      have hle : (lmax.map (· - m)).sum ≤ g.sum := hg.sum_le_sum
      exact .cons (by omega) (ih (fun b hb => hm b (by simp [hb])) hg he (by omega))

theorem topExcess_ones {m : ℕ} {lmax : List ℕ} (hm : ∀ b ∈ lmax, m < b) {d : ℕ} :
    topExcess m (List.replicate d 1) lmax = 0 := by
  induction lmax generalizing d with
  | nil => simp [topExcess]
  | cons b lmax ih =>
    cases d with
    | zero => simp [topExcess]
    | succ d =>
      have hb := hm b (by simp)
      have := ih (fun b hb => hm b (by simp [hb])) (d := d)
      unfold topExcess at this ⊢
      simp only [List.replicate_succ, List.zipWith_cons_cons, List.sum_cons, this]
      omega

theorem filter_length_one {α β : Type*} {L : List α} {f : α → β} (hnd : (L.map f).Nodup) {p : α → Bool}
    {t : α} (ht : t ∈ L.filter p) (h : ∀ t' ∈ L.filter p, f t' = f t) : (L.filter p).length = 1 := by
  have h1 : ((L.filter p).map f).Nodup := hnd.sublist (List.filter_sublist.map f)
  have h2 : (L.filter p).map f = List.replicate (L.filter p).length (f t) := by
    rw [List.eq_replicate_iff]
    refine ⟨by simp, fun x hx => ?_⟩
    obtain ⟨t', ht', rfl⟩ := List.mem_map.1 hx
    exact h t' ht'
  rw [h2, List.nodup_replicate] at h1
  have := List.length_pos_of_mem ht
  omega

/-- All subspaces but those with the largest excess are in the sparse grid. -/
theorem mem_combinedLevels {lmin lmax reduce : List ℕ}
    (hlt : List.Forall₂ (· < ·) lmin lmax) (hh : Harmless lmin lmax reduce) {m : ℕ}
    (hm : IsMinDiff lmax (toInt lmin) m) {levels : List (List ℕ)}
    (hl : combinedLevels lmin lmax reduce = some levels) {k : List ℕ} (hlen : k.length = lmax.length)
    (hpos : ∀ x ∈ k, 1 ≤ x) (hk : topExcess m k lmax < m) : k ∈ levels := by
  obtain ⟨h1, h2, h3⟩ := hh
  obtain ⟨l, e1, e2, e3⟩ := reduceLmax_some hlt h1 h2
  unfold combinedLevels at hl
  rw [e1, Option.map_some, Option.some.injEq] at hl
  subst hl
  have hll := hlt.length_eq
  have hget : ∀ i (hi : i < lmax.length) (hi' : i < lmin.length), lmin[i] < lmax[i] := by
    intro i hi hi'
    exact (List.forall₂_iff_get.1 hlt).2 i hi' hi
  have e3' : ∀ i (hi : i < l.length) (hi' : i < lmax.length), l[i] + reduce.getD i 0 = lmax[i] := by
    intro i hi hi'
    have := e3 i hi'
    rw [List.getD_eq_getElem _ _ hi, List.getD_eq_getElem _ _ hi'] at this
    exact this
  have hr1 : ∀ i, reduce.getD i 0 ≤ 1 := by
    intro i
    by_cases hi : i < reduce.length
    · rw [List.getD_eq_getElem _ _ hi]
      exact h2 _ (List.getElem_mem _)
    · rw [List.getD_eq_default _ _ (by omega)]
      omega
  have hle : LminLeLmax (toInt lmin) l := by
    unfold LminLeLmax toInt
    rw [List.forall₂_map_left_iff, List.forall₂_iff_get]
    refine ⟨by rw [e2, hll], fun i hi hi' => ?_⟩
    simp only [List.get_eq_getElem]
    have a1 := hget i (by omega) hi
    have a2 := e3' i hi' (by omega)
    have a3 := hr1 i
    omega
  obtain ⟨m1, i0, hi0, hi0', m2⟩ := hm
  simp only [toInt, List.getElem_map, List.length_map] at m1 m2 hi0'
  have hpm : 0 < m := by
    have := hget i0 hi0 hi0'
    omega
  by_cases hmin : ∃ i, ∃ (hi : i < lmax.length) (hi' : i < lmin.length), lmin[i] + m = lmax[i] ∧
      reduce.getD i 0 = 1
  · obtain ⟨i, hi, hi', q1, q2⟩ := hmin
    rw [C02_truncated_mem l (toInt lmin) k (m - 1) hle ⟨?_, ?_⟩]
    · refine ⟨by rw [hlen, e2], hpos, ?_⟩
      have := excess_reduced_all (m := m - 1) (k := k) e2 (fun i hi => by
        have := e3 i hi
        have := hr1 i
        omega)
      rw [Nat.sub_add_cancel hpm] at this
      unfold topExcess at this hk
      omega
    · intro j hj hj'
      simp only [toInt, List.getElem_map, List.length_map] at hj' ⊢
      have a1 := m1 j (by omega) hj'
      have a2 := e3' j hj (by omega)
      have a3 := hr1 j
      omega
    · refine ⟨i, by omega, by simpa [toInt] using hi', ?_⟩
      simp only [toInt, List.getElem_map]
      have a2 := e3' i (by omega) hi
      omega
  · push Not at hmin
    have hsum : reduce.sum ≤ 1 := by
      refine h3.resolve_right ?_
      rintro ⟨i, hi, q1, q2⟩
      have hi' : i < lmin.length := by omega
      refine hmin i hi hi' ?_ q1
      have a0 := q2 i0 hi0
      rw [List.getD_eq_getElem _ _ hi, List.getD_eq_getElem _ _ hi', List.getD_eq_getElem _ _ hi0,
        List.getD_eq_getElem _ _ hi0'] at a0
      have a1 := m1 i hi hi'
      have a2 := hget i hi hi'
      have a3 := hget i0 hi0 hi0'
      omega
    have hz : ∀ i (hi : i < lmax.length) (hi' : i < lmin.length), lmin[i] + m = lmax[i] →
        reduce.getD i 0 = 0 := by
      intro i hi hi' h
      have := hmin i hi hi' h
      have := hr1 i
      omega
    rw [C02_truncated_mem l (toInt lmin) k m hle ⟨?_, ?_⟩]
    · refine ⟨by rw [hlen, e2], hpos, ?_⟩
      have := excess_reduced (m := m) (k := k) e2 h1 e3
      unfold topExcess at this hk
      omega
    · intro j hj hj'
      simp only [toInt, List.getElem_map, List.length_map] at hj' ⊢
      have a1 := m1 j (by omega) hj'
      have a2 := e3' j hj (by omega)
      have a3 := hr1 j
      by_cases hc : lmin[j] + m = lmax[j]'(by omega)
      · have := hz j (by omega) hj' hc
        omega
      · omega
    · refine ⟨i0, by omega, by simpa [toInt] using hi0', ?_⟩
      simp only [toInt, List.getElem_map]
      have a2 := e3' i0 (by omega) hi0
      have := hz i0 hi0 hi0' (by omega)
      omega

end Verif

import Verif.Lemmas.Tensor
import Mathlib.Data.List.GetD

/-!
# Lemmas on one-dimensional decompositions
-/

namespace Verif

/-- A usable 1-d decomposition of `n` points: starts at 0, ascending, lower bounds within the
points. (Empty partitions are allowed, they occur for downsampled decompositions.) -/
structure ValidDec (dec : List ℕ) (n : ℕ) : Prop where
  head : dec.head? = some 0
  sorted : dec.Pairwise (· ≤ ·)
  le : ∀ x ∈ dec, x ≤ n

/-- Specification: process `c` owns point `x` in one dimension. -/
def Owns1d (dec : List ℕ) (n c x : ℕ) : Prop :=
  ∃ lo hi, lowerBound1d dec c = some lo ∧ upperBound1d dec n c = some hi ∧ lo ≤ x ∧ x < hi

theorem stdLowerBound_le (dec : List ℕ) (v : ℕ) : stdLowerBound dec v ≤ dec.length := by
  unfold stdLowerBound
  exact List.Sublist.length_le (List.takeWhile_sublist _)

theorem lt_stdLowerBound_iff (dec : List ℕ) (hs : dec.Pairwise (· ≤ ·)) (v i : ℕ)
    (hi : i < dec.length) : i < stdLowerBound dec v ↔ dec[i] < v := by
  induction dec generalizing i with
  | nil => simp at hi
  | cons a dec ih =>
    rw [List.pairwise_cons] at hs
    unfold stdLowerBound
    by_cases ha : a < v
    · rw [List.takeWhile_cons_of_pos (by simpa using ha), List.length_cons]
      cases i with
      | zero => simp [ha]
      | succ i =>
        rw [Nat.succ_lt_succ_iff, List.getElem_cons_succ]
        exact ih hs.2 i (by simpa using hi)
    · rw [List.takeWhile_cons_of_neg (by simpa using ha)]
      simp only [List.length_nil, Nat.not_lt_zero, false_iff, not_lt]
      cases i with
      | zero => simpa using ha
      | succ i =>
        have := hs.1 (dec[i]'(by simpa using hi)) (List.getElem_mem _)
        simp only [List.getElem_cons_succ]
        omega

theorem ValidDec.length_pos {dec : List ℕ} {n : ℕ} (h : ValidDec dec n) : 0 < dec.length := by
  have := h.head
  cases dec with
  | nil => simp at this
  | cons a dec => simp

theorem ValidDec.getElem_zero {dec : List ℕ} {n : ℕ} (h : ValidDec dec n) :
    dec[0]'h.length_pos = 0 := by
  have := h.head
  cases dec with
  | nil => simp at this
  | cons a dec => simpa using this

theorem stdLowerBound_pos {dec : List ℕ} {n : ℕ} (h : ValidDec dec n) (x : ℕ) :
    0 < stdLowerBound dec (x + 1) := by
  rw [lt_stdLowerBound_iff dec h.sorted _ _ h.length_pos, h.getElem_zero]
  omega

theorem owns1d_iff {dec : List ℕ} {n : ℕ} (h : ValidDec dec n) (c x : ℕ) (hx : x < n) :
    Owns1d dec n c x ↔ c + 1 = stdLowerBound dec (x + 1) := by
  have hle := stdLowerBound_le dec (x + 1)
  have hpos := stdLowerBound_pos h x
  have key := lt_stdLowerBound_iff dec h.sorted (x + 1)
  unfold Owns1d lowerBound1d upperBound1d
  constructor
  · rintro ⟨lo, hi, h1, h2, h3, h4⟩
    obtain ⟨hc, hlo⟩ := List.getElem?_eq_some_iff.1 h1
    have hck := (key c hc).2 (by omega)
    by_cases hc1 : c + 1 < dec.length
    · rw [if_pos hc1, lowerBound1d, List.getElem?_eq_some_iff] at h2
      obtain ⟨_, h2⟩ := h2
      have := (key (c + 1) hc1).not.2 (by omega)
      omega
    · omega
  · intro hc
    have hcl : c < dec.length := by omega
    have h1 := (key c hcl).1 (by omega)
    by_cases hc1 : c + 1 < dec.length
    · have h2 := (key (c + 1) hc1).not.1 (by omega)
      exact ⟨dec[c], dec[c + 1], by simp [hcl],
        by rw [if_pos hc1, lowerBound1d, List.getElem?_eq_some_iff]; exact ⟨hc1, rfl⟩,
        by omega, by omega⟩
    · exact ⟨dec[c], n, by simp [hcl], by rw [if_neg hc1], by omega, hx⟩

theorem getPartitionCoord1d_eq (dec : List ℕ) (hs : dec.Pairwise (· ≤ ·)) (x : ℕ) :
    getPartitionCoord1d dec x = (stdLowerBound dec (x + 1) : ℤ) - 1 := by
  have hle := stdLowerBound_le dec (x + 1)
  have key := lt_stdLowerBound_iff dec hs (x + 1)
  have : ∀ m ≤ dec.length,
      (List.range m).foldl (fun acc i => if x ≥ dec.getD i 0 then (i : ℤ) else acc) (-1) =
        (min m (stdLowerBound dec (x + 1)) : ℤ) - 1 := by
    intro m
    induction m with
    | zero => intro _; simp
    | succ m ih =>
      intro hm
      rw [List.range_succ, List.foldl_append, ih (by omega), List.foldl_cons, List.foldl_nil,
        List.getD_eq_getElem _ _ (by omega : m < dec.length)]
      have := key m (by omega)
      split <;> push_cast <;> omega
  unfold getPartitionCoord1d
  rw [this _ (le_refl _)]
  omega

theorem owns1d_lt_length {dec : List ℕ} {n c x : ℕ} (h : Owns1d dec n c x) : c < dec.length := by
  obtain ⟨lo, hi, h1, -⟩ := h
  exact (List.getElem?_eq_some_iff.1 h1).1

/-- lower and upper bound of process `c` -/
theorem bounds1d {dec : List ℕ} {n c : ℕ} (h : ValidDec dec n) (hc : c < dec.length) :
    ∃ lo hi, lowerBound1d dec c = some lo ∧ upperBound1d dec n c = some hi ∧ lo ≤ hi ∧ hi ≤ n := by
  unfold upperBound1d lowerBound1d
  by_cases hc1 : c + 1 < dec.length
  · refine ⟨dec[c], dec[c + 1], by simp [hc], by simp [hc1], ?_, h.le _ (List.getElem_mem _)⟩
    exact List.pairwise_iff_getElem.1 h.sorted c (c + 1) hc hc1 (by omega)
  · exact ⟨dec[c], n, by simp [hc], by simp [hc1], h.le _ (List.getElem_mem _), le_refl _⟩

theorem sum_localSizes_1d_aux (dec : List ℕ) (n a : ℕ) (h : (a :: dec).Pairwise (· ≤ ·))
    (hle : ∀ x ∈ a :: dec, x ≤ n) :
    ((List.range (a :: dec).length).map fun c =>
      (upperBound1d (a :: dec) n c).getD 0 - (lowerBound1d (a :: dec) c).getD 0).sum = n - a := by
  induction dec generalizing a with
  | nil => simp [upperBound1d, lowerBound1d]
  | cons b dec ih =>
    have h' := (List.pairwise_cons.1 h).2
    have hab : a ≤ b := (List.pairwise_cons.1 h).1 b (by simp)
    have hbn : b ≤ n := hle b (by simp)
    have := ih b h' (fun x hx => hle x (by simp at hx ⊢; tauto))
    rw [List.length_cons, List.range_succ_eq_map, List.map_cons, List.sum_cons, List.map_map]
    have e : (List.map ((fun c => (upperBound1d (a :: b :: dec) n c).getD 0 -
        (lowerBound1d (a :: b :: dec) c).getD 0) ∘ Nat.succ) (List.range (b :: dec).length)) =
        (List.range (b :: dec).length).map fun c =>
      (upperBound1d (b :: dec) n c).getD 0 - (lowerBound1d (b :: dec) c).getD 0 := by
      apply List.map_congr_left
      intro c _
      simp [upperBound1d, lowerBound1d]
    rw [e, this]
    simp [upperBound1d, lowerBound1d]
    omega

/-- The local sizes of all processes in one dimension add up to the number of points. -/
theorem sum_localSizes_1d {dec : List ℕ} {n : ℕ} (h : ValidDec dec n) :
    ((List.range dec.length).map fun c =>
      (upperBound1d dec n c).getD 0 - (lowerBound1d dec c).getD 0).sum = n := by
  have h0 := h.head
  cases dec with
  | nil => simp at h0
  | cons a dec =>
    simp at h0
    subst h0
    simpa using sum_localSizes_1d_aux dec n 0 h.sorted h.le

end Verif

import Verif.Model.ThirdLevel
import Mathlib.Algebra.Order.BigOperators.Group.List
import Mathlib.Data.List.Forall2

/-!
# Sums of subspace sizes in `int`
-/

namespace Verif

theorem foldl_accumulateInt (l : List ℕ) (acc : ℕ) (h : acc + l.sum < 2 ^ 31) :
    l.foldl (fun (acc : ℤ) (x : ℕ) => Int.bmod (acc + (x : ℤ)) (2 ^ 32)) (acc : ℤ) = ((acc + l.sum : ℕ) : ℤ) := by
  induction l generalizing acc with
  | nil => simp
  | cons x l ih =>
    simp only [List.sum_cons] at h
    simp only [List.foldl_cons, List.sum_cons]
    have hb : Int.bmod ((acc : ℤ) + x) (2 ^ 32) = ((acc + x : ℕ) : ℤ) := by
      rw [Int.bmod_eq_of_le] <;> push_cast <;> omega
    rw [hb, ih (acc + x) (by omega), Nat.add_assoc]

theorem accumulateInt_eq (l : List ℕ) (h : l.sum < 2 ^ 31) : accumulateInt l = (l.sum : ℤ) := by
  have := foldl_accumulateInt l 0 (by omega)
  simpa [accumulateInt] using this

theorem intToSizeT_eq (n : ℕ) (h : n < 2 ^ 64) : intToSizeT (n : ℤ) = n := by
  unfold intToSizeT
  rw [Int.emod_eq_of_lt (by omega) (by exact_mod_cast h)]
  simp

theorem sizesPerWorker_sum (counts buff : List ℕ) (hc : counts.sum = buff.length)
    (h : buff.sum < 2 ^ 31) : (sizesPerWorker counts buff).sum = buff.sum := by
  induction counts generalizing buff with
  | nil =>
    simp only [List.sum_nil] at hc
    rw [List.eq_nil_of_length_eq_zero hc.symm]
    rfl
  | cons c cs ih =>
    have hsplit : (buff.take c).sum + (buff.drop c).sum = buff.sum := by
      rw [← List.sum_append, List.take_append_drop]
    simp only [List.sum_cons] at hc
    simp only [sizesPerWorker, List.sum_cons]
    rw [accumulateInt_eq _ (by omega), intToSizeT_eq _ (by omega),
      ih _ (by rw [List.length_drop]; omega) (by omega)]
    exact hsplit

theorem accumulateInt_sizesPerWorker (counts buff : List ℕ) (hc : counts.sum = buff.length)
    (h : buff.sum < 2 ^ 31) : accumulateInt (sizesPerWorker counts buff) = (buff.sum : ℤ) := by
  have := sizesPerWorker_sum counts buff hc h
  rw [accumulateInt_eq _ (by omega), this]

/-- The sums for the single workers. -/
theorem sizesPerWorker_eq (workers : List (List ℕ)) (buff : List (List ℕ))
    (hl : workers.map List.length = buff.map List.length) (h : buff.flatten.sum < 2 ^ 31) :
    sizesPerWorker (workers.map List.length) buff.flatten = buff.map List.sum := by
  rw [hl]
  clear hl
  induction buff with
  | nil => rfl
  | cons l ls ih =>
    simp only [List.flatten_cons, List.sum_append] at h
    simp only [List.map_cons, sizesPerWorker, List.flatten_cons, List.take_left, List.drop_left]
    rw [accumulateInt_eq _ (by omega), intToSizeT_eq _ (by omega), ih (by omega)]

theorem sum_zipWith_min_le (l l' : List ℕ) : (List.zipWith min l l').sum ≤ l.sum := by
  induction l generalizing l' with
  | nil => simp
  | cons x l ih =>
    cases l' with
    | nil => simp
    | cons y l' =>
      have := ih l'
      simp only [List.zipWith_cons_cons, List.sum_cons]
      have : min x y ≤ x := min_le_left ..
      omega

theorem le_sum_zipWith_max (l l' : List ℕ) (h : l.length = l'.length) :
    l.sum ≤ (List.zipWith max l l').sum := by
  induction l generalizing l' with
  | nil => simp
  | cons x l ih =>
    cases l' with
    | nil => simp at h
    | cons y l' =>
      have := ih l' (by simpa using h)
      simp only [List.zipWith_cons_cons, List.sum_cons]
      have : x ≤ max x y := le_max_left ..
      omega

end Verif

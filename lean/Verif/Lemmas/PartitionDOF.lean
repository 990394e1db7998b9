import Verif.Model.PartitionDOF
import Verif.Lemmas.Tensor
import Verif.Props.Levels1d
import Verif.Props.Transfer
import Mathlib.Algebra.BigOperators.Group.List.Basic
import Mathlib.Tactic.Linarith
import Mathlib.Tactic.Positivity
import Mathlib.Tactic.FieldSimp

/-!
# Lemmas on degrees of freedom per partition
-/

namespace Verif.PartitionDOF

lemma pow2_eq {l : ℕ} (h : l ≤ 28) : pow2 l = .ok (2 ^ l) := by
  unfold pow2
  have : powerOfTwo? l = some (2 ^ l) := by
    interval_cases l <;> rfl
  rw [this]

/-- The number of points of a level. -/
def total (l : ℕ) : ℕ := if l = 1 then 3 else 2 ^ (l - 1)

/-- The number of points of a level that the code places below an index of the reference level. -/
def cnt (l ref n : ℕ) : ℕ :=
  if l = 1 then (if n = 0 then 0 else if 2 ^ ref ≤ n then 3 else if 2 ^ (ref - 1) ≤ n then 2 else 1)
  else (n + 2 ^ (ref - l) - 1) / 2 ^ (ref - l + 1)

lemma cnt_zero {l ref : ℕ} : cnt l ref 0 = 0 := by
  unfold cnt
  by_cases h : l = 1
  · rw [if_pos h, if_pos rfl]
  · rw [if_neg h]
    have := pow_pos (show 0 < 2 by norm_num) (ref - l)
    rw [Nat.div_eq_zero_iff]
    right
    rw [pow_succ]
    omega

lemma cnt_mono {l ref a b : ℕ} (h : a ≤ b) : cnt l ref a ≤ cnt l ref b := by
  unfold cnt
  by_cases h1 : l = 1
  · rw [if_pos h1, if_pos h1]
    have := pow_pos (show 0 < 2 by norm_num) ref
    have h2 := Nat.pow_le_pow_right (show 0 < 2 by norm_num) (show ref - 1 ≤ ref by omega)
    have := pow_pos (show 0 < 2 by norm_num) (ref - 1)
    split_ifs <;> omega
  · rw [if_neg h1, if_neg h1]
    exact Nat.div_le_div_right (by omega)

lemma cnt_le {l ref n : ℕ} (hl : 1 ≤ l) (hr : l ≤ ref) (hn : n ≤ 2 ^ ref + 1) :
    cnt l ref n ≤ total l := by
  unfold cnt total
  by_cases h1 : l = 1
  · rw [if_pos h1, if_pos h1]
    split_ifs <;> omega
  · rw [if_neg h1, if_neg h1]
    have hp := pow_pos (show 0 < 2 by norm_num) (ref - l)
    rw [← Nat.lt_succ_iff, Nat.div_lt_iff_lt_mul (by positivity)]
    have e : 2 ^ (l - 1) * 2 ^ (ref - l + 1) = 2 ^ ref := by
      rw [← pow_add]
      congr 1
      omega
    rw [Nat.succ_mul, e, pow_succ]
    omega

lemma highestIndex_eq {l ref : ℕ} (hl : 1 ≤ l) (hr : l ≤ ref) (h28 : ref ≤ 28) (n : ℕ) :
    highestIndex l n ref = .ok ((cnt l ref n : ℤ) - 1) := by
  unfold highestIndex cnt
  rw [if_neg (by omega), if_neg (by omega)]
  by_cases h1 : l = 1
  · rw [if_pos h1, if_pos h1]
    by_cases h0 : n = 0
    · rw [if_pos h0, if_pos h0]
      rfl
    · rw [if_neg h0, if_neg h0, pow2_eq h28]
      simp only [Outcome.bind]
      have : 2 ^ ref / 2 = 2 ^ (ref - 1) := by
        obtain ⟨m, rfl⟩ : ∃ m, ref = m + 1 := ⟨ref - 1, by omega⟩
        rw [pow_succ, Nat.mul_div_cancel _ (by norm_num)]
        rfl
      rw [this]
      split_ifs <;> simp
  · rw [if_neg h1, if_neg h1, pow2_eq (by omega)]
    simp only [Outcome.bind]
    have hp := pow_pos (show 0 < 2 by norm_num) (ref - l)
    split_ifs with h
    · congr 1
      have hc : ⌈(1 / 2 : ℚ) * ((n : ℚ) * (1 / 2 ^ (ref - l)) - 1)⌉ =
          (((n + 2 ^ (ref - l) - 1) / 2 ^ (ref - l + 1) : ℕ) : ℤ) := by
        rw [Int.ceil_eq_iff]
        have hq : (1 / 2 : ℚ) * ((n : ℚ) * (1 / 2 ^ (ref - l)) - 1) =
            ((n : ℚ) - 2 ^ (ref - l)) / 2 ^ (ref - l + 1) := by
          rw [pow_succ]
          field_simp
        rw [hq]
        set q := (n + 2 ^ (ref - l) - 1) / 2 ^ (ref - l + 1) with hqd
        have hd := Nat.div_add_mod (n + 2 ^ (ref - l) - 1) (2 ^ (ref - l + 1))
        have hm := Nat.mod_lt (n + 2 ^ (ref - l) - 1) (show 0 < 2 ^ (ref - l + 1) by positivity)
        rw [← hqd] at hd
        have hps : (2 : ℕ) ^ (ref - l + 1) = 2 * 2 ^ (ref - l) := by rw [pow_succ]; ring
        have e1 : 2 ^ (ref - l + 1) * q + 1 ≤ n + 2 ^ (ref - l) := by omega
        have e2 : n ≤ 2 ^ (ref - l + 1) * q + 2 ^ (ref - l) := by omega
        have e1' : (2 : ℚ) ^ (ref - l + 1) * q + 1 ≤ n + 2 ^ (ref - l) := by exact_mod_cast e1
        have e2' : (n : ℚ) ≤ 2 ^ (ref - l + 1) * q + 2 ^ (ref - l) := by exact_mod_cast e2
        have hps' : (2 : ℚ) ^ (ref - l + 1) = 2 * 2 ^ (ref - l) := by rw [pow_succ]; ring
        have hpos : (0 : ℚ) < 2 ^ (ref - l + 1) := by positivity
        constructor
        · rw [lt_div_iff₀ hpos]
          push_cast
          nlinarith
        · rw [div_le_iff₀ hpos]
          push_cast
          nlinarith
      rw [hc]
    · congr 1
      have : (n + 2 ^ (ref - l) - 1) / 2 ^ (ref - l + 1) = 0 := by
        rw [Nat.div_eq_zero_iff]
        right
        rw [pow_succ]
        omega
      rw [this]
      rfl

/-- Differences of a sequence that starts at `a`. -/
def diffs : ℕ → List ℕ → List ℤ
  | _, [] => []
  | a, b :: bs => ((b : ℤ) - a) :: diffs b bs

lemma diffs_length (a : ℕ) (l : List ℕ) : (diffs a l).length = l.length := by
  induction l generalizing a with
  | nil => rfl
  | cons b l ih => simp [diffs, ih]

lemma diffs_nonneg {a : ℕ} {l : List ℕ} (h : (a :: l).Pairwise (· ≤ ·)) : ∀ x ∈ diffs a l, 0 ≤ x := by
  induction l generalizing a with
  | nil => simp [diffs]
  | cons b l ih =>
    rw [List.pairwise_cons] at h
    intro x hx
    rcases List.mem_cons.mp hx with rfl | hx
    · have := h.1 b List.mem_cons_self
      omega
    · exact ih h.2 x hx

lemma diffs_sum (a : ℕ) (l : List ℕ) (t : ℕ) : (diffs a (l ++ [t])).sum = (t : ℤ) - a := by
  induction l generalizing a with
  | nil => simp [diffs]
  | cons b l ih =>
    rw [List.cons_append, diffs, List.sum_cons, ih]
    ring

lemma diffs_getElem (a : ℕ) (l : List ℕ) (k : ℕ) (hk : k < l.length) :
    (diffs a l)[k]'(by rw [diffs_length]; exact hk) = (l[k] : ℤ) - ((a :: l)[k]'(by simp; omega) : ℕ) := by
  induction l generalizing a k with
  | nil => simp at hk
  | cons b l ih =>
    cases k with
    | zero => simp [diffs]
    | succ k =>
      have := ih b k (by simpa using hk)
      simp only [diffs, List.getElem_cons_succ] at this ⊢
      exact this

lemma extentsLoop_eq {l ref : ℕ} (hl : 1 ≤ l) (hr : l ≤ ref) (h28 : ref ≤ 28) (ns : List ℕ) (a : ℕ)
    (hs : (a :: ns).Pairwise (· ≤ ·)) :
    extentsLoop l ref ns ((cnt l ref a : ℤ) - 1) =
      .ok (diffs (cnt l ref a) (ns.map (cnt l ref)), (cnt l ref ((a :: ns).getLast (by simp)) : ℤ) - 1) := by
  induction ns generalizing a with
  | nil => rfl
  | cons n ns ih =>
    rw [List.pairwise_cons] at hs
    have han := cnt_mono (l := l) (ref := ref) (hs.1 n List.mem_cons_self)
    have hlast : (a :: n :: ns).getLast (by simp) = (n :: ns).getLast (by simp) :=
      List.getLast_cons (by simp)
    have hrec := ih n hs.2
    unfold extentsLoop
    rw [highestIndex_eq hl hr h28]
    simp only [Outcome.bind]
    by_cases h0 : cnt l ref n = 0
    · have ha0 : cnt l ref a = 0 := by omega
      rw [if_neg (by rw [h0]; simp)]
      rw [h0] at hrec
      rw [ha0, hrec]
      simp only [List.map_cons, diffs, h0, hlast]
      simp
    · rw [if_pos (by omega), hrec]
      simp only [List.map_cons, diffs, hlast]
      congr 2
      congr 1
      ring

lemma extents1d_eq {l ref : ℕ} (hl : 1 ≤ l) (hr : l ≤ ref) (h28 : ref ≤ 28) {dec : List ℕ}
    (hd : ValidDec dec (2 ^ ref + 1)) :
    extents1d l ref dec = .ok (diffs 0 ((dec.tail.map (cnt l ref)) ++ [total l])) := by
  cases dec with
  | nil => exact absurd hd.head (by simp)
  | cons a ns =>
    have ha : a = 0 := by simpa using hd.head
    subst ha
    unfold extents1d
    have hloop := extentsLoop_eq hl hr h28 ns 0 hd.sorted
    rw [cnt_zero] at hloop
    rw [show (-1 : ℤ) = ((0 : ℕ) : ℤ) - 1 by norm_num]
    simp only [hloop, Outcome.bind]
    set z := (0 :: ns).getLast (by simp) with hz
    have hzm : z ∈ 0 :: ns := List.getLast_mem _
    have hzle := cnt_le hl hr (hd.le z hzm)
    have htot : totalPoints l = .ok (total l : ℤ) := by
      unfold totalPoints total
      split_ifs
      · rfl
      · rw [pow2_eq (by omega)]
        rfl
    rw [htot]
    simp only
    rw [if_neg (by omega)]
    congr 1
    have key : ∀ (l' : List ℕ) (a t : ℕ), diffs a (l' ++ [t]) =
        diffs a l' ++ [(t : ℤ) - ((a :: l').getLast (by simp) : ℕ)] := by
      intro l'
      induction l' with
      | nil => intro a t; simp [diffs]
      | cons b l' ih =>
        intro a t
        have hl : (a :: b :: l').getLast (by simp) = (b :: l').getLast (by simp) :=
          List.getLast_cons (by simp)
        rw [List.cons_append, diffs, diffs, ih, hl]
        rfl
    rw [List.tail_cons, key]
    congr 2
    have : ((0 :: ns.map (cnt l ref)).getLast (by simp)) = cnt l ref z := by
      rw [hz]
      have := List.getLast_map (f := cnt l ref) (l := 0 :: ns) (by simp)
      rw [← this]
      simp [cnt_zero]
    rw [this]
    ring

/-! ### Tensor products -/

/-- The product of the entries of the process `i`. -/
def procVal : List (List ℤ) → ℕ → ℤ
  | [], _ => 1
  | e :: es, i => e.getD (i % e.length) 0 * procVal es (i / e.length)

lemma dofOf_eq (exts : List (List ℤ)) (hne : ∀ e ∈ exts, e ≠ []) (o i : ℕ) (ho : 0 < o)
    (hi : i < o * (exts.map List.length).prod) (rest : List (ℕ × List ℤ)) (acc : ℤ) :
    dofOf (((offsetsLoop (exts.map List.length) o).zip exts).reverse ++ rest) i acc =
      dofOf rest (i % o) (acc * procVal exts (i / o)) := by
  induction exts generalizing o acc rest with
  | nil =>
    simp only [List.map_nil, List.prod_nil, mul_one] at hi
    simp [offsetsLoop, procVal, Nat.mod_eq_of_lt hi]
  | cons e es ih =>
    have hpos : 0 < e.length := List.length_pos_iff.mpr (hne e List.mem_cons_self)
    simp only [List.map_cons, offsetsLoop, List.zip_cons_cons, List.reverse_cons, List.append_assoc,
      List.singleton_append]
    rw [ih (fun e he => hne e (List.mem_cons_of_mem _ he)) (o * e.length) (Nat.mul_pos ho hpos)
      (by rw [mul_assoc]; simpa using hi)]
    have hlt : i % (o * e.length) / o < e.length := by
      rw [Nat.div_lt_iff_lt_mul ho, mul_comm e.length]
      exact Nat.mod_lt _ (Nat.mul_pos ho hpos)
    conv_lhs => rw [dofOf]
    rw [List.getElem?_eq_getElem hlt]
    simp only
    rw [Nat.mod_mul_right_mod]
    congr 1
    simp only [procVal]
    have hidx : i % (o * e.length) / o = i / o % e.length := Nat.mod_mul_right_div_self i o e.length
    rw [List.getD_eq_getElem _ _ (by rw [← hidx]; exact hlt), Nat.div_div_eq_div_mul]
    simp only [hidx]
    ring

lemma addProcs_eq {dims : List (ℕ × List ℤ)} {v : ℕ → ℤ} {i : ℕ} {xs : List ℤ}
    (h : ∀ j, i ≤ j → j < i + xs.length → dofOf dims j 1 = .ok (v j)) :
    ∃ r, addProcs dims i xs = .ok r ∧ r.length = xs.length ∧
      ∀ k, k < xs.length → r.getD k 0 = xs.getD k 0 + v (i + k) := by
  induction xs generalizing i with
  | nil => exact ⟨[], rfl, rfl, by simp⟩
  | cons x xs ih =>
    obtain ⟨r, h1, h2, h3⟩ := ih (i := i + 1) (by
      intro j hj hj'
      exact h j (by omega) (by simp only [List.length_cons]; omega))
    refine ⟨(x + v i) :: r, ?_, by simp [h2], ?_⟩
    · unfold addProcs
      rw [h i le_rfl (by simp)]
      simp only [Outcome.bind, h1]
    · intro k hk
      cases k with
      | zero => simp
      | succ k =>
        have := h3 k (by simpa using hk)
        simp only [List.getD_cons_succ]
        rw [this]
        congr 2
        omega

lemma sum_range_mul (a M : ℕ) (f g : ℕ → ℤ) (ha : 0 < a) :
    ∑ i ∈ Finset.range (a * M), f (i % a) * g (i / a) =
      (∑ i ∈ Finset.range a, f i) * ∑ i ∈ Finset.range M, g i := by
  induction M with
  | zero => simp
  | succ M ih =>
    rw [Nat.mul_succ, Finset.sum_range_add, ih, Finset.sum_range_succ, mul_add]
    congr 1
    rw [Finset.sum_mul]
    refine Finset.sum_congr rfl ?_
    intro i hi
    have hi' := Finset.mem_range.mp hi
    rw [Nat.mul_add_mod, Nat.mod_eq_of_lt hi', Nat.mul_add_div ha, Nat.div_eq_of_lt hi', add_zero]

lemma sum_getD (e : List ℤ) : ∑ i ∈ Finset.range e.length, e.getD i 0 = e.sum := by
  induction e with
  | nil => simp
  | cons x e ih =>
    rw [List.length_cons, Finset.sum_range_succ']
    simp only [List.getD_cons_succ, List.getD_cons_zero]
    rw [ih, List.sum_cons, add_comm]

lemma sum_procVal (exts : List (List ℤ)) (hne : ∀ e ∈ exts, e ≠ []) :
    ∑ i ∈ Finset.range (exts.map List.length).prod, procVal exts i = (exts.map List.sum).prod := by
  induction exts with
  | nil => simp [procVal]
  | cons e es ih =>
    have hpos : 0 < e.length := List.length_pos_iff.mpr (hne e List.mem_cons_self)
    simp only [List.map_cons, List.prod_cons, procVal]
    rw [sum_range_mul _ _ (fun i => e.getD i 0) (procVal es) hpos, sum_getD,
      ih fun e he => hne e (List.mem_cons_of_mem _ he)]

lemma procVal_seq (exts : List (List ℤ)) (c : List ℕ) (hc : List.Forall₂ (· < ·) c (exts.map List.length)) :
    procVal exts (sequentialIndex (exts.map List.length) c) =
      (List.zipWith (fun (e : List ℤ) i => e.getD i 0) exts c).prod := by
  induction exts generalizing c with
  | nil =>
    rw [List.map_nil, List.forall₂_nil_right_iff] at hc
    subst hc
    simp [procVal]
  | cons e es ih =>
    cases hc with
    | cons h1 h2 =>
      rename_i i c
      rw [List.map_cons, sequentialIndex_cons]
      simp only [procVal, List.zipWith_cons_cons, List.prod_cons]
      rw [Nat.add_mul_mod_self_left, Nat.mod_eq_of_lt h1, Nat.add_mul_div_left _ _ (by omega),
        Nat.div_eq_of_lt h1, zero_add, ih c h2]

lemma procVal_nonneg (exts : List (List ℤ)) (h : ∀ e ∈ exts, ∀ x ∈ e, 0 ≤ x) (i : ℕ) :
    0 ≤ procVal exts i := by
  induction exts generalizing i with
  | nil => simp [procVal]
  | cons e es ih =>
    refine mul_nonneg ?_ (ih (fun e he => h e (List.mem_cons_of_mem _ he)) _)
    by_cases hi : i % e.length < e.length
    · rw [List.getD_eq_getElem _ _ hi]
      exact h e List.mem_cons_self _ (List.getElem_mem _)
    · rw [List.getD_eq_default _ _ (by omega)]

end Verif.PartitionDOF

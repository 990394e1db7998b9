import Verif.Model.LevelSets
import Mathlib.Tactic.Linarith
import Mathlib.Algebra.Order.BigOperators.Group.List
import Mathlib.Data.List.Forall2
import Mathlib.Data.List.GetD

/-! Helper lemmas about the level set functions. -/

namespace Verif

/-- two lists with a common prefix followed by different entries compare like the entries -/
theorem prefix_lt (p s t : List ℕ) {i j : ℕ} (h : i < j) : p ++ [i] ++ s < p ++ [j] ++ t := by
  induction p with
  | nil => exact List.Lex.rel h
  | cons a p ih => exact List.Lex.cons ih

/-- `range' 1 m` membership -/
theorem mem_range'_one {i m : ℕ} : i ∈ List.range' 1 m ↔ 1 ≤ i ∧ i ≤ m := by
  rw [List.mem_range'_1]; omega

theorem pairwise_range'_one (s m : ℕ) : (List.range' s m).Pairwise (· < ·) :=
  List.pairwise_lt_range'

theorem mem_getDownSetRec (rest fixed k : List ℕ) :
    k ∈ getDownSetRec rest fixed ↔
      ∃ t, k = fixed ++ t ∧ List.Forall₂ (fun a b => 1 ≤ a ∧ a ≤ b) t rest := by
  induction rest generalizing fixed with
  | nil => simp [getDownSetRec]
  | cons m rest ih =>
    simp only [getDownSetRec, List.mem_flatMap, mem_range'_one, ih]
    constructor
    · rintro ⟨i, hi, t, rfl, ht⟩
      exact ⟨i :: t, by simp, List.Forall₂.cons hi ht⟩
    · rintro ⟨t, rfl, ht⟩
      cases ht with
      | cons h1 h2 => exact ⟨_, h1, _, by simp, h2⟩

theorem pairwise_getDownSetRec (rest fixed : List ℕ) :
    (getDownSetRec rest fixed).Pairwise (· < ·) := by
  induction rest generalizing fixed with
  | nil => simp [getDownSetRec]
  | cons m rest ih =>
    simp only [getDownSetRec, List.pairwise_flatMap]
    refine ⟨fun i _ => ih _, (pairwise_range'_one 1 m).imp ?_⟩
    intro i j hij x hx y hy
    obtain ⟨t, rfl, -⟩ := (mem_getDownSetRec _ _ _).1 hx
    obtain ⟨s, rfl, -⟩ := (mem_getDownSetRec _ _ _).1 hy
    exact prefix_lt _ _ _ hij

/-- the positive part of the excess of `k` over `r`, summed up -/
def excess (k : List ℕ) (r : List ℤ) : ℕ :=
  (List.zipWith (fun (a : ℕ) (b : ℤ) => ((a : ℤ) - b).toNat) k r).sum

@[simp] theorem toInt_length (l : List ℕ) : (toInt l).length = l.length := by simp [toInt]

theorem toInt_getD (l : List ℕ) (i : ℕ) : (toInt l).getD i 0 = (l.getD i 0 : ℕ) := by
  simp only [toInt, List.getD_eq_getElem?_getD, List.getElem?_map]
  cases l[i]? <;> simp

theorem mem_createTruncRec (n : ℕ) (lmin : List ℤ) (rest pre k : List ℕ) (hr : rest ≠ []) :
    k ∈ createTruncRec n lmin rest pre ↔
      ∃ t, k = pre ++ t ∧ List.Forall₂ (fun a b => 1 ≤ a ∧ a ≤ b) t rest ∧
        (levelSum k : ℤ) ≤ lmin.sum + n ∧ pleaseAdd n lmin k = true := by
  induction rest generalizing pre with
  | nil => exact absurd rfl hr
  | cons m rest ih =>
    cases rest with
    | nil =>
      simp only [createTruncRec, List.mem_flatMap, mem_range'_one]
      constructor
      · rintro ⟨i, hi, hk⟩
        split at hk
        · simp at hk
        · split at hk
          · rename_i h1 h2
            simp only [List.mem_singleton] at hk
            subst hk
            refine ⟨[i], rfl, List.Forall₂.cons ⟨hi.1, by omega⟩ List.Forall₂.nil, ?_, h2⟩
            simp only [levelSum, List.sum_append, List.sum_singleton, Nat.cast_add] at *
            omega
          · simp at hk
      · rintro ⟨t, rfl, ht, hs, ha⟩
        cases ht with
        | cons h1 h2 =>
          cases h2
          rename_i i
          refine ⟨i, ⟨h1.1, ?_⟩, ?_⟩
          · simp only [levelSum, List.sum_append, List.sum_singleton, Nat.cast_add] at *
            omega
          · rw [if_neg (by omega), if_pos ha]
            simp
    | cons m' rest =>
      simp only [createTruncRec, List.mem_flatMap, mem_range'_one]
      constructor
      · rintro ⟨i, hi, hk⟩
        split at hk
        · simp at hk
        · rename_i h1
          obtain ⟨t, rfl, ht, hs, ha⟩ := (ih (pre ++ [i]) (by simp)).1 hk
          exact ⟨i :: t, by simp, List.Forall₂.cons ⟨hi.1, by omega⟩ ht, by simpa using hs,
            by simpa using ha⟩
      · rintro ⟨t, rfl, ht, hs, ha⟩
        cases ht with
        | cons h1 h2 =>
          rename_i i t
          refine ⟨i, ⟨h1.1, ?_⟩, ?_⟩
          · simp only [levelSum, List.sum_append, List.sum_cons, Nat.cast_add] at *
            omega
          · rw [if_neg (by omega)]
            exact (ih (pre ++ [i]) (by simp)).2 ⟨t, by simp, h2, by simpa using hs, by simpa using ha⟩

theorem pairwise_createTruncRec (n : ℕ) (lmin : List ℤ) (rest pre : List ℕ) :
    (createTruncRec n lmin rest pre).Pairwise (· < ·) := by
  induction rest generalizing pre with
  | nil => simp [createTruncRec]
  | cons m rest ih =>
    cases rest with
    | nil =>
      simp only [createTruncRec, List.pairwise_flatMap]
      refine ⟨fun i _ => ?_, (pairwise_range'_one 1 _).imp ?_⟩
      · split
        · simp
        · split <;> simp
      · intro i j hij x hx y hy
        split at hx
        · simp at hx
        · split at hx
          · split at hy
            · simp at hy
            · split at hy
              · simp only [List.mem_singleton] at hx hy
                subst hx hy
                simpa using prefix_lt pre [] [] hij
              · simp at hy
          · simp at hx
    | cons m' rest =>
      simp only [createTruncRec, List.pairwise_flatMap]
      refine ⟨fun i _ => ?_, (pairwise_range'_one 1 _).imp ?_⟩
      · split
        · simp
        · exact ih _
      · intro i j hij x hx y hy
        split at hx
        · simp at hx
        · split at hy
          · simp at hy
          · obtain ⟨t, rfl, -⟩ := (mem_createTruncRec _ _ _ _ _ (by simp)).1 hx
            obtain ⟨s, rfl, -⟩ := (mem_createTruncRec _ _ _ _ _ (by simp)).1 hy
            exact prefix_lt _ _ _ hij

theorem zipWith_excess (l : List ℕ) (r : List ℤ) (hlen : l.length = r.length) :
    List.zipWith (fun (a : ℕ) (b : ℤ) => ((a : ℤ) - b).toNat) l r =
      ((List.range r.length).map fun i => ((l.getD i 0 : ℤ) - r.getD i 0).toNat) := by
  apply List.ext_getElem
  · simp [hlen]
  · intro i h1 h2
    simp at h1 h2
    simp [h2, hlen]

/-- `partSum` over a selection given as sublist of positions -/
theorem partSum_le_of_excess (n : ℕ) (l : List ℕ) (r : List ℤ) (sel : List ℕ)
    (hlen : l.length = r.length)
    (hsel : sel.Sublist (List.range r.length)) (h : excess l r ≤ n) :
    partSum (toInt l) sel ≤ partSum r sel + n := by
  have h1 : partSum (toInt l) sel ≤
      partSum r sel + (sel.map fun i => ((l.getD i 0 : ℤ) - r.getD i 0).toNat).sum := by
    unfold partSum
    clear hsel
    induction sel with
    | nil => simp
    | cons a s ih =>
      simp only [List.map_cons, List.sum_cons, toInt_getD, Nat.cast_add] at *
      omega
  have h2 : (sel.map fun i => ((l.getD i 0 : ℤ) - r.getD i 0).toNat).sum ≤
      ((List.range r.length).map fun i => ((l.getD i 0 : ℤ) - r.getD i 0).toNat).sum :=
    (hsel.map _).sum_le_sum (by simp)
  rw [← zipWith_excess l r hlen] at h2
  unfold excess at h
  omega

theorem partSum_filter (l : List ℤ) (p : ℕ → Bool) (d : ℕ) :
    partSum l ((List.range d).filter p) =
      ((List.range d).map fun i => if p i then l.getD i 0 else 0).sum := by
  unfold partSum
  induction (List.range d) with
  | nil => simp
  | cons a s ih =>
    simp only [List.map_cons, List.sum_cons, ← ih]
    by_cases h : p a <;> simp [h]

theorem excess_eq_filter (l : List ℕ) (r : List ℤ) (hlen : l.length = r.length) :
    partSum (toInt l) ((List.range r.length).filter fun i => r.getD i 0 < l.getD i 0) =
      partSum r ((List.range r.length).filter fun i => r.getD i 0 < l.getD i 0) + excess l r := by
  rw [partSum_filter, partSum_filter, excess, zipWith_excess l r hlen]
  induction (List.range r.length) with
  | nil => simp
  | cons a s ih =>
    simp only [List.map_cons, List.sum_cons, decide_eq_true_eq, toInt_getD, Nat.cast_add] at ih ⊢
    split <;> omega

theorem pleaseAdd_iff (n : ℕ) (r : List ℤ) (l : List ℕ) (hlen : l.length = r.length)
    (hle : List.Forall₂ (fun (a : ℕ) (b : ℤ) => (a : ℤ) ≤ b + n) l r) :
    pleaseAdd n r l = true ↔ excess l r ≤ n := by
  constructor
  · intro h
    simp only [pleaseAdd, allKOutOfD, List.all_eq_true, Bool.not_eq_true', decide_eq_false_iff_not,
      not_lt, List.mem_range'_1, List.mem_sublistsLen] at h
    set S := (List.range r.length).filter fun i => r.getD i 0 < l.getD i 0 with hS
    have hsub : S.Sublist (List.range r.length) := List.filter_sublist
    have hex := excess_eq_filter l r hlen
    rw [← hS] at hex
    by_cases h2 : 2 ≤ S.length
    · have hle' : S.length ≤ r.length := by simpa using hsub.length_le
      have := h S.length (by omega) S ⟨hsub, rfl⟩
      omega
    · -- at most one dimension exceeds
      match hS' : S with
      | [] => simp [partSum] at hex; omega
      | [i] =>
        have hi : i ∈ List.range r.length := hsub.subset (by simp)
        have hi' : i < r.length := by simpa using hi
        have := (List.forall₂_iff_get.1 hle).2 i (by omega) hi'
        simp only [List.get_eq_getElem] at this
        simp only [partSum, List.map_cons, List.map_nil, List.sum_singleton, toInt_getD] at hex
        rw [List.getD_eq_getElem _ _ hi', List.getD_eq_getElem _ _ (by omega)] at hex
        omega
      | _ :: _ :: _ => simp at h2
  · intro h
    simp only [pleaseAdd, allKOutOfD, List.all_eq_true, Bool.not_eq_true', decide_eq_false_iff_not,
      not_lt, List.mem_range'_1, List.mem_sublistsLen]
    rintro k - sel ⟨hsel, -⟩
    exact partSum_le_of_excess n l r sel hlen hsel h

theorem levelSum_le_of_excess (l : List ℕ) (r : List ℤ) (hlen : l.length = r.length) :
    (levelSum l : ℤ) ≤ r.sum + excess l r := by
  induction l generalizing r with
  | nil =>
    cases r with
    | nil => simp [levelSum]
    | cons b r => simp at hlen
  | cons a l ih =>
    cases r with
    | nil => simp at hlen
    | cons b r =>
      have := ih r (by simpa using hlen)
      simp only [levelSum, excess, List.sum_cons, List.zipWith_cons_cons, Nat.cast_add] at *
      omega

theorem minElement_le (a : ℤ) (l : List ℤ) (h : a ∈ l) : minElement l ≤ a := by
  cases l with
  | nil => simp at h
  | cons b l =>
    have key : ∀ (l : List ℤ) (b : ℤ), l.foldl min b ≤ b ∧ ∀ x ∈ l, l.foldl min b ≤ x := by
      intro l
      induction l with
      | nil => simp
      | cons c l ih =>
        intro b
        have := ih (min b c)
        simp only [List.foldl_cons, List.mem_cons]
        refine ⟨by have := this.1; omega, ?_⟩
        rintro x (rfl | hx)
        · have := this.1; omega
        · exact this.2 x hx
    rcases List.mem_cons.1 h with rfl | h
    · exact (key l a).1
    · exact (key l b).2 a h

theorem minElement_mem (l : List ℤ) (h : l ≠ []) : minElement l ∈ l := by
  cases l with
  | nil => exact absurd rfl h
  | cons b l =>
    have key : ∀ (l : List ℤ) (b : ℤ), l.foldl min b = b ∨ l.foldl min b ∈ l := by
      intro l
      induction l with
      | nil => simp
      | cons c l ih =>
        intro b
        simp only [List.foldl_cons, List.mem_cons]
        rcases ih (min b c) with h | h
        · rw [h]
          rcases le_total b c with h' | h'
          · left; omega
          · right; left; omega
        · right; right; exact h
    rcases key l b with h | h
    · simp [minElement, h]
    · simp only [minElement, List.mem_cons]; right; exact h

end Verif

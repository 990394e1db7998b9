import Verif.Model.LoadModels
import Mathlib.Data.Nat.Digits.Lemmas

/-!
# Decimal numbers, file names and lines
-/

namespace Verif.LoadModels

lemma digitChar_spec : ∀ d < 10, (Nat.digitChar d).isDigit = true ∧
    (Nat.digitChar d).toNat - '0'.toNat = d := by decide

lemma decimal_isDigit (n : ℕ) : ∀ c ∈ decimal n, c.isDigit = true := by
  unfold decimal
  split
  · decide
  · intro c hc
    rw [List.mem_reverse, List.mem_map] at hc
    obtain ⟨d, hd, rfl⟩ := hc
    exact (digitChar_spec d (Nat.digits_lt_base (by norm_num) hd)).1

lemma decimal_ne_nil (n : ℕ) : decimal n ≠ [] := by
  unfold decimal
  split
  · simp
  · rename_i h
    simp [Nat.digits_eq_nil_iff_eq_zero, h]

/-- the value of a string of digits -/
def digitsValue (cs : List Char) : ℕ := cs.foldl (fun n c => 10 * n + (c.toNat - '0'.toNat)) 0

lemma digitsValue_decimal (n : ℕ) : digitsValue (decimal n) = n := by
  unfold decimal digitsValue
  split
  · rename_i h; rw [h]; decide
  · rw [List.foldl_reverse]
    conv_rhs => rw [← Nat.ofDigits_digits 10 n]
    have hlt : ∀ d ∈ Nat.digits 10 n, d < 10 := fun d hd => Nat.digits_lt_base (by norm_num) hd
    generalize Nat.digits 10 n = ds at hlt
    induction ds with
    | nil => rfl
    | cons d ds ih =>
      rw [List.map_cons, List.foldr_cons, ih fun d hd => hlt d (by simp [hd]), Nat.ofDigits_cons,
        (digitChar_spec d (hlt d (by simp))).2]
      exact Nat.add_comm _ _

lemma takeWhile_decimal (n : ℕ) (t : List Char) (ht : ∀ c ∈ t.head?, c.isDigit = false) :
    (decimal n ++ t).takeWhile Char.isDigit = decimal n := by
  rw [List.takeWhile_append_of_pos (decimal_isDigit n)]
  cases t with
  | nil => simp
  | cons c t =>
    have := ht c (by simp)
    rw [List.takeWhile_cons_of_neg (by simp [this]), List.append_nil]

lemma decimal_append_inj {n m : ℕ} {t u : List Char} (ht : ∀ c ∈ t.head?, c.isDigit = false)
    (hu : ∀ c ∈ u.head?, c.isDigit = false) (h : decimal n ++ t = decimal m ++ u) : n = m ∧ t = u := by
  have h1 : decimal n = decimal m := by
    rw [← takeWhile_decimal n t ht, h, takeWhile_decimal m u hu]
  refine ⟨?_, ?_⟩
  · rw [← digitsValue_decimal n, h1, digitsValue_decimal]
  · rw [h1] at h
    exact List.append_cancel_left h

lemma levelString_inj {l l' : List ℕ} (h : levelString l = levelString l') : l = l' := by
  induction l generalizing l' with
  | nil =>
    match l' with
    | [] => rfl
    | [a] => exact absurd h.symm (decimal_ne_nil a)
    | a :: b :: l => simp [levelString] at h
  | cons a l ih =>
    have e : ∀ (a : ℕ) (l : List ℕ), ∃ t, levelString (a :: l) = decimal a ++ t ∧
        (∀ c ∈ t.head?, c.isDigit = false) ∧ (t = [] ↔ l = []) ∧
        (l ≠ [] → t = ',' :: levelString l) := by
      intro a l
      cases l with
      | nil => exact ⟨[], by simp [levelString], by simp, by simp, by simp⟩
      | cons b l => exact ⟨',' :: levelString (b :: l), rfl, by simp, by simp, by simp⟩
    obtain ⟨t, e1, e2, e3, e4⟩ := e a l
    cases l' with
    | nil => rw [e1] at h; simp [levelString, decimal_ne_nil] at h
    | cons a' l' =>
      obtain ⟨t', f1, f2, f3, f4⟩ := e a' l'
      rw [e1, f1] at h
      obtain ⟨rfl, rfl⟩ := decimal_append_inj e2 f2 h
      congr 1
      by_cases hl : l = []
      · rw [hl, f3.1 (e3.2 hl)]
      · have hl' : l' ≠ [] := fun hc => hl (e3.1 (f3.2 hc))
        have := (e4 hl).symm.trans (f4 hl')
        exact ih (List.cons.inj this).2

lemma getFilename_inj {l l' : List ℕ} (h : getFilename l = getFilename l') : l = l' := by
  unfold getFilename at h
  exact levelString_inj (List.append_cancel_left (List.append_cancel_right h))

/-- The duration can be read back from its line. -/
lemma stoul_line (i : Info) (hi : i.duration < 2 ^ 64) :
    stoul (i.line.takeWhile (· ≠ ',')) = .ok i.duration := by
  have h1 : i.line.takeWhile (· ≠ ',') =
      decimal i.duration ++ ' ' :: i.rest.takeWhile (· ≠ ',') := by
    unfold Info.line
    rw [List.takeWhile_append_of_pos]
    · rfl
    · intro c hc
      have := decimal_isDigit _ c hc
      simp only [decide_eq_true_eq]
      rintro rfl
      simp at this
  have h2 : (i.line.takeWhile (· ≠ ',')).takeWhile Char.isDigit = decimal i.duration := by
    rw [h1]
    exact takeWhile_decimal _ _ (by simp)
  have h3 : parseDigits (i.line.takeWhile (· ≠ ',')) = i.duration := by
    unfold parseDigits
    rw [h2]
    exact digitsValue_decimal _
  unfold stoul
  rw [h2, h3, if_neg]
  rintro (h | h)
  · exact decimal_ne_nil _ h
  · omega

lemma averageLoop_lines (is : List Info) (his : ∀ i ∈ is, i.duration < 2 ^ 64) (sum count : ℕ)
    (h : sum + (is.map (·.duration)).sum < 2 ^ 64) :
    averageLoop (is.map Info.line) sum count =
      .ok (sum + (is.map (·.duration)).sum, count + is.length) := by
  induction is generalizing sum count with
  | nil => rfl
  | cons i is ih =>
    rw [List.map_cons, averageLoop, stoul_line i (his i (by simp)), Outcome.bind]
    rw [List.map_cons, List.sum_cons] at h
    rw [Nat.mod_eq_of_lt (by omega), ih (fun i hi => his i (by simp [hi])) _ _ (by omega)]
    simp only [List.map_cons, List.sum_cons, List.length_cons]
    congr 2 <;> omega

end Verif.LoadModels

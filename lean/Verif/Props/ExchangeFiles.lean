import Verif.Model.ExchangeFiles
import Mathlib.Data.Nat.Digits.Lemmas
import Mathlib.Algebra.BigOperators.Group.Finset.Basic
import Mathlib.Algebra.BigOperators.Group.List.Basic
import Mathlib.Data.List.Perm.Basic
import Mathlib.Tactic.IntervalCases

/-!
# C37, C57: files exchanged between systems
-/

namespace Verif

/-! ### C37 -/

theorem digitChar_ne_dot : ∀ d < 10, Nat.digitChar d ≠ '.' := by decide

theorem dot_notMem_decimal (n : ℕ) : '.' ∉ decimal n := by
  unfold decimal
  split
  · decide
  · simp only [List.mem_reverse, List.mem_map, not_exists, not_and]
    intro d hd
    exact digitChar_ne_dot d (Nat.digits_lt_base (by decide) hd)

theorem decimal_injective : Function.Injective decimal := by
  have hval : ∀ d < 10, (Nat.digitChar d).toNat - 48 = d := by decide
  have key : ∀ n, Nat.ofDigits 10 ((decimal n).reverse.map fun ch => ch.toNat - 48) = n := by
    intro n
    unfold decimal
    split
    · next h => subst h; decide
    · rw [List.reverse_reverse, List.map_map]
      have : (Nat.digits 10 n).map ((fun ch : Char => ch.toNat - 48) ∘ Nat.digitChar) =
          Nat.digits 10 n := by
        conv_rhs => rw [← List.map_id (Nat.digits 10 n)]
        apply List.map_congr_left
        intro d hd
        exact hval d (Nat.digits_lt_base (by decide) hd)
      rw [this, Nat.ofDigits_digits]
  intro a b h
  rw [← key a, h, key b]

/-- If the name of a file of part `m` contains the name of a file of part `n`, the decimal number `n`
is a prefix of the decimal number `m`. -/
theorem infix_part {q s : List Char} {n m : ℕ} (hs : '.' ∉ s)
    (h : gridName q ++ partSuffix n <:+: ['.', '/'] ++ (s ++ partSuffix m)) :
    decimal n <+: decimal m := by
  obtain ⟨x, y, hxy⟩ := h
  have e : (x ++ gridName q) ++ ('.' :: (['p', 'a', 'r', 't'] ++ decimal n ++ y)) =
      (['.', '/'] ++ s) ++ ('.' :: (['p', 'a', 'r', 't'] ++ decimal m)) := by
    have h1 : x ++ (gridName q ++ partSuffix n) ++ y =
        (x ++ gridName q) ++ ('.' :: (['p', 'a', 'r', 't'] ++ decimal n ++ y)) := by
      simp [partSuffix]
    rw [← h1, hxy]
    simp [partSuffix]
  have hfin : ['p', 'a', 'r', 't'] ++ decimal n ++ y = ['p', 'a', 'r', 't'] ++ decimal m →
      decimal n <+: decimal m := by
    intro h
    rw [List.append_assoc] at h
    exact ⟨y, List.append_cancel_left h⟩
  rcases List.append_eq_append_iff.1 e with ⟨a', h1, h2⟩ | ⟨c', h1, h2⟩
  · cases a' with
    | nil => exact hfin (by simpa using h2)
    | cons ch a'' =>
      exfalso
      have hch : ch = '.' := by
        have := congrArg List.head? h2
        simpa using this.symm
      subst hch
      have hlen : 2 ≤ (x ++ gridName q).length := by simp [gridName]; omega
      obtain ⟨c0, r0, e0⟩ := List.exists_cons_of_length_pos (l := x ++ gridName q) (by omega)
      rw [e0] at h1 hlen
      obtain ⟨c1, r1, e1⟩ := List.exists_cons_of_length_pos (l := r0) (by simp at hlen; omega)
      rw [e1] at h1
      simp only [List.cons_append, List.nil_append, List.cons.injEq] at h1
      apply hs
      rw [h1.2.2]
      simp
  · cases c' with
    | nil => exact hfin (by simpa using h2.symm)
    | cons ch c'' =>
      exfalso
      simp only [List.cons_append, List.cons.injEq, List.nil_append] at h2
      have hmem : '.' ∈ 'p' :: 'a' :: 'r' :: 't' :: decimal m := by
        rw [h2.2]; simp
      simp [dot_notMem_decimal] at hmem

/-- **C37**, for files of part `m` (grid files and tokens alike) whose name has no dot before `.part`,
provided that the decimal number of the part `n` that is cleaned up is not a prefix of the decimal
number `m`. The property without that condition is refuted by `C37_violated`. -/
theorem C37_other_parts_partial (files : List (List Char × List Char)) (keep : Bool) (n m : ℕ)
    (dir : List (List Char)) (s : List Char) (hs : '.' ∉ s) (hnm : ¬ decimal n <+: decimal m)
    (hmem : s ++ partSuffix m ∈ dir) :
    s ++ partSuffix m ∈ removeReadingFiles files keep n dir := by
  unfold removeReadingFiles
  induction files generalizing dir with
  | nil => exact hmem
  | cons f fs ih =>
    rw [List.foldl_cons]
    apply ih
    have h1 : s ++ partSuffix m ≠ f.2 ++ partSuffix n := by
      intro h
      rcases List.append_eq_append_iff.1 h with ⟨a', h1, h2⟩ | ⟨c', h1, h2⟩
      · -- `f.2 = s ++ a'`
        cases a' with
        | nil =>
          have he : partSuffix m = partSuffix n := by simpa using h2
          have : decimal m = decimal n := by
            unfold partSuffix at he
            exact List.append_cancel_left he
          exact absurd (this ▸ List.prefix_rfl) hnm
        | cons ch a'' =>
          unfold partSuffix at h2
          simp only [List.cons_append, List.nil_append, List.cons.injEq] at h2
          have hm' : '.' ∈ 'p' :: 'a' :: 'r' :: 't' :: decimal m := by
            rw [h2.2]; simp
          simp [dot_notMem_decimal] at hm'
      · cases c' with
        | nil =>
          have he : partSuffix n = partSuffix m := by simpa using h2
          have : decimal n = decimal m := by
            unfold partSuffix at he
            exact List.append_cancel_left he
          exact absurd (this ▸ List.prefix_rfl) hnm
        | cons ch c'' =>
          unfold partSuffix at h2
          simp only [List.cons_append, List.nil_append, List.cons.injEq] at h2
          apply hs
          rw [h1, ← h2.1]
          simp
    have h2 : s ++ partSuffix m ∈ dir.filter fun name => decide (name ≠ f.2 ++ partSuffix n) := by
      simp [hmem, h1]
    simp only
    split
    · exact h2
    · rw [List.mem_filter, List.mem_filter]
      refine ⟨⟨h2, ?_⟩, ?_⟩
      · simp only [ne_eq, decide_not, Bool.not_eq_eq_eq_not, Bool.not_true, decide_eq_false_iff_not]
        intro h
        -- the last character of `gridName` is `0`, and there is no dot in the last two characters
        have hd : '.' :: (['p', 'a', 'r', 't'] ++ decimal m) <:+ f.1 ++ ['_', '0'] := by
          rw [show f.1 ++ ['_', '0'] = gridName f.1 from rfl, ← h]
          exact List.suffix_append ..
        have h3 : ['_', '0'] <:+ '.' :: (['p', 'a', 'r', 't'] ++ decimal m) := by
          refine List.suffix_of_suffix_length_le (List.suffix_append f.1 _) hd (by simp)
        -- the character before the last one is `t` or a digit
        have hund : '_' ∈ '.' :: (['p', 'a', 'r', 't'] ++ decimal m) := h3.subset (by simp)
        simp only [List.cons_append, List.nil_append, List.mem_cons] at hund
        rcases hund with h | h | h | h | h | h
        all_goals try exact absurd h (by decide)
        unfold decimal at h
        split at h
        · simp at h
        · simp only [List.mem_reverse, List.mem_map] at h
          obtain ⟨d, hd, hd'⟩ := h
          have : ∀ d < 10, Nat.digitChar d ≠ '_' := by decide
          exact this d (Nat.digits_lt_base (by decide) hd) hd'
      · simp only [Bool.not_eq_eq_eq_not, Bool.not_true, decide_eq_false_iff_not]
        intro h
        exact hnm (infix_part hs h)

/-- **C37**, if the numbers of the parts have the same number of digits, in particular if there are at
most ten parts. -/
theorem C37_same_digits_partial (files : List (List Char × List Char)) (keep : Bool) (n m : ℕ)
    (dir : List (List Char)) (s : List Char) (hs : '.' ∉ s) (hnm : n ≠ m)
    (hlen : (decimal n).length = (decimal m).length) (hmem : s ++ partSuffix m ∈ dir) :
    s ++ partSuffix m ∈ removeReadingFiles files keep n dir :=
  C37_other_parts_partial files keep n m dir s hs
    (fun h => hnm (decimal_injective (h.eq_of_length hlen))) hmem

example : "dsg_0.part3".toList ∈ removeReadingFiles [("dsg".toList, "token".toList)] false 2
    ["dsg_0.part2".toList, "dsg_0.part3".toList] :=
  C37_same_digits_partial _ _ 2 3 _ "dsg_0".toList (by decide) (by decide) (by decide) (by decide)

/-- The files that are to be removed are removed: the token of the part, and the file of the part
unless it is to be kept. -/
theorem C37_removes (files : List (List Char × List Char)) (keep : Bool) (n : ℕ)
    (dir : List (List Char)) (f : List Char × List Char) (hf : f ∈ files) :
    f.2 ++ partSuffix n ∉ removeReadingFiles files keep n dir ∧
      (keep = false → gridName f.1 ++ partSuffix n ∉ removeReadingFiles files keep n dir) := by
  have hsub : ∀ (fs : List (List Char × List Char)) (dir : List (List Char)),
      removeReadingFiles fs keep n dir ⊆ dir := by
    intro fs
    unfold removeReadingFiles
    induction fs with
    | nil => intro dir; simp
    | cons g gs ih =>
      intro dir
      rw [List.foldl_cons]
      refine List.Subset.trans (ih _) ?_
      simp only
      split
      · exact List.filter_subset_self ..
      · exact List.Subset.trans (List.filter_subset_self ..)
          (List.Subset.trans (List.filter_subset_self ..) (List.filter_subset_self ..))
  induction files generalizing dir with
  | nil => simp at hf
  | cons g gs ih =>
    rcases List.mem_cons.1 hf with rfl | hf
    · have e : removeReadingFiles (f :: gs) keep n dir = removeReadingFiles gs keep n
        (removeReadingFiles [f] keep n dir) := rfl
      rw [e]
      have h1 : f.2 ++ partSuffix n ∉ removeReadingFiles [f] keep n dir := by
        unfold removeReadingFiles
        cases keep <;> simp
      refine ⟨fun h => h1 (hsub gs _ h), fun hk h => ?_⟩
      have h2 : gridName f.1 ++ partSuffix n ∉ removeReadingFiles [f] keep n dir := by
        unfold removeReadingFiles
        subst hk
        simp only [List.foldl_cons, List.foldl_nil, Bool.false_eq_true, if_false, List.mem_filter,
          not_and, Bool.not_eq_eq_eq_not, Bool.not_true, decide_eq_false_iff_not, not_not]
        intro _
        exact (List.suffix_append _ _).isInfix
      exact h2 (hsub gs _ h)
    · exact ih _ hf

/-- The property as stated does not hold: cleaning up part 1 deletes the file of part 10. -/
theorem C37_violated :
    ¬ ∀ (files : List (List Char × List Char)) (keep : Bool) (n m : ℕ) (dir : List (List Char))
      (s : List Char), '.' ∉ s → n ≠ m → s ++ partSuffix m ∈ dir →
      s ++ partSuffix m ∈ removeReadingFiles files keep n dir := by
  intro h
  have := h [("dsg".toList, "token".toList)] false 1 10
    ["dsg_0.part1".toList, "dsg_0.part10".toList] "dsg_0".toList (by decide) (by decide)
    (by decide +kernel)
  revert this
  decide +kernel

/-! ### C57 -/

theorem scan_some (present : ℕ → ℕ → Bool) (todo : List ℕ) :
    ∀ t i t', readReduceScan present t todo = (some i, t') →
      i ∈ todo ∧ t < t' ∧ ∃ u, present u i = true := by
  induction todo with
  | nil => intro t i t' h; simp [readReduceScan] at h
  | cons j js ih =>
    intro t i t' h
    unfold readReduceScan at h
    split at h
    · next hp =>
      simp only [Prod.mk.injEq, Option.some.injEq] at h
      obtain ⟨rfl, rfl⟩ := h
      exact ⟨List.mem_cons_self .., by omega, t, hp⟩
    · obtain ⟨h1, h2, h3⟩ := ih _ _ _ h
      exact ⟨List.mem_cons_of_mem _ h1, by omega, h3⟩

theorem scan_none (present : ℕ → ℕ → Bool) (todo : List ℕ) (hne : todo ≠ []) :
    ∀ t t', readReduceScan present t todo = (none, t') →
      t < t' ∧ ∃ i ∈ todo, present t i = false := by
  have hmono : ∀ (l : List ℕ) t t', readReduceScan present t l = (none, t') → t ≤ t' := by
    intro l
    induction l with
    | nil => intro t t' h; simp [readReduceScan] at h; omega
    | cons j js ih =>
      intro t t' h
      unfold readReduceScan at h
      split at h
      · simp at h
      · have := ih _ _ h; omega
  intro t t' h
  cases todo with
  | nil => exact absurd rfl hne
  | cons j js =>
    unfold readReduceScan at h
    split at h
    · simp at h
    · next hp =>
      exact ⟨by have := hmono _ _ _ h; omega, j, List.mem_cons_self .., by simpa using hp⟩

/-- **C57**, safety, for every arrival schedule and after any number of passes: the files read so far
and the files still to be read are together exactly the files, each once, and only files whose token
was found have been read. -/
theorem C57_at_most_once (present : ℕ → ℕ → Bool) (n passes : ℕ) :
    ((readReduceWait present passes 0 (List.range n)).1 ++
      (readReduceWait present passes 0 (List.range n)).2).Perm (List.range n) ∧
    ∀ i ∈ (readReduceWait present passes 0 (List.range n)).1, ∃ t, present t i = true := by
  have key : ∀ passes t (still : List ℕ), ((readReduceWait present passes t still).1 ++
      (readReduceWait present passes t still).2).Perm still ∧
      ∀ i ∈ (readReduceWait present passes t still).1, ∃ t, present t i = true := by
    intro passes
    induction passes with
    | zero => intro t still; simp [readReduceWait]
    | succ p ih =>
      intro t still
      unfold readReduceWait
      split
      · next h => subst h; simp
      · split
        · next i t' heq =>
          obtain ⟨h1, _, h3⟩ := scan_some present still t i t' heq
          obtain ⟨ih1, ih2⟩ := ih t' (still.erase i)
          constructor
          · simp only [List.cons_append]
            exact (List.Perm.cons i ih1).trans (List.perm_cons_erase h1).symm
          · intro j hj
            rcases List.mem_cons.1 hj with rfl | hj
            · exact h3
            · exact ih2 j hj
        · next t' heq => exact ih t' still
  exact key passes 0 _

theorem wait_ends (present : ℕ → ℕ → Bool) (T : ℕ) :
    ∀ passes t (still : List ℕ), (∀ i ∈ still, ∀ t ≥ T, present t i = true) →
      still.length + (T - t) ≤ passes → (readReduceWait present passes t still).2 = [] := by
  intro passes
  induction passes with
  | zero =>
    intro t still _ h
    have : still = [] := List.length_eq_zero_iff.1 (by omega)
    simp [readReduceWait, this]
  | succ p ih =>
    intro t still hp h
    unfold readReduceWait
    split
    · rfl
    · next hne =>
      split
      · next i t' heq =>
        obtain ⟨h1, h2, -⟩ := scan_some present still t i t' heq
        apply ih
        · intro j hj; exact hp j (List.mem_of_mem_erase hj)
        · rw [List.length_erase_of_mem h1]
          have := List.length_pos_of_mem h1
          omega
      · next t' heq =>
        obtain ⟨h1, i, hi, h2⟩ := scan_none present still hne t t' heq
        apply ih _ _ hp
        have : t < T := by
          by_contra hcon
          rw [hp i hi t (by omega)] at h2
          exact absurd h2 (by simp)
        omega

/-- **C57**: for every order and time in which the token files appear, provided that all of them
appear (and stay), the reader ends, and each process then has its data plus the data of each file,
each exactly once. -/
theorem C57_each_once {K : Type} [AddCommMonoid K] (present : ℕ → ℕ → Bool) (n : ℕ)
    (harrive : ∀ i < n, ∃ t0, ∀ t ≥ t0, present t i = true) (content : ℕ → ℕ → K) (data : ℕ → K) :
    ∃ p0, ∀ passes ≥ p0,
      readReduce present n passes content data =
        some fun x => data x + ∑ i ∈ Finset.range n, content i x := by
  have hT : ∃ T, ∀ i < n, ∀ t ≥ T, present t i = true := by
    induction n with
    | zero => exact ⟨0, by simp⟩
    | succ n ih =>
      obtain ⟨T, h⟩ := ih fun i hi => harrive i (by omega)
      obtain ⟨t0, h0⟩ := harrive n (by omega)
      refine ⟨max T t0, fun i hi t ht => ?_⟩
      rcases Nat.lt_succ_iff_lt_or_eq.1 hi with hi | rfl
      · exact h i hi t (by omega)
      · exact h0 t (by omega)
  obtain ⟨T, hT⟩ := hT
  refine ⟨n + T, fun passes hpass => ?_⟩
  have hend := wait_ends present T passes 0 (List.range n)
    (fun i hi => hT i (by simpa using hi)) (by simp; omega)
  have hperm := (C57_at_most_once present n passes).1
  unfold readReduce
  simp only
  rw [hend, List.append_nil] at hperm
  rw [if_pos hend]
  congr 1
  have hfold : ∀ (l : List ℕ) (d : ℕ → K),
      l.foldl (fun d i => fun x => content i x + d x) d =
        fun x => d x + (l.map fun i => content i x).sum := by
    intro l
    induction l with
    | nil => intro d; simp
    | cons i l ih =>
      intro d
      rw [List.foldl_cons, ih]
      funext x
      simp only [List.map_cons, List.sum_cons]
      rw [add_comm (content i x), add_assoc]
  rw [hfold]
  funext x
  congr 1
  rw [(hperm.map fun i => content i x).sum_eq]
  rfl

example : ∃ p0, ∀ passes ≥ p0,
    readReduce (fun t i => decide (10 ≤ t + 3 * i)) 3 passes (fun i x => i + x) (fun x => 100 * x) =
      some fun x => 100 * x + ∑ i ∈ Finset.range 3, (i + x) :=
  C57_each_once _ 3 (fun i _ => ⟨10, fun t ht => by simp; omega⟩) _ _

/-- The files of the previous example are read in another order than that of their indices. -/
example : readReduceWait (fun t i => decide (10 ≤ t + 3 * i)) 20 0 (List.range 3) =
    ([2, 1, 0], []) := by decide

end Verif

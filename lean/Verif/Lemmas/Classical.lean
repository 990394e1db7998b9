import Verif.Lemmas.Moebius
import Mathlib.Algebra.BigOperators.Intervals
import Mathlib.Algebra.BigOperators.Fin
import Mathlib.Data.List.Perm.Basic

/-! Helper lemmas about the classical scheme: counting and the binomial identity. -/

namespace Verif

/-- number of vectors of `d` natural numbers with sum `t` -/
def numComp : ℕ → ℕ → ℤ
  | 0, t => if t = 0 then 1 else 0
  | d + 1, t => ∑ j ∈ Finset.range (t + 1), numComp d j

theorem pascal_sum (d : ℕ) (F : ℕ → ℤ) :
    ∑ p ∈ Finset.range (d + 2), (-1) ^ p * ((d + 1).choose p : ℤ) * F p =
      ∑ p ∈ Finset.range (d + 1), (-1) ^ p * (d.choose p : ℤ) * (F p - F (p + 1)) := by
  rw [Finset.sum_range_succ']
  simp only [Nat.choose_succ_succ, Nat.cast_add]
  have h1 : ∑ p ∈ Finset.range (d + 1), (-1 : ℤ) ^ p * (d.choose p : ℤ) * (F p - F (p + 1)) =
      ∑ p ∈ Finset.range (d + 1), (-1 : ℤ) ^ p * (d.choose p : ℤ) * F p -
      ∑ p ∈ Finset.range (d + 1), (-1 : ℤ) ^ p * (d.choose p : ℤ) * F (p + 1) := by
    rw [← Finset.sum_sub_distrib]
    exact Finset.sum_congr rfl fun p _ => by ring
  have h2 : ∑ p ∈ Finset.range (d + 1), (-1 : ℤ) ^ (p + 1) *
        ((d.choose p : ℤ) + (d.choose (p + 1) : ℤ)) * F (p + 1) =
      ∑ p ∈ Finset.range (d + 1), (-1 : ℤ) ^ (p + 1) * (d.choose (p + 1) : ℤ) * F (p + 1) -
      ∑ p ∈ Finset.range (d + 1), (-1 : ℤ) ^ p * (d.choose p : ℤ) * F (p + 1) := by
    rw [← Finset.sum_sub_distrib]
    exact Finset.sum_congr rfl fun p _ => by ring
  have h3 : ∑ p ∈ Finset.range (d + 1), (-1 : ℤ) ^ (p + 1) * (d.choose (p + 1) : ℤ) * F (p + 1) +
      F 0 = ∑ p ∈ Finset.range (d + 1), (-1 : ℤ) ^ p * (d.choose p : ℤ) * F p := by
    have := Finset.sum_range_succ' (fun p => (-1 : ℤ) ^ p * (d.choose p : ℤ) * F p) (d + 1)
    rw [Finset.sum_range_succ] at this
    simp only [Nat.choose_succ_self, Nat.cast_zero, mul_zero, zero_mul, add_zero, pow_zero,
      Nat.choose_zero_right, Nat.cast_one, one_mul] at this
    exact this.symm
  simp only [Nat.choose_zero_right, pow_zero, Nat.cast_one, one_mul]
  rw [h1, h2, ← h3]
  ring

/-- the alternating sum of the combination technique -/
theorem alternating_numComp (d s : ℕ) :
    ∑ p ∈ Finset.range (d + 1), (-1) ^ p * (d.choose p : ℤ) *
      (if p ≤ s then numComp (d + 1) (s - p) else 0) = 1 := by
  induction d with
  | zero =>
    simp [numComp]
  | succ d ih =>
    rw [pascal_sum]
    refine Eq.trans ?_ ih
    apply Finset.sum_congr rfl
    intro p _
    congr 1
    by_cases h : p ≤ s
    · by_cases h' : p + 1 ≤ s
      · rw [if_pos h, if_pos h', if_pos h]
        have : s - p = s - (p + 1) + 1 := by omega
        rw [this]
        generalize s - (p + 1) = t
        conv_lhs => rw [numComp, Finset.sum_range_succ]
        rw [numComp, numComp]
        ring
      · have : s = p := by omega
        subst this
        simp [numComp]
    · rw [if_neg h, if_neg (by omega), if_neg h]
      simp

/-- all vectors above `b` whose sum is larger by `t` -/
def comps : List ℕ → ℕ → List (List ℕ)
  | [], t => if t = 0 then [[]] else []
  | a :: b, t => (List.range (t + 1)).flatMap fun j => (comps b j).map ((a + (t - j)) :: ·)

theorem length_comps (b : List ℕ) (t : ℕ) : ((comps b t).length : ℤ) = numComp b.length t := by
  induction b generalizing t with
  | nil =>
    simp only [comps, numComp, List.length_nil]
    split <;> simp
  | cons a b ih =>
    simp only [comps, List.length_flatMap, List.length_map, List.length_cons, numComp]
    rw [Finset.sum_range, ← List.sum_ofFn]
    push_cast
    congr 1
    rw [List.map_map]
    apply List.ext_getElem
    · simp
    · intro i h1 h2
      simp only [List.getElem_map, List.getElem_range, List.getElem_ofFn, Function.comp_apply, ih]

theorem mem_comps (b l : List ℕ) (t : ℕ) : l ∈ comps b t ↔ VecLe b l ∧ l.sum = b.sum + t := by
  induction b generalizing l t with
  | nil =>
    simp only [comps]
    split
    · rename_i h
      subst h
      constructor
      · intro h; simp at h; subst h; simp
      · rintro ⟨h, -⟩; cases h; simp
    · rename_i h
      simp only [List.not_mem_nil, false_iff]
      rintro ⟨h1, h2⟩
      cases h1
      simp at h2
      omega
  | cons a b ih =>
    simp only [comps, List.mem_flatMap, List.mem_range, List.mem_map, ih]
    constructor
    · rintro ⟨j, hj, x, ⟨hx, hs⟩, rfl⟩
      refine ⟨List.Forall₂.cons (by omega) hx, ?_⟩
      simp only [List.sum_cons, hs]
      omega
    · rintro ⟨h, hs⟩
      cases h with
      | @cons _ y _ l h1 h2 =>
        simp only [List.sum_cons] at hs
        have := VecLe.sum_le h2
        refine ⟨l.sum - b.sum, by omega, l, ⟨h2, by omega⟩, ?_⟩
        congr 1
        omega

theorem nodup_comps (b : List ℕ) (t : ℕ) : (comps b t).Nodup := by
  induction b generalizing t with
  | nil => simp only [comps]; split <;> simp
  | cons a b ih =>
    simp only [comps]
    rw [List.nodup_flatMap]
    refine ⟨fun j _ => (ih j).map fun x y h => by simpa using h, ?_⟩
    refine (List.pairwise_lt_range (n := t + 1)).imp_of_mem ?_
    intro i j hi hj hij x hx hy
    simp only [List.mem_map, List.mem_range] at hx hy hi hj
    obtain ⟨u, -, rfl⟩ := hx
    obtain ⟨v, -, h⟩ := hy
    simp at h
    omega

/-- counting the grids on one diagonal above `b` in a list that contains them all -/
theorem count_diagonal (T : List (List ℕ)) (hT : T.Nodup) (b : List ℕ) (N p : ℕ)
    (hmem : ∀ l, VecLe b l → l.sum ≤ N → l ∈ T) (hb : b.sum ≤ N) :
    ((T.filter fun l => leVec b l && decide (l.sum + p = N)).length : ℤ) =
      if p ≤ N - b.sum then numComp b.length (N - b.sum - p) else 0 := by
  split
  · rename_i hp
    rw [← length_comps]
    congr 1
    apply List.Perm.length_eq
    rw [List.perm_ext_iff_of_nodup (hT.filter _) (nodup_comps _ _)]
    intro l
    rw [List.mem_filter, mem_comps, Bool.and_eq_true, leVec_iff, decide_eq_true_eq]
    constructor
    · rintro ⟨-, h1, h2⟩; exact ⟨h1, by omega⟩
    · rintro ⟨h1, h2⟩; exact ⟨hmem l h1 (by omega), h1, by omega⟩
  · rename_i hp
    rw [List.filter_eq_nil_iff.2]
    · simp
    · intro l _ hc
      rw [Bool.and_eq_true, leVec_iff, decide_eq_true_eq] at hc
      have := VecLe.sum_le hc.1
      omega

/-- the classical coefficient of a grid -/
def classicalCoeff (N d : ℕ) (l : List ℕ) : ℤ :=
  (-1) ^ (N - levelSum l) * ((d - 1).choose (N - levelSum l) : ℤ)

/-- the grids of the classical scheme as a filter -/
theorem classicalSpaces_eq_filter (N d : ℕ) (r : List ℕ) (T : List (List ℕ)) :
    classicalSpaces N d r T =
      T.filter fun l => leVec r l && decide (l.sum ≤ N ∧ N < l.sum + d) := by
  unfold classicalSpaces
  have key : ∀ (l : List ℕ), ((List.range d).flatMap fun p =>
      if leVec r l && decide (levelSum l + p = N) then [l] else []) =
      if leVec r l && decide (l.sum ≤ N ∧ N < l.sum + d) then [l] else [] := by
    intro l
    induction d with
    | zero =>
      simp
    | succ d ih =>
      rw [List.range_succ, List.flatMap_append, ih]
      simp only [List.flatMap_cons, List.flatMap_nil, List.append_nil, levelSum]
      by_cases hr : leVec r l = true
      · by_cases h1 : l.sum + d = N
        · have h3 : l.sum ≤ N ∧ N < l.sum + (d + 1) := by omega
          simp [hr, h1, h3]
        · by_cases h2 : l.sum ≤ N ∧ N < l.sum + d
          · have h3 : l.sum ≤ N ∧ N < l.sum + (d + 1) := by omega
            simp [hr, h1, h2, h3]
          · have h3 : ¬ (l.sum ≤ N ∧ N < l.sum + (d + 1)) := by omega
            simp [hr, h1, h2, h3]
      · simp [hr]
  simp only [key]
  induction T with
  | nil => simp
  | cons l T ih =>
    rw [List.flatMap_cons, ih]
    by_cases h : (leVec r l && decide (l.sum ≤ N ∧ N < l.sum + d)) = true
    · rw [if_pos h, List.filter_cons, if_pos h]; rfl
    · rw [if_neg h, List.filter_cons, if_neg h]; rfl

/-- sum over the diagonals -/
theorem sum_by_diagonal (T : List (List ℕ)) (N d : ℕ) (b : List ℕ) :
    ((T.filter fun l => leVec b l && decide (l.sum ≤ N ∧ N < l.sum + d)).map
        (classicalCoeff N d)).sum =
      ∑ p ∈ Finset.range d, (-1) ^ p * ((d - 1).choose p : ℤ) *
        ((T.filter fun l => leVec b l && decide (l.sum + p = N)).length : ℤ) := by
  induction T with
  | nil => simp
  | cons l T ih =>
    have hstep : ∀ p, (((l :: T).filter fun l => leVec b l && decide (l.sum + p = N)).length : ℤ) =
        (if leVec b l = true ∧ l.sum + p = N then 1 else 0) +
          ((T.filter fun l => leVec b l && decide (l.sum + p = N)).length : ℤ) := by
      intro p
      by_cases h : leVec b l = true ∧ l.sum + p = N
      · rw [List.filter_cons_of_pos (by simpa using h), if_pos h, List.length_cons]
        push_cast; ring
      · rw [List.filter_cons_of_neg (by simpa using h), if_neg h, zero_add]
    simp only [hstep, mul_add, Finset.sum_add_distrib, ← ih]
    by_cases h : leVec b l = true ∧ l.sum ≤ N ∧ N < l.sum + d
    · rw [List.filter_cons_of_pos (by simpa using h), List.map_cons, List.sum_cons]
      congr 1
      rw [Finset.sum_eq_single (N - l.sum)]
      · rw [if_pos ⟨h.1, by omega⟩, mul_one]
        rfl
      · intro p _ hp
        rw [if_neg, mul_zero]
        rintro ⟨-, h2⟩
        omega
      · intro h2
        exact absurd (Finset.mem_range.2 (by omega)) h2
    · rw [List.filter_cons_of_neg (by simpa using h)]
      rw [Finset.sum_eq_zero, zero_add]
      intro p hp
      rw [Finset.mem_range] at hp
      rw [if_neg, mul_zero]
      rintro ⟨h1, h2⟩
      exact h ⟨h1, by omega, by omega⟩

/-- consistency of the classical coefficients -/
theorem classical_core (T : List (List ℕ)) (hT : T.Nodup) (r : List ℕ) (c : ℕ) (hr : r ≠ [])
    (hmem : ∀ l, VecLe r l → l.sum ≤ r.sum + c → l ∈ T) (k g : List ℕ) (hrg : VecLe r g)
    (hg : g.sum ≤ r.sum + c) (hk : VecLe k g) :
    (((classicalSpaces (r.sum + c) r.length r T).filter fun l => leVec k l).map
      (classicalCoeff (r.sum + c) r.length)).sum = 1 := by
  have hlen : k.length = r.length := by rw [hk.length_eq, hrg.length_eq]
  set b := vecMax k r with hb
  have hbl : b.length = r.length := by simp [hb, vecMax, hlen]
  have hbr : VecLe r b := le_vecMax_right hlen
  have hbg : VecLe b g := vecMax_le hk hrg
  rw [classicalSpaces_eq_filter, List.filter_filter]
  have hf : (T.filter fun l => leVec k l &&
      (leVec r l && decide (l.sum ≤ r.sum + c ∧ r.sum + c < l.sum + r.length))) =
      T.filter fun l => leVec b l &&
        decide (l.sum ≤ r.sum + c ∧ r.sum + c < l.sum + r.length) := by
    apply List.filter_congr
    intro l _
    rw [← Bool.and_assoc]
    congr 1
    rw [Bool.eq_iff_iff, Bool.and_eq_true, leVec_iff, leVec_iff, leVec_iff, hb,
      vecMax_le_iff hlen]
  rw [hf, sum_by_diagonal]
  have hpos : 0 < r.length := List.length_pos_of_ne_nil hr
  obtain ⟨d, hd⟩ := Nat.exists_eq_succ_of_ne_zero hpos.ne'
  have hbs : b.sum ≤ r.sum + c := le_trans hbg.sum_le hg
  have := alternating_numComp d (r.sum + c - b.sum)
  refine Eq.trans ?_ this
  rw [hd]
  apply Finset.sum_congr rfl
  intro p _
  have hco := count_diagonal T hT b (r.sum + c) p (fun l h1 h2 => hmem l (hbr.trans h1) h2) hbs
  rw [hco, hbl, hd]
  rfl

end Verif

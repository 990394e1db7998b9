import Verif.Model.CombiScheme
import Verif.Lemmas.LevelSets
import Mathlib.Algebra.BigOperators.Group.List.Basic
import Mathlib.Algebra.BigOperators.Group.Finset.Basic
import Mathlib.Algebra.BigOperators.Ring.Finset
import Mathlib.Algebra.BigOperators.Group.Finset.Sigma
import Mathlib.Algebra.BigOperators.Ring.List
import Mathlib.Tactic.Ring

/-! Helper lemmas: componentwise order on vectors and Moebius inversion on boxes. -/

namespace Verif

/-- componentwise order of vectors of equal length -/
abbrev VecLe (a b : List ℕ) : Prop := List.Forall₂ (· ≤ ·) a b

theorem leVec_iff (a b : List ℕ) : leVec a b = true ↔ VecLe a b := by
  induction a generalizing b with
  | nil => cases b <;> simp [leVec]
  | cons x a ih => cases b <;> simp [leVec, ih]

instance (a b : List ℕ) : Decidable (VecLe a b) := decidable_of_iff _ (leVec_iff a b)

theorem VecLe.refl (a : List ℕ) : VecLe a a := List.forall₂_refl a

theorem VecLe.trans {a b c : List ℕ} (h : VecLe a b) (h' : VecLe b c) : VecLe a c := by
  induction h generalizing c with
  | nil => exact h'
  | cons h1 _ ih =>
    cases h' with
    | cons h2 h3 => exact List.Forall₂.cons (le_trans h1 h2) (ih h3)

theorem VecLe.antisymm {a b : List ℕ} (h : VecLe a b) (h' : VecLe b a) : a = b := by
  induction h with
  | nil => rfl
  | cons h1 _ ih =>
    cases h' with
    | cons h2 h3 => rw [ih h3, le_antisymm h1 h2]

/-- componentwise order implies lexicographic order -/
theorem VecLe.not_lt {a b : List ℕ} (h : VecLe a b) : ¬ b < a := by
  induction h with
  | nil => simp
  | cons h1 _ ih =>
    rw [List.cons_lt_cons_iff]
    rintro (h2 | ⟨-, h2⟩)
    · omega
    · exact ih h2

theorem VecLe.sum_le {a b : List ℕ} (h : VecLe a b) : a.sum ≤ b.sum := by
  induction h with
  | nil => simp
  | cons h1 _ ih => simp only [List.sum_cons]; omega

theorem VecLe.eq_of_sum {a b : List ℕ} (h : VecLe a b) (hs : b.sum ≤ a.sum) : a = b := by
  induction h with
  | nil => rfl
  | cons h1 h2 ih =>
    have := VecLe.sum_le h2
    simp only [List.sum_cons] at hs
    rw [ih (by omega)]
    congr 1
    omega

/-- The signed indicator of `l ≤ m ≤ l + 1`. -/
def mu (l m : List ℕ) : ℤ :=
  if leVec l m && leVec m (l.map (· + 1)) then (-1 : ℤ) ^ (List.zipWith (· - ·) m l).sum else 0

def mu1 (a b : ℕ) : ℤ := if a = b then 1 else if b = a + 1 then -1 else 0

theorem mu_cons (a b : ℕ) (l m : List ℕ) : mu (a :: l) (b :: m) = mu1 a b * mu l m := by
  unfold mu mu1
  simp only [leVec, List.map_cons, List.zipWith_cons_cons, List.sum_cons]
  by_cases h1 : leVec l m && leVec m (l.map (· + 1))
  · simp only [Bool.and_eq_true] at h1
    by_cases h2 : a = b
    · subst h2; simp [h1]
    · by_cases h3 : b = a + 1
      · subst h3; simp [h1, pow_add]
      · have : ¬ (a ≤ b ∧ b ≤ a + 1) := by omega
        simp [h1, h2, h3]
        omega
  · simp only [Bool.and_eq_true, not_and] at h1
    have : ¬ ((a ≤ b ∧ leVec l m = true) ∧ b ≤ a + 1 ∧ leVec m (l.map (· + 1)) = true) := by
      rintro ⟨⟨-, h2⟩, -, h3⟩
      exact h1 h2 h3
    have h4 : ¬ (leVec l m = true ∧ leVec m (l.map (· + 1)) = true) := fun h => h1 h.1 h.2
    simp [this, h4]

theorem mu_nil : mu [] [] = 1 := by simp [mu, leVec]

theorem mu_eq_zero_of_not_le {l m : List ℕ} (h : ¬ VecLe l m) : mu l m = 0 := by
  have : leVec l m = false := by
    rw [← leVec_iff] at h
    simpa using h
  simp [mu, this]

/-- the box `k ≤ l ≤ m` -/
def box : List ℕ → List ℕ → List (List ℕ)
  | [], [] => [[]]
  | a :: k, b :: m => (List.range' a (b + 1 - a)).flatMap fun i => (box k m).map (i :: ·)
  | _, _ => []

theorem mem_box (k m l : List ℕ) : l ∈ box k m ↔ VecLe k l ∧ VecLe l m := by
  induction k generalizing m l with
  | nil =>
    cases m with
    | nil =>
      simp only [box, List.mem_singleton]
      constructor
      · rintro rfl; simp
      · rintro ⟨h, -⟩; cases h; rfl
    | cons b m =>
      simp only [box, List.not_mem_nil, false_iff]
      rintro ⟨h, h'⟩
      cases h; cases h'
  | cons a k ih =>
    cases m with
    | nil =>
      simp only [box, List.not_mem_nil, false_iff]
      rintro ⟨h, h'⟩
      cases h; cases h'
    | cons b m =>
      simp only [box, List.mem_flatMap, List.mem_range'_1, List.mem_map]
      constructor
      · rintro ⟨i, hi, t, ht, rfl⟩
        obtain ⟨h1, h2⟩ := (ih m t).1 ht
        exact ⟨List.Forall₂.cons hi.1 h1, List.Forall₂.cons (by omega) h2⟩
      · rintro ⟨h, h'⟩
        cases h with
        | cons h1 h2 =>
          cases h' with
          | cons h3 h4 => exact ⟨_, ⟨h1, by omega⟩, _, (ih m _).2 ⟨h2, h4⟩, rfl⟩

theorem nodup_box (k m : List ℕ) : (box k m).Nodup := by
  induction k generalizing m with
  | nil => cases m <;> simp [box]
  | cons a k ih =>
    cases m with
    | nil => simp [box]
    | cons b m =>
      simp only [box]
      rw [List.nodup_flatMap]
      refine ⟨fun i _ => (ih m).map (fun x y h => by simpa using h), ?_⟩
      refine (List.nodup_range' (step := 1)).imp ?_
      intro i j hij x hx hy
      simp only [List.mem_map] at hx hy
      obtain ⟨t, -, rfl⟩ := hx
      obtain ⟨s, -, h⟩ := hy
      simp at h
      exact hij h.1.symm

theorem sum_mu1 (a b : ℕ) (h : a ≤ b) :
    ((List.range' a (b + 1 - a)).map fun i => mu1 i b).sum = if a = b then 1 else 0 := by
  obtain ⟨c, rfl⟩ := Nat.exists_eq_add_of_le h
  have : a + c + 1 - a = c + 1 := by omega
  rw [this]
  rcases c with _ | c
  · simp [mu1]
  · rw [List.range'_concat, List.range'_concat]
    have h0 : ((List.range' a c).map fun i => mu1 i (a + (c + 1))).sum = 0 := by
      apply List.sum_eq_zero
      intro x hx
      simp only [List.mem_map, List.mem_range'_1] at hx
      obtain ⟨i, hi, rfl⟩ := hx
      unfold mu1
      rw [if_neg (by omega), if_neg (by omega)]
    simp only [List.map_append, List.sum_append, h0]
    simp [mu1, add_assoc]

/-- Moebius inversion on a box -/
theorem sum_mu_box (k m : List ℕ) (h : VecLe k m) :
    ((box k m).map fun l => mu l m).sum = if k = m then 1 else 0 := by
  induction h with
  | nil => simp [box, mu_nil]
  | @cons a b k m h1 h2 ih =>
    simp only [box, List.map_flatMap, List.map_map, Function.comp_def, mu_cons]
    have hs : ∀ i, ((box k m).map fun l => mu1 i b * mu l m).sum =
        mu1 i b * if k = m then 1 else 0 := by
      intro i
      rw [List.sum_map_mul_left, ih]
    rw [List.flatMap_def, List.sum_flatten, List.map_map]
    simp only [Function.comp_def, hs]
    rw [List.sum_map_mul_right, sum_mu1 a b h1]
    by_cases hab : a = b <;> by_cases hkm : k = m <;> simp [hab, hkm]

/-- sums over duplicate-free lists as finite sums -/
theorem list_sum_eq_finset {α : Type*} [DecidableEq α] (l : List α) (h : l.Nodup) (f : α → ℤ) :
    (l.map f).sum = ∑ x ∈ l.toFinset, f x := (List.sum_toFinset f h).symm

/-- componentwise maximum -/
def vecMax (a b : List ℕ) : List ℕ := List.zipWith max a b

theorem vecMax_le {a b c : List ℕ} (h : VecLe a c) (h' : VecLe b c) : VecLe (vecMax a b) c := by
  induction h generalizing b with
  | nil => cases h'; simp [vecMax]
  | cons h1 _ ih =>
    cases h' with
    | cons h2 h3 => exact List.Forall₂.cons (by omega) (ih h3)

theorem le_vecMax_left {a b : List ℕ} (h : a.length = b.length) : VecLe a (vecMax a b) := by
  induction a generalizing b with
  | nil => simp [vecMax]
  | cons x a ih =>
    cases b with
    | nil => simp at h
    | cons y b => exact List.Forall₂.cons (by omega) (ih (by simpa using h))

theorem le_vecMax_right {a b : List ℕ} (h : a.length = b.length) : VecLe b (vecMax a b) := by
  induction a generalizing b with
  | nil => cases b <;> simp [vecMax] at h ⊢
  | cons x a ih =>
    cases b with
    | nil => simp at h
    | cons y b => exact List.Forall₂.cons (by omega) (ih (by simpa using h))

theorem vecMax_le_iff {a b c : List ℕ} (h : a.length = b.length) :
    VecLe (vecMax a b) c ↔ VecLe a c ∧ VecLe b c :=
  ⟨fun h' => ⟨(le_vecMax_left h).trans h', (le_vecMax_right h).trans h'⟩,
    fun h' => vecMax_le h'.1 h'.2⟩

/-- Consistency of the inclusion-exclusion coefficients on a set that is downward closed
above `lmin`: summed over all grids above `k`, they give one. -/
theorem sum_mu_consistent (S : List (List ℕ)) (lmin : List ℕ) (hnd : S.Nodup)
    (hmin : ∀ l ∈ S, VecLe lmin l)
    (hdc : ∀ l ∈ S, ∀ l', VecLe lmin l' → VecLe l' l → l' ∈ S)
    (k g : List ℕ) (hg : g ∈ S) (hk : VecLe k g) :
    ((S.filter fun l => leVec k l).map fun l => (S.map fun m => mu l m).sum).sum = 1 := by
  have hlen : k.length = lmin.length := by
    rw [hk.length_eq, (hmin g hg).length_eq]
  set k' := vecMax k lmin with hk'
  have hk'S : k' ∈ S := hdc g hg k' (le_vecMax_right hlen) (vecMax_le hk (hmin g hg))
  have hfil : S.filter (fun l => leVec k l) = S.filter fun l => leVec k' l := by
    apply List.filter_congr
    intro l hl
    rw [Bool.eq_iff_iff, leVec_iff, leVec_iff, hk', vecMax_le_iff hlen]
    exact ⟨fun h => ⟨h, hmin l hl⟩, fun h => h.1⟩
  rw [hfil, list_sum_eq_finset _ (hnd.filter _)]
  have h1 : ∀ l, (S.map fun m => mu l m).sum = ∑ m ∈ S.toFinset, mu l m :=
    fun l => list_sum_eq_finset S hnd _
  simp only [h1]
  rw [Finset.sum_comm]
  have h2 : ∀ m ∈ S.toFinset, (∑ l ∈ (S.filter fun l => leVec k' l).toFinset, mu l m) =
      if k' = m then 1 else 0 := by
    intro m hm
    rw [List.mem_toFinset] at hm
    by_cases hkm : VecLe k' m
    · rw [← sum_mu_box k' m hkm, list_sum_eq_finset _ (nodup_box k' m)]
      symm
      apply Finset.sum_subset
      · intro l hl
        rw [List.mem_toFinset, mem_box] at hl
        rw [List.mem_toFinset, List.mem_filter, leVec_iff]
        exact ⟨hdc m hm l ((le_vecMax_right hlen).trans hl.1) hl.2, hl.1⟩
      · intro l hl hl'
        rw [List.mem_toFinset, List.mem_filter, leVec_iff] at hl
        apply mu_eq_zero_of_not_le
        intro hc
        apply hl'
        rw [List.mem_toFinset, mem_box]
        exact ⟨hl.2, hc⟩
    · rw [if_neg (by rintro rfl; exact hkm (VecLe.refl _))]
      apply Finset.sum_eq_zero
      intro l hl
      rw [List.mem_toFinset, List.mem_filter, leVec_iff] at hl
      exact mu_eq_zero_of_not_le fun hc => hkm (hl.2.trans hc)
  rw [Finset.sum_congr rfl h2, Finset.sum_ite_eq, if_pos (List.mem_toFinset.2 hk'S)]

end Verif

import Verif.Lemmas.Interpolation
import Mathlib.Algebra.Module.BigOperators

/-!
# Interpolation of hat functions on other grids

A hat function of level `l` is interpolated exactly on every grid of a level `≥ l`; on coarser grids its
interpolant is zero if its centre is no point of a coarser grid.
-/

namespace Verif.Interpolation

variable {K : Type} [Field K] [LinearOrder K] [IsStrictOrderedRing K]

/-- the values of a triangle function in one cell -/
lemma tri_value (m p : ℕ) (s : K) (h0 : 0 ≤ s) (h1 : s ≤ 1) :
    max 0 (1 - |(m : K) + s - p|) = if p = m then 1 - s else if p = m + 1 then s else 0 := by
  split_ifs with h2 h3
  · subst h2
    rw [add_sub_cancel_left, abs_of_nonneg h0, max_eq_right (by linarith)]
  · subst h3
    push_cast
    rw [show (m : K) + s - (m + 1) = -(1 - s) by ring, abs_neg, abs_of_nonneg (by linarith),
      max_eq_right (by linarith)]
    ring
  · rcases Nat.lt_or_gt_of_ne h2 with h | h
    · have : ((p : K) + 1) ≤ m := by exact_mod_cast h
      rw [max_eq_left]
      have := le_abs_self ((m : K) + s - p)
      linarith
    · have h4 : m + 2 ≤ p := by omega
      have : ((m : K) + 2) ≤ p := by exact_mod_cast h4
      rw [max_eq_left]
      have := neg_le_abs ((m : K) + s - p)
      linarith

/-- A sum with the hat functions of a grid is a sum with triangle functions at all positions, for values
that are zero at the missing points and periodic if the right end is missing. -/
lemma sum_hat_positions (L b : ℕ) (hb : b ≤ 2) (x : K) (g : ℕ → K)
    (h0 : b = 0 → g 0 = 0 ∧ g (2 ^ L) = 0) (h1 : b = 1 → g (2 ^ L) = g 0) :
    ∑ i ∈ Finset.range (nodal L b), hat L b i x * g (pos b i) =
      ∑ p ∈ Finset.range (2 ^ L + 1), max 0 (1 - |x * 2 ^ L - p|) * g p := by
  have hp : 0 < 2 ^ L := by positivity
  obtain rfl | rfl | rfl : b = 0 ∨ b = 1 ∨ b = 2 := by omega
  · have hN : 2 ^ L + 1 = nodal L 0 + 1 + 1 := by unfold nodal; omega
    rw [hN, Finset.sum_range_succ, Finset.sum_range_succ', (h0 rfl).1,
      show nodal L 0 + 1 = 2 ^ L by unfold nodal; omega, (h0 rfl).2]
    simp [hat, pos]
  · have hN : nodal L 1 = 2 ^ L := by unfold nodal; omega
    rw [Finset.sum_range_succ, hN, h1 rfl]
    simp only [hat, true_and, pos, if_neg one_ne_zero, add_mul, Finset.sum_add_distrib]
    congr 1
    rw [Finset.sum_eq_single 0]
    · simp
    · intro i _ hi
      simp [hi]
    · intro h
      simp at h
  · have hN : nodal L 2 = 2 ^ L + 1 := by unfold nodal; omega
    rw [hN]
    simp [hat, pos]

/-- Interpolation of the values `g` at the positions, in the cell of `x`. -/
lemma sum_hat_cell (L b : ℕ) (hb : b ≤ 2) (m : ℕ) (hm : m < 2 ^ L) (s : K) (hs0 : 0 ≤ s) (hs1 : s ≤ 1)
    (x : K) (hx : x * 2 ^ L = m + s) (g : ℕ → K)
    (h0 : b = 0 → g 0 = 0 ∧ g (2 ^ L) = 0) (h1 : b = 1 → g (2 ^ L) = g 0) :
    ∑ i ∈ Finset.range (nodal L b), hat L b i x * g (pos b i) = (1 - s) * g m + s * g (m + 1) := by
  rw [sum_hat_positions L b hb x g h0 h1, hx]
  have : ∀ p ∈ Finset.range (2 ^ L + 1), max 0 (1 - |(m : K) + s - p|) * g p =
      (if p = m then (1 - s) * g p else 0) + if p = m + 1 then s * g p else 0 := by
    intro p _
    rw [tri_value m p s hs0 hs1]
    split_ifs <;> first | omega | simp
  rw [Finset.sum_congr rfl this, Finset.sum_add_distrib, Finset.sum_ite_eq', Finset.sum_ite_eq',
    if_pos (Finset.mem_range.2 (by omega)), if_pos (Finset.mem_range.2 (by omega))]

/-- A triangle function of level `l` is affine in the cells of level `L`. -/
lemma tri_affine (l L : ℕ) (hl : l ≤ L) (m p : ℕ) (s : K) (hs0 : 0 ≤ s) (hs1 : s ≤ 1) :
    max 0 (1 - |((m : K) + s) / 2 ^ L * 2 ^ l - p|) =
      (1 - s) * max 0 (1 - |(m : K) / 2 ^ L * 2 ^ l - p|) +
        s * max 0 (1 - |((m + 1 : ℕ) : K) / 2 ^ L * 2 ^ l - p|) := by
  obtain ⟨k, rfl⟩ := Nat.exists_eq_add_of_le hl
  have hD : (0 : K) < 2 ^ k := by positivity
  have hDl : (2 : K) ^ l ≠ 0 := by positivity
  have hDn : 0 < 2 ^ k := by positivity
  have hr := Nat.mod_lt m hDn
  have hm : (m : K) = 2 ^ k * ((m / 2 ^ k : ℕ) : K) + ((m % 2 ^ k : ℕ) : K) := by
    exact_mod_cast (Nat.div_add_mod m (2 ^ k)).symm
  have hr1 : ((m % 2 ^ k : ℕ) : K) + 1 ≤ 2 ^ k := by exact_mod_cast hr
  have hr0 : (0 : K) ≤ ((m % 2 ^ k : ℕ) : K) := by positivity
  generalize m / 2 ^ k = q at hm
  generalize ((m % 2 ^ k : ℕ) : K) = r at hm hr1 hr0
  have e : ∀ y : K, 0 ≤ y → y ≤ 1 → ((m : K) + y) / 2 ^ (l + k) * 2 ^ l = q + (r + y) / 2 ^ k ∧
      0 ≤ (r + y) / 2 ^ k ∧ (r + y) / 2 ^ k ≤ 1 := by
    intro y hy0 hy1
    refine ⟨?_, by positivity, ?_⟩
    · rw [hm, pow_add]
      field_simp
      ring
    · rw [div_le_one hD]
      linarith
  obtain ⟨a1, a2, a3⟩ := e s hs0 hs1
  obtain ⟨b1, b2, b3⟩ := e 0 (le_refl _) zero_le_one
  obtain ⟨c1, c2, c3⟩ := e 1 zero_le_one (le_refl _)
  rw [add_zero] at b1
  rw [show ((m + 1 : ℕ) : K) = (m : K) + 1 by push_cast; rfl, a1, b1, c1, tri_value q p _ a2 a3,
    tri_value q p _ b2 b3, tri_value q p _ c2 c3]
  split_ifs <;> ring

lemma hat_affine (l L b i : ℕ) (hl : l ≤ L) (m : ℕ) (s : K) (hs0 : 0 ≤ s) (hs1 : s ≤ 1) :
    hat l b i (((m : K) + s) / 2 ^ L) =
      (1 - s) * hat l b i ((m : K) / 2 ^ L) + s * hat l b i (((m + 1 : ℕ) : K) / 2 ^ L) := by
  have h2 := tri_affine (K := K) l L hl m (2 ^ l) s hs0 hs1
  push_cast at h2
  unfold hat
  rw [tri_affine l L hl m (pos b i) s hs0 hs1]
  push_cast
  rw [h2]
  split_ifs <;> ring

/-- the values of triangle functions at integers -/
lemma tri_int (q p : ℕ) : max (0 : K) (1 - |(q : K) - p|) = if p = q then 1 else 0 := by
  have := tri_value (K := K) q p 0 (le_refl _) zero_le_one
  rw [add_zero] at this
  rw [this]
  split_ifs <;> simp

lemma hat_left (l b i : ℕ) : hat l b i (0 : K) = if pos b i = 0 then 1 else 0 := by
  have h1 := tri_int (K := K) 0 (pos b i)
  have h2 := tri_int (K := K) 0 (2 ^ l)
  push_cast at h1 h2
  have hp : 2 ^ l ≠ 0 := by positivity
  unfold hat
  rw [zero_mul, h1, h2, if_neg hp, ite_self, add_zero]

lemma hat_right (l b i : ℕ) (hb : b ≤ 2) (hi : i < nodal l b) (h2 : b ≠ 2) :
    hat l b i (1 : K) = if b = 1 ∧ i = 0 then 1 else 0 := by
  have h1 := tri_int (K := K) (2 ^ l) (pos b i)
  push_cast at h1
  have hp : 0 < 2 ^ l := by positivity
  have : pos b i ≠ 2 ^ l := by
    unfold nodal at hi
    unfold pos
    split_ifs <;> omega
  unfold hat
  rw [one_mul, h1, if_neg this, sub_self, abs_zero, sub_zero, max_eq_right zero_le_one, zero_add]

/-- A basis function of the sparse grid space in one dimension: the hat function of level `l` with index
`i`, where the centre is no point of a coarser grid. -/
def BasisFn (b l i : ℕ) : Prop := i < nodal l b ∧ (l = 0 ∨ pos b i % 2 = 1)

/-- Interpolation of a basis function on the grid of level `L`: exact if `l ≤ L`, otherwise zero. -/
lemma interp_basis (L b l i : ℕ) (hb : b ≤ 2) (h : BasisFn b l i) (x : K)
    (m : ℕ) (hm : m < 2 ^ L) (s : K) (hs0 : 0 ≤ s) (hs1 : s ≤ 1) (hx : x * 2 ^ L = m + s) :
    ∑ j ∈ Finset.range (nodal L b), hat L b j x * hat l b i (((pos b j : ℕ) : K) / 2 ^ L) =
      if l ≤ L then hat l b i x else 0 := by
  have hp : (2 : K) ^ L ≠ 0 := by positivity
  have hx' : x = ((m : K) + s) / 2 ^ L := by field_simp; exact hx
  rw [sum_hat_cell L b hb m hm s hs0 hs1 x hx fun p => hat l b i ((p : K) / 2 ^ L)]
  · split_ifs with hl
    · conv_rhs => rw [hx']
      exact (hat_affine l L b i hl m s hs0 hs1).symm
    · have hodd : pos b i % 2 = 1 := by
        rcases h.2 with h | h
        · omega
        · exact h
      have hz : ∀ p : ℕ, hat l b i ((p : K) / 2 ^ L) = 0 := by
        intro p
        have hnot : ¬ (b = 1 ∧ i = 0) := by
          rintro ⟨rfl, rfl⟩
          simp [pos] at hodd
        obtain ⟨k, hk⟩ := Nat.exists_eq_add_of_lt (not_le.1 hl)
        have e : (p : K) / 2 ^ L * 2 ^ l = ((p * 2 ^ (k + 1) : ℕ) : K) := by
          rw [hk, add_assoc, pow_add]
          push_cast
          field_simp
        have hne : pos b i ≠ p * 2 ^ (k + 1) := by
          intro h
          rw [h, pow_succ, ← mul_assoc] at hodd
          omega
        unfold hat
        rw [if_neg hnot, e, tri_int, if_neg hne, add_zero]
      rw [hz, hz]
      ring
  · intro hb0
    subst hb0
    push_cast
    rw [zero_div, div_self hp, hat_left, hat_right l 0 i hb h.1 (by omega)]
    simp [pos]
  · intro hb1
    subst hb1
    push_cast
    rw [zero_div, div_self hp, hat_left, hat_right l 1 i hb h.1 (by omega)]
    simp [pos]

/-- Every coordinate is in a cell. -/
lemma exists_cell [FloorRing K] (L : ℕ) (x : K) (h0 : 0 ≤ x) (h1 : x ≤ 1) :
    ∃ m : ℕ, m < 2 ^ L ∧ ∃ s : K, 0 ≤ s ∧ s ≤ 1 ∧ x * 2 ^ L = m + s := by
  have hp : (0 : K) < 2 ^ L := by positivity
  have hp' : 0 < 2 ^ L := by positivity
  by_cases hx : x = 1
  · refine ⟨2 ^ L - 1, by omega, 1, zero_le_one, le_refl _, ?_⟩
    rw [hx, Nat.cast_sub (by omega)]
    push_cast
    ring
  · have hlt : x < 1 := lt_of_le_of_ne h1 hx
    have hn : 0 ≤ x * 2 ^ L := by positivity
    obtain ⟨m, hm⟩ := Int.eq_ofNat_of_zero_le (Int.floor_nonneg.2 hn)
    have hfl := Int.floor_le (x * 2 ^ L)
    have hfl2 := Int.lt_floor_add_one (x * 2 ^ L)
    rw [hm] at hfl hfl2
    push_cast at hfl hfl2
    refine ⟨m, ?_, x * 2 ^ L - m, by linarith, by linarith, by ring⟩
    have : (m : K) < 2 ^ L := by nlinarith
    exact_mod_cast this

end Verif.Interpolation

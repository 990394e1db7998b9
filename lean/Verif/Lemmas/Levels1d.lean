import Verif.Lemmas.Decomposition
import Mathlib.Algebra.Order.Ring.Nat
import Mathlib.Algebra.Ring.Parity
import Mathlib.Data.Nat.Prime.Basic
import Mathlib.Tactic.IntervalCases

/-!
# Lemmas on levels of one-dimensional points
-/

namespace Verif

theorem ctz_spec (n : ℕ) (h : n ≠ 0) : ∃ m, n = (2 * m + 1) * 2 ^ ctz n := by
  induction n using Nat.strong_induction_on with
  | _ n ih =>
    unfold ctz
    rw [if_neg h]
    split
    · rename_i hm
      exact ⟨n / 2, by rw [pow_zero]; omega⟩
    · rename_i hm
      obtain ⟨m, hm'⟩ := ih (n / 2) (by omega) (by omega)
      refine ⟨m, ?_⟩
      rw [pow_succ, ← mul_assoc, ← hm']
      omega

theorem ctz_unique (m k : ℕ) : ctz ((2 * m + 1) * 2 ^ k) = k := by
  induction k with
  | zero =>
    unfold ctz
    rw [pow_zero, mul_one, if_neg (by omega), if_pos (by omega)]
  | succ k ih =>
    have hpos : 0 < (2 * m + 1) * 2 ^ k := by positivity
    have e : (2 * m + 1) * 2 ^ (k + 1) = 2 * ((2 * m + 1) * 2 ^ k) := by rw [pow_succ]; ring
    unfold ctz
    rw [if_neg (by omega), if_neg (by omega)]
    have : (2 * m + 1) * 2 ^ (k + 1) / 2 = (2 * m + 1) * 2 ^ k := by omega
    rw [this, ih]

theorem dvd_iff_le_ctz (n k : ℕ) (h : n ≠ 0) : 2 ^ k ∣ n ↔ k ≤ ctz n := by
  obtain ⟨m, hm⟩ := ctz_spec n h
  constructor
  · intro hd
    by_contra hc
    have h1 : 2 ^ (ctz n + 1) ∣ n := dvd_trans (pow_dvd_pow 2 (by omega)) hd
    rw [hm] at h1
    have h1 : 2 ^ (ctz n + 1) ∣ (2 * m + 1) * 2 ^ ctz n := by
      convert h1 using 2
      · rw [← hm]
    rw [pow_succ, mul_comm] at h1
    have := Nat.dvd_of_mul_dvd_mul_right (by positivity : 0 < 2 ^ ctz n) h1
    omega
  · intro hk
    rw [hm]
    exact dvd_mul_of_dvd_right (pow_dvd_pow 2 hk) _

/-- Specification: level of the point at position `x / 2^lmax`. Level 0 are the two boundary
points, level `l ≥ 1` are the odd multiples of `2^-l`. -/
def PointLevel (lmax x l : ℕ) : Prop :=
  (l = 0 ∧ (x = 0 ∨ x = 2 ^ lmax)) ∨
    (1 ≤ l ∧ l ≤ lmax ∧ ∃ m, x = (2 * m + 1) * 2 ^ (lmax - l))

/-- Specification: position of the 1-d index in units of the grid spacing. -/
def pos (b idx : ℕ) : ℕ := if b = 0 then idx + 1 else idx

/-- Specification: number of points in one dimension. -/
def nodal (lmax b : ℕ) : ℕ := 2 ^ lmax + b - 1

theorem pos_le {lmax b idx : ℕ} (hb : b ≤ 2) (h : idx < nodal lmax b) :
    pos b idx ≤ 2 ^ lmax ∧ (b < 2 → pos b idx < 2 ^ lmax) ∧ (b = 0 → 0 < pos b idx) := by
  unfold nodal at h
  unfold pos
  have : 0 < 2 ^ lmax := by positivity
  split <;> omega

theorem pointLevel_ctz {lmax x : ℕ} (hx : x ≤ 2 ^ lmax) (h0 : x ≠ 0) :
    ctz x ≤ lmax ∧ PointLevel lmax x (lmax - ctz x) := by
  obtain ⟨m, hm⟩ := ctz_spec x h0
  have hle : ctz x ≤ lmax := by
    by_contra hc
    have h1 : 2 ^ lmax < 2 ^ ctz x := Nat.pow_lt_pow_right (by omega) (by omega)
    have h2 : 2 ^ ctz x ≤ x := Nat.le_of_dvd (by omega) ((dvd_iff_le_ctz x _ h0).2 (le_refl _))
    omega
  refine ⟨hle, ?_⟩
  by_cases he : ctz x = lmax
  · left
    refine ⟨by omega, Or.inr ?_⟩
    rw [he] at hm
    have : 0 < 2 ^ lmax := by positivity
    have : m = 0 := by
      by_contra hm0
      have : 2 * 2 ^ lmax ≤ (2 * m + 1) * 2 ^ lmax := Nat.mul_le_mul_right _ (by omega)
      omega
    rw [hm, this]
    simp
  · right
    refine ⟨by omega, by omega, m, ?_⟩
    have : lmax - (lmax - ctz x) = ctz x := by omega
    rw [this]
    exact hm

theorem pointLevel_unique {lmax x l l' : ℕ} (h : PointLevel lmax x l) (h' : PointLevel lmax x l') :
    l = l' := by
  have key : ∀ l, 1 ≤ l → l ≤ lmax → (∃ m, x = (2 * m + 1) * 2 ^ (lmax - l)) →
      x ≠ 0 ∧ x ≠ 2 ^ lmax ∧ ctz x = lmax - l := by
    rintro l h1 h2 ⟨m, rfl⟩
    refine ⟨by positivity, ?_, ctz_unique m _⟩
    intro hc
    have h3 := ctz_unique m (lmax - l)
    have h4 := ctz_unique 0 lmax
    simp only [mul_zero, zero_add, one_mul] at h4
    rw [hc, h4] at h3
    omega
  rcases h with ⟨rfl, h⟩ | ⟨h1, h2, h3⟩ <;> rcases h' with ⟨rfl, h'⟩ | ⟨h1', h2', h3'⟩
  · rfl
  · obtain ⟨a, b, _⟩ := key l' h1' h2' h3'
    rcases h with h | h <;> contradiction
  · obtain ⟨a, b, _⟩ := key l h1 h2 h3
    rcases h' with h | h <;> contradiction
  · have := (key l h1 h2 h3).2.2
    have := (key l' h1' h2' h3').2.2
    omega

/-! ### arithmetic progressions -/

theorem mem_progression (first size offset stride j : ℕ) (hs : 0 < stride) :
    let k := if first < offset then 0 else (first - offset + stride - 1) / stride
    let start := k * stride + offset - first
    j ∈ (List.range (numPointsOnPartition size start stride)).map (fun k => start + k * stride) ↔
      j < size ∧ ∃ i, first + j = offset + i * stride := by
  intro k start
  -- `k` is the smallest index with `offset + k * stride ≥ first`
  have hk : first ≤ offset + k * stride ∧ ∀ i, first ≤ offset + i * stride → k ≤ i := by
    simp only [k]
    split
    · exact ⟨by omega, fun i _ => by omega⟩
    · rename_i hfo
      have h1 : (first - offset + stride - 1) / stride * stride ≤ first - offset + stride - 1 :=
        Nat.div_mul_le_self _ _
      have h2 : first - offset + stride - 1 < ((first - offset + stride - 1) / stride + 1) * stride :=
        Nat.lt_mul_of_div_lt (by omega) hs
      rw [add_mul, one_mul] at h2
      refine ⟨by omega, fun i hi => ?_⟩
      have : (first - offset + stride - 1) / stride < i + 1 := by
        rw [Nat.div_lt_iff_lt_mul hs, add_mul, one_mul]
        omega
      omega
  have hstart : first + start = offset + k * stride := by
    have := hk.1
    simp only [start]
    omega
  have hnum : ∀ i, i < numPointsOnPartition size start stride ↔ start + i * stride < size := by
    intro i
    unfold numPointsOnPartition
    split
    · constructor
      · omega
      · intro h
        have : 0 ≤ i * stride := Nat.zero_le _
        omega
    · rename_i h
      rw [Nat.lt_add_one_iff, Nat.le_div_iff_mul_le hs]
      omega
  rw [List.mem_map]
  constructor
  · rintro ⟨i, hi, rfl⟩
    rw [List.mem_range, hnum] at hi
    refine ⟨hi, k + i, ?_⟩
    rw [add_mul]
    omega
  · rintro ⟨hj, i, hi⟩
    have hki := hk.2 i (by omega)
    obtain ⟨d, rfl⟩ : ∃ d, i = k + d := ⟨i - k, by omega⟩
    rw [add_mul] at hi
    refine ⟨d, ?_, by omega⟩
    rw [List.mem_range, hnum]
    omega

theorem stride_pos (lmax b l : ℕ) : 0 < strideForLevel lmax b l := by
  unfold strideForLevel
  split <;> positivity

/-- the points enumerated for level `l` form the arithmetic progression of that level -/
theorem progression_iff_level {lmax b l x : ℕ} (hb : b ≤ 2) (hl : 1 ≤ l) (hlm : l ≤ lmax)
    (hx : x < nodal lmax b) :
    (∃ i, x = offsetForLevel lmax b l + i * strideForLevel lmax b l) ↔
      PointLevel lmax (pos b x) l ∨ (l = 1 ∧ PointLevel lmax (pos b x) 0) := by
  obtain ⟨hp1, hp2, hp3⟩ := pos_le hb hx
  have hs2 : 2 ^ (lmax - l + 1) = 2 * 2 ^ (lmax - l) := by rw [pow_succ]; ring
  have hs0 : 0 < 2 ^ (lmax - l) := by positivity
  unfold offsetForLevel strideForLevel
  by_cases hb0 : b = 0
  · -- no boundary
    have hnb : ¬ b > 0 := by omega
    rw [if_neg hnb, if_neg (by omega), hs2]
    have hp : pos b x = x + 1 := by simp [pos, hb0]
    rw [hp] at hp1 hp2 hp3 ⊢
    constructor
    · rintro ⟨i, hi⟩
      refine Or.inl (Or.inr ⟨hl, hlm, i, ?_⟩)
      have : (2 * i + 1) * 2 ^ (lmax - l) = i * (2 * 2 ^ (lmax - l)) + 2 ^ (lmax - l) := by ring
      omega
    · rintro ((⟨h, _⟩ | ⟨_, _, m, hm⟩) | ⟨_, (⟨_, h | h⟩ | ⟨h, _⟩)⟩)
      · omega
      · refine ⟨m, ?_⟩
        have : (2 * m + 1) * 2 ^ (lmax - l) = m * (2 * 2 ^ (lmax - l)) + 2 ^ (lmax - l) := by ring
        omega
      · omega
      · have := hp2 (by omega)
        omega
      · omega
  · have hb1 : b > 0 := by omega
    have hp : pos b x = x := by simp [pos, hb0]
    rw [hp] at hp1 hp2 hp3 ⊢
    rw [if_pos hb1]
    by_cases hl1 : l = 1
    · subst hl1
      rw [if_pos rfl, if_pos ⟨rfl, hb1⟩]
      have hL : 2 ^ lmax = 2 * 2 ^ (lmax - 1) := by
        obtain ⟨q, rfl⟩ : ∃ q, lmax = q + 1 := ⟨lmax - 1, by omega⟩
        rw [pow_succ, Nat.add_sub_cancel]; ring
      constructor
      · rintro ⟨i, hi⟩
        rw [zero_add] at hi
        have hi2 : i ≤ 2 := by
          by_contra hc
          have : 3 * 2 ^ (lmax - 1) ≤ i * 2 ^ (lmax - 1) := Nat.mul_le_mul_right _ (by omega)
          omega
        interval_cases i
        · exact Or.inr ⟨rfl, Or.inl ⟨rfl, Or.inl (by omega)⟩⟩
        · exact Or.inl (Or.inr ⟨le_refl _, hlm, 0, by omega⟩)
        · exact Or.inr ⟨rfl, Or.inl ⟨rfl, Or.inr (by omega)⟩⟩
      · rintro ((⟨h, _⟩ | ⟨_, _, m, hm⟩) | ⟨_, (⟨_, h | h⟩ | ⟨h, _⟩)⟩)
        · omega
        · exact ⟨2 * m + 1, by omega⟩
        · exact ⟨0, by omega⟩
        · exact ⟨2, by omega⟩
        · omega
    · rw [if_neg hl1, if_neg (by omega), hs2]
      constructor
      · rintro ⟨i, hi⟩
        refine Or.inl (Or.inr ⟨hl, hlm, i, ?_⟩)
        rw [hi]; ring
      · rintro ((⟨h, _⟩ | ⟨_, _, m, hm⟩) | ⟨h, _⟩)
        · omega
        · exact ⟨m, by rw [hm]; ring⟩
        · omega

/-- Membership in the enumeration of one level. -/
theorem mem_get1dIndicesLocal {lmax b first size l : ℕ} (hb : b ≤ 2) (hl : 1 ≤ l)
    (hL : 1 ≤ lmax) (hn : first + size ≤ nodal lmax b) (j : ℕ) :
    j ∈ get1dIndicesLocal lmax b first size l ↔ j < size ∧
      (PointLevel lmax (pos b (first + j)) l ∨ (l = 1 ∧ PointLevel lmax (pos b (first + j)) 0)) := by
  unfold get1dIndicesLocal
  by_cases hlm : l > lmax
  · rw [if_pos hlm]
    constructor
    · simp
    · rintro ⟨hj, h⟩
      exfalso
      rcases h with (⟨h, _⟩ | ⟨_, h, _⟩) | ⟨h1, (⟨_, h⟩ | ⟨h, _⟩)⟩
      · omega
      · omega
      · omega
      · omega
  · rw [if_neg hlm]
    have := mem_progression first size (offsetForLevel lmax b l) (strideForLevel lmax b l) j
      (stride_pos _ _ _)
    simp only at this
    simp only [localStartForLevel]
    rw [this]
    constructor
    · rintro ⟨h1, h2⟩
      exact ⟨h1, (progression_iff_level hb hl (by omega) (by omega)).1 h2⟩
    · rintro ⟨h1, h2⟩
      exact ⟨h1, (progression_iff_level hb hl (by omega) (by omega)).2 h2⟩

end Verif

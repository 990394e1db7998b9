import Verif.Model.AnisotropyLoad
import Mathlib.Tactic.Linarith
import Mathlib.Tactic.NormNum
import Mathlib.Tactic.Positivity
import Mathlib.Tactic.FieldSimp

/-!
# C120: the load model for anisotropic grids gives every grid a positive load
-/

namespace Verif.AnisotropyLoad

theorem isotropic_pos (n : ℕ) : 0 < isotropic n := by
  unfold isotropic
  positivity

theorem isotropic_mono {m n : ℕ} (h : m < n) : isotropic m < isotropic n := by
  unfold isotropic
  have h1 : (2 : ℝ) ^ (m : ℝ) < (2 : ℝ) ^ (n : ℝ) :=
    Real.rpow_lt_rpow_of_exponent_lt (by norm_num) (by exact_mod_cast h)
  have h2 := Real.rpow_lt_rpow (by positivity) h1 (show (0 : ℝ) < 1.076 by norm_num)
  nlinarith

/-- The polynomial is positive for shares that are not negative and are together at most 1. -/
theorem polynomial_pos {a b c : ℝ} (ha : 0 ≤ a) (hb : 0 ≤ b) (hc : 0 ≤ c) (h : a + b + c ≤ 1) :
    0 < polynomial a b c := by
  unfold polynomial
  nlinarith [sq_nonneg (a - 0.34), sq_nonneg (b - 0.25), sq_nonneg (b - c / 2), sq_nonneg (c - 0.5),
    mul_nonneg ha hb, mul_nonneg ha hc, mul_nonneg hb hc, mul_nonneg hc (show (0 : ℝ) ≤ 1 - a - b - c by linarith),
    mul_nonneg hb (show (0 : ℝ) ≤ 1 - a - b - c by linarith)]

theorem sum_ge_three : ∀ (l : List ℕ) (a b c : ℕ), l[0]? = some a → l[2]? = some b → l[3]? = some c →
    a + b + c ≤ l.sum := by
  intro l a b c h0 h2 h3
  match l, h0, h2, h3 with
  | x0 :: x1 :: x2 :: x3 :: t, h0, h2, h3 =>
    simp at h0 h2 h3
    subst h0 h2 h3
    simp only [List.sum_cons]
    omega

/-- Every grid with at least four dimensions and a positive level has a positive load. -/
theorem C120_positive (l : List ℕ) (hd : 4 ≤ l.length) (hs : 0 < l.sum) : ∃ x, eval l = .ok x ∧ 0 < x := by
  have e0 := List.getElem?_eq_getElem (l := l) (i := 0) (by omega)
  have e2 := List.getElem?_eq_getElem (l := l) (i := 2) (by omega)
  have e3 := List.getElem?_eq_getElem (l := l) (i := 3) (by omega)
  have hsum := sum_ge_three l _ _ _ e0 e2 e3
  have hp : (0 : ℝ) < (l.sum : ℕ) := by exact_mod_cast hs
  refine ⟨isotropic l.sum * polynomial (l[0] / (l.sum : ℕ)) (l[2] / (l.sum : ℕ)) (l[3] / (l.sum : ℕ)), ?_, ?_⟩
  · unfold eval
    rw [e0, e2, e3]
    simp only
    rw [if_neg (by omega)]
  · refine mul_pos (isotropic_pos _) (polynomial_pos (by positivity) (by positivity) (by positivity) ?_)
    rw [← add_div, ← add_div, div_le_one hp]
    exact_mod_cast hsum

/-- If all levels are multiplied by the same number, the load becomes larger. -/
theorem C120_scaled (l : List ℕ) (hd : 4 ≤ l.length) (hs : 0 < l.sum) (m : ℕ) (hm : 1 < m) (x y : ℝ)
    (hx : eval l = .ok x) (hy : eval (l.map (m * ·)) = .ok y) : x < y := by
  have e0 := List.getElem?_eq_getElem (l := l) (i := 0) (by omega)
  have e2 := List.getElem?_eq_getElem (l := l) (i := 2) (by omega)
  have e3 := List.getElem?_eq_getElem (l := l) (i := 3) (by omega)
  have hsum := sum_ge_three l _ _ _ e0 e2 e3
  have hp : (0 : ℝ) < (l.sum : ℕ) := by exact_mod_cast hs
  have hm0 : (0 : ℝ) < m := by exact_mod_cast (by omega : 0 < m)
  have hms : (l.map (m * ·)).sum = m * l.sum := by
    rw [List.sum_map_mul_left, List.map_id']
  unfold eval at hx hy
  rw [e0, e2, e3] at hx
  rw [List.getElem?_map, List.getElem?_map, List.getElem?_map, e0, e2, e3] at hy
  simp only [Option.map_some] at hx hy
  rw [if_neg (by omega)] at hx
  rw [hms, if_neg (by have := Nat.mul_pos (by omega : 0 < m) hs; omega)] at hy
  simp only [Outcome.ok.injEq] at hx hy
  rw [← hx, ← hy]
  have hq : ∀ a : ℕ, ((m * a : ℕ) : ℝ) / ((m * l.sum : ℕ) : ℝ) = a / (l.sum : ℕ) := by
    intro a
    push_cast
    exact mul_div_mul_left _ _ hm0.ne'
  rw [hq, hq, hq]
  refine mul_lt_mul_of_pos_right (isotropic_mono ?_) (polynomial_pos (by positivity) (by positivity) (by positivity) ?_)
  · nlinarith
  · rw [← add_div, ← add_div, div_le_one hp]
    exact_mod_cast hsum

/-- The load depends on the levels of the first, third and fourth dimension and on the sum only: levels can be
moved between the others. -/
theorem C120_others (l l' : List ℕ) (h0 : l[0]? = l'[0]?) (h2 : l[2]? = l'[2]?) (h3 : l[3]? = l'[3]?)
    (hs : l.sum = l'.sum) : eval l = eval l' := by
  unfold eval
  rw [h0, h2, h3, hs]

/-- Grids with less than four dimensions: the model reads behind the end of the shares. -/
theorem C120_dims_violated (l : List ℕ) (hd : l.length < 4) : eval l = .stuck := by
  have e3 : l[3]? = none := List.getElem?_eq_none (by omega)
  unfold eval
  rw [e3]
  rcases l[0]? with - | a <;> rcases l[2]? with - | b <;> rfl

/-- A grid can have a smaller load than a grid that is coarser in every dimension. -/
theorem C120_monotone_violated : ¬∀ (l l' : List ℕ) (x y : ℝ), l.length = l'.length →
    (∀ i (h : i < l.length) (h' : i < l'.length), l[i] ≤ l'[i]) → eval l = .ok x → eval l' = .ok y → x ≤ y := by
  intro h
  have hx : eval [1, 1, 1, 1, 1, 1] = .ok (isotropic 6 * polynomial (1 / 6) (1 / 6) (1 / 6)) := by
    simp [eval]
  have hy : eval [2, 1, 1, 1, 1, 1] = .ok (isotropic 7 * polynomial (2 / 7) (1 / 7) (1 / 7)) := by
    simp [eval]
  have hle := h [1, 1, 1, 1, 1, 1] [2, 1, 1, 1, 1, 1] _ _ rfl (by decide) hx hy
  have hi6 : (0.01388 : ℝ) ≤ isotropic 6 := by
    unfold isotropic
    have : (64 : ℝ) ≤ ((2 : ℝ) ^ ((6 : ℕ) : ℝ)) ^ (1.076 : ℝ) := by
      rw [Real.rpow_natCast]
      calc (64 : ℝ) = ((2 : ℝ) ^ 6) ^ (1 : ℝ) := by norm_num
        _ ≤ _ := Real.rpow_le_rpow_of_exponent_le (by norm_num) (by norm_num)
    nlinarith
  have hi7 : isotropic 7 ≤ 0.0163 := by
    unfold isotropic
    have : ((2 : ℝ) ^ ((7 : ℕ) : ℝ)) ^ (1.076 : ℝ) ≤ 256 := by
      rw [← Real.rpow_mul (by norm_num)]
      calc (2 : ℝ) ^ (((7 : ℕ) : ℝ) * 1.076) ≤ (2 : ℝ) ^ ((8 : ℕ) : ℝ) :=
            Real.rpow_le_rpow_of_exponent_le (by norm_num) (by norm_num)
        _ = 256 := by rw [Real.rpow_natCast]; norm_num
    nlinarith
  have hp6 : (1.19 : ℝ) ≤ polynomial (1 / 6) (1 / 6) (1 / 6) := by unfold polynomial; norm_num
  have hp7 : polynomial (2 / 7) (1 / 7) (1 / 7) ≤ 0.82 := by unfold polynomial; norm_num
  have hp7' : 0 < polynomial (2 / 7) (1 / 7) (1 / 7) := polynomial_pos (by norm_num) (by norm_num) (by norm_num) (by norm_num)
  nlinarith

/-! ### The hypotheses can be met -/

example : ∃ x, eval [3, 1, 4, 2, 2, 1] = .ok x ∧ 0 < x := C120_positive _ (by decide) (by decide)

example : ∃ x y, eval [3, 1, 4, 2] = .ok x ∧ eval ([3, 1, 4, 2].map (2 * ·)) = .ok y ∧ x < y := by
  obtain ⟨x, hx, -⟩ := C120_positive [3, 1, 4, 2] (by decide) (by decide)
  obtain ⟨y, hy, -⟩ := C120_positive ([3, 1, 4, 2].map (2 * ·)) (by decide) (by decide)
  exact ⟨x, y, hx, hy, C120_scaled _ (by decide) (by decide) 2 (by decide) x y hx hy⟩

example : eval [3, 1, 4, 2, 5, 1] = eval [3, 5, 4, 2, 1, 1] := C120_others _ _ rfl rfl rfl rfl

example : eval [3, 1] = .stuck := C120_dims_violated _ (by decide)

end Verif.AnisotropyLoad

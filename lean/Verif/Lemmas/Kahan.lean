import Verif.Model.Kahan
import Mathlib.Algebra.Order.Field.Basic
import Mathlib.Algebra.Order.BigOperators.Group.List
import Mathlib.Tactic.Linarith
import Mathlib.Tactic.Ring
import Mathlib.Tactic.NormNum
import Mathlib.Data.List.Induction
import Mathlib.Tactic.Positivity

/-! Lemmas about `Model/Kahan`. -/

namespace Verif

lemma kahanStep_exact {V : Type} [AddCommGroup V] (s x : V) :
    kahanStep (Adder.exact V) (s, 0) x = (s + x, 0) := by
  unfold kahanStep Adder.exact
  simp

variable {K : Type} [Field K] [LinearOrder K] [IsStrictOrderedRing K]

/-- The operations of the machine have the relative error `u`. -/
structure Rounds (u : K) (A : Adder K) : Prop where
  add : ∀ a b, |A.add a b - (a + b)| ≤ u * |a + b|
  sub : ∀ a b, |A.sub a b - (a - b)| ≤ u * |a - b|

/-- `s` after `k` numbers with sum `S` and sum of absolute values `X`. -/
structure KahanInv (u S X : K) (k : ℕ) (s : K × K) : Prop where
  bound : |S| ≤ X
  trail : |s.2| ≤ 4 * (u * X)
  err : |s.1 - s.2 - S| ≤ 2 * (u * X) + 16 * k * (u * (u * X))

theorem kahan_inv {u : K} (u0 : 0 ≤ u) (u1 : 16 * u ≤ 1) {A : Adder K} (hA : Rounds u A) {S X : K} {k : ℕ}
    (hk : 8 * (k * u) ≤ 1) {s : K × K} (h : KahanInv u S X k s) (x : K) :
    KahanInv u (S + x) (X + |x|) (k + 1) (kahanStep A s x) := by
  obtain ⟨sum, trail⟩ := s
  obtain ⟨hS, hc, hE⟩ := h
  simp only at hc hE
  have hX : 0 ≤ X := (abs_nonneg S).trans hS
  have hk0 : (0 : K) ≤ k := Nat.cast_nonneg k
  -- products with `u`
  set a := |x| with ha
  have ha0 : 0 ≤ a := abs_nonneg x
  obtain ⟨p, hp⟩ : ∃ p, p = u * X := ⟨_, rfl⟩
  obtain ⟨q, hq⟩ : ∃ q, q = u * a := ⟨_, rfl⟩
  obtain ⟨pp, hpp⟩ : ∃ pp, pp = u * p := ⟨_, rfl⟩
  obtain ⟨pq, hpq⟩ : ∃ pq, pq = u * q := ⟨_, rfl⟩
  have small : ∀ z : K, 0 ≤ z → 0 ≤ u * z ∧ 16 * (u * z) ≤ z := by
    intro z hz
    refine ⟨mul_nonneg u0 hz, ?_⟩
    have := mul_le_mul_of_nonneg_right u1 hz
    linarith
  obtain ⟨hp0, hp1⟩ := small X hX
  obtain ⟨hq0, hq1⟩ := small a ha0
  rw [← hp] at hp0 hp1 hc hE
  rw [← hq] at hq0 hq1
  obtain ⟨hpp0, hpp1⟩ := small p hp0
  obtain ⟨hpq0, hpq1⟩ := small q hq0
  rw [← hpp] at hpp0 hpp1 hE
  rw [← hpq] at hpq0 hpq1
  have hkp : 8 * (k * pp) ≤ p := by
    have := mul_le_mul_of_nonneg_right hk hp0
    rw [hpp]
    calc 8 * (k * (u * p)) = 8 * (k * u) * p := by ring
      _ ≤ 1 * p := this
      _ = p := one_mul p
  have hkpq : 0 ≤ (k : K) * pq := mul_nonneg hk0 hpq0
  have mulu : ∀ {z w : K}, z ≤ w → u * z ≤ u * w := fun h => mul_le_mul_of_nonneg_left h u0
  -- the steps
  unfold kahanStep
  simp only
  obtain ⟨y, hy⟩ : ∃ y, y = A.sub x trail := ⟨_, rfl⟩
  rw [← hy]
  obtain ⟨t, ht⟩ : ∃ t, t = A.add sum y := ⟨_, rfl⟩
  rw [← ht]
  obtain ⟨d, hd⟩ : ∃ d, d = A.sub t sum := ⟨_, rfl⟩
  rw [← hd]
  obtain ⟨c, hcc⟩ : ∃ c, c = A.sub d y := ⟨_, rfl⟩
  rw [← hcc]
  have hP : |x - trail| ≤ a + 4 * p := (abs_sub _ _).trans (by linarith)
  have d1 : |y - (x - trail)| ≤ q + 4 * pp := by
    rw [hy]
    refine (hA.sub x trail).trans ((mulu hP).trans ?_)
    rw [hq, hpp]
    linarith [mul_add u a (4 * p)]
  have hy' : |y| ≤ a + 4 * p + q + 4 * pp := by
    have := abs_add_le (y - (x - trail)) (x - trail)
    rw [sub_add_cancel] at this
    linarith
  have hs' : |sum| ≤ X + 8 * p := by
    have h1 := abs_add_le (sum - trail - S) (trail + S)
    rw [show sum - trail - S + (trail + S) = sum by ring] at h1
    have h2 := abs_add_le trail S
    linarith
  have hW : |sum + y| ≤ 9 / 5 * (X + a) := by
    have := abs_add_le sum y
    linarith
  have d2 : |t - (sum + y)| ≤ 9 / 5 * (p + q) := by
    rw [ht]
    refine (hA.add sum y).trans ((mulu hW).trans (le_of_eq ?_))
    rw [hp, hq]
    ring
  have hD : |t - sum| ≤ a + 4 * p + q + 4 * pp + 9 / 5 * (p + q) := by
    have := abs_add_le (t - (sum + y)) y
    rw [show t - (sum + y) + y = t - sum by ring] at this
    linarith
  have hupp := small pp hpp0
  have hupq := small pq hpq0
  have d3 : |d - (t - sum)| ≤ q + 4 * pp + pq + 4 * (u * pp) + 9 / 5 * (pp + pq) := by
    rw [hd]
    refine (hA.sub t sum).trans ((mulu hD).trans (le_of_eq ?_))
    rw [hpp, hpq, hq]
    ring
  have hG : |d - y| ≤ 9 / 5 * (p + q) + (q + 4 * pp + pq + 1 / 4 * pp + 9 / 5 * (pp + pq)) := by
    have := abs_add_le (d - (t - sum)) (t - (sum + y))
    rw [show d - (t - sum) + (t - (sum + y)) = d - y by ring] at this
    linarith [hupp.2]
  have d4 : |c - (d - y)| ≤ 9 / 5 * (pp + pq) + (pq + 5 * (u * pp) + 5 * (u * pq) + 9 / 5 * (u * pp + u * pq)) := by
    rw [hcc]
    refine (hA.sub d y).trans ((mulu hG).trans ?_)
    have : u * (9 / 5 * (p + q) + (q + 4 * pp + pq + 1 / 4 * pp + 9 / 5 * (pp + pq))) =
        9 / 5 * (u * p + u * q) + (u * q + 17 / 4 * (u * pp) + u * pq + 9 / 5 * (u * pp + u * pq)) := by ring
    rw [this, ← hpp, ← hpq]
    linarith [hupp.1, hupq.1]
  have e1 : u * (X + a) = p + q := by rw [hp, hq]; ring
  have e2 : u * (u * (X + a)) = pp + pq := by rw [e1, hpp, hpq]; ring
  refine ⟨(abs_add_le S x).trans (by linarith), ?_, ?_⟩
  · simp only
    rw [e1]
    have := abs_add_le (c - (d - y)) (d - y)
    rw [sub_add_cancel] at this
    linarith [hupp.1, hupq.1, hupp.2, hupq.2]
  · simp only
    rw [e2, e1]
    have h1 : t - c - (S + x) = (sum - trail - S) + ((y - (x - trail)) - (d - (t - sum)) - (c - (d - y))) := by
      ring
    rw [h1]
    have h2 := abs_add_le (sum - trail - S) ((y - (x - trail)) - (d - (t - sum)) - (c - (d - y)))
    have h3 := abs_sub ((y - (x - trail)) - (d - (t - sum))) (c - (d - y))
    have h4 := abs_sub (y - (x - trail)) (d - (t - sum))
    push_cast
    have h5 : 16 * ((k : K) + 1) * (pp + pq) = 16 * (k * pp) + 16 * (k * pq) + 16 * pp + 16 * pq := by ring
    rw [h5]
    have h6 : 16 * (k : K) * pp = 16 * (k * pp) := by ring
    rw [h6] at hE
    linarith [hupp.1, hupq.1, hupp.2, hupq.2]

theorem kahan_fold {u : K} (u0 : 0 ≤ u) (u1 : 16 * u ≤ 1) {A : Adder K} (hA : Rounds u A) (xs : List K)
    (hn : 8 * (xs.length * u) ≤ 1) :
    KahanInv u xs.sum (xs.map fun x => |x|).sum xs.length (xs.foldl (kahanStep A) (0, 0)) := by
  induction xs using List.reverseRecOn with
  | nil => exact ⟨by simp, by simp, by simp⟩
  | append_singleton xs x ih =>
    rw [List.length_append, List.length_singleton] at hn
    push_cast at hn
    have := kahan_inv u0 u1 hA (by linarith) (ih (by linarith)) x
    rw [List.foldl_append, List.foldl_cons, List.foldl_nil, List.sum_append, List.sum_singleton,
      List.map_append, List.sum_append, List.map_singleton, List.sum_singleton, List.length_append,
      List.length_singleton]
    exact this

/-- The error of Kahan's summation. -/
theorem kahan_error {u : K} (u0 : 0 ≤ u) (u1 : 16 * u ≤ 1) {A : Adder K} (hA : Rounds u A) (xs : List K)
    (hn : 8 * (xs.length * u) ≤ 1) :
    |(xs.foldl (kahanStep A) (0, 0)).1 - xs.sum| ≤
      (6 * u + 16 * xs.length * u ^ 2) * (xs.map fun x => |x|).sum := by
  obtain ⟨-, h1, h2⟩ := kahan_fold u0 u1 hA xs hn
  generalize (xs.foldl (kahanStep A) (0, 0)) = s at *
  have h3 := abs_add_le (s.1 - s.2 - xs.sum) s.2
  rw [show s.1 - s.2 - xs.sum + s.2 = s.1 - xs.sum by ring] at h3
  nlinarith

/-- With rounded products as summands. -/
theorem kahan_mul_error {u : K} (u0 : 0 ≤ u) (u1 : 16 * u ≤ 1) {A : Adder K} (hA : Rounds u A)
    (mul : K → K → K) (hmul : ∀ a b, |mul a b - a * b| ≤ u * |a * b|) (ps : List (K × K))
    (hn : 8 * (ps.length * u) ≤ 1) :
    |((ps.map fun p => mul p.1 p.2).foldl (kahanStep A) (0, 0)).1 - (ps.map fun p => p.1 * p.2).sum| ≤
      (8 * u + 17 * ps.length * u ^ 2) * (ps.map fun p => |p.1 * p.2|).sum := by
  have h1 := kahan_error u0 u1 hA (ps.map fun p => mul p.1 p.2) (by rwa [List.length_map])
  rw [List.length_map, List.map_map] at h1
  have h2 : |(ps.map fun p => mul p.1 p.2).sum - (ps.map fun p => p.1 * p.2).sum| ≤
      u * (ps.map fun p => |p.1 * p.2|).sum := by
    clear h1 hn
    induction ps with
    | nil => simp
    | cons p ps ih =>
      simp only [List.map_cons, List.sum_cons]
      have := hmul p.1 p.2
      have h3 := abs_add_le (mul p.1 p.2 - p.1 * p.2)
        ((ps.map fun p => mul p.1 p.2).sum - (ps.map fun p => p.1 * p.2).sum)
      rw [show mul p.1 p.2 + (ps.map fun p => mul p.1 p.2).sum -
        (p.1 * p.2 + (ps.map fun p => p.1 * p.2).sum) = mul p.1 p.2 - p.1 * p.2 +
        ((ps.map fun p => mul p.1 p.2).sum - (ps.map fun p => p.1 * p.2).sum) by ring]
      linarith [mul_add u |p.1 * p.2| (ps.map fun p => |p.1 * p.2|).sum]
  have h3 : (ps.map ((fun x => |x|) ∘ fun p => mul p.1 p.2)).sum ≤
      (1 + u) * (ps.map fun p => |p.1 * p.2|).sum := by
    clear h1 h2 hn
    induction ps with
    | nil => simp
    | cons p ps ih =>
      simp only [List.map_cons, List.sum_cons, Function.comp]
      have := hmul p.1 p.2
      have h3 := abs_add_le (mul p.1 p.2 - p.1 * p.2) (p.1 * p.2)
      rw [sub_add_cancel] at h3
      have h4 : (1 + u) * (|p.1 * p.2| + (ps.map fun p => |p.1 * p.2|).sum) =
        |p.1 * p.2| + u * |p.1 * p.2| + (1 + u) * (ps.map fun p => |p.1 * p.2|).sum := by ring
      rw [h4]
      have ih' : (ps.map ((fun x => |x|) ∘ fun p => mul p.1 p.2)).sum ≤
        (1 + u) * (ps.map fun p => |p.1 * p.2|).sum := ih
      simp only [Function.comp_def] at ih'
      linarith
  generalize (ps.map ((fun x => |x|) ∘ fun p => mul p.1 p.2)).sum = X at *
  have hX : 0 ≤ (ps.map fun p => |p.1 * p.2|).sum := by
    apply List.sum_nonneg
    intro z hz
    obtain ⟨p, _, rfl⟩ := List.mem_map.1 hz
    exact abs_nonneg _
  generalize (ps.map fun p => |p.1 * p.2|).sum = Y at *
  generalize (ps.map fun p => p.1 * p.2).sum = Z at *
  generalize ((ps.map fun p => mul p.1 p.2).foldl (kahanStep A) (0, 0)).1 = s at *
  generalize (ps.map fun p => mul p.1 p.2).sum = z at *
  have hn0 : (0 : K) ≤ ps.length := Nat.cast_nonneg _
  have h4 := abs_add_le (s - z) (z - Z)
  rw [sub_add_sub_cancel] at h4
  have hf : 0 ≤ 6 * u + 16 * ps.length * u ^ 2 := by positivity
  have h5 := mul_le_mul_of_nonneg_left h3 hf
  have h6 : (6 * u + 16 * ps.length * u ^ 2) * ((1 + u) * Y) + u * Y ≤ (8 * u + 17 * ps.length * u ^ 2) * Y := by
    have h7 : (6 * u + 16 * ps.length * u ^ 2) * (1 + u) + u ≤ 8 * u + 17 * ps.length * u ^ 2 := by
      have a1 : u * u ≤ u * (1 / 16) := mul_le_mul_of_nonneg_left (by linarith) u0
      have a2 : (ps.length * u ^ 2) * u ≤ (ps.length * u ^ 2) * (1 / 16) :=
        mul_le_mul_of_nonneg_left (by linarith) (by positivity)
      have a3 : (6 * u + 16 * ps.length * u ^ 2) * (1 + u) + u =
        7 * u + 6 * (u * u) + 16 * (ps.length * u ^ 2) + 16 * ((ps.length * u ^ 2) * u) := by ring
      rw [a3]
      linarith
    have := mul_le_mul_of_nonneg_right h7 hX
    linarith
  linarith

end Verif

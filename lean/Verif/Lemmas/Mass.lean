import Verif.Lemmas.Kernels
import Mathlib.Tactic.LinearCombination
import Mathlib.Algebra.BigOperators.Group.Finset.Basic
import Mathlib.Algebra.BigOperators.Ring.Finset
import Mathlib.Algebra.CharP.Defs
import Mathlib.Algebra.Ring.CharZero
import Mathlib.Algebra.Order.Field.Basic

/-!
# Helper lemmas for the mass conserving kernels: inverses and conservation
-/

namespace Verif

variable {K : Type} [Field K]

omit [Field K] in
theorem passEnds_inverse {periodic : Bool} {f g : K → K → K} {fp gp : K → K → K → K → K}
    {N w : ℕ} (hw : 0 < w) (hN : w < N) (v : ℕ → K)
    (h : periodic = false → ∀ a x, g (f a x) x = a)
    (hp : periodic = true → v 0 = v N ∧ ∀ a x y, gp (fp a a x y) (fp a a x y) x y = a) :
    passEnds periodic g gp N w (passEnds periodic f fp N w v) = v := by
  funext q
  cases periodic
  · have h := h rfl
    simp only [passEnds, Bool.false_eq_true, if_false, if_true, if_neg (show ¬ N = 0 by omega),
      if_neg (show ¬ w = 0 by omega), if_neg (show ¬ w = N by omega),
      if_neg (show ¬ N - w = 0 by omega), if_neg (show ¬ N - w = N by omega), h]
    split
    · subst_vars; rfl
    · split
      · subst_vars; rfl
      · rfl
  · obtain ⟨h0, h⟩ := hp rfl
    simp only [passEnds, if_true, true_or, or_true, if_neg (show ¬ (w = 0 ∨ w = N) by omega),
      if_neg (show ¬ (N - w = 0 ∨ N - w = N) by omega), h0, h]
    split
    · rename_i hq
      rcases hq with rfl | rfl
      · exact h0.symm
      · rfl
    · rfl

omit [Field K] in
theorem evens_ends_comm {periodic : Bool} {f : K → K → K} {fp : K → K → K → K → K}
    {F : K → K → K → K} {M w : ℕ} (hw : 0 < w) (hM : 0 < M) (v : ℕ → K) :
    pass (Evens (2 * w * M) w) w F (passEnds periodic f fp (2 * w * M) w v) =
      passEnds periodic f fp (2 * w * M) w (pass (Evens (2 * w * M) w) w F v) := by
  have hN : 2 * w ≤ 2 * w * M := Nat.le_mul_of_pos_right _ hM
  have n0 : ¬ Evens (2 * w * M) w 0 := by unfold Evens; omega
  have nN : ¬ Evens (2 * w * M) w (2 * w * M) := by unfold Evens; omega
  have nw : ¬ Evens (2 * w * M) w w := by
    unfold Evens
    rw [Nat.mod_eq_of_lt (by omega)]
    omega
  have nNw : ¬ Evens (2 * w * M) w (2 * w * M - w) := by
    unfold Evens
    obtain ⟨M, rfl⟩ : ∃ k, M = k + 1 := ⟨M - 1, by omega⟩
    have : 2 * w * (M + 1) - w = w + 2 * w * M := by rw [mul_add]; omega
    rw [this, Nat.add_mul_mod_self_left, Nat.mod_eq_of_lt (by omega)]
    omega
  funext q
  have e0 : pass (Evens (2 * w * M) w) w F v 0 = v 0 := if_neg n0
  have eN : pass (Evens (2 * w * M) w) w F v (2 * w * M) = v (2 * w * M) := if_neg nN
  have ew : pass (Evens (2 * w * M) w) w F v w = v w := if_neg nw
  have eNw : pass (Evens (2 * w * M) w) w F v (2 * w * M - w) = v (2 * w * M - w) := if_neg nNw
  by_cases hq : Evens (2 * w * M) w q
  · obtain ⟨h1, h2, h3⟩ := hq
    have hle : 2 * w ≤ q := Nat.le_of_dvd h2 (Nat.dvd_of_mod_eq_zero h1)
    have hlt : q + 2 * w ≤ 2 * w * M := by
      obtain ⟨k, rfl⟩ := Nat.dvd_of_mod_eq_zero h1
      have : k < M := Nat.lt_of_mul_lt_mul_left h3
      calc 2 * w * k + 2 * w = 2 * w * (k + 1) := by ring
        _ ≤ 2 * w * M := Nat.mul_le_mul_left _ this
    have hne : ∀ x : ℕ → K, ∀ r, 0 < r → r < 2 * w * M →
        passEnds periodic f fp (2 * w * M) w x r = x r := by
      intro x r hr1 hr2
      unfold passEnds
      simp only [show ¬ r = 0 by omega, show ¬ r = 2 * w * M by omega, or_self, if_false, ite_self]
    rw [hne _ q h2 h3]
    unfold pass
    rw [if_pos ⟨h1, h2, h3⟩, if_pos ⟨h1, h2, h3⟩, hne _ _ (by omega) (by omega),
      hne _ _ (by omega) (by omega), hne _ _ (by omega) (by omega)]
  · have : pass (Evens (2 * w * M) w) w F (passEnds periodic f fp (2 * w * M) w v) q =
        passEnds periodic f fp (2 * w * M) w v q := if_neg hq
    rw [this]
    unfold passEnds
    rw [e0, eN, ew, eNw]
    have : pass (Evens (2 * w * M) w) w F v q = v q := if_neg hq
    rw [this]

variable [CharZero K]

theorem unfull_full (periodic : Bool) {lmax e : ℕ} (h : e < lmax) (v : ℕ → K)
    (hp : periodic = true → v 0 = v (2 ^ lmax)) :
    unfullStep periodic (2 ^ lmax) (fullStep periodic (2 ^ lmax) v e) e = v := by
  unfold unfullStep fullStep
  rw [pass_inverse (fun q h => odds_neighbours (by positivity) h) (by intro l r v; ring),
    pass_inverse (fun q h => evens_neighbours (by positivity) h) (by intro l r v; field_simp; ring),
    passEnds_inverse (by positivity) (two_pow_lt h)]
  · intro _ a x; field_simp; ring
  · intro hpe
    exact ⟨hp hpe, fun a x y => by field_simp; ring⟩

theorem full_unfull (periodic : Bool) {lmax e : ℕ} (h : e < lmax) (v : ℕ → K)
    (hp : periodic = true → v 0 = v (2 ^ lmax)) :
    fullStep periodic (2 ^ lmax) (unfullStep periodic (2 ^ lmax) v e) e = v := by
  unfold unfullStep fullStep
  have hN : 0 < 2 ^ lmax := by positivity
  have hsp := two_pow_split h
  have hw : 0 < 2 ^ e := by positivity
  rw [passEnds_inverse hw (two_pow_lt h),
    pass_inverse (fun q h => evens_neighbours (by positivity) h) (by intro l r v; field_simp; ring),
    pass_inverse (fun q h => odds_neighbours (by positivity) h) (by intro l r v; ring)]
  · intro _ a x; field_simp; ring
  · intro hpe
    refine ⟨?_, fun a x y => by field_simp; ring⟩
    have n1 : ¬ Evens (2 ^ lmax) (2 ^ e) 0 := by unfold Evens; omega
    have n2 : ¬ Evens (2 ^ lmax) (2 ^ e) (2 ^ lmax) := by unfold Evens; omega
    have n3 : ¬ Odds (2 ^ lmax) (2 ^ e) 0 := by
      unfold Odds
      rw [Nat.zero_mod]
      omega
    have n4 : ¬ Odds (2 ^ lmax) (2 ^ e) (2 ^ lmax) := by unfold Odds; omega
    simp only [pass, n1, n2, n3, n4, if_false]
    exact hp hpe

omit [Field K] [CharZero K] in
theorem ends_odds_evens (F G : K → K → K → K) {N w : ℕ} (hw : 0 < w) (v : ℕ → K) :
    pass (Odds N w) w F v 0 = v 0 ∧ pass (Odds N w) w F v N = v N ∧
    pass (Evens N w) w G v 0 = v 0 ∧ pass (Evens N w) w G v N = v N := by
  have n1 : ¬ Evens N w 0 := by unfold Evens; omega
  have n2 : ¬ Evens N w N := by unfold Evens; omega
  have n3 : ¬ Odds N w 0 := by
    unfold Odds
    rw [Nat.zero_mod]
    omega
  have n4 : ¬ Odds N w N := by unfold Odds; omega
  exact ⟨if_neg n3, if_neg n4, if_neg n1, if_neg n2⟩

theorem unbio_bio (periodic : Bool) {lmax e : ℕ} (h : e < lmax) (v : ℕ → K)
    (hp : periodic = true → v 0 = v (2 ^ lmax)) :
    unbioStep periodic (2 ^ lmax) (bioStep periodic (2 ^ lmax) v e) e = v := by
  unfold unbioStep bioStep
  have hlt := two_pow_lt h
  have hsp := two_pow_split h
  have hw : 0 < 2 ^ e := by positivity
  have hM : 0 < 2 ^ (lmax - e - 1) := by positivity
  have hcomm := fun (f : K → K → K) (fp : K → K → K → K → K) (F : K → K → K → K) (v : ℕ → K) =>
    evens_ends_comm (periodic := periodic) (f := f) (fp := fp) (F := F) hw hM v
  rw [← hsp] at hcomm
  rw [hcomm,
    pass_inverse (fun q h => evens_neighbours (by positivity) h) (by intro l r v; ring),
    passEnds_inverse hw hlt,
    pass_inverse (fun q h => odds_neighbours (by positivity) h) (by intro l r v; ring)]
  · intro _ a x; ring
  · intro hpe
    refine ⟨?_, fun a x y => by field_simp; ring⟩
    obtain ⟨h1, h2, -⟩ := ends_odds_evens (fun l r v => -2⁻¹ * l + (-2⁻¹ * r + v))
      (fun _ _ v => v) (N := 2 ^ lmax) hw v
    rw [h1, h2]
    exact hp hpe

theorem bio_unbio (periodic : Bool) {lmax e : ℕ} (h : e < lmax) (v : ℕ → K)
    (hp : periodic = true → v 0 = v (2 ^ lmax)) :
    bioStep periodic (2 ^ lmax) (unbioStep periodic (2 ^ lmax) v e) e = v := by
  unfold unbioStep bioStep
  have hlt := two_pow_lt h
  have hsp := two_pow_split h
  have hw : 0 < 2 ^ e := by positivity
  have hM : 0 < 2 ^ (lmax - e - 1) := by positivity
  have hcomm := fun (f : K → K → K) (fp : K → K → K → K → K) (F : K → K → K → K) (v : ℕ → K) =>
    evens_ends_comm (periodic := periodic) (f := f) (fp := fp) (F := F) hw hM v
  rw [← hsp] at hcomm
  rw [pass_inverse (fun q h => odds_neighbours (by positivity) h) (by intro l r v; ring),
    hcomm, hcomm, hcomm, passEnds_inverse hw hlt,
    pass_inverse (fun q h => evens_neighbours (by positivity) h) (by intro l r v; ring)]
  · intro _ a x; ring
  · intro hpe
    refine ⟨?_, fun a x y => by field_simp; ring⟩
    rw [(ends_odds_evens (fun _ _ v => v) _ hw _).2.2.1,
      (ends_odds_evens (fun _ _ v => v) _ hw _).2.2.2, (ends_odds_evens (fun _ _ v => v) _ hw _).2.2.1,
      (ends_odds_evens (fun _ _ v => v) _ hw _).2.2.2]
    exact hp hpe

omit [CharZero K] in
/-- All steps with periodic end treatment produce equal ends. -/
theorem periodic_ends {lmax e : ℕ} (v : ℕ → K) :
    fullStep true (2 ^ lmax) v e 0 = fullStep true (2 ^ lmax) v e (2 ^ lmax) ∧
    unfullStep true (2 ^ lmax) v e 0 = unfullStep true (2 ^ lmax) v e (2 ^ lmax) ∧
    bioStep true (2 ^ lmax) v e 0 = bioStep true (2 ^ lmax) v e (2 ^ lmax) ∧
    unbioStep true (2 ^ lmax) v e 0 = unbioStep true (2 ^ lmax) v e (2 ^ lmax) := by
  have hw : 0 < 2 ^ e := by positivity
  have hpe : ∀ (f : K → K → K) (fp : K → K → K → K → K) (x : ℕ → K),
      passEnds true f fp (2 ^ lmax) (2 ^ e) x 0 =
        passEnds true f fp (2 ^ lmax) (2 ^ e) x (2 ^ lmax) := by
    intro f fp x
    simp [passEnds]
  have h1 := fun F x => (ends_odds_evens (K := K) F F (N := 2 ^ lmax) hw x).1
  have h2 := fun F x => (ends_odds_evens (K := K) F F (N := 2 ^ lmax) hw x).2.1
  have h3 := fun F x => (ends_odds_evens (K := K) F F (N := 2 ^ lmax) hw x).2.2.1
  have h4 := fun F x => (ends_odds_evens (K := K) F F (N := 2 ^ lmax) hw x).2.2.2
  refine ⟨?_, hpe _ _ _, ?_, ?_⟩
  · unfold fullStep
    rw [h1, h2, h3, h4, hpe]
  · unfold bioStep
    rw [h3, h4, hpe]
  · unfold unbioStep
    rw [h1, h2, h3, h4, hpe]

/-! ### Conservation -/

open Finset in
theorem sum_cells (v : ℕ → K) (w M : ℕ) :
    ∑ i ∈ range (2 * M), 2⁻¹ * (v (i * w) + v ((i + 1) * w)) =
      ∑ j ∈ range M, (v ((2 * j + 1) * w) + 2⁻¹ * (v (2 * j * w) + v (2 * (j + 1) * w))) := by
  induction M with
  | zero => simp
  | succ M ih =>
    rw [show 2 * (M + 1) = 2 * M + 1 + 1 by ring, sum_range_succ, sum_range_succ, ih,
      sum_range_succ]
    have : 2 * (M + 1) * w = (2 * M + 1 + 1) * w := by ring
    rw [this]
    have i2 : (2 : K) * 2⁻¹ = 1 := mul_inv_cancel₀ two_ne_zero
    linear_combination (v ((2 * M + 1) * w)) * i2

open Finset in
theorem mass_abstract (e e' o : ℕ → K) (m : ℕ)
    (hin : ∀ j < m, e' (j + 1) = 4⁻¹ * o j + 4⁻¹ * o (j + 1) + 2⁻¹ * e (j + 1))
    (hends : e' 0 + e' (m + 1) = 2⁻¹ * (e 0 + o 0) + 2⁻¹ * (e (m + 1) + o m)) :
    2 * ∑ j ∈ range (m + 1), 2⁻¹ * (e' j + e' (j + 1)) =
      ∑ j ∈ range (m + 1), (o j + 2⁻¹ * (e j + e (j + 1))) := by
  have hs : ∑ j ∈ range m, e' (j + 1) = 4⁻¹ * ∑ j ∈ range m, o j +
      4⁻¹ * ∑ j ∈ range m, o (j + 1) + 2⁻¹ * ∑ j ∈ range m, e (j + 1) := by
    rw [mul_sum, mul_sum, mul_sum, ← sum_add_distrib, ← sum_add_distrib]
    exact sum_congr rfl fun j hj => hin j (mem_range.1 hj)
  have ho : ∑ j ∈ range m, o j + o m = ∑ j ∈ range m, o (j + 1) + o 0 := by
    rw [← sum_range_succ, sum_range_succ']
  have h1 : ∑ j ∈ range (m + 1), e' j = ∑ j ∈ range m, e' (j + 1) + e' 0 := sum_range_succ' _ _
  have h2 : ∑ j ∈ range (m + 1), e' (j + 1) = ∑ j ∈ range m, e' (j + 1) + e' (m + 1) :=
    sum_range_succ _ _
  have h3 : ∑ j ∈ range (m + 1), e j = ∑ j ∈ range m, e (j + 1) + e 0 := sum_range_succ' _ _
  have h4 : ∑ j ∈ range (m + 1), e (j + 1) = ∑ j ∈ range m, e (j + 1) + e (m + 1) :=
    sum_range_succ _ _
  have h5 : ∑ j ∈ range (m + 1), o j = ∑ j ∈ range m, o j + o m := sum_range_succ _ _
  rw [← mul_sum, sum_add_distrib, sum_add_distrib, ← mul_sum, sum_add_distrib, h1, h2, h3, h4, h5,
    hs]
  have i2 : (2 : K) * 2⁻¹ = 1 := mul_inv_cancel₀ two_ne_zero
  have i4 : (4 : K)⁻¹ = 2⁻¹ * 2⁻¹ := by rw [← mul_inv]; norm_num
  rw [i4, ← mul_assoc, i2, one_mul]
  linear_combination hends - 2⁻¹ * ho +
    (2⁻¹ * (∑ j ∈ range m, o j + ∑ j ∈ range m, o (j + 1)) + ∑ j ∈ range m, e (j + 1)) * i2

open Finset in
theorem mass_abstract_bio (e e' o : ℕ → K) (m : ℕ) (α : ℕ → K)
    (hα : ∀ j, α j = -2⁻¹ * e j + (-2⁻¹ * e (j + 1) + o j))
    (hin : ∀ j < m, e' (j + 1) = 4⁻¹ * α j + (4⁻¹ * α (j + 1) + e (j + 1)))
    (hends : e' 0 + e' (m + 1) = e 0 + e (m + 1) + 2⁻¹ * (α 0 + α m)) :
    2 * ∑ j ∈ range (m + 1), 2⁻¹ * (e' j + e' (j + 1)) =
      ∑ j ∈ range (m + 1), (o j + 2⁻¹ * (e j + e (j + 1))) := by
  have hs : ∑ j ∈ range m, e' (j + 1) = 4⁻¹ * ∑ j ∈ range m, α j +
      4⁻¹ * ∑ j ∈ range m, α (j + 1) + ∑ j ∈ range m, e (j + 1) := by
    rw [mul_sum, mul_sum, ← sum_add_distrib, ← sum_add_distrib]
    exact sum_congr rfl fun j hj => by rw [hin j (mem_range.1 hj)]; ring
  have ho : ∑ j ∈ range m, α j + α m = ∑ j ∈ range m, α (j + 1) + α 0 := by
    rw [← sum_range_succ, sum_range_succ']
  have h1 : ∑ j ∈ range (m + 1), e' j = ∑ j ∈ range m, e' (j + 1) + e' 0 := sum_range_succ' _ _
  have h2 : ∑ j ∈ range (m + 1), e' (j + 1) = ∑ j ∈ range m, e' (j + 1) + e' (m + 1) :=
    sum_range_succ _ _
  have h3 : ∑ j ∈ range (m + 1), e j = ∑ j ∈ range m, e (j + 1) + e 0 := sum_range_succ' _ _
  have h4 : ∑ j ∈ range (m + 1), e (j + 1) = ∑ j ∈ range m, e (j + 1) + e (m + 1) :=
    sum_range_succ _ _
  have h5 : ∑ j ∈ range (m + 1), α j = ∑ j ∈ range m, α j + α m := sum_range_succ _ _
  have h6 : ∑ j ∈ range (m + 1), o j = ∑ j ∈ range (m + 1), α j +
      2⁻¹ * ∑ j ∈ range (m + 1), e j + 2⁻¹ * ∑ j ∈ range (m + 1), e (j + 1) := by
    rw [mul_sum, mul_sum, ← sum_add_distrib, ← sum_add_distrib]
    exact sum_congr rfl fun j _ => by rw [hα j]; ring
  rw [← mul_sum, sum_add_distrib, sum_add_distrib, ← mul_sum, sum_add_distrib, h6, h1, h2, h3, h4,
    h5, hs]
  have i2 : (2 : K) * 2⁻¹ = 1 := mul_inv_cancel₀ two_ne_zero
  have i4 : (4 : K)⁻¹ = 2⁻¹ * 2⁻¹ := by rw [← mul_inv]; norm_num
  rw [i4, ← mul_assoc, i2, one_mul]
  linear_combination hends - 2⁻¹ * ho +
    (2⁻¹ * (∑ j ∈ range m, α j + ∑ j ∈ range m, α (j + 1)) -
      (2 * ∑ j ∈ range m, e (j + 1) + e 0 + e (m + 1)) + α m + ∑ j ∈ range m, α j) * i2

/-- Trapezoidal rule on `M` cells of width `w`. -/
def trapezoid (w M : ℕ) (v : ℕ → K) : K :=
  (w : K) * ∑ i ∈ Finset.range M, 2⁻¹ * (v (i * w) + v ((i + 1) * w))

omit [Field K] [CharZero K] in
/-- Values of a pass at multiples of `w`. -/
theorem pass_values (F G : K → K → K → K) {w M : ℕ} (hw : 0 < w) (v : ℕ → K) :
    (∀ j, pass (Odds (2 * w * M) w) w F v (2 * j * w) = v (2 * j * w)) ∧
    (∀ j < M, pass (Odds (2 * w * M) w) w F v ((2 * j + 1) * w) =
      F (v (2 * j * w)) (v (2 * (j + 1) * w)) (v ((2 * j + 1) * w))) ∧
    (∀ j, pass (Evens (2 * w * M) w) w G v ((2 * j + 1) * w) = v ((2 * j + 1) * w)) ∧
    (∀ j, j + 1 < M → pass (Evens (2 * w * M) w) w G v (2 * (j + 1) * w) =
      G (v ((2 * j + 1) * w)) (v ((2 * (j + 1) + 1) * w)) (v (2 * (j + 1) * w))) := by
  have m0 : ∀ j, 2 * j * w % (2 * w) = 0 := by
    intro j
    rw [show 2 * j * w = 2 * w * j by ring]
    exact Nat.mul_mod_right _ _
  have m1 : ∀ j, (2 * j + 1) * w % (2 * w) = w := by
    intro j
    rw [show (2 * j + 1) * w = w + 2 * w * j by ring, Nat.add_mul_mod_self_left,
      Nat.mod_eq_of_lt (by omega)]
  refine ⟨fun j => ?_, fun j hj => ?_, fun j => ?_, fun j hj => ?_⟩
  · refine if_neg ?_
    unfold Odds
    rw [m0]
    omega
  · have hlt : (2 * j + 1) * w < 2 * w * M := by
      calc (2 * j + 1) * w < 2 * w * (j + 1) := by nlinarith
        _ ≤ 2 * w * M := Nat.mul_le_mul_left _ hj
    have e1 : (2 * j + 1) * w - w = 2 * j * w := by
      rw [show (2 * j + 1) * w = 2 * j * w + w by ring]; omega
    have e2 : (2 * j + 1) * w + w = 2 * (j + 1) * w := by ring
    unfold pass
    rw [if_pos ⟨m1 j, hlt⟩, e1, e2]
  · refine if_neg ?_
    unfold Evens
    rw [m1]
    omega
  · have hlt : 2 * (j + 1) * w < 2 * w * M := by
      calc 2 * (j + 1) * w = 2 * w * (j + 1) := by ring
        _ < 2 * w * M := Nat.mul_lt_mul_of_pos_left hj (by omega)
    have hpos : 0 < 2 * (j + 1) * w := by positivity
    have e1 : 2 * (j + 1) * w - w = (2 * j + 1) * w := by
      rw [show 2 * (j + 1) * w = (2 * j + 1) * w + w by ring]; omega
    have e2 : 2 * (j + 1) * w + w = (2 * (j + 1) + 1) * w := by ring
    unfold pass
    rw [if_pos ⟨m0 _, hpos, hlt⟩, e1, e2]

omit [Field K] [CharZero K] in
theorem passEnds_inner {periodic : Bool} {f : K → K → K} {fp : K → K → K → K → K} {N w q : ℕ}
    (h0 : 0 < q) (h1 : q < N) (v : ℕ → K) : passEnds periodic f fp N w v q = v q := by
  unfold passEnds
  simp only [show ¬ q = 0 by omega, show ¬ q = N by omega, or_self, if_false, ite_self]

theorem mass_full' (periodic : Bool) {w : ℕ} (hw : 0 < w) (m : ℕ) (v : ℕ → K) :
    trapezoid (2 * w) (m + 1) (pass (Odds (2 * w * (m + 1)) w) w
      (fun l r v => -2⁻¹ * l + (-2⁻¹ * r + v))
      (pass (Evens (2 * w * (m + 1)) w) w (fun l r v => 4⁻¹ * l + 4⁻¹ * r + 2⁻¹ * v)
        (passEnds periodic (fun a x => 2⁻¹ * (a + x)) (fun a b x y => 4⁻¹ * (a + b + x + y))
          (2 * w * (m + 1)) w v))) = trapezoid w (2 * (m + 1)) v := by
  set u := passEnds periodic (fun a x => 2⁻¹ * (a + x)) (fun a b x y => 4⁻¹ * (a + b + x + y))
          (2 * w * (m + 1)) w v with hu
  have hN : 0 < 2 * w * (m + 1) := by positivity
  have hin : ∀ q, 0 < q → q < 2 * w * (m + 1) → u q = v q := fun q h0 h1 =>
    passEnds_inner h0 h1 v
  have p1 := pass_values (M := m + 1) (fun l r v => -2⁻¹ * l + (-2⁻¹ * r + v))
    (fun l r v => 4⁻¹ * l + 4⁻¹ * r + 2⁻¹ * v) hw
      (pass (Evens (2 * w * (m + 1)) w) w (fun l r v => 4⁻¹ * l + 4⁻¹ * r + 2⁻¹ * v) u)
  have p2 := pass_values (M := m + 1) (fun l r v => -2⁻¹ * l + (-2⁻¹ * r + v))
    (fun l r v => 4⁻¹ * l + 4⁻¹ * r + 2⁻¹ * v) hw u
  have p3 := ends_odds_evens (fun l r v => -2⁻¹ * l + (-2⁻¹ * r + v))
    (fun l r v => 4⁻¹ * l + 4⁻¹ * r + 2⁻¹ * v) (N := 2 * w * (m + 1)) hw u
  have hodd : ∀ j < m + 1, 0 < (2 * j + 1) * w ∧ (2 * j + 1) * w < 2 * w * (m + 1) := by
    intro j hj
    refine ⟨by positivity, ?_⟩
    calc (2 * j + 1) * w < 2 * w * (j + 1) := by nlinarith
      _ ≤ 2 * w * (m + 1) := Nat.mul_le_mul_left _ (by omega)
  have heven : ∀ j < m, 0 < 2 * (j + 1) * w ∧ 2 * (j + 1) * w < 2 * w * (m + 1) := by
    intro j hj
    refine ⟨by positivity, ?_⟩
    calc 2 * (j + 1) * w = 2 * w * (j + 1) := by ring
      _ < 2 * w * (m + 1) := Nat.mul_lt_mul_of_pos_left (by omega) (by omega)
  unfold trapezoid
  rw [sum_cells]
  have key := mass_abstract (fun j => v (2 * j * w))
    (fun j => pass (Evens (2 * w * (m + 1)) w) w (fun l r v => 4⁻¹ * l + 4⁻¹ * r + 2⁻¹ * v) u
      (2 * j * w)) (fun j => v ((2 * j + 1) * w)) m (by
      intro j hj
      rw [p2.2.2.2 j (by omega), hin _ (hodd j (by omega)).1 (hodd j (by omega)).2,
        hin _ (hodd (j + 1) (by omega)).1 (hodd (j + 1) (by omega)).2,
        hin _ (heven j hj).1 (heven j hj).2]) (by
      simp only [mul_zero, zero_mul]
      have eN : 2 * (m + 1) * w = 2 * w * (m + 1) := by ring
      have eNw : 2 * w * (m + 1) - w = (2 * m + 1) * w := by
        rw [show 2 * w * (m + 1) = (2 * m + 1) * w + w by ring]; omega
      rw [eN, p3.2.2.1, p3.2.2.2, hu]
      have hN' : ¬ 2 * w * (m + 1) = 0 := by omega
      have i4 : (4 : K)⁻¹ = 2⁻¹ * 2⁻¹ := by rw [← mul_inv]; norm_num
      have i2 : (2 : K) * 2⁻¹ = 1 := mul_inv_cancel₀ two_ne_zero
      cases periodic
      · simp only [passEnds, Bool.false_eq_true, if_false, if_true, hN', eNw, one_mul,
          zero_add]
      · simp only [passEnds, if_true, true_or, or_true, eNw, one_mul, zero_add, i4]
        linear_combination 2⁻¹ * (v 0 + v (2 * w * (m + 1)) + v w + v ((2 * m + 1) * w)) * i2)
  rw [← key, Nat.cast_mul, Nat.cast_two, mul_comm (2 : K), mul_assoc]
  congr 2
  apply Finset.sum_congr rfl
  intro j _
  rw [show j * (2 * w) = 2 * j * w by ring, show (j + 1) * (2 * w) = 2 * (j + 1) * w by ring,
    p1.1, p1.1]

theorem mass_bio' (periodic : Bool) {w : ℕ} (hw : 0 < w) (m : ℕ) (v : ℕ → K) :
    trapezoid (2 * w) (m + 1)
      (pass (Evens (2 * w * (m + 1)) w) w (fun l r v => 4⁻¹ * l + (4⁻¹ * r + v))
        (passEnds periodic (fun a x => a + 2⁻¹ * x) (fun a b x y => 2⁻¹ * (a + b) + 4⁻¹ * (x + y))
          (2 * w * (m + 1)) w (pass (Odds (2 * w * (m + 1)) w) w
            (fun l r v => -2⁻¹ * l + (-2⁻¹ * r + v)) v))) = trapezoid w (2 * (m + 1)) v := by
  set x := pass (Odds (2 * w * (m + 1)) w) w (fun l r v => -2⁻¹ * l + (-2⁻¹ * r + v)) v with hx
  set u := passEnds periodic (fun a x => a + 2⁻¹ * x)
    (fun a b x y => 2⁻¹ * (a + b) + 4⁻¹ * (x + y)) (2 * w * (m + 1)) w x with hu
  have hN : 0 < 2 * w * (m + 1) := by positivity
  have hin : ∀ q, 0 < q → q < 2 * w * (m + 1) → u q = x q := fun q h0 h1 =>
    passEnds_inner h0 h1 x
  have p1 := pass_values (M := m + 1) (fun l r v => -2⁻¹ * l + (-2⁻¹ * r + v))
    (fun l r v => 4⁻¹ * l + (4⁻¹ * r + v)) hw v
  have p2 := pass_values (M := m + 1) (fun l r v => -2⁻¹ * l + (-2⁻¹ * r + v))
    (fun l r v => 4⁻¹ * l + (4⁻¹ * r + v)) hw u
  have p3 := ends_odds_evens (fun l r v => -2⁻¹ * l + (-2⁻¹ * r + v))
    (fun l r v => 4⁻¹ * l + (4⁻¹ * r + v)) (N := 2 * w * (m + 1)) hw u
  have p4 := ends_odds_evens (fun l r v => -2⁻¹ * l + (-2⁻¹ * r + v))
    (fun l r v => 4⁻¹ * l + (4⁻¹ * r + v)) (N := 2 * w * (m + 1)) hw v
  have hodd : ∀ j < m + 1, 0 < (2 * j + 1) * w ∧ (2 * j + 1) * w < 2 * w * (m + 1) := by
    intro j hj
    refine ⟨by positivity, ?_⟩
    calc (2 * j + 1) * w < 2 * w * (j + 1) := by nlinarith
      _ ≤ 2 * w * (m + 1) := Nat.mul_le_mul_left _ (by omega)
  have heven : ∀ j < m, 0 < 2 * (j + 1) * w ∧ 2 * (j + 1) * w < 2 * w * (m + 1) := by
    intro j hj
    refine ⟨by positivity, ?_⟩
    calc 2 * (j + 1) * w = 2 * w * (j + 1) := by ring
      _ < 2 * w * (m + 1) := Nat.mul_lt_mul_of_pos_left (by omega) (by omega)
  have hα : ∀ j < m + 1, x ((2 * j + 1) * w) =
      -2⁻¹ * v (2 * j * w) + (-2⁻¹ * v (2 * (j + 1) * w) + v ((2 * j + 1) * w)) := p1.2.1
  unfold trapezoid
  rw [sum_cells]
  have key := mass_abstract_bio (fun j => v (2 * j * w))
    (fun j => pass (Evens (2 * w * (m + 1)) w) w (fun l r v => 4⁻¹ * l + (4⁻¹ * r + v)) u
      (2 * j * w)) (fun j => v ((2 * j + 1) * w)) m
      (fun j => -2⁻¹ * v (2 * j * w) + (-2⁻¹ * v (2 * (j + 1) * w) + v ((2 * j + 1) * w)))
      (fun _ => rfl) (by
      intro j hj
      rw [p2.2.2.2 j (by omega), hin _ (hodd j (by omega)).1 (hodd j (by omega)).2,
        hin _ (hodd (j + 1) (by omega)).1 (hodd (j + 1) (by omega)).2,
        hin _ (heven j hj).1 (heven j hj).2, hα j (by omega), hα (j + 1) (by omega), hx, p1.1]) (by
      have h0 := hα 0 (by omega)
      have hm := hα m (by omega)
      rw [← hm, ← h0]
      simp only [mul_zero, zero_mul, zero_add, one_mul]
      have eN : 2 * (m + 1) * w = 2 * w * (m + 1) := by ring
      have eNw : 2 * w * (m + 1) - w = (2 * m + 1) * w := by
        rw [show 2 * w * (m + 1) = (2 * m + 1) * w + w by ring]; omega
      rw [eN, p3.2.2.1, p3.2.2.2, hu, ← p4.1, ← p4.2.1, ← hx]
      have hN' : ¬ 2 * w * (m + 1) = 0 := by omega
      have i4 : (4 : K)⁻¹ = 2⁻¹ * 2⁻¹ := by rw [← mul_inv]; norm_num
      have i2 : (2 : K) * 2⁻¹ = 1 := mul_inv_cancel₀ two_ne_zero
      cases periodic
      · simp only [passEnds, Bool.false_eq_true, if_false, if_true, hN', eNw]
        ring
      · simp only [passEnds, if_true, true_or, or_true, eNw, i4]
        linear_combination (x 0 + x (2 * w * (m + 1)) +
          2⁻¹ * (x w + x ((2 * m + 1) * w))) * i2)
  rw [← key, Nat.cast_mul, Nat.cast_two, mul_comm (2 : K), mul_assoc]
  congr 2
  apply Finset.sum_congr rfl
  intro j _
  rw [show j * (2 * w) = 2 * j * w by ring, show (j + 1) * (2 * w) = 2 * (j + 1) * w by ring]

theorem mass_step (periodic : Bool) {lmax e : ℕ} (h : e < lmax) (v : ℕ → K) :
    trapezoid (2 ^ (e + 1)) (2 ^ (lmax - (e + 1))) (fullStep periodic (2 ^ lmax) v e) =
      trapezoid (2 ^ e) (2 ^ (lmax - e)) v ∧
    trapezoid (2 ^ (e + 1)) (2 ^ (lmax - (e + 1))) (bioStep periodic (2 ^ lmax) v e) =
      trapezoid (2 ^ e) (2 ^ (lmax - e)) v := by
  have hsp := two_pow_split h
  have hM2 : 2 ^ (lmax - e) = 2 * 2 ^ (lmax - e - 1) := by
    rw [← pow_succ']; congr 1; omega
  have hw : 0 < 2 ^ e := by positivity
  obtain ⟨m, hm⟩ : ∃ m, 2 ^ (lmax - e - 1) = m + 1 :=
    ⟨2 ^ (lmax - e - 1) - 1, by
      have : 0 < 2 ^ (lmax - e - 1) := by positivity
      omega⟩
  rw [hm] at hsp hM2
  rw [show lmax - (e + 1) = lmax - e - 1 by omega, hm, hM2, pow_succ']
  unfold fullStep bioStep
  rw [hsp]
  exact ⟨mass_full' periodic hw m v, mass_bio' periodic hw m v⟩

theorem foldl_inverse_on {α β : Type*} (P : α → Prop) (Q : β → Prop) (s t : α → β → α)
    (hP : ∀ a b, P a → P (s a b)) (h : ∀ a b, Q b → P a → t (s a b) b = a) (l : List β)
    (hl : ∀ b ∈ l, Q b) (a : α) (ha : P a) : l.reverse.foldl t (l.foldl s a) = a := by
  induction l generalizing a with
  | nil => rfl
  | cons b l ih =>
    rw [List.foldl_cons, List.reverse_cons, List.foldl_append,
      ih (fun b h => hl b (by simp [h])) _ (hP a b ha)]
    exact h a b (hl b (by simp)) ha

end Verif

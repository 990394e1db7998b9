import Verif.Model.RoundedKernels
import Verif.Lemmas.Kahan
import Verif.Lemmas.GridTransform

/-! Lemmas about `Model/RoundedKernels`. -/

namespace Verif

section Poles

variable {K : Type} [Field K]

/-- The arithmetic of the hierarchization: left, right and central value. -/
def hatF (A : Adder K) (b : ℕ) (l r v : K) : K :=
  if b = 0 then A.add (A.sub v (2⁻¹ * r)) (-2⁻¹ * l) else A.sub (A.sub v (2⁻¹ * l)) (2⁻¹ * r)

/-- The arithmetic of the dehierarchization. -/
def unhatF (A : Adder K) (b : ℕ) (l r v : K) : K :=
  if b = 0 then A.add (A.add v (2⁻¹ * r)) (2⁻¹ * l) else A.add (A.add v (2⁻¹ * l)) (2⁻¹ * r)

/-- The exponents handled by the dehierarchization. -/
def unhatExps (b lmax lmin : ℕ) : ℕ := if b = 0 then lmax - 1 else lmax - lmin

theorem hierPoleHat_eq (A : Adder K) {b lmax lmin : ℕ} (hb : b ≤ 2) (hl : lmin < lmax) (hm : lmax ≤ 29)
    (gstart : ℕ) (remote : List (ℕ × K)) (junk : ℕ → K) (loc : Buf K)
    (hr : ∀ r ∈ remote, r.1 < poleLength lmax b) (hloc : gstart + loc.len ≤ poleLength lmax b) :
    ∃ m, hierPoleHat A b lmax lmin gstart remote junk loc = some m ∧ m.len = loc.len ∧
      ∀ i < loc.len, m.val i = (hatExps b lmax lmin).foldl (stepOf (hatF A b) (2 ^ lmax))
        (nodalAt b lmax (filled gstart remote junk loc)) (gstart + i + posOff b) := by
  unfold hierPoleHat
  simp only
  rw [if_neg (by omega)]
  rcases Nat.eq_zero_or_pos b with rfl | hb0
  · have hg : poleLength lmax 0 = 2 ^ lmax - 1 := rfl
    rw [hg] at hr hloc ⊢
    rw [if_neg (by omega)]
    unfold noBoundaryPole
    rw [fillScratch_eq _ _ _ _ hr hloc]
    simp only [Option.bind_eq_bind, Option.bind_some]
    rw [hierNoBoundaryWith_eq _ hm _ rfl hloc]
    simp only [Option.bind_some, copyBack]
    rw [if_pos hloc]
    refine ⟨_, rfl, rfl, ?_⟩
    intro i hi
    simp only [posOff, nodalAt_zero, hatExps, if_true, Nat.sub_zero]
    rw [(nb_local lmax _ hloc _).2 (gstart + i) (by omega) (by omega)]
    have hp := congrFun (pad_foldl (lmax := lmax)
      (fun left right v => A.add (A.sub v (2⁻¹ * right)) (-2⁻¹ * left))
      (List.range lmax) (by simp) (filled gstart remote junk loc)) (gstart + i + 1)
    rw [pad, if_neg (by omega), Nat.add_sub_cancel] at hp
    rw [hp]
    rfl
  · rw [if_pos hb0]
    rw [withBoundaryPole_eq (by omega) _
      (fun v => (List.range (lmax - lmin)).foldl
        (passStep (fun v pL pR => A.sub (A.sub v pL) pR) (2 ^ lmax)) v)
      (fun d hd => hierHatWith_eq _ lmax lmin hl d hd) gstart remote junk loc hr hloc]
    refine ⟨_, rfl, rfl, ?_⟩
    intro i hi
    have e : stepOf (hatF A b) (2 ^ lmax) =
        passStep (fun v pL pR => A.sub (A.sub v pL) pR) (2 ^ lmax) := by
      funext v e
      unfold stepOf passStep hatF
      simp only [if_neg (show ¬ b = 0 by omega)]
    simp only [posOff, nodalAt_pos hb0, hatExps, if_neg (show ¬ b = 0 by omega), add_zero, e]

theorem dehierPoleHat_eq (A : Adder K) {b lmax lmin : ℕ} (hb : b ≤ 2) (hl : lmin < lmax) (hm : lmax ≤ 29)
    (gstart : ℕ) (remote : List (ℕ × K)) (junk : ℕ → K) (loc : Buf K)
    (hr : ∀ r ∈ remote, r.1 < poleLength lmax b) (hloc : gstart + loc.len ≤ poleLength lmax b) :
    ∃ m, dehierPoleHat A b lmax lmin gstart remote junk loc = some m ∧ m.len = loc.len ∧
      ∀ i < loc.len, m.val i =
        (List.range (unhatExps b lmax lmin)).reverse.foldl (stepOf (unhatF A b) (2 ^ lmax))
        (nodalAt b lmax (filled gstart remote junk loc)) (gstart + i + posOff b) := by
  unfold dehierPoleHat
  simp only
  rw [if_neg (by omega)]
  rcases Nat.eq_zero_or_pos b with rfl | hb0
  · have hg : poleLength lmax 0 = 2 ^ lmax - 1 := rfl
    rw [hg] at hr hloc ⊢
    rw [if_neg (by omega)]
    unfold noBoundaryPole
    rw [fillScratch_eq _ _ _ _ hr hloc]
    simp only [Option.bind_eq_bind, Option.bind_some]
    rw [dehierNoBoundaryWith_eq _ hm (by omega) _ rfl]
    simp only [Option.bind_some, copyBack]
    rw [if_pos hloc]
    refine ⟨_, rfl, rfl, ?_⟩
    intro i hi
    simp only [posOff, nodalAt_zero, unhatExps, if_true]
    have hp := congrFun (pad_foldl (lmax := lmax)
      (fun left right v => A.add (A.add v (2⁻¹ * right)) (2⁻¹ * left))
      (List.range (lmax - 1)).reverse (by simp; omega)
      (filled gstart remote junk loc)) (gstart + i + 1)
    rw [pad, if_neg (by omega), Nat.add_sub_cancel] at hp
    rw [hp]
    rfl
  · rw [if_pos hb0]
    rw [withBoundaryPole_eq (by omega) _
      (fun v => (List.range (lmax - lmin)).reverse.foldl
        (passStep (fun v pL pR => A.add (A.add v pL) pR) (2 ^ lmax)) v)
      (fun d hd => dehierHatWith_eq _ lmax lmin hl d hd) gstart remote junk loc hr hloc]
    refine ⟨_, rfl, rfl, ?_⟩
    intro i hi
    have e : stepOf (unhatF A b) (2 ^ lmax) =
        passStep (fun v pL pR => A.add (A.add v pL) pR) (2 ^ lmax) := by
      funext v e
      unfold stepOf passStep unhatF
      simp only [if_neg (show ¬ b = 0 by omega)]
    simp only [posOff, nodalAt_pos hb0, unhatExps, if_neg (show ¬ b = 0 by omega), add_zero, e]

/-- Without rounding this is the hierarchization of `Model/Kernels`. -/
theorem hierPoleHat_exact (b lmax lmin gstart : ℕ) (remote : List (ℕ × K)) (junk : ℕ → K)
    (loc : Buf K) : hierPoleHat (Adder.exact K) b lmax lmin gstart remote junk loc =
      hierPole .hat b lmax lmin gstart remote junk loc := by
  unfold hierPoleHat hierPole
  simp only [ne_eq, not_true_eq_false, if_false]
  rfl

theorem dehierPoleHat_exact (b lmax lmin gstart : ℕ) (remote : List (ℕ × K)) (junk : ℕ → K)
    (loc : Buf K) : dehierPoleHat (Adder.exact K) b lmax lmin gstart remote junk loc =
      dehierPole .hat b lmax lmin gstart remote junk loc := by
  unfold dehierPoleHat dehierPole
  simp only [ne_eq, not_true_eq_false, if_false]
  rfl

/-- Every position is coarse or an odd multiple of a power of two. -/
theorem position_cases (k q : ℕ) : 2 ^ k ∣ q ∨ ∃ e < k, q % (2 * 2 ^ e) = 2 ^ e := by
  induction k with
  | zero => left; simp
  | succ k ih =>
    rcases ih with h | ⟨e, he, h⟩
    · obtain ⟨c, rfl⟩ := h
      rcases Nat.even_or_odd' c with ⟨m, rfl | rfl⟩
      · left
        exact ⟨m, by rw [pow_succ]; ring⟩
      · right
        refine ⟨k, by omega, ?_⟩
        have hw : 0 < 2 ^ k := by positivity
        rw [show 2 ^ k * (2 * m + 1) = 2 ^ k + 2 * 2 ^ k * m by ring, Nat.add_mul_mod_self_left,
          Nat.mod_eq_of_lt (by omega)]
    · exact Or.inr ⟨e, by omega, h⟩

/-- The neighbours of an odd multiple. -/
theorem odd_neighbours {lmax e q : ℕ} (he : e < lmax) (hq : q < 2 ^ lmax) (hm : q % (2 * 2 ^ e) = 2 ^ e) :
    2 ^ (e + 1) ∣ q - 2 ^ e ∧ 2 ^ (e + 1) ∣ q + 2 ^ e ∧ q + 2 ^ e ≤ 2 ^ lmax ∧ 2 ^ e ≤ q := by
  have hsp := two_pow_split he
  have hdm := Nat.div_add_mod q (2 * 2 ^ e)
  rw [hm] at hdm
  have h1 : 2 ^ (e + 1) ∣ q - 2 ^ e := by
    rw [pow_succ']
    exact ⟨q / (2 * 2 ^ e), by omega⟩
  have h2 : 2 ^ (e + 1) ∣ q + 2 ^ e := by
    rw [pow_succ']
    exact ⟨q / (2 * 2 ^ e) + 1, by rw [mul_add]; omega⟩
  refine ⟨h1, h2, ?_, by omega⟩
  obtain ⟨c, hc⟩ := h2
  rw [hc, hsp, pow_succ']
  refine Nat.mul_le_mul_left _ ?_
  by_contra hlt
  have h3 : 2 * 2 ^ e * (2 ^ (lmax - e - 1) + 1) ≤ 2 * 2 ^ e * c := Nat.mul_le_mul_left _ (by omega)
  rw [mul_add, ← hsp, ← pow_succ', ← hc, pow_succ'] at h3
  have : 0 < 2 ^ e := by positivity
  omega

end Poles

section Errors

variable {K : Type} [Field K] [LinearOrder K] [IsStrictOrderedRing K]

/-- Two operations with relative errors `u`. -/
theorem two_ops {u x c x' y' : K} (u0 : 0 ≤ u) (h1 : |x' - x| ≤ u * |x|)
    (h2 : |y' - (x' + c)| ≤ u * |x' + c|) :
    |y' - (x + c)| ≤ u * (1 + u) * |x| + u * |x + c| := by
  have h3 : |x' + c| ≤ |x + c| + u * |x| := by
    have e : x' + c = (x + c) + (x' - x) := by ring
    rw [e]
    exact (abs_add_le _ _).trans (by linarith)
  have h4 := mul_le_mul_of_nonneg_left h3 u0
  have e : y' - (x + c) = (y' - (x' + c)) + (x' - x) := by ring
  rw [e]
  refine (abs_add_le _ _).trans ?_
  nlinarith

theorem half_le {x M : K} (h : |x| ≤ M) : |2⁻¹ * x| ≤ 2⁻¹ * M := by
  rw [abs_mul, abs_of_pos (by norm_num : (0 : K) < 2⁻¹)]
  exact mul_le_mul_of_nonneg_left h (by norm_num)

theorem hatF_close {u : K} (u0 : 0 ≤ u) (u1 : 4 * u ≤ 1) {A : Adder K} (hA : Rounds u A) (b : ℕ)
    {M l r v : K} (hl : |l| ≤ M) (hr : |r| ≤ M) (hv : |v| ≤ M) :
    |hatF A b l r v - (v - 2⁻¹ * l - 2⁻¹ * r)| ≤ 4 * u * M := by
  have hM : 0 ≤ M := (abs_nonneg _).trans hv
  have hl' := half_le hl
  have hr' := half_le hr
  have key : ∀ p q x' y' : K, |p| ≤ 2⁻¹ * M → |q| ≤ 2⁻¹ * M → |x' - (v - p)| ≤ u * |v - p| →
      |y' - (x' - q)| ≤ u * |x' - q| → |y' - (v - p - q)| ≤ 4 * u * M := by
    intro p q x' y' hp hq h1 h2
    have h3 := two_ops (c := -q) u0 h1 (by simpa only [sub_eq_add_neg] using h2)
    rw [← sub_eq_add_neg] at h3
    have h4 : |v - p| ≤ M + 2⁻¹ * M := (abs_sub _ _).trans (add_le_add hv hp)
    have h5 : |v - p - q| ≤ M + 2⁻¹ * M + 2⁻¹ * M := (abs_sub _ _).trans (add_le_add h4 hq)
    have h6 := mul_le_mul_of_nonneg_left h4 (show 0 ≤ u * (1 + u) by positivity)
    have h7 := mul_le_mul_of_nonneg_left h5 u0
    have hum : 0 ≤ u * M := by positivity
    have h8 : 4 * (u * (u * M)) ≤ u * M := by
      have := mul_le_mul_of_nonneg_right u1 (show 0 ≤ u * M by positivity)
      linarith
    linarith
  unfold hatF
  split_ifs
  · have e : v - 2⁻¹ * l - 2⁻¹ * r = v - 2⁻¹ * r - 2⁻¹ * l := by ring
    rw [e]
    refine key _ _ _ _ hr' hl' (hA.sub _ _) ?_
    have := hA.add (A.sub v (2⁻¹ * r)) (-2⁻¹ * l)
    rwa [show A.sub v (2⁻¹ * r) + -2⁻¹ * l = A.sub v (2⁻¹ * r) - 2⁻¹ * l by ring] at this
  · exact key _ _ _ _ hl' hr' (hA.sub _ _) (hA.sub _ _)

/-- One step of the dehierarchization; `v` is the value that belongs to the point. -/
theorem unhatF_close {u : K} (u0 : 0 ≤ u) (u1 : 4 * u ≤ 1) {A : Adder K} (hA : Rounds u A) (b : ℕ)
    {M E η l r s v l' r' : K} (hl : |l - l'| ≤ E) (hr : |r - r'| ≤ E) (hl' : |l'| ≤ M) (hr' : |r'| ≤ M)
    (hv : |v| ≤ M) (hs : |s - (v - 2⁻¹ * l' - 2⁻¹ * r')| ≤ η) (hE : E + η ≤ M) :
    |unhatF A b l r s - v| ≤ E + η + 6 * u * M := by
  have hM : 0 ≤ M := (abs_nonneg _).trans hv
  have hE0 : 0 ≤ E := (abs_nonneg _).trans hl
  have hη0 : 0 ≤ η := (abs_nonneg _).trans hs
  have key : ∀ p q p' q' x' y' : K, |p - p'| ≤ 2⁻¹ * E → |q - q'| ≤ 2⁻¹ * E → |p'| ≤ 2⁻¹ * M →
      |q'| ≤ 2⁻¹ * M → |s - (v - p' - q')| ≤ η → |x' - (s + p)| ≤ u * |s + p| →
      |y' - (x' + q)| ≤ u * |x' + q| → |y' - v| ≤ E + η + 6 * u * M := by
    intro p q p' q' x' y' hp hq hp' hq' hs h1 h2
    have h3 := two_ops u0 h1 h2
    have h4 : |s + p| ≤ 2 * M + 2⁻¹ * M := by
      have e : s + p = (s - (v - p' - q')) + (p - p') + (v - q') := by ring
      rw [e]
      have := (abs_add_le (s - (v - p' - q') + (p - p')) (v - q')).trans
        (add_le_add (abs_add_le _ _) (abs_sub _ _))
      linarith
    have h5 : |s + p + q - v| ≤ E + η := by
      have e : s + p + q - v = (s - (v - p' - q')) + (p - p') + (q - q') := by ring
      rw [e]
      have := (abs_add_le (s - (v - p' - q') + (p - p')) (q - q')).trans
        (add_le_add (abs_add_le _ _) le_rfl)
      linarith
    have h6 : |s + p + q| ≤ 2 * M := by
      have e : s + p + q = (s + p + q - v) + v := by ring
      rw [e]
      exact (abs_add_le _ _).trans (by linarith)
    have e : y' - v = (y' - (s + p + q)) + (s + p + q - v) := by ring
    rw [e]
    refine (abs_add_le _ _).trans ?_
    have h7 := mul_le_mul_of_nonneg_left h4 (show 0 ≤ u * (1 + u) by positivity)
    have h8 := mul_le_mul_of_nonneg_left h6 u0
    have hum : 0 ≤ u * M := by positivity
    have h9 : 4 * (u * (u * M)) ≤ u * M := by
      have := mul_le_mul_of_nonneg_right u1 (show 0 ≤ u * M by positivity)
      linarith
    linarith
  have a1 : |2⁻¹ * l - 2⁻¹ * l'| ≤ 2⁻¹ * E := by rw [← mul_sub]; exact half_le hl
  have a2 : |2⁻¹ * r - 2⁻¹ * r'| ≤ 2⁻¹ * E := by rw [← mul_sub]; exact half_le hr
  unfold unhatF
  split_ifs
  · have e : v - 2⁻¹ * l' - 2⁻¹ * r' = v - 2⁻¹ * r' - 2⁻¹ * l' := by ring
    rw [e] at hs
    exact key _ _ _ _ _ _ a2 a1 (half_le hr') (half_le hl') hs (hA.add _ _) (hA.add _ _)
  · exact key _ _ _ _ _ _ a1 a2 (half_le hl') (half_le hr') hs (hA.add _ _) (hA.add _ _)

/-- The value of the hat hierarchization at a position, with exponents below `k`. -/
theorem hat_value_bounds {lmax k : ℕ} (hk : k ≤ lmax) {M : K} (v : ℕ → K)
    (hv : ∀ p ≤ 2 ^ lmax, |v p| ≤ M) (p : ℕ) (hp : p ≤ 2 ^ lmax) :
    |(List.range k).foldl (hatStep (2 ^ lmax)) v p| ≤ 2 * M := by
  have hM : 0 ≤ M := (abs_nonneg _).trans (hv p hp)
  obtain ⟨h1, h2⟩ := hat_foldl_closed lmax k hk v
  by_cases hc : 2 ^ k ∣ p ∨ 2 ^ lmax ≤ p
  · rw [h1 p hc]
    linarith [hv p hp]
  · rw [not_or] at hc
    obtain ⟨e, he, hm⟩ := (position_cases k p).resolve_left hc.1
    have hlt : p < 2 ^ lmax := by omega
    obtain ⟨-, -, h3, h4⟩ := odd_neighbours (by omega) hlt hm
    rw [h2 e he p hlt hm]
    have a1 := half_le (hv (p - 2 ^ e) (by omega))
    have a2 := half_le (hv (p + 2 ^ e) h3)
    have := (abs_sub (v p - 2⁻¹ * v (p - 2 ^ e)) (2⁻¹ * v (p + 2 ^ e))).trans
      (add_le_add (abs_sub _ _) le_rfl)
    linarith [hv p hp]

/-- Rounding errors of the hierarchization at a position. -/
theorem hat_error {u : K} (u0 : 0 ≤ u) (u1 : 4 * u ≤ 1) {A : Adder K} (hA : Rounds u A) (b : ℕ)
    {lmax k : ℕ} (hk : k ≤ lmax) {M : K} (v : ℕ → K) (hv : ∀ p ≤ 2 ^ lmax, |v p| ≤ M) (p : ℕ)
    (hp : p ≤ 2 ^ lmax) :
    |(List.range k).foldl (stepOf (hatF A b) (2 ^ lmax)) v p -
      (List.range k).foldl (hatStep (2 ^ lmax)) v p| ≤ 4 * u * M := by
  have hM : 0 ≤ M := (abs_nonneg _).trans (hv p hp)
  obtain ⟨h1, h2⟩ := hat_foldl_closed lmax k hk v
  obtain ⟨g1, g2⟩ := step_foldl_closed (hatF A b) lmax k hk v
  by_cases hc : 2 ^ k ∣ p ∨ 2 ^ lmax ≤ p
  · rw [h1 p hc, g1 p hc, sub_self, abs_zero]
    positivity
  · rw [not_or] at hc
    obtain ⟨e, he, hm⟩ := (position_cases k p).resolve_left hc.1
    have hlt : p < 2 ^ lmax := by omega
    obtain ⟨-, -, h3, h4⟩ := odd_neighbours (by omega) hlt hm
    rw [h2 e he p hlt hm, g2 e he p hlt hm]
    exact hatF_close u0 u1 hA b (hv _ (by omega)) (hv _ h3) (hv _ hp)

/-- Rounding errors of the dehierarchization: `s` are perturbed surpluses of the values `v`. -/
theorem unhat_error {u : K} (u0 : 0 ≤ u) (u1 : 4 * u ≤ 1) {A : Adder K} (hA : Rounds u A) (b : ℕ)
    {lmax k : ℕ} (hk : k ≤ lmax) {M η : K} (hη : 0 ≤ η) (v : ℕ → K) (hv : ∀ p ≤ 2 ^ lmax, |v p| ≤ M)
    {E : K} (hE : E + k * (η + 6 * u * M) ≤ M) (s : ℕ → K)
    (hc : ∀ p ≤ 2 ^ lmax, 2 ^ k ∣ p → |s p - v p| ≤ E)
    (hf : ∀ e < k, ∀ p < 2 ^ lmax, p % (2 * 2 ^ e) = 2 ^ e →
      |s p - (v p - 2⁻¹ * v (p - 2 ^ e) - 2⁻¹ * v (p + 2 ^ e))| ≤ η) (p : ℕ) (hp : p ≤ 2 ^ lmax) :
    |(List.range k).reverse.foldl (stepOf (unhatF A b) (2 ^ lmax)) s p - v p| ≤
      E + k * (η + 6 * u * M) := by
  have hM : 0 ≤ M := (abs_nonneg _).trans (hv p hp)
  induction k generalizing E s with
  | zero =>
    simp only [List.range_zero, List.reverse_nil, List.foldl_nil, Nat.cast_zero, zero_mul, add_zero]
    exact hc p hp (by simp)
  | succ k ih =>
    rw [List.range_succ, List.reverse_append, List.reverse_singleton, List.singleton_append,
      List.foldl_cons]
    rw [Nat.cast_add, Nat.cast_one] at hE ⊢
    have hκ : 0 ≤ k * (η + 6 * u * M) := by positivity
    have h8 : 0 ≤ 6 * u * M := by positivity
    have hE1 : (E + η + 6 * u * M) + k * (η + 6 * u * M) = E + (k + 1) * (η + 6 * u * M) := by ring
    rw [← hE1] at hE ⊢
    have hE0 : 0 ≤ E := (abs_nonneg _).trans (hc 0 (by omega) (dvd_zero _))
    have hsame : ∀ q, ¬ Odds (2 ^ lmax) (2 ^ k) q → stepOf (unhatF A b) (2 ^ lmax) s k q = s q :=
      fun q hq => if_neg hq
    refine ih (by omega) hE _ ?_ ?_
    · intro q hq hd
      by_cases ho : Odds (2 ^ lmax) (2 ^ k) q
      · obtain ⟨d1, d2, h3, h4⟩ := odd_neighbours (by omega) ho.2 ho.1
        have e : stepOf (unhatF A b) (2 ^ lmax) s k q =
            unhatF A b (s (q - 2 ^ k)) (s (q + 2 ^ k)) (s q) := if_pos ho
        rw [e]
        exact unhatF_close u0 u1 hA b (hc _ (by omega) d1) (hc _ h3 d2) (hv _ (by omega)) (hv _ h3)
          (hv _ hq) (hf k (by omega) q ho.2 ho.1) (by linarith)
      · rw [hsame q ho]
        have hd' : 2 ^ (k + 1) ∣ q := by
          rcases position_cases (k + 1) q with h | ⟨e, he, hm⟩
          · exact h
          · rcases Nat.lt_or_ge e k with hek | hek
            · have hd2 : 2 * 2 ^ e ∣ q := by
                rw [← pow_succ']
                exact dvd_trans (pow_dvd_pow 2 (by omega)) hd
              rw [Nat.mod_eq_zero_of_dvd hd2] at hm
              have : 0 < 2 ^ e := by positivity
              omega
            · obtain rfl : e = k := by omega
              rcases Nat.lt_or_ge q (2 ^ lmax) with hlt | hge
              · exact absurd ⟨hm, hlt⟩ ho
              · obtain rfl : q = 2 ^ lmax := by omega
                exact pow_dvd_pow 2 hk
        linarith [hc q hq hd']
    · intro e he q hq hm
      rw [hsame q ?_]
      · exact hf e (by omega) q hq hm
      · rintro ⟨h1, h2⟩
        have hd : 2 ^ k ∣ q := by
          have := Nat.div_add_mod q (2 * 2 ^ k)
          rw [h1] at this
          rw [← this]
          exact Dvd.dvd.add (Dvd.dvd.mul_right (Dvd.intro_left _ rfl) _) (dvd_refl _)
        have hd2 : 2 * 2 ^ e ∣ q := by
          rw [← pow_succ']
          exact dvd_trans (pow_dvd_pow 2 (by omega)) hd
        rw [Nat.mod_eq_zero_of_dvd hd2] at hm
        have : 0 < 2 ^ e := by positivity
        omega

end Errors

end Verif

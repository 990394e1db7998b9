import Verif.Model.DefaultDecomposition
import Verif.Props.Levels1d
import Verif.Props.Indexing

/-!
# Lemmas on default decompositions
-/

namespace Verif

/-- The lower bounds of the default decomposition. -/
def defaultBound (n p : ℕ) (forward : Bool) (j : ℕ) : ℕ :=
  if forward then ceilDiv' (n * j) p else n * j / p

theorem getDefaultDecomposition1d_eq {n p : ℕ} (h : p ≤ n) (forward : Bool) :
    getDefaultDecomposition1d n p forward = some ((List.range p).map (defaultBound n p forward)) := by
  rw [getDefaultDecomposition1d, if_neg (by omega)]
  rfl

theorem defaultBound_last {n p : ℕ} (hp : 1 ≤ p) (forward : Bool) : defaultBound n p forward p = n := by
  unfold defaultBound ceilDiv'
  split
  · rw [show n * p + p - 1 = p - 1 + p * n by rw [Nat.mul_comm]; omega,
      Nat.add_mul_div_left _ _ (by omega), Nat.div_eq_of_lt (by omega)]
    omega
  · exact Nat.mul_div_cancel _ (by omega)

theorem defaultBound_gap {n p s : ℕ} (hp : 1 ≤ p) (h : s * p ≤ n) (forward : Bool) (j : ℕ) :
    defaultBound n p forward j + s ≤ defaultBound n p forward (j + 1) := by
  unfold defaultBound ceilDiv'
  have h1 : n * j + p * s ≤ n * (j + 1) := by nlinarith
  split
  · have : (n * j + p - 1 + p * s) / p ≤ (n * (j + 1) + p - 1) / p := Nat.div_le_div_right (by omega)
    rwa [Nat.add_mul_div_left _ _ (by omega)] at this
  · have : (n * j + p * s) / p ≤ n * (j + 1) / p := Nat.div_le_div_right h1
    rwa [Nat.add_mul_div_left _ _ (by omega)] at this

theorem defaultBound_le {n p : ℕ} (hp : 1 ≤ p) (forward : Bool) {j : ℕ} (hj : j ≤ p) :
    defaultBound n p forward j ≤ n := by
  have h := monotone_nat_of_le_succ (f := defaultBound n p forward)
    (fun j => defaultBound_gap hp (s := 0) (by omega) forward j) hj
  rwa [defaultBound_last hp] at h

/-- A process owns what lies between two bounds. -/
theorem owns_default {n p : ℕ} (forward : Bool) {c x : ℕ} (hc : c < p) (hp : 1 ≤ p)
    (h1 : defaultBound n p forward c ≤ x) (h2 : x < defaultBound n p forward (c + 1)) :
    Owns1d ((List.range p).map (defaultBound n p forward)) n c x := by
  refine ⟨_, _, ?_, ?_, h1, h2⟩
  · unfold lowerBound1d
    rw [List.getElem?_map, List.getElem?_range hc]
    rfl
  · unfold upperBound1d
    simp only [List.length_map, List.length_range]
    split
    · unfold lowerBound1d
      rw [List.getElem?_map, List.getElem?_range (by omega)]
      rfl
    · rename_i h
      rw [show c + 1 = p by omega, defaultBound_last hp]

/-- Between two neighbouring bounds on the fine level lies a point of the coarse level. -/
theorem coarse_between {L l b p : ℕ} (hb : b ≤ 2) (hl : l ≤ L) (hp : 1 ≤ p) (h : p ≤ nodal l b)
    (forward : Bool) {c : ℕ} (hc : c < p) :
    ∃ y, defaultBound (nodal L b) p forward c ≤ refIndex b (L - l) y ∧
      refIndex b (L - l) y < defaultBound (nodal L b) p forward (c + 1) := by
  have hs : 0 < 2 ^ (L - l) := by positivity
  have hL : 2 ^ L = 2 ^ l * 2 ^ (L - l) := by rw [← pow_add]; congr 1; omega
  have hl0 : 0 < 2 ^ l := by positivity
  generalize hd : 2 ^ (L - l) = s at hs hL
  by_cases hp' : p = 2 ^ l + 1
  · have hb2 : b = 2 := by
      unfold nodal at h
      omega
    subst hb2
    refine ⟨c, ?_, ?_⟩
    all_goals
      unfold refIndex nodal defaultBound ceilDiv'
      simp only [OfNat.ofNat_ne_zero, if_false, hd]
    · have h1 : (2 ^ L + 2 - 1) * c ≤ c * s * p := by
        rw [hp', hL]
        have : (2 ^ l * s + 2 - 1) = 2 ^ l * s + 1 := by omega
        rw [this]
        nlinarith [Nat.zero_le c, Nat.mul_le_mul_left c hs]
      split
      · rw [← Nat.lt_add_one_iff, Nat.div_lt_iff_lt_mul (by omega), add_mul, one_mul]
        omega
      · exact Nat.div_le_of_le_mul (by rw [Nat.mul_comm p]; exact h1)
    · have h1 : (c * s + 1) * p ≤ (2 ^ L + 2 - 1) * (c + 1) := by
        rw [hp', hL]
        have e : (2 ^ l * s + 2 - 1) = 2 ^ l * s + 1 := by omega
        rw [e]
        obtain ⟨k, hk⟩ : ∃ k, 2 ^ l = c + k := ⟨2 ^ l - c, by omega⟩
        rw [hk]
        nlinarith [Nat.mul_le_mul_left k hs]
      have h2 : c * s + 1 ≤ (2 ^ L + 2 - 1) * (c + 1) / p := by
        rw [Nat.le_div_iff_mul_le (by omega)]
        exact h1
      have h3 : (2 ^ L + 2 - 1) * (c + 1) / p ≤ ((2 ^ L + 2 - 1) * (c + 1) + p - 1) / p :=
        Nat.div_le_div_right (by omega)
      split <;> omega
  · have hgap : s * p ≤ nodal L b := by
      unfold nodal at h ⊢
      have hb' : b = 0 ∨ b = 1 ∨ b = 2 := by omega
      rcases hb' with rfl | rfl | rfl
      · have : s * (p + 1) ≤ 2 ^ l * s := by
          rw [Nat.mul_comm (2 ^ l)]
          exact Nat.mul_le_mul_left _ (by omega)
        rw [Nat.mul_add] at this
        omega
      · have : s * p ≤ 2 ^ l * s := by
          rw [Nat.mul_comm (2 ^ l)]
          exact Nat.mul_le_mul_left _ (by omega)
        omega
      · have : s * p ≤ 2 ^ l * s := by
          rw [Nat.mul_comm (2 ^ l)]
          exact Nat.mul_le_mul_left _ (by omega)
        omega
    have hg := defaultBound_gap hp hgap forward c
    generalize defaultBound (nodal L b) p forward c = x at hg
    generalize defaultBound (nodal L b) p forward (c + 1) = x' at hg
    have hmod := Nat.div_add_mod x s
    have hlt := Nat.mod_lt x hs
    by_cases hb0 : b = 0
    · refine ⟨x / s, ?_⟩
      unfold refIndex
      rw [if_pos hb0, hd, add_mul, one_mul, Nat.mul_comm (x / s)]
      omega
    · by_cases hx : x % s = 0
      · refine ⟨x / s, ?_⟩
        unfold refIndex
        rw [if_neg hb0, hd, Nat.mul_comm (x / s)]
        omega
      · refine ⟨x / s + 1, ?_⟩
        unfold refIndex
        rw [if_neg hb0, hd, add_mul, one_mul, Nat.mul_comm (x / s)]
        omega

/-- The bounds for a power of two. -/
theorem defaultBound_pow {l b k : ℕ} (hb : b ≤ 2) (hk : k ≤ l) (forward : Bool) {j : ℕ}
    (hj : j < 2 ^ k) : defaultBound (nodal l b) (2 ^ k) forward j =
      if j = 0 then 0
      else if forward then (if b = 2 then 2 ^ (l - k) * j + 1 else 2 ^ (l - k) * j)
      else if b = 0 then 2 ^ (l - k) * j - 1 else 2 ^ (l - k) * j := by
  have hk0 : 0 < 2 ^ k := by positivity
  have he : 0 < 2 ^ (l - k) := by positivity
  have hl : 2 ^ l = 2 ^ k * 2 ^ (l - k) := by rw [← pow_add]; congr 1; omega
  unfold defaultBound nodal ceilDiv'
  rw [hl]
  generalize 2 ^ (l - k) = e at he
  generalize 2 ^ k = p at hk0 hj
  by_cases hj0 : j = 0
  · subst hj0
    simp only [Nat.mul_zero, Nat.zero_div, Nat.zero_add, if_true]
    split
    · exact Nat.div_eq_of_lt (by omega)
    · rfl
  rw [if_neg hj0]
  have hb' : b = 0 ∨ b = 1 ∨ b = 2 := by omega
  have hpe : 0 < p * e := Nat.mul_pos hk0 he
  have hej : 0 < e * j := Nat.mul_pos he (by omega)
  rcases hb' with rfl | rfl | rfl
  · have e1 : (p * e + 0 - 1) * j = p * (e * j) - j := by
      rw [Nat.add_zero, Nat.sub_mul, one_mul, Nat.mul_assoc]
    have hle : j ≤ p * (e * j) := by nlinarith
    rw [e1]
    cases forward
    · simp only [Bool.false_eq_true, if_false, if_true]
      have : p * (e * j) - j = p - j + p * (e * j - 1) := by
        rw [Nat.mul_sub, Nat.mul_one]
        have : p ≤ p * (e * j) := Nat.le_mul_of_pos_right _ hej
        omega
      rw [this, Nat.add_mul_div_left _ _ hk0, Nat.div_eq_of_lt (by omega)]
      omega
    · simp only [if_true, OfNat.zero_ne_ofNat, if_false]
      have : p * (e * j) - j + p - 1 = p - 1 - j + p * (e * j) := by omega
      rw [this, Nat.add_mul_div_left _ _ hk0, Nat.div_eq_of_lt (by omega)]
      omega
  · have e1 : (p * e + 1 - 1) * j = p * (e * j) := by
      rw [Nat.add_sub_cancel, Nat.mul_assoc]
    rw [e1]
    cases forward
    · simp only [Bool.false_eq_true, if_false, one_ne_zero]
      exact Nat.mul_div_cancel_left _ hk0
    · simp only [if_true, OfNat.one_ne_ofNat, if_false]
      have : p * (e * j) + p - 1 = p - 1 + p * (e * j) := by omega
      rw [this, Nat.add_mul_div_left _ _ hk0, Nat.div_eq_of_lt (by omega)]
      omega
  · have e1 : (p * e + 2 - 1) * j = j + p * (e * j) := by
      rw [show p * e + 2 - 1 = 1 + p * e by omega, Nat.add_mul, one_mul, Nat.mul_assoc]
    rw [e1]
    cases forward
    · simp only [Bool.false_eq_true, if_false, OfNat.ofNat_ne_zero]
      rw [Nat.add_mul_div_left _ _ hk0, Nat.div_eq_of_lt hj]
      omega
    · simp only [if_true]
      have : j + p * (e * j) + p - 1 = j - 1 + p * (e * j + 1) := by
        rw [Nat.mul_add, Nat.mul_one]
        omega
      rw [this, Nat.add_mul_div_left _ _ hk0, Nat.div_eq_of_lt (by omega)]
      omega

/-- For powers of two the bounds of a coarse level are the downsampled bounds of a finer level. -/
theorem down1_defaultBound {L l b k : ℕ} (hb : b ≤ 2) (hl : l ≤ L) (hk : k ≤ l) (forward : Bool)
    {j : ℕ} (hj : j < 2 ^ k) :
    down1 b (L - l) (defaultBound (nodal L b) (2 ^ k) forward j) =
      defaultBound (nodal l b) (2 ^ k) forward j := by
  have hs : 0 < 2 ^ (L - l) := by positivity
  have hL : 2 ^ (L - k) = 2 ^ (l - k) * 2 ^ (L - l) := by rw [← pow_add]; congr 1; omega
  have he : 0 < 2 ^ (l - k) := by positivity
  refine eq_of_forall_ge_iff fun y => ?_
  rw [down1, downsample_le_iff, defaultBound_pow hb (by omega) forward hj,
    defaultBound_pow hb hk forward hj, hL]
  unfold refIndex
  generalize 2 ^ (L - l) = s at hs
  generalize 2 ^ (l - k) = e at he
  by_cases hj0 : j = 0
  · simp [hj0]
  have hej : 0 < e * j := Nat.mul_pos he (by omega)
  have e1 : e * s * j = e * j * s := by ring
  rw [if_neg hj0, if_neg hj0, e1]
  generalize e * j = a at hej
  have c1 : a * s ≤ y * s ↔ a ≤ y := Nat.mul_le_mul_right_iff hs
  have c2 : a * s ≤ (y + 1) * s ↔ a ≤ y + 1 := Nat.mul_le_mul_right_iff hs
  have c3 : a * s < (y + 1) * s ↔ a < y + 1 := Nat.mul_lt_mul_right hs
  have c4 : a * s < y * s ↔ a < y := Nat.mul_lt_mul_right hs
  have hy : 0 < (y + 1) * s := Nat.mul_pos (by omega) hs
  have hb' : b = 0 ∨ b = 1 ∨ b = 2 := by omega
  cases forward
  · rcases hb' with rfl | rfl | rfl <;>
      simp only [Bool.false_eq_true, if_false, if_true, one_ne_zero, OfNat.ofNat_ne_zero] <;> omega
  · rcases hb' with rfl | rfl | rfl <;>
      simp only [if_false, if_true, one_ne_zero, OfNat.ofNat_ne_zero, OfNat.zero_ne_ofNat,
        OfNat.one_ne_ofNat] <;> omega

theorem remainder_double {p : ℕ} (hp0 : 1 ≤ p) (l : ℕ) :
    2 ^ (l + 1) % p = if 2 * (2 ^ l % p) < p then 2 * (2 ^ l % p) else 2 * (2 ^ l % p) - p := by
  have h1 := Nat.div_add_mod (2 ^ l) p
  have h2 := Nat.mod_lt (2 ^ l) hp0
  have e : 2 ^ (l + 1) = 2 * (2 ^ l % p) + p * (2 * (2 ^ l / p)) := by
    rw [pow_succ]
    nlinarith
  rw [e, Nat.add_mul_mod_self_left]
  split
  · rename_i h
    exact Nat.mod_eq_of_lt h
  · rename_i h
    rw [Nat.mod_eq_sub_mod (by omega), Nat.mod_eq_of_lt (by omega)]

/-- If `p` is no power of two, some power of two has a remainder of at least `p / 2`. -/
theorem exists_remainder {p : ℕ} (hp : ∀ k, p ≠ 2 ^ k) (hp0 : 1 ≤ p) (l0 : ℕ) :
    ∃ l ≥ l0, p ≤ 2 * (2 ^ l % p) := by
  have hne : ∀ l, 0 < 2 ^ l % p := by
    intro l
    rw [Nat.pos_iff_ne_zero]
    intro h
    obtain ⟨k, -, hk⟩ := (Nat.dvd_prime_pow Nat.prime_two).1 (Nat.dvd_of_mod_eq_zero h)
    exact hp k hk
  have hlt : ∀ l, 2 ^ l % p < p := fun l => Nat.mod_lt _ hp0
  have key : ∀ m l, p - 2 ^ l % p ≤ m → ∃ l' ≥ l, p ≤ 2 * (2 ^ l' % p) := by
    intro m
    induction m with
    | zero =>
      intro l h
      have := hlt l
      omega
    | succ m ih =>
      intro l h
      by_cases h2 : p ≤ 2 * (2 ^ l % p)
      · exact ⟨l, le_refl _, h2⟩
      · have e := remainder_double hp0 l
        rw [if_pos (by omega)] at e
        have := hne l
        obtain ⟨l', h3, h4⟩ := ih (l + 1) (by omega)
        exact ⟨l', by omega, h4⟩
  exact key _ l0 (le_refl _)

theorem exists_remainder' {p : ℕ} (hp : ∀ k, p ≠ 2 ^ k) (hp0 : 1 ≤ p) (l0 : ℕ) :
    ∃ l ≥ l0, p ≤ 2 * (2 ^ l % p) + 1 ∧ 2 ^ l % p + 2 ≤ p := by
  have h1 := hp 0
  have h2 := hp 1
  obtain ⟨l, hl, h⟩ := exists_remainder hp hp0 l0
  have hlt := Nat.mod_lt (2 ^ l) hp0
  by_cases h3 : 2 ^ l % p + 2 ≤ p
  · exact ⟨l, hl, by omega, h3⟩
  · have e := remainder_double hp0 l
    rw [if_neg (by omega)] at e
    exact ⟨l + 1, by omega, by omega, by omega⟩

/-- If `p` is no power of two, the bounds of process 1 do not line up. -/
theorem down1_defaultBound_ne {p b : ℕ} (hp : ∀ k, p ≠ 2 ^ k) (hp0 : 1 ≤ p) (hb : b = 1 ∨ b = 2)
    (l0 : ℕ) : ∃ l ≥ l0, down1 b 1 (defaultBound (nodal (l + 1) b) p false 1) ≠
      defaultBound (nodal l b) p false 1 := by
  have hdown : ∀ x, down1 b 1 x = (x + 1) / 2 := by
    intro x
    unfold down1 downsampleDecomposition1d ceilDiv'
    rw [if_pos (by omega)]
    simp
  obtain ⟨l, hl, h⟩ : ∃ l ≥ l0, nodal (l + 1) b / p = 2 * (nodal l b / p) + 1 := by
    rcases hb with rfl | rfl
    · obtain ⟨l, hl, h⟩ := exists_remainder hp hp0 l0
      refine ⟨l, hl, ?_⟩
      have h1 := Nat.div_add_mod (2 ^ l) p
      have h2 := Nat.mod_lt (2 ^ l) hp0
      unfold nodal
      rw [Nat.add_sub_cancel, Nat.add_sub_cancel]
      have e : 2 ^ (l + 1) = 2 * (2 ^ l % p) - p + p * (2 * (2 ^ l / p) + 1) := by
        rw [pow_succ, Nat.mul_add]
        have : p * (2 * (2 ^ l / p)) = 2 * (p * (2 ^ l / p)) := by ring
        omega
      rw [e, Nat.add_mul_div_left _ _ hp0, Nat.div_eq_of_lt (by omega)]
      omega
    · obtain ⟨l, hl, h, h'⟩ := exists_remainder' hp hp0 l0
      refine ⟨l, hl, ?_⟩
      have h1 := Nat.div_add_mod (2 ^ l) p
      unfold nodal
      have e : 2 ^ (l + 1) + 2 - 1 = 2 * (2 ^ l % p) + 1 - p + p * (2 * (2 ^ l / p) + 1) := by
        rw [pow_succ, Nat.mul_add]
        have : p * (2 * (2 ^ l / p)) = 2 * (p * (2 ^ l / p)) := by ring
        omega
      have e' : 2 ^ l + 2 - 1 = 2 ^ l % p + 1 + p * (2 ^ l / p) := by omega
      have d1 : (2 ^ (l + 1) + 2 - 1) / p = 2 * (2 ^ l / p) + 1 := by
        rw [e, Nat.add_mul_div_left _ _ hp0, Nat.div_eq_of_lt (by omega)]
        omega
      have d2 : (2 ^ l + 2 - 1) / p = 2 ^ l / p := by
        rw [e', Nat.add_mul_div_left _ _ hp0, Nat.div_eq_of_lt (by omega)]
        omega
      rw [d1, d2]
  refine ⟨l, hl, ?_⟩
  rw [hdown]
  unfold defaultBound
  simp only [Bool.false_eq_true, if_false, Nat.mul_one]
  omega

end Verif

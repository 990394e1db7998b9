import Verif.Lemmas.PlotInterp

/-!
# Hierarchization of interpolants on finer grids

With hat functions and with the periodic biorthogonal basis, the hierarchical values of the interpolant of a
coarse grid on a finer grid are those of the coarse grid at its points and zero elsewhere.
-/

namespace Verif

section mods

theorem mod_cases {w : ℕ} (q : ℕ) : q % w = 0 ↔ q % (2 * w) = 0 ∨ q % (2 * w) = w := by
  rcases Nat.eq_zero_or_pos w with rfl | hw
  · simp
  rw [mul_comm 2 w, Nat.mod_mul]
  have h1 := Nat.mod_lt q hw
  have h2 := Nat.mod_lt (q / w) (show 0 < 2 by omega)
  interval_cases h : q / w % 2 <;> omega

theorem odd_facts {q w : ℕ} (h : q % (2 * w) = w) :
    w ≤ q ∧ (q - w) % (2 * w) = 0 ∧ (q + w) % (2 * w) = 0 := by
  have h1 := Nat.div_add_mod q (2 * w)
  rw [h] at h1
  refine ⟨by omega, ?_, ?_⟩
  · rw [← h1, Nat.add_sub_cancel, Nat.mul_mod_right]
  · rw [← h1, show 2 * w * (q / (2 * w)) + w + w = 2 * w * (q / (2 * w) + 1) by ring, Nat.mul_mod_right]

theorem even_facts {q w : ℕ} (hw : 0 < w) (h : q % (2 * w) = 0) :
    (0 < q → w ≤ q ∧ (q - w) % (2 * w) = w) ∧ (q + w) % (2 * w) = w := by
  have h1 := Nat.div_add_mod q (2 * w)
  rw [h, Nat.add_zero] at h1
  constructor
  · intro hq
    obtain ⟨k, hk⟩ : ∃ k, q / (2 * w) = k + 1 := by
      cases hk : q / (2 * w) with
      | zero => rw [hk, mul_zero] at h1; omega
      | succ k => exact ⟨k, rfl⟩
    rw [hk, mul_add, mul_one] at h1
    refine ⟨by omega, ?_⟩
    rw [show q - w = 2 * w * k + w by omega, Nat.mul_add_mod, Nat.mod_eq_of_lt (by omega)]
  · rw [← h1, Nat.mul_add_mod, Nat.mod_eq_of_lt (by omega)]

end mods

section bio

variable {K : Type} [Field K]

/-- A step of the biorthogonal hierarchization on values that are linear between coarser points. -/
theorem bio_fine [CharZero K] {m e : ℕ} (he : e < m) {u v : ℕ → K} (hper : v 0 = v (2 ^ m))
    (hmid : ∀ q, Odds (2 ^ m) (2 ^ e) q → v q = 2⁻¹ * v (q - 2 ^ e) + 2⁻¹ * v (q + 2 ^ e))
    (hu : ∀ q ≤ 2 ^ m, u q = if q % 2 ^ e = 0 then v q else 0) :
    ∀ q ≤ 2 ^ m, bioStep true (2 ^ m) u e q = if q % 2 ^ (e + 1) = 0 then v q else 0 := by
  have hw : 0 < 2 ^ e := by positivity
  have hN : 2 ^ m % (2 * 2 ^ e) = 0 := by
    rw [← pow_succ']
    exact Nat.mod_eq_zero_of_dvd (pow_dvd_pow 2 he)
  have hN0 : 0 < 2 ^ m := by positivity
  have hlt := two_pow_lt he
  have hro := odds_room (lmax := m) he
  have hre := evens_room (lmax := m) he
  obtain ⟨n1, n2⟩ := (even_facts hw hN).1 hN0
  rw [pow_succ', bioStep]
  generalize 2 ^ e = w at *
  generalize 2 ^ m = N at *
  set u1 := pass (Odds N w) w (fun l r v => -2⁻¹ * l + (-2⁻¹ * r + v)) u with hu1
  have h1 : ∀ q ≤ N, u1 q = if q % (2 * w) = 0 then v q else 0 := by
    intro q hq
    rw [hu1, pass]
    split
    · rename_i h
      obtain ⟨o1, o2, o3⟩ := odd_facts h.1
      have hle := hro q h
      rw [hu _ (by omega), hu _ hle, hu q hq, if_pos ((mod_cases _).2 (Or.inl o2)),
        if_pos ((mod_cases _).2 (Or.inl o3)), if_pos ((mod_cases _).2 (Or.inr h.1)),
        if_neg (by rw [h.1]; omega), hmid q h]
      ring
    · rename_i h
      rw [hu q hq]
      by_cases hz : q % (2 * w) = 0
      · rw [if_pos hz, if_pos ((mod_cases _).2 (Or.inl hz))]
      · rw [if_neg hz, if_neg]
        intro h2
        rcases (mod_cases _).1 h2 with h3 | h3
        · exact hz h3
        · refine h ⟨h3, ?_⟩
          rcases Nat.lt_or_ge q N with h4 | h4
          · exact h4
          · have : q = N := by omega
            rw [this] at hz
            exact absurd hN hz
  set u2 := passEnds true (fun a x => a + 2⁻¹ * x) (fun a b x y => 2⁻¹ * (a + b) + 4⁻¹ * (x + y)) N w u1
    with hu2
  have h2 : ∀ q ≤ N, u2 q = if q % (2 * w) = 0 then v q else 0 := by
    intro q hq
    rw [hu2, passEnds, if_pos rfl]
    split
    · rename_i h
      rw [h1 0 (by omega), h1 N le_rfl, h1 w (by omega), h1 (N - w) (by omega), Nat.zero_mod, if_pos rfl,
        if_pos hN, Nat.mod_eq_of_lt (show w < 2 * w by omega), if_neg (by omega), n2, if_neg (by omega)]
      rcases h with rfl | rfl
      · rw [Nat.zero_mod, if_pos rfl, ← hper]
        ring
      · rw [if_pos hN, hper]
        ring
    · exact h1 q hq
  intro q hq
  rw [pass]
  split
  · rename_i h
    obtain ⟨o1, o3⟩ := even_facts hw h.1
    obtain ⟨o1, o2⟩ := o1 h.2.1
    have hle := hre q h
    rw [h2 _ (by omega), h2 _ hle, h2 q hq, o2, o3, if_neg (by omega), if_neg (by omega), if_pos h.1]
    ring
  · exact h2 q hq

/-- Values `u` on a fine grid which are those of `u'` at the points of a coarse grid and zero elsewhere. -/
def Extends (c N : ℕ) (u u' : ℕ → K) : Prop :=
  (∀ q ≤ N, u (q * c) = u' q) ∧ ∀ q ≤ N * c, q % c ≠ 0 → u q = 0

theorem extends_pass {c N w : ℕ} {P P' : ℕ → Prop} [DecidablePred P] [DecidablePred P']
    (hP : ∀ q, P (q * c) ↔ P' q) (hc : ∀ q, P q → q % c = 0)
    (hroom : ∀ q ≤ N, P' q → q + w ≤ N) (F : K → K → K → K) {u u' : ℕ → K} (h : Extends c N u u') :
    Extends c N (pass P (w * c) F u) (pass P' w F u') := by
  constructor
  · intro q hq
    rw [pass, pass]
    by_cases h1 : P' q
    · rw [if_pos h1, if_pos ((hP q).2 h1), ← Nat.sub_mul, ← Nat.add_mul, h.1 _ (by omega),
        h.1 _ (hroom q hq h1), h.1 _ hq]
    · rw [if_neg h1, if_neg (fun h2 => h1 ((hP q).1 h2)), h.1 _ hq]
  · intro q hq hm
    rw [pass, if_neg (fun h2 => hm (hc q h2)), h.2 q hq hm]

theorem extends_ends {c N w : ℕ} (hc : 0 < c) (hw : w ≤ N) (f : K → K → K) (fp : K → K → K → K → K)
    {u u' : ℕ → K} (h : Extends c N u u') :
    Extends c N (passEnds true f fp (N * c) (w * c) u) (passEnds true f fp N w u') := by
  have h0 := h.1 0 (by omega)
  rw [zero_mul] at h0
  constructor
  · intro q hq
    rw [passEnds, passEnds, if_pos rfl, if_pos rfl]
    by_cases h1 : q = 0 ∨ q = N
    · rw [if_pos h1, if_pos (by rcases h1 with rfl | rfl <;> simp), ← Nat.sub_mul, h0, h.1 _ le_rfl,
        h.1 _ hw, h.1 _ (by omega)]
    · rw [if_neg h1, if_neg, h.1 _ hq]
      rintro (h2 | h2)
      · rw [Nat.mul_eq_zero] at h2
        omega
      · have := Nat.eq_of_mul_eq_mul_right hc h2
        omega
  · intro q hq hm
    rw [passEnds, if_pos rfl, if_neg, h.2 q hq hm]
    rintro (rfl | rfl)
    · simp at hm
    · simp at hm

/-- A step at a distance of the coarse grid. -/
theorem extends_bio {d l e : ℕ} (he : e < l) {u u' : ℕ → K} (h : Extends (2 ^ d) (2 ^ l) u u') :
    Extends (2 ^ d) (2 ^ l) (bioStep true (2 ^ (d + l)) u (d + e)) (bioStep true (2 ^ l) u' e) := by
  have hc : 0 < 2 ^ d := by positivity
  have hlt := two_pow_lt he
  have e1 : 2 ^ (d + l) = 2 ^ l * 2 ^ d := by rw [pow_add, mul_comm]
  have e2 : 2 ^ (d + e) = 2 ^ e * 2 ^ d := by rw [pow_add, mul_comm]
  have hro := odds_room (lmax := l) he
  have hre := evens_room (lmax := l) he
  have hmod : ∀ q, q * 2 ^ d % (2 * (2 ^ e * 2 ^ d)) = q % (2 * 2 ^ e) * 2 ^ d := by
    intro q
    rw [← mul_assoc, Nat.mul_mod_mul_right]
  have hz : ∀ q, (q % (2 * (2 ^ e * 2 ^ d)) = 0 ∨ q % (2 * (2 ^ e * 2 ^ d)) = 2 ^ e * 2 ^ d) →
      q % 2 ^ d = 0 := by
    intro q hq
    have h1 := (mod_cases q).2 hq
    exact Nat.mod_eq_zero_of_dvd ((Nat.dvd_mul_left _ _).trans (Nat.dvd_of_mod_eq_zero h1))
  unfold bioStep
  rw [e1, e2]
  refine extends_pass ?_ ?_ (fun q _ h => hre q h) _ (extends_ends hc hlt.le _ _
    (extends_pass ?_ ?_ (fun q _ h => hro q h) _ h))
  · intro q
    unfold Evens
    rw [hmod, Nat.mul_lt_mul_right hc, Nat.mul_eq_zero]
    constructor
    · rintro ⟨h1, h2, h3⟩
      exact ⟨by omega, Nat.pos_of_mul_pos_right h2, h3⟩
    · rintro ⟨h1, h2, h3⟩
      exact ⟨Or.inl h1, by positivity, h3⟩
  · intro q hq
    exact hz q (Or.inl hq.1)
  · intro q
    unfold Odds
    rw [hmod, Nat.mul_lt_mul_right hc]
    constructor
    · rintro ⟨h1, h3⟩
      exact ⟨Nat.eq_of_mul_eq_mul_right hc h1, h3⟩
    · rintro ⟨h1, h3⟩
      exact ⟨by rw [h1], h3⟩
  · intro q hq
    exact hz q (Or.inr hq.1)

theorem extends_foldl {d l : ℕ} (k : ℕ) (hk : k ≤ l) {u u' : ℕ → K}
    (h : Extends (2 ^ d) (2 ^ l) u u') :
    Extends (2 ^ d) (2 ^ l) (((List.range k).map (d + ·)).foldl (bioStep true (2 ^ (d + l))) u)
      ((List.range k).foldl (bioStep true (2 ^ l)) u') := by
  induction k with
  | zero => exact h
  | succ k ih =>
    rw [List.range_succ, List.map_append, List.foldl_append, List.foldl_append]
    exact extends_bio (by omega) (ih (by omega))

end bio

/-! ### One dimension -/

section oneDim

variable {K : Type} [Field K] [LinearOrder K] [IsStrictOrderedRing K]

/-- Hierarchizing interpolants of the grid of level `l` on the grid of level `m`: the matrix `A` of the
coarse grid gives the values at its points, at other points the values are zero. -/
def NestedPole (b l m : ℕ) (A A' : ℕ → ℕ → K) : Prop :=
  (∀ G : ℕ → K, ∀ i < nodal l b, ∑ j ∈ Finset.range (nodal l b), A i j * G j =
    ∑ j ∈ Finset.range (nodal m b), A' (refIndex b (m - l) i) j *
      lineAt l b G (((pos b j : ℕ) : K) / 2 ^ m)) ∧
  ∀ G : ℕ → K, ∀ i < nodal m b, (∀ i' < nodal l b, refIndex b (m - l) i' ≠ i) →
    ∑ j ∈ Finset.range (nodal m b), A' i j * lineAt l b G (((pos b j : ℕ) : K) / 2 ^ m) = 0

/-- The interpolant at the points of its grid. -/
theorem lineAt_grid [FloorRing K] {l b : ℕ} (hb : b ≤ 2) (G : ℕ → K) {j : ℕ} (hj : j < nodal l b) :
    lineAt l b G (((pos b j : ℕ) : K) / 2 ^ l) = G j := by
  unfold lineAt
  rw [Finset.sum_eq_single j]
  · rw [Interpolation.hat_grid _ _ _ _ hb hj, if_pos rfl, one_mul]
  · intro i hi hne
    rw [Interpolation.hat_grid _ _ _ _ hb hj, if_neg, zero_mul]
    omega
  · intro h
    exact absurd (Finset.mem_range.2 hj) h

theorem lineAt_coarse [FloorRing K] {l m b : ℕ} (hb : b ≤ 2) (hl : l ≤ m) (G : ℕ → K) {j : ℕ} (hj : j < nodal l b) :
    lineAt l b G (((pos b (refIndex b (m - l) j) : ℕ) : K) / 2 ^ m) = G j := by
  rw [C16_refIndex_same_point]
  have e : (2 : K) ^ m = 2 ^ l * 2 ^ (m - l) := by
    rw [← pow_add]; congr 1; omega
  have e2 : (((pos b j * 2 ^ (m - l) : ℕ) : K)) / 2 ^ m = ((pos b j : ℕ) : K) / 2 ^ l := by
    rw [e]
    push_cast
    have : (2 : K) ^ (m - l) ≠ 0 := by positivity
    field_simp
  rw [e2, lineAt_grid hb G hj]

/-- Points whose level is not above `l` are points of the grid of level `l`. -/
theorem exists_coarse {b l m lam i : ℕ} (hb : b ≤ 2) (hl : l ≤ m) (hi : i < nodal m b)
    (hlev : PointLevel m (pos b i) lam) (hlam : lam ≤ l) :
    ∃ i' < nodal l b, refIndex b (m - l) i' = i := by
  obtain ⟨p1, p2, p3⟩ := pos_le hb hi
  have hm : 2 ^ m = 2 ^ l * 2 ^ (m - l) := by rw [← pow_add]; congr 1; omega
  have hc : 0 < 2 ^ (m - l) := by positivity
  obtain ⟨q, hq⟩ : ∃ q, pos b i = q * 2 ^ (m - l) := by
    rcases hlev with ⟨rfl, h | h⟩ | ⟨h1, h2, r, hr⟩
    · exact ⟨0, by rw [h, zero_mul]⟩
    · exact ⟨2 ^ l, by rw [h, hm]⟩
    · refine ⟨(2 * r + 1) * 2 ^ (l - lam), ?_⟩
      rw [hr, mul_assoc, ← pow_add]
      congr 2
      omega
  rw [hq, hm] at p1 p2
  have q1 : q ≤ 2 ^ l := Nat.le_of_mul_le_mul_right p1 hc
  have q2 : b < 2 → q < 2 ^ l := fun h => Nat.lt_of_mul_lt_mul_right (p2 h)
  have h2l : 0 < 2 ^ l := by positivity
  unfold nodal refIndex
  unfold pos at hq p3
  by_cases h0 : b = 0
  · simp only [if_pos h0] at hq ⊢
    have hq0 : 0 < q := by
      rcases Nat.eq_zero_or_pos q with rfl | h
      · omega
      · exact h
    have := q2 (by omega)
    exact ⟨q - 1, by omega, by rw [Nat.sub_add_cancel hq0]; omega⟩
  · simp only [if_neg h0] at hq ⊢
    refine ⟨q, ?_, hq.symm⟩
    by_cases hb2 : b < 2
    · have := q2 hb2
      omega
    · omega

/-- Hat functions. -/
theorem hat_nestedPole [FloorRing K] {b l m lmin : ℕ} (hb : b ≤ 2) (hm : m ≤ 29) (hl : l ≤ m) (hlmin : lmin ≤ l)
    (h0 : b = 0 → lmin = 0) {A A' : ℕ → ℕ → K} {junk junk' : ℕ → ℕ → K}
    (hA : LinPole (nodal l b) (fun p loc => hierPole .hat b l lmin 0 [] (junk p) loc) A)
    (hA' : LinPole (nodal m b) (fun p loc => hierPole .hat b m lmin 0 [] (junk' p) loc) A') :
    NestedPole b l m A A' := by
  constructor
  · intro G i hi
    rw [← hat_restrict hb hm hl h0 hA hA' (fun j => lineAt l b G (((pos b j : ℕ) : K) / 2 ^ m)) hi]
    refine Finset.sum_congr rfl fun j hj => ?_
    rw [lineAt_coarse hb hl G (Finset.mem_range.1 hj)]
  · intro G i hi hne
    obtain ⟨lam, -, -, hlev, -⟩ := C14_level m b i hb hi
    have hlam : l < lam := by
      by_contra hc
      obtain ⟨i', h1, h2⟩ := exists_coarse hb hl hi hlev (by omega)
      exact hne i' h1 h2
    exact line_surplus_zero hb hm h0 hA' G hi hlev hlam (by omega)

omit [LinearOrder K] [IsStrictOrderedRing K] in
/-- The matrix of the periodic biorthogonal hierarchization. -/
theorem bioPole_val {l lmin : ℕ} (hl : lmin ≤ l) (hm : l ≤ 28) {A : ℕ → ℕ → K} {junk : ℕ → ℕ → K}
    (hA : LinPole (nodal l 1) (fun p loc => hierPole .biorthogonalPeriodic 1 l lmin 0 [] (junk p) loc) A)
    (g u : ℕ → K) (hu : ∀ q ≤ 2 ^ l, u q = poleValue 1 l ⟨nodal l 1, g⟩ q) {i : ℕ}
    (hi : i < nodal l 1) :
    ∑ j ∈ Finset.range (nodal l 1), A i j * g j =
      (List.range (l - lmin)).foldl (bioStep true (2 ^ l)) u i := by
  have hn : nodal l 1 = 2 ^ l := by simp [nodal]
  obtain ⟨m, a1, a2, a3⟩ := hA 0 ⟨nodal l 1, g⟩ rfl
  have ha := a3 i hi
  simp only at ha
  rw [← ha]
  rcases Nat.lt_or_ge lmin l with hlt | hge
  · obtain ⟨e, -⟩ := massPole_eq (K := K) (β := .biorthogonalPeriodic) (by decide) (Or.inl rfl) hlt hm 0 []
      (junk 0) ⟨nodal l 1, g⟩ (by simp) (by simp [poleLength, nodal])
    obtain rfl := Option.some.inj (a1.symm.trans e)
    simp only [Nat.zero_add]
    refine localTo_foldl (List.range (l - lmin)) (s := massStep .biorthogonalPeriodic (2 ^ l))
      (fun e he => (localTo_mass _ (by simp only [List.mem_range] at he; omega)).1) _ _ ?_ _
      (by omega)
    intro q hq
    rw [hu q hq, nodalAt_filled (by omega) _ _ rfl _ hq]
  · have : hierPole (K := K) .biorthogonalPeriodic 1 l lmin 0 [] (junk 0) ⟨nodal l 1, g⟩ =
        some ⟨nodal l 1, g⟩ := by
      unfold hierPole
      rw [if_pos hge]
    obtain rfl := Option.some.inj (a1.symm.trans this)
    rw [show l - lmin = 0 by omega, List.range_zero, List.foldl_nil, hu i (by omega)]
    unfold poleValue
    rw [if_neg (by omega), if_neg (by omega)]

/-- Between the points of its grid the interpolant is linear. -/
theorem lineAt_odds {l m b e : ℕ} (hl : e < m - l) (hlm : l ≤ m) (G : ℕ → K) {q : ℕ}
    (hq : Odds (2 ^ m) (2 ^ e) q) :
    lineAt l b G ((q : K) / 2 ^ m) = 2⁻¹ * lineAt l b G (((q - 2 ^ e : ℕ) : K) / 2 ^ m) +
      2⁻¹ * lineAt l b G (((q + 2 ^ e : ℕ) : K) / 2 ^ m) := by
  obtain ⟨o1, o2, o3⟩ := odd_facts hq.1
  have hd := Nat.div_add_mod (q - 2 ^ e) (2 * 2 ^ e)
  rw [o2, Nat.add_zero] at hd
  set r := (q - 2 ^ e) / (2 * 2 ^ e) with hr
  obtain ⟨s, hs⟩ : ∃ s, m - l = e + 1 + s := ⟨m - l - e - 1, by omega⟩
  have hdiv := Nat.div_add_mod r (2 ^ s)
  have hmod := Nat.mod_lt r (show 0 < 2 ^ s by positivity)
  set j := r / 2 ^ s with hj
  have c2 : r + 1 ≤ (j + 1) * 2 ^ s := by
    rw [add_mul, one_mul, mul_comm j]; omega
  have c1 : j * 2 ^ s ≤ r := by rw [mul_comm]; omega
  have c1' : (j : K) * 2 ^ s ≤ r := by exact_mod_cast c1
  have c2' : (r : K) + 1 ≤ ((j : K) + 1) * 2 ^ s := by exact_mod_cast c2
  have hw : (0 : K) < 2 ^ e := by positivity
  have hL : (0 : K) < 2 ^ l := by positivity
  have hS : (0 : K) < 2 ^ s := by positivity
  have hm : (2 : K) ^ m = 2 ^ l * (2 * 2 ^ e * 2 ^ s) := by
    rw [← pow_succ', ← pow_add, ← pow_add]; congr 1; omega
  have x1 : (((q - 2 ^ e : ℕ) : K)) = 2 * 2 ^ e * r := by rw [← hd]; push_cast; ring
  have x2 : (((q + 2 ^ e : ℕ) : K)) = 2 * 2 ^ e * (r + 1) := by
    rw [show q + 2 ^ e = (q - 2 ^ e) + 2 * 2 ^ e by omega, ← hd]; push_cast; ring
  have x3 : (q : K) = 2 ^ e * (2 * r + 1) := by
    rw [show q = (q - 2 ^ e) + 2 ^ e by omega, ← hd]; push_cast; ring
  have y1 : 2 * 2 ^ e * (r : K) / 2 ^ m * 2 ^ l = r / 2 ^ s := by rw [hm]; field_simp
  have y2 : 2 * 2 ^ e * ((r : K) + 1) / 2 ^ m * 2 ^ l = (r + 1) / 2 ^ s := by rw [hm]; field_simp
  have z : 2 ^ e * (2 * (r : K) + 1) / 2 ^ m =
      (2 * 2 ^ e * (r : K) / 2 ^ m + 2 * 2 ^ e * ((r : K) + 1) / 2 ^ m) / 2 := by ring
  rw [x1, x2, x3, z, lineAt_mid l b G j]
  · ring
  · rw [y1, le_div_iff₀ hS]; exact c1'
  · rw [y1, div_le_iff₀ hS]; linarith
  · rw [y2, le_div_iff₀ hS]; linarith
  · rw [y2, div_le_iff₀ hS]; exact c2'

/-- The periodic biorthogonal basis. -/
theorem bio_nestedPole [FloorRing K] {l m lmin : ℕ} (hm : m ≤ 28) (hl : l ≤ m) (hlmin : lmin ≤ l)
    {A A' : ℕ → ℕ → K} {junk junk' : ℕ → ℕ → K}
    (hA : LinPole (nodal l 1) (fun p loc => hierPole .biorthogonalPeriodic 1 l lmin 0 [] (junk p) loc) A)
    (hA' : LinPole (nodal m 1) (fun p loc => hierPole .biorthogonalPeriodic 1 m lmin 0 [] (junk' p) loc)
      A') : NestedPole 1 l m A A' := by
  obtain ⟨d, rfl⟩ : ∃ d, m = d + l := ⟨m - l, by omega⟩
  have e1 : d + l - l = d := by omega
  have hn : ∀ l, nodal l 1 = 2 ^ l := fun l => by simp [nodal]
  have hp : ∀ j, pos 1 j = j := fun j => rfl
  have hpow : 2 ^ (d + l) = 2 ^ l * 2 ^ d := by rw [pow_add, mul_comm]
  have key : ∀ G : ℕ → K, Extends (2 ^ d) (2 ^ l)
      ((List.range (d + l - lmin)).foldl (bioStep true (2 ^ (d + l)))
        fun q => lineAt l 1 G ((q : K) / 2 ^ (d + l)))
      ((List.range (l - lmin)).foldl (bioStep true (2 ^ l)) fun q => lineAt l 1 G ((q : K) / 2 ^ l)) := by
    intro G
    have hper : lineAt l 1 G (((0 : ℕ) : K) / 2 ^ (d + l)) =
        lineAt l 1 G (((2 ^ (d + l) : ℕ) : K) / 2 ^ (d + l)) := by
      have h1 := poleValue_line (L := l) (b := 1) (l := d + l) (by omega) G 0 0 (by omega)
      have h2 := poleValue_line (L := l) (b := 1) (l := d + l) (by omega) G 0 _ le_rfl
      rw [← h1, ← h2]
      unfold poleValue
      have : ¬ (0 = 2 ^ (d + l)) := by have : 0 < 2 ^ (d + l) := by positivity
                                       omega
      simp [this]
    have hfine : ∀ k ≤ d, ∀ q ≤ 2 ^ (d + l), (List.range k).foldl (bioStep true (2 ^ (d + l)))
        (fun q => lineAt l 1 G ((q : K) / 2 ^ (d + l))) q =
        if q % 2 ^ k = 0 then lineAt l 1 G ((q : K) / 2 ^ (d + l)) else 0 := by
      intro k
      induction k with
      | zero =>
        intro _ q _
        simp [Nat.mod_one]
      | succ k ih =>
        intro hk q hq
        rw [List.range_succ, List.foldl_append]
        exact bio_fine (v := fun q => lineAt l 1 G ((q : K) / 2 ^ (d + l))) (by omega) hper
          (fun q hq => lineAt_odds (by omega) (by omega) G hq) (ih (by omega)) q hq
    rw [show d + l - lmin = d + (l - lmin) by omega, List.range_add, List.foldl_append]
    refine extends_foldl _ (by omega) ⟨fun q hq => ?_, fun q hq hne => ?_⟩
    · have h1 : q * 2 ^ d ≤ 2 ^ (d + l) := by rw [hpow]; exact Nat.mul_le_mul_right _ hq
      rw [hfine d le_rfl _ h1, if_pos (Nat.mul_mod_left _ _)]
      congr 1
      push_cast
      rw [pow_add]
      have : (2 : K) ^ d ≠ 0 := by positivity
      field_simp
    · rw [← hpow] at hq
      rw [hfine d le_rfl q hq, if_neg hne]
  have hfineval : ∀ G : ℕ → K, ∀ i < nodal (d + l) 1, ∑ j ∈ Finset.range (nodal (d + l) 1),
      A' i j * lineAt l 1 G (((pos 1 j : ℕ) : K) / 2 ^ (d + l)) =
        (List.range (d + l - lmin)).foldl (bioStep true (2 ^ (d + l)))
          (fun q => lineAt l 1 G ((q : K) / 2 ^ (d + l))) i := by
    intro G i hi
    exact bioPole_val (by omega) hm hA' _ _
      (fun q hq => (poleValue_line (by omega) G _ q hq).symm) hi
  unfold NestedPole
  rw [e1]
  constructor
  · intro G i hi
    have hi' := refIndex_lt_nodal (b := 1) (R := d + l) (by omega) hl hi
    rw [e1] at hi'
    have hr : refIndex 1 d i = i * 2 ^ d := rfl
    rw [hfineval G _ hi', hr, (key G).1 i (by rw [hn] at hi; omega)]
    have := bioPole_val (by omega) (by omega) hA
      (fun j => lineAt l 1 G (((pos 1 j : ℕ) : K) / 2 ^ l)) (fun q => lineAt l 1 G ((q : K) / 2 ^ l))
      (fun q hq => (poleValue_line (by omega) G _ q hq).symm) hi
    rw [← this]
    refine Finset.sum_congr rfl fun j hj => ?_
    rw [lineAt_grid (by omega) G (Finset.mem_range.1 hj)]
  · intro G i hi hne
    rw [hfineval G i hi]
    rw [hn] at hi
    refine (key G).2 i (by rw [← hpow]; omega) fun h0 => ?_
    have hdm := Nat.div_add_mod i (2 ^ d)
    rw [h0, Nat.add_zero, mul_comm] at hdm
    refine hne (i / 2 ^ d) ?_ hdm
    rw [hn]
    rw [hpow] at hi
    exact Nat.div_lt_of_lt_mul (by rw [mul_comm]; exact hi)

end oneDim

/-! ### All dimensions -/

section box

variable {K : Type} [Field K]

/-- If the matrices `A' k` act on the fine grid like `A k` on the coarse grid on values which are given by
the coarse values in dimension `k`, then so do all of them together. -/
theorem actAll_nested {sizes sizes' : List ℕ} {ρ : List (ℕ → ℕ)} (hρ : ρ.length = sizes.length)
    (hl : sizes'.length = sizes.length) {A A' : ℕ → ℕ → ℕ → K} {φ : ℕ → (ℕ → K) → ℕ → K} {dims : List ℕ}
    (hnd : dims.Nodup) (hd : ∀ k ∈ dims, k < sizes.length)
    (hbox : ∀ x, InBox sizes x → InBox sizes' (List.zipWith (fun r x => r x) ρ x))
    (hlin : ∀ k ∈ dims, ∀ (n : ℕ) (c : ℕ → K) (G : ℕ → ℕ → K) (j : ℕ),
      φ k (fun i => ∑ s ∈ Finset.range n, c s * G s i) j = ∑ s ∈ Finset.range n, c s * φ k (G s) j)
    (hown : ∀ k ∈ dims, ∀ G : ℕ → K, ∀ i < sizes.getD k 0, φ k G ((ρ.getD k id) i) = G i)
    (h : ∀ k ∈ dims, ∀ G : ℕ → K, ∀ i < sizes.getD k 0,
      ∑ j ∈ Finset.range (sizes.getD k 0), A k i j * G j =
        ∑ j ∈ Finset.range (sizes'.getD k 0), A' k ((ρ.getD k id) i) j * φ k G j)
    (f g : List ℕ → K)
    (hf : AgreeBox sizes f fun x => g (List.zipWith (fun r x => r x) ρ x))
    (hg : ∀ k ∈ dims, ∀ x, InBox sizes' x → ∃ G, ∀ j < sizes'.getD k 0, g (x.set k j) = φ k G j) :
    AgreeBox sizes (actAll sizes A dims f)
      fun x => actAll sizes' A' dims g (List.zipWith (fun r x => r x) ρ x) := by
  induction dims generalizing f g with
  | nil => exact hf
  | cons k ks ih =>
    have hk := hd k (by simp)
    rw [List.nodup_cons] at hnd
    refine ih hnd.2 (fun k hk => hd k (by simp [hk])) (fun k hk => hlin k (by simp [hk]))
      (fun k hk => hown k (by simp [hk])) (fun k hk => h k (by simp [hk])) _ _ ?_ ?_
    · intro x hx
      have hlen := hx.length_eq
      have hxk := (inBox_getD hx hk).1
      have hρk : k < ρ.length := by omega
      have e : ∀ j, List.zipWith (fun r x => r x) ρ (x.set k j) =
          (List.zipWith (fun r x => r x) ρ x).set k ((ρ.getD k id) j) := by
        intro j
        apply List.ext_getElem
        · simp
        · intro i h1 h2
          rw [List.getElem_zipWith, List.getElem_set, List.getElem_set]
          split
          · rename_i hki
            subst hki
            rw [List.getD_eq_getElem _ _ hρk]
          · rw [List.getElem_zipWith]
      have e2 : (List.zipWith (fun r x => r x) ρ x).getD k 0 = (ρ.getD k id) (x.getD k 0) := by
        rw [List.getD_eq_getElem _ _ (by rw [List.length_zipWith]; omega), List.getElem_zipWith,
          List.getD_eq_getElem _ _ hρk, List.getD_eq_getElem _ _ (by omega)]
      have hk' : sizes.getD k 0 = sizes[k] := List.getD_eq_getElem _ _ hk
      have hk1 : k < sizes'.length := by omega
      have hk1' : sizes'.getD k 0 = sizes'[k] := List.getD_eq_getElem _ _ hk1
      obtain ⟨G, hG⟩ := hg k (by simp) _ (hbox x hx)
      have hρlt : ∀ j < sizes.getD k 0, (ρ.getD k id) j < sizes'.getD k 0 := by
        intro j hj
        have h1 := hbox _ (inBox_set hx hk (j := j) (by rw [← hk']; exact hj))
        have h2 := (inBox_getD h1 hk1).1
        rw [e, List.getD_eq_getElem _ _ (by rw [List.length_set, List.length_zipWith]; omega),
          List.getElem_set_self] at h2
        rw [hk1']
        exact h2
      simp only [act]
      rw [e2]
      have eR : ∑ j ∈ Finset.range (sizes'.getD k 0), A' k ((ρ.getD k id) (x.getD k 0)) j *
          g ((List.zipWith (fun r x => r x) ρ x).set k j) =
          ∑ j ∈ Finset.range (sizes'.getD k 0), A' k ((ρ.getD k id) (x.getD k 0)) j * φ k G j :=
        Finset.sum_congr rfl fun j hj => by rw [hG j (Finset.mem_range.1 hj)]
      rw [eR, ← h k (by simp) G _ (by rw [hk']; exact hxk)]
      refine Finset.sum_congr rfl fun j hj => ?_
      have hj' := Finset.mem_range.1 hj
      have := hf _ (inBox_set hx hk (j := j) (by rw [← hk']; exact hj'))
      simp only [e] at this
      rw [this, hG _ (hρlt j hj'), hown k (by simp) G j hj']
    · intro k' hk' x hx
      have hne : k ≠ k' := by
        rintro rfl
        exact hnd.1 hk'
      have hk1 : k < sizes'.length := by omega
      have hk1' : sizes'.getD k 0 = sizes'[k] := List.getD_eq_getElem _ _ hk1
      have : ∀ i, ∃ G, i < sizes'.getD k 0 → ∀ j < sizes'.getD k' 0, g ((x.set k i).set k' j) = φ k' G j := by
        intro i
        by_cases hi : i < sizes'.getD k 0
        · obtain ⟨G, hG⟩ := hg k' (by simp [hk']) (x.set k i) (inBox_set hx hk1 (by rw [← hk1']; exact hi))
          exact ⟨G, fun _ => hG⟩
        · exact ⟨fun _ => 0, fun h => absurd h hi⟩
      choose G hG using this
      refine ⟨fun i => ∑ s ∈ Finset.range (sizes'.getD k 0), A' k (x.getD k 0) s * G s i, fun j hj => ?_⟩
      rw [hlin k' (by simp [hk'])]
      unfold act
      refine Finset.sum_congr rfl fun s hs => ?_
      rw [getD_set_ne _ _ _ _ _ hne.symm, List.set_comm _ _ hne.symm, hG s (Finset.mem_range.1 hs) j hj]

end box

/-- Refining twice. -/
theorem refIndex_comp {b l m r : ℕ} (h1 : l ≤ m) (h2 : m ≤ r) (y : ℕ) :
    refIndex b (r - m) (refIndex b (m - l) y) = refIndex b (r - l) y := by
  have e : 2 ^ (r - l) = 2 ^ (m - l) * 2 ^ (r - m) := by rw [← pow_add]; congr 1; omega
  unfold refIndex
  split
  · have : 0 < (y + 1) * 2 ^ (m - l) := by positivity
    rw [Nat.sub_add_cancel this, e, mul_assoc]
  · rw [e, mul_assoc]

/-- The index on the grid of level `M` of the points of the grid of level `L`. -/
def refineMap (refs : List RefDim) (L M : List ℕ) : List (ℕ → ℕ) :=
  List.zipWith (fun r (p : ℕ × ℕ) => refIndex r.boundary (p.2 - p.1)) refs (List.zip L M)

theorem refineMap_box {refs : List RefDim} (hr : ∀ r ∈ refs, r.boundary ≤ 2) {L M : List ℕ}
    (hL : L.length = refs.length) (h : List.Forall₂ (· ≤ ·) L M) {x : List ℕ}
    (hx : InBox (wholeSizes refs L) x) :
    InBox (wholeSizes refs M) (List.zipWith (fun r x => r x) (refineMap refs L M) x) := by
  induction h generalizing refs x with
  | nil =>
    unfold wholeSizes at hx ⊢
    simp only [List.zipWith_nil_right] at hx ⊢
    cases hx
    rw [List.zipWith_nil_right]
    exact .nil
  | @cons l m L M h1 h2 ih =>
    cases refs with
    | nil => simp at hL
    | cons r refs =>
      unfold wholeSizes at hx
      rw [List.zipWith_cons_cons] at hx
      cases hx with
      | cons hx1 hx2 =>
        exact .cons (refIndex_lt_nodal (hr r (by simp)) h1 hx1)
          (ih (fun r h => hr r (by simp [h])) (by simpa using hL) hx2)

theorem placeOf_refine {refs : List RefDim} {L M : List ℕ} (h : List.Forall₂ (· ≤ ·) L M)
    (hM : List.Forall₂ (fun l (r : RefDim) => l ≤ r.level) M refs) (x : List ℕ) :
    placeOf refs M (List.zipWith (fun r x => r x) (refineMap refs L M) x) = placeOf refs L x := by
  induction h generalizing refs x with
  | nil => cases hM; rfl
  | @cons l m L M h1 h2 ih =>
    cases hM with
    | @cons _ r _ refs h3 h4 =>
      cases x with
      | nil => simp [placeOf]
      | cons y ys =>
        have := ih h4 ys
        simp only [placeOf, refineMap, List.zip_cons_cons, List.zipWith_cons_cons] at this ⊢
        rw [this, refIndex_comp h1 h3]

/-- Coordinates which are in the image in every dimension. -/
theorem exists_refined {sizes y : List ℕ} {ρ : List (ℕ → ℕ)} (hρ : ρ.length = sizes.length)
    (hy : y.length = sizes.length)
    (h : ∀ k, ∀ (h1 : k < sizes.length) (h2 : k < ρ.length) (h3 : k < y.length),
      ∃ i < sizes[k], ρ[k] i = y[k]) :
    ∃ x, InBox sizes x ∧ List.zipWith (fun r x => r x) ρ x = y := by
  induction sizes generalizing y ρ with
  | nil =>
    cases y with
    | nil => exact ⟨[], .nil, by simp⟩
    | cons a y => simp at hy
  | cons s sizes ih =>
    cases y with
    | nil => simp at hy
    | cons a y =>
      cases ρ with
      | nil => simp at hρ
      | cons f ρ =>
        obtain ⟨i, hi, e⟩ := h 0 (by simp) (by simp) (by simp)
        obtain ⟨x, hx, ex⟩ := ih (y := y) (ρ := ρ) (by simpa using hρ) (by simpa using hy) fun k h1 h2 h3 =>
          h (k + 1) (by simpa using h1) (by simpa using h2) (by simpa using h3)
        refine ⟨i :: x, .cons hi hx, ?_⟩
        rw [List.zipWith_cons_cons, ex]
        congr 1

/-- The bases for which interpolants of coarser grids are kept. -/
def NestedBasis (β : Basis) : Prop := β = .hat ∨ β = .biorthogonalPeriodic

instance : DecidablePred NestedBasis := fun β => by unfold NestedBasis; infer_instance

section surplus

variable {K : Type} [Field K] [LinearOrder K] [IsStrictOrderedRing K]

/-- Matrices of the hierarchization of two grids. -/
theorem nestedPoles [FloorRing K] {refs : List RefDim} (hr : ∀ r ∈ refs, ValidRef r)
    {P : CombineParams} (hP : ParamsOk refs P) (hnest : ∀ β ∈ P.bases, NestedBasis β)
    {L M : List ℕ} (hM : ValidComponent refs M)
    (hLM : List.Forall₂ (· ≤ ·) L M)
    (hlmin : List.Forall₂ (· ≤ ·) (effectiveLMin P.boundary P.lmin) L) {k : ℕ} (hk : k < refs.length)
    (hkL : k < L.length) (hkM : k < M.length) (hkO : k < (oneProcess refs).length)
    (hkb : k < P.bases.length) (hke : k < (effectiveLMin P.boundary P.lmin).length)
    {A A' : ℕ → ℕ → K}
    (hA : LinPole (nodal L[k] (oneProcess refs)[k].boundary) (fun _ loc =>
      hierPole P.bases[k] (oneProcess refs)[k].boundary L[k] (effectiveLMin P.boundary P.lmin)[k] 0 []
        (fun _ => 0) loc) A)
    (hA' : LinPole (nodal M[k] (oneProcess refs)[k].boundary) (fun _ loc =>
      hierPole P.bases[k] (oneProcess refs)[k].boundary M[k] (effectiveLMin P.boundary P.lmin)[k] 0 []
        (fun _ => 0) loc) A') :
    NestedPole refs[k].boundary L[k] M[k] A A' := by
  have hb := hnest _ (List.getElem_mem hkb)
  have h2 := (List.forall₂_iff_get.1 hP.bases).2 k hk hkb
  have h3 := (List.forall₂_iff_get.1 hLM).2 k hkL hkM
  have h4 := (List.forall₂_iff_get.1 hlmin).2 k hke hkL
  have h5 := (List.forall₂_iff_get.1 hM.le).2 k hkM hk
  simp only [List.get_eq_getElem] at h2 h3 h4 h5
  rw [(oneProcess_getElem refs k hkO hk).1] at hA hA'
  rcases hb with hb | hb
  · rw [hb] at hA hA'
    rw [hb] at h2
    have h29 : refs[k].level ≤ 29 := by rcases h2 with h2 | h2 <;> omega
    exact hat_nestedPole (hr _ (List.getElem_mem hk)).boundary (by omega) h3 h4
      (effectiveLMin_zero hP hk) (junk := fun _ _ => 0) (junk' := fun _ _ => 0) hA hA'
  · rw [hb] at hA hA'
    rw [hb] at h2
    rcases h2 with h2 | h2
    · exact absurd h2.1 (by decide)
    · have hb1 : refs[k].boundary = 1 := h2.2.2.1.2 rfl
      have := h2.2.2.2
      rw [hb1] at hA hA' ⊢
      exact bio_nestedPole (by omega) h3 h4 (junk := fun _ _ => 0) (junk' := fun _ _ => 0) hA hA'

/-- The hierarchical values of a component grid, taken at the points of a finer grid and zero elsewhere, are
the hierarchical values of the interpolant on the finer grid. -/
theorem nested_surplus [FloorRing K] {refs : List RefDim} (hr : ∀ r ∈ refs, ValidRef r)
    {P : CombineParams} (hP : ParamsOk refs P) (hnest : ∀ β ∈ P.bases, NestedBasis β)
    {H D : List ℕ → (ℕ → K) → ℕ → K}
    (hm : ∀ L, ValidComponent refs L →
      GridMaps (compDims (oneProcess refs) P L) (selectedDims P.sel) (H L) (D L))
    {L M : List ℕ} (hL : ValidComponent refs L) (hM : ValidComponent refs M)
    (hLM : List.Forall₂ (· ≤ ·) L M)
    (hlmin : List.Forall₂ (· ≤ ·) (effectiveLMin P.boundary P.lmin) L)
    (hsel : ∀ k < refs.length, P.sel.getD k false = false → M.getD k 0 ≤ L.getD k 0)
    (u : ℕ → K) {p : ℕ} (hp : p < numLocal (oneProcess refs) M) :
    (∑ q ∈ Finset.range (numLocal (oneProcess refs) L) with
        spatialOf (oneProcess refs) L q = spatialOf (oneProcess refs) M p, H L u q) =
      H M (fun q => interpAt refs L u (spatialOf (oneProcess refs) M q)) p := by
  have hr' := validRef_oneProcess hr
  have hP' := paramsOk_oneProcess hP
  have hL' := validComponent_oneProcess.2 hL
  have hM' := validComponent_oneProcess.2 hM
  have hlL := hL.le.length_eq
  have hlM := hM.le.length_eq
  have hlO : (oneProcess refs).length = refs.length := by simp [oneProcess]
  have hle : (effectiveLMin P.boundary P.lmin).length = refs.length := by rw [length_effectiveLMin, hP.lmin]
  have hlb := hP.bases.length_eq
  obtain ⟨A, a1, a2⟩ := hier_act hr' (serial_oneProcess refs) hP' hL' (hm L hL)
  obtain ⟨A', b1, b2⟩ := hier_act hr' (serial_oneProcess refs) hP' hM' (hm M hM)
  simp only [sizes_oneProcess] at a1 b1
  have hsL : (wholeSizes refs L).length = refs.length := by
    unfold wholeSizes; rw [List.length_zipWith]; omega
  have hsM : (wholeSizes refs M).length = refs.length := by
    unfold wholeSizes; rw [List.length_zipWith]; omega
  have hsize : ∀ (N : List ℕ) (hN : N.length = refs.length) (k : ℕ) (hk : k < refs.length),
      (wholeSizes refs N).getD k 0 = nodal (N[k]'(by omega)) refs[k].boundary := by
    intro N hN k hk
    have : k < (wholeSizes refs N).length := by unfold wholeSizes; rw [List.length_zipWith]; omega
    rw [List.getD_eq_getElem _ _ this]
    simp only [wholeSizes, List.getElem_zipWith]
  set ρ := refineMap refs L M with hρdef
  have hlρ : ρ.length = refs.length := by
    rw [hρdef]; unfold refineMap; rw [List.length_zipWith, List.length_zip]; omega
  have hρk : ∀ k (hk : k < refs.length), ρ.getD k id = refIndex refs[k].boundary
      (M[k]'(by omega) - L[k]'(by omega)) := by
    intro k hk
    rw [List.getD_eq_getElem _ _ (by omega)]
    simp only [hρdef, refineMap, List.getElem_zipWith, List.getElem_zip]
  have hd : ∀ k ∈ selectedDims P.sel, k < refs.length := by
    intro j hj
    have := selectedDims_lt j hj
    have := hP.sel
    omega
  have hpole : ∀ k ∈ selectedDims P.sel, ∀ (hk : k < refs.length),
      NestedPole refs[k].boundary (L[k]'(by omega)) (M[k]'(by omega)) (A k) (A' k) := by
    intro k hks hk
    exact nestedPoles hr hP hnest hM hLM hlmin hk (by omega) (by omega) (by omega) (by omega)
      (by omega) (a2 k hks (by omega) (by omega)) (b2 k hks (by omega) (by omega))
  have hb := fun r hr1 => (hr r hr1).boundary
  set g : List ℕ → K := fun x => interpAt refs L u (spatialOf (oneProcess refs) M
    (sequentialIndex (wholeSizes refs M) x)) with hgdef
  have hgx : ∀ x, InBox (wholeSizes refs M) x → g x = interpAt refs L u (placeOf refs M x) := by
    intro x hx
    rw [hgdef]
    simp only
    rw [spatial_oneProcess, getVectorIndex_sequentialIndex _ _ hx]
  -- linear in every dimension
  have hgline : ∀ k ∈ selectedDims P.sel, ∀ x, InBox (wholeSizes refs M) x →
      ∃ G, ∀ j < (wholeSizes refs M).getD k 0, g (x.set k j) =
        (fun k G j => lineAt (L.getD k 0) ((refs.map (·.boundary)).getD k 0) G
          (((pos ((refs.map (·.boundary)).getD k 0) j : ℕ) : K) / 2 ^ M.getD k 0)) k G j := by
    intro k hks x hx
    have hk := hd k hks
    obtain ⟨G, hG⟩ := interp_line refs L (placeOf refs M x) hlL (by
      unfold placeOf
      have e1 := hx.length_eq
      rw [List.length_zipWith, List.length_zipWith]
      omega) k hk fun is => u (sequentialIndex (wholeSizes refs L) is)
    refine ⟨G, fun j hj => ?_⟩
    have hkM : k < M.length := by omega
    have hkL : k < L.length := by omega
    have hj' : InBox (wholeSizes refs M) (x.set k j) :=
      inBox_set hx (by omega) (by rw [List.getD_eq_getElem _ _ (by omega)] at hj; exact hj)
    have hle := (List.forall₂_iff_get.1 hM.le).2 k hkM hk
    simp only [List.get_eq_getElem] at hle
    have e0 : (refs.map (·.boundary)).getD k 0 = refs[k].boundary := by
      rw [List.getD_eq_getElem _ _ (by simpa using hk), List.getElem_map]
    rw [hgx _ hj', placeOf_set refs M x k j hk hlM]
    unfold interpAt
    rw [hG, C16_refIndex_same_point]
    have e : (2 : K) ^ refs[k].level = 2 ^ M[k] * 2 ^ (refs[k].level - M[k]) := by
      rw [← pow_add]; congr 1; omega
    simp only [e0]
    rw [List.getD_eq_getElem _ _ hkL, List.getD_eq_getElem _ _ hkM]
    congr 1
    rw [e]
    push_cast
    have : (2 : K) ^ (refs[k].level - M[k]) ≠ 0 := by positivity
    field_simp
  set φ : ℕ → (ℕ → K) → ℕ → K := fun k G j => lineAt (L.getD k 0) ((refs.map (·.boundary)).getD k 0) G
    (((pos ((refs.map (·.boundary)).getD k 0) j : ℕ) : K) / 2 ^ M.getD k 0) with hφdef
  have hφ : ∀ k (hk : k < refs.length) (G : ℕ → K) (j : ℕ), φ k G j =
      lineAt (L[k]'(by omega)) refs[k].boundary G
        (((pos refs[k].boundary j : ℕ) : K) / 2 ^ (M[k]'(by omega))) := by
    intro k hk G j
    have e0 : (refs.map (·.boundary)).getD k 0 = refs[k].boundary := by
      rw [List.getD_eq_getElem _ _ (by simpa using hk), List.getElem_map]
    rw [hφdef]
    simp only [e0]
    rw [List.getD_eq_getElem L _ (by omega), List.getD_eq_getElem M _ (by omega)]
  have hcoarse := actAll_nested (A := A) (A' := A') (φ := φ) (ρ := ρ) (sizes := wholeSizes refs L)
    (sizes' := wholeSizes refs M) (by omega) (by omega) (selectedDims_nodup P.sel)
    (fun k hk => by rw [hsL]; exact hd k hk) (fun x hx => refineMap_box hb hlL hLM hx)
    (fun k hk n c G j => by
      simp only [hφdef, lineAt, Finset.mul_sum]
      rw [Finset.sum_comm]
      refine Finset.sum_congr rfl fun s _ => Finset.sum_congr rfl fun i _ => ?_
      ring)
    (fun k hks G i hi => by
      have hk := hd k hks
      rw [hsize L hlL k hk] at hi
      have hlm := (List.forall₂_iff_get.1 hLM).2 k (by omega) (by omega)
      rw [hφ k hk, hρk k hk]
      exact lineAt_coarse (hb _ (List.getElem_mem hk)) hlm G hi)
    (fun k hks G i hi => by
      have hk := hd k hks
      rw [hsize L hlL k hk] at hi
      rw [hsize L hlL k hk, hsize M hlM k hk, hρk k hk, (hpole k hks hk).1 G i hi]
      refine Finset.sum_congr rfl fun j _ => ?_
      rw [hφ k hk])
    (fun x => u (sequentialIndex (wholeSizes refs L) x)) g (by
      intro x hx
      simp only
      rw [hgx _ (refineMap_box hb hlL hLM hx), placeOf_refine hLM hM.le]
      unfold interpAt
      rw [Interpolation.C56_interp_grid_point _ (axesAt_boundary hb _ _) _ (axesAt_grid refs L x hL.le hx)])
    hgline
  have hnumM : numLocal (oneProcess refs) M = (wholeSizes refs M).prod := by
    unfold numLocal; rw [sizes_oneProcess]
  have hnumL : numLocal (oneProcess refs) L = (wholeSizes refs L).prod := by
    unfold numLocal; rw [sizes_oneProcess]
  obtain ⟨y1, y2⟩ := getVectorIndex_spec (wholeSizes refs M) p (by rw [← hnumM]; exact hp)
  set y := getVectorIndex (wholeSizes refs M) p with hy
  -- points of `L` at the place of `p`
  have hplace : ∀ q < numLocal (oneProcess refs) L,
      (spatialOf (oneProcess refs) L q = spatialOf (oneProcess refs) M p ↔
        List.zipWith (fun r x => r x) ρ (getVectorIndex (wholeSizes refs L) q) = y) := by
    intro q hq
    obtain ⟨x1, x2⟩ := getVectorIndex_spec (wholeSizes refs L) q (by rw [← hnumL]; exact hq)
    have hbx := refineMap_box hb hlL hLM x1
    constructor
    · intro h
      have e3 : spatialOf (oneProcess refs) M (sequentialIndex (wholeSizes refs M)
          (List.zipWith (fun r x => r x) ρ (getVectorIndex (wholeSizes refs L) q))) =
          spatialOf (oneProcess refs) M p := by
        rw [← h, spatial_oneProcess, spatial_oneProcess, getVectorIndex_sequentialIndex _ _ hbx,
          placeOf_refine hLM hM.le]
      have := spatialOf_injective (by rw [hnumM]; exact sequentialIndex_lt _ _ hbx) hp e3
      rw [hy, ← this, getVectorIndex_sequentialIndex _ _ hbx]
    · intro h
      rw [spatial_oneProcess, spatial_oneProcess, ← hy, ← h, placeOf_refine hLM hM.le]
  rw [b1 _ p hp]
  change _ = actAll (wholeSizes refs M) A' (selectedDims P.sel) g y
  by_cases hex : ∃ x, InBox (wholeSizes refs L) x ∧ List.zipWith (fun r x => r x) ρ x = y
  · obtain ⟨x, hx, hxy⟩ := hex
    have hqlt : sequentialIndex (wholeSizes refs L) x < numLocal (oneProcess refs) L := by
      rw [hnumL]; exact sequentialIndex_lt _ _ hx
    have hqx := getVectorIndex_sequentialIndex _ _ hx
    have hq := (hplace _ hqlt).2 (by rw [hqx]; exact hxy)
    rw [Finset.sum_eq_single (sequentialIndex (wholeSizes refs L) x)]
    · rw [a1 u _ hqlt, hqx, ← hxy]
      exact hcoarse x hx
    · intro q hq1 hne
      rw [Finset.mem_filter, Finset.mem_range] at hq1
      exact absurd (spatialOf_injective hq1.1 hqlt (hq1.2.trans hq.symm)) hne
    · intro hne
      exact absurd (Finset.mem_filter.2 ⟨Finset.mem_range.2 hqlt, hq⟩) hne
  · rw [Finset.sum_eq_zero]
    · symm
      have : ∃ k, ∃ hk : k < refs.length, ∀ i < nodal (L[k]'(by omega)) refs[k].boundary,
          refIndex refs[k].boundary (M[k]'(by omega) - L[k]'(by omega)) i ≠ y.getD k 0 := by
        by_contra hcon
        push Not at hcon
        refine hex (exists_refined (by omega) (by rw [y1.length_eq]; omega) fun k h1 h2 h3 => ?_)
        have hk : k < refs.length := by omega
        obtain ⟨i, hi, e⟩ := hcon k hk
        refine ⟨i, ?_, ?_⟩
        · have := hsize L hlL k hk
          rw [List.getD_eq_getElem _ _ h1] at this
          rw [this]
          exact hi
        · have := hρk k hk
          rw [List.getD_eq_getElem _ _ h2] at this
          rw [this, e, List.getD_eq_getElem _ _ h3]
      obtain ⟨k, hk, hno⟩ := this
      have hyk : y.getD k 0 < nodal (M[k]'(by omega)) refs[k].boundary := by
        have := (inBox_getD y1 (by omega : k < (wholeSizes refs M).length)).1
        have h2 := hsize M hlM k hk
        rw [List.getD_eq_getElem _ _ (by omega)] at h2
        rw [← h2]
        exact this
      have hks : k ∈ selectedDims P.sel := by
        unfold selectedDims
        rw [List.mem_filter, List.mem_range, hP.sel]
        refine ⟨hk, ?_⟩
        by_contra hcon
        have h1 := hsel k hk (by simpa using hcon)
        have h2 := (List.forall₂_iff_get.1 hLM).2 k (by omega) (by omega)
        simp only [List.get_eq_getElem] at h2
        rw [List.getD_eq_getElem M _ (by omega), List.getD_eq_getElem L _ (by omega)] at h1
        have e : M[k]'(by omega) = L[k]'(by omega) := by omega
        refine hno (y.getD k 0) (by rw [← e]; exact hyk) ?_
        rw [e, Nat.sub_self]
        unfold refIndex
        split <;> simp
      rw [actAll_perm _ A' (List.perm_cons_erase hks)]
      refine actAll_zero_slice (g := act ((wholeSizes refs M).getD k 0) (A' k) k g) (i := y.getD k 0)
        (fun j hj => by rw [hsM]; exact hd j (List.mem_of_mem_erase hj)) A'
        (fun h => ((selectedDims_nodup P.sel).mem_erase_iff.1 h).1 rfl) ?_ _ y1 rfl
      intro x hx hxk
      obtain ⟨G, hG⟩ := hgline k hks x hx
      unfold act
      rw [hxk]
      rw [hsize M hlM k hk] at hG ⊢
      rw [← (hpole k hks hk).2 G _ hyk hno]
      refine Finset.sum_congr rfl fun j hj => ?_
      rw [hG j (Finset.mem_range.1 hj)]
      exact congrArg _ (hφ k hk G j)
    · intro q hq
      rw [Finset.mem_filter, Finset.mem_range] at hq
      have h1 := (hplace q hq.1).1 hq.2
      exact absurd ⟨_, (getVectorIndex_spec (wholeSizes refs L) q (by rw [← hnumL]; exact hq.1)).1, h1⟩ hex

/-- Dehierarchizing the combined hierarchical values on a grid finer than all component grids gives the
combination of the interpolants. -/
theorem nested_interp [FloorRing K] {refs : List RefDim} (hr : ∀ r ∈ refs, ValidRef r)
    {P : CombineParams} (hP : ParamsOk refs P) (hnest : ∀ β ∈ P.bases, NestedBasis β)
    {H D : List ℕ → (ℕ → K) → ℕ → K}
    (hm : ∀ L, ValidComponent refs L →
      GridMaps (compDims (oneProcess refs) P L) (selectedDims P.sel) (H L) (D L))
    {n : ℕ} {T : ℕ → List (K × List ℕ × (ℕ → K))} {M : List ℕ} (hM : ValidComponent refs M)
    (hT : ∀ g < n, ∀ t ∈ T g, ValidComponent refs t.2.1 ∧ List.Forall₂ (· ≤ ·) t.2.1 M ∧
      List.Forall₂ (· ≤ ·) (effectiveLMin P.boundary P.lmin) t.2.1 ∧
      ∀ k < refs.length, P.sel.getD k false = false → M.getD k 0 ≤ t.2.1.getD k 0)
    {p : ℕ} (hp : p < numLocal (oneProcess refs) M) :
    D M (fun q => valueAtPlace (oneProcess refs) n (hierVals H T) (spatialOf (oneProcess refs) M q)) p =
      ((List.range n).map fun m => ((T m).map fun t =>
        t.1 * interpAt refs t.2.1 t.2.2 (spatialOf (oneProcess refs) M p)).sum).sum := by
  have hnum : ((compDims (oneProcess refs) P M).map fun s => nodal s.lmax s.b).prod =
      numLocal (oneProcess refs) M := by
    rw [compDims_sizes (serial_oneProcess refs) (paramsOk_oneProcess hP)
      (validComponent_oneProcess.2 hM).le.length_eq]; rfl
  obtain ⟨A, a1, -⟩ := hier_act (validRef_oneProcess hr) (serial_oneProcess refs)
    (paramsOk_oneProcess hP) (validComponent_oneProcess.2 hM) (hm M hM)
  set W : ℕ → K := fun q => ((List.range n).map fun m => ((T m).map fun t =>
    t.1 * interpAt refs t.2.1 t.2.2 (spatialOf (oneProcess refs) M q)).sum).sum with hW
  have key : ∀ q < numLocal (oneProcess refs) M,
      valueAtPlace (oneProcess refs) n (hierVals H T) (spatialOf (oneProcess refs) M q) = H M W q := by
    intro q hq
    rw [a1 W q hq, hW]
    simp only
    rw [actAll_listSum _ _ _ _ fun m x => ((T m).map fun t =>
      t.1 * interpAt refs t.2.1 t.2.2 (spatialOf (oneProcess refs) M
        (sequentialIndex ((List.zipWith localOf (oneProcess refs) M).map (·.size)) x))).sum]
    unfold valueAtPlace
    congr 1
    refine List.map_congr_left fun m hmem => ?_
    rw [actAll_listSum _ _ _ _ fun (t : K × List ℕ × (ℕ → K)) x =>
      t.1 * interpAt refs t.2.1 t.2.2 (spatialOf (oneProcess refs) M
        (sequentialIndex ((List.zipWith localOf (oneProcess refs) M).map (·.size)) x))]
    unfold hierVals
    rw [List.map_map]
    congr 1
    refine List.map_congr_left fun t ht => ?_
    obtain ⟨t1, t2, t3, t4⟩ := hT m (List.mem_range.1 hmem) t ht
    rw [actAll_mul, ← a1 (fun q => interpAt refs t.2.1 t.2.2 (spatialOf (oneProcess refs) M q)) q hq]
    simp only [Function.comp]
    rw [nested_surplus hr hP hnest hm t1 hM t2 t3 t4 t.2.2 hq]
  rw [((hm M hM).congr _ (H M W) (by rw [hnum]; exact key) p (by rw [hnum]; exact hp)).2]
  exact ((hm M hM).inv W p (by rw [hnum]; exact hp)).1

end surplus

end Verif

import Verif.Lemmas.RoundedKernels
import Verif.Lemmas.PoleRelation

/-! Lemmas about rounding errors of grids. -/

namespace Verif

section Errors

variable {K : Type} [Field K] [LinearOrder K] [IsStrictOrderedRing K]

/-- The number of levels that are hierarchized in a dimension. -/
def HatDim.levels (s : HatDim) : ℕ := s.lmax - if s.b = 0 then 0 else s.lmin

/-- Dimensions for which the kernels are defined. -/
def HatDim.Ok (s : HatDim) : Prop := s.b ≤ 2 ∧ s.lmax ≤ 29 ∧ (s.b = 0 → 0 < s.lmax)

theorem nodalAt_bound {b lmax : ℕ} (hb : b ≤ 2) (w : ℕ → K) {M : K} (hM : 0 ≤ M)
    (h : ∀ j < poleLength lmax b, |w j| ≤ M) (p : ℕ) (hp : p ≤ 2 ^ lmax) :
    |nodalAt b lmax w p| ≤ M := by
  have hpos : 0 < 2 ^ lmax := by positivity
  unfold poleLength at h
  unfold nodalAt pad
  split_ifs with h0 h1 h2
  · simpa using hM
  · exact h _ (by omega)
  · exact h _ (by omega)
  · exact h _ (by omega)

/-- What a dimension needs to know about rounding: `C` is the matrix of the hierarchization. -/
structure HatPole (s : HatDim) (C : ℕ → ℕ → K) : Prop where
  exact : ∀ junk : ℕ → ℕ → K, LinPole (poleLength s.lmax s.b)
    (fun p loc => hierPole .hat s.b s.lmax s.lmin 0 [] (junk p) loc) C
  norm : ∀ (w : ℕ → K) (M : K), (∀ j < poleLength s.lmax s.b, |w j| ≤ M) →
    ∀ i < poleLength s.lmax s.b, |∑ j ∈ Finset.range (poleLength s.lmax s.b), C i j * w j| ≤ 2 * M
  hier : ∀ (u : K) (A : Adder K), 0 ≤ u → 4 * u ≤ 1 → Rounds u A → ∀ junk : ℕ → ℕ → K,
    RelPole (poleLength s.lmax s.b) (fun p loc => hierPoleHat A s.b s.lmax s.lmin 0 [] (junk p) loc)
      fun a c => ∀ M, (∀ j < poleLength s.lmax s.b, |a j| ≤ M) → ∀ i < poleLength s.lmax s.b,
        |c i - ∑ j ∈ Finset.range (poleLength s.lmax s.b), C i j * a j| ≤ 4 * u * M
  dehier : ∀ (u : K) (A : Adder K), 0 ≤ u → 4 * u ≤ 1 → Rounds u A → ∀ junk : ℕ → ℕ → K,
    RelPole (poleLength s.lmax s.b) (fun p loc => dehierPoleHat A s.b s.lmax s.lmin 0 [] (junk p) loc)
      fun a c => ∀ (w : ℕ → K) (M η : K), (∀ j < poleLength s.lmax s.b, |w j| ≤ M) →
        (∀ i < poleLength s.lmax s.b,
          |a i - ∑ j ∈ Finset.range (poleLength s.lmax s.b), C i j * w j| ≤ η) →
        (s.levels + 1) * η + s.levels * (6 * u * M) ≤ M → ∀ i < poleLength s.lmax s.b,
        |c i - w i| ≤ (s.levels + 1) * η + s.levels * (6 * u * M)

theorem hatPole (s : HatDim) (hs : s.Ok) : ∃ C : ℕ → ℕ → K, HatPole s C := by
  obtain ⟨b, lmax, lmin⟩ := s
  obtain ⟨hb, hm, h0⟩ := hs
  simp only at hb hm h0
  obtain ⟨C, _, hC⟩ := hat_linPole (K := K) (b := b) (lmax := lmax) (lmin := lmin) hb hm
  have hpos : 0 < 2 ^ lmax := by positivity
  have hn : 0 < poleLength lmax b := by
    unfold poleLength
    rcases Nat.eq_zero_or_pos b with h | h
    · have := Nat.one_lt_two_pow (h0 h).ne'
      omega
    · omega
  rcases Nat.lt_or_ge lmin lmax with hl | hl
  swap
  · -- nothing happens
    have hI : ∀ (w : ℕ → K), ∀ i < poleLength lmax b,
        ∑ j ∈ Finset.range (poleLength lmax b), C i j * w j = w i := by
      intro w i hi
      obtain ⟨m, e1, -, e3⟩ := (hC fun _ _ => 0).1 0 ⟨poleLength lmax b, w⟩ rfl
      unfold hierPole at e1
      simp only [if_pos hl] at e1
      cases e1
      exact (e3 i hi).symm
    refine ⟨C, fun junk => (hC junk).1, ?_, ?_, ?_⟩
    · intro w M h i hi
      rw [hI w i hi]
      have := h i hi
      linarith [abs_nonneg (w i)]
    · intro u A u0 u1 hA junk p loc hlen
      refine ⟨loc, if_pos hl, hlen, ?_⟩
      intro M h i hi
      rw [hI _ i hi, sub_self, abs_zero]
      have : 0 ≤ M := (abs_nonneg _).trans (h i hi)
      positivity
    · intro u A u0 u1 hA junk p loc hlen
      refine ⟨loc, if_pos hl, hlen, ?_⟩
      intro w M η h h' _ i hi
      have h1 := h' i hi
      rw [hI _ i hi] at h1
      have hη : 0 ≤ η := (abs_nonneg _).trans h1
      have hM : 0 ≤ M := (abs_nonneg _).trans (h i hi)
      refine h1.trans ?_
      have h2 : (0 : K) ≤ (HatDim.levels ⟨b, lmax, lmin⟩ : K) := Nat.cast_nonneg _
      have h3 : 0 ≤ (HatDim.levels ⟨b, lmax, lmin⟩ : K) * η := by positivity
      have h4 : 0 ≤ (HatDim.levels ⟨b, lmax, lmin⟩ : K) * (6 * u * M) := by positivity
      linarith
  set kk := lmax - (if b = 0 then 0 else lmin) with hkk
  have hlev : HatDim.levels ⟨b, lmax, lmin⟩ = kk := rfl
  have hkl : kk ≤ lmax := by omega
  have hes : ∀ e ∈ List.range kk, e < lmax := by
    intro e he
    rw [List.mem_range] at he
    omega
  -- the matrix in terms of positions
  have hpos1 : ∀ (w : ℕ → K), ∀ i < poleLength lmax b,
      ∑ j ∈ Finset.range (poleLength lmax b), C i j * w j =
        (List.range kk).foldl (hatStep (2 ^ lmax)) (nodalAt b lmax w) (i + posOff b) := by
    intro w i hi
    obtain ⟨m, e1, -, e3⟩ := (hC fun _ _ => 0).1 0 ⟨poleLength lmax b, w⟩ rfl
    obtain ⟨m', f1, f2, f3⟩ := hierPole_hat_eq hb hl hm 0 [] (fun _ => (0 : K)) ⟨poleLength lmax b, w⟩
      (by simp) (by simp)
    simp only at e1
    rw [e1] at f1
    cases f1
    rw [← e3 i hi, f3 i hi, Nat.zero_add]
    refine agree_upto lmax _ _ hes _ _ (nodalAt_congr hb _ _ ?_) _ (posOff_le hb hi)
    intro q hq
    rw [filled_serial _ _ _ hq]
  refine ⟨C, fun junk => (hC junk).1, ?_, ?_, ?_⟩
  · intro w M h i hi
    rw [hpos1 w i hi]
    have hM : 0 ≤ M := (abs_nonneg _).trans (h i hi)
    exact hat_value_bounds hkl _ (nodalAt_bound hb w hM h) _ (posOff_le hb hi)
  · intro u A u0 u1 hA junk p loc hlen
    simp only at hlen
    obtain ⟨m, e1, e2, e3⟩ := hierPoleHat_eq A hb hl hm 0 [] (junk p) loc (by simp) (by omega)
    refine ⟨m, e1, by simp only; omega, ?_⟩
    intro M h i hi
    have hM : 0 ≤ M := (abs_nonneg _).trans (h i hi)
    rw [hpos1 _ i hi, e3 i (by simp only at hi; omega), Nat.zero_add]
    have e4 := agree_upto lmax (hatF A b) (List.range kk) hes
      (nodalAt b lmax (filled 0 [] (junk p) loc)) (nodalAt b lmax loc.val)
      (nodalAt_congr hb _ _ fun q hq => filled_serial _ _ _ (by omega)) (i + posOff b) (posOff_le hb hi)
    have e5 : (hatExps b lmax lmin).foldl (stepOf (hatF A b) (2 ^ lmax))
        (nodalAt b lmax (filled 0 [] (junk p) loc)) (i + posOff b) =
        (List.range kk).foldl (stepOf (hatF A b) (2 ^ lmax)) (nodalAt b lmax loc.val)
          (i + posOff b) := e4
    rw [e5]
    exact hat_error u0 u1 hA b hkl _ (nodalAt_bound hb _ hM h) _ (posOff_le hb hi)
  · intro u A u0 u1 hA junk p loc hlen
    simp only at hlen
    obtain ⟨m, e1, e2, e3⟩ := dehierPoleHat_eq A hb hl hm 0 [] (junk p) loc (by simp) (by omega)
    refine ⟨m, e1, by simp only; omega, ?_⟩
    intro w M η h h' hsmall i hi
    rw [hlev] at hsmall ⊢
    simp only at h h' hi
    have hM : 0 ≤ M := (abs_nonneg _).trans (h i hi)
    have hη : 0 ≤ η := (abs_nonneg _).trans (h' i hi)
    have hum : 0 ≤ 6 * u * M := by positivity
    -- surpluses at positions
    have hsur : ∀ q ≤ 2 ^ lmax, |nodalAt b lmax loc.val q -
        (List.range kk).foldl (hatStep (2 ^ lmax)) (nodalAt b lmax w) q| ≤ η := by
      intro q hq
      by_cases hidx : ∃ j < poleLength lmax b, q = j + posOff b
      · obtain ⟨j, hj, rfl⟩ := hidx
        rw [nodalAt_index hb _ j hj, ← hpos1 w j hj]
        exact h' j hj
      · have hends : q = 0 ∨ q = 2 ^ lmax := by
          by_contra hc
          refine hidx ⟨q - posOff b, ?_, ?_⟩
          · unfold posOff poleLength
            split_ifs <;> omega
          · unfold posOff
            split_ifs <;> omega
        rw [(unhat_ends lmax _ _ q hends).2]
        rcases Nat.eq_zero_or_pos b with rfl | hb0
        · have z : ∀ f : ℕ → K, nodalAt 0 lmax f q = 0 := by
            intro f
            rcases hends with rfl | rfl
            · exact ((nodalAt_ends f).1 rfl).1
            · exact ((nodalAt_ends f).1 rfl).2
          rw [z, z, sub_zero, abs_zero]
          exact hη
        · have hq' : b = 1 ∧ q = 2 ^ lmax := by
            by_contra hc
            refine hidx ⟨q, ?_, ?_⟩
            · unfold poleLength; omega
            · unfold posOff; rw [if_neg (by omega), Nat.add_zero]
          obtain ⟨rfl, rfl⟩ := hq'
          rw [(nodalAt_ends loc.val).2 rfl, (nodalAt_ends w).2 rfl]
          have h1 := h' 0 hn
          have p0 : posOff 1 = 0 := rfl
          rw [hpos1 w 0 hn, (unhat_ends lmax _ _ (0 + posOff 1) (Or.inl (by rw [p0]))).2] at h1
          have i0 := nodalAt_index (by omega : (1 : ℕ) ≤ 2) loc.val 0 hn
          rw [p0] at h1 i0
          rw [Nat.zero_add] at h1 i0
          rw [i0]
          exact h1
    have hv := nodalAt_bound hb w hM h
    obtain ⟨c1, c2⟩ := hat_foldl_closed lmax kk hkl (nodalAt b lmax w)
    have hk' : unhatExps b lmax lmin ≤ kk := by
      rw [hkk]; unfold unhatExps; split_ifs <;> omega
    rw [e3 i (by omega), Nat.zero_add]
    have hes' : ∀ e ∈ (List.range (unhatExps b lmax lmin)).reverse, e < lmax := by
      intro e he
      rw [List.mem_reverse, List.mem_range] at he
      omega
    have e4 := agree_upto lmax (unhatF A b) (List.range (unhatExps b lmax lmin)).reverse hes'
      (nodalAt b lmax (filled 0 [] (junk p) loc)) (nodalAt b lmax loc.val)
      (nodalAt_congr hb _ _ fun q hq => filled_serial _ _ _ (by omega)) (i + posOff b) (posOff_le hb hi)
    have e5 : (List.range (unhatExps b lmax lmin)).reverse.foldl (stepOf (unhatF A b) (2 ^ lmax))
        (nodalAt b lmax (filled 0 [] (junk p) loc)) (i + posOff b) =
        (List.range (unhatExps b lmax lmin)).reverse.foldl (stepOf (unhatF A b) (2 ^ lmax))
          (nodalAt b lmax loc.val) (i + posOff b) := e4
    rw [e5, ← nodalAt_index hb w i hi]
    have hcast : ((unhatExps b lmax lmin : ℕ) : K) ≤ (kk : K) := Nat.cast_le.2 hk'
    have hle : η + (unhatExps b lmax lmin : ℕ) * (η + 6 * u * M) ≤
        (kk + 1) * η + kk * (6 * u * M) := by
      have := mul_le_mul_of_nonneg_right hcast (show 0 ≤ η + 6 * u * M by positivity)
      linarith
    refine (unhat_error u0 u1 hA b (by omega) hη (nodalAt b lmax w) hv (hle.trans hsmall)
      (nodalAt b lmax loc.val) ?_ ?_ _ (posOff_le hb hi)).trans hle
    · intro q hq hd
      have h1 := hsur q hq
      have h2 : (List.range kk).foldl (hatStep (2 ^ lmax)) (nodalAt b lmax w) q = nodalAt b lmax w q := by
        rcases Nat.eq_zero_or_pos b with rfl | hb0
        · have hkl2 : kk = lmax := by rw [hkk]; simp
          have hd2 : 2 ^ (lmax - 1) ∣ q := hd
          rcases Nat.lt_or_ge q (2 ^ lmax) with hlt | hge
          · by_cases hq0 : q = 0
            · subst hq0
              exact c1 0 (Or.inl (dvd_zero _))
            · have h2p : 2 * 2 ^ (lmax - 1) = 2 ^ lmax := by
                rw [← pow_succ']; congr 1; omega
              obtain ⟨c, hc⟩ := hd2
              have hc1 : c = 1 := by
                have hpp : 0 < 2 ^ (lmax - 1) := by positivity
                have hc2 : c < 2 := by
                  by_contra hc2
                  have : 2 ^ (lmax - 1) * 2 ≤ 2 ^ (lmax - 1) * c := Nat.mul_le_mul_left _ (by omega)
                  omega
                have hc0 : c ≠ 0 := by rintro rfl; omega
                omega
              rw [hc1, mul_one] at hc
              have hmod : q % (2 * 2 ^ (lmax - 1)) = 2 ^ (lmax - 1) := by
                rw [h2p, Nat.mod_eq_of_lt hlt, hc]
              rw [c2 (lmax - 1) (by omega) q hlt hmod, hc, Nat.sub_self]
              have a1 := ((nodalAt_ends (b := 0) (lmax := lmax) w).1 rfl).1
              have a2 := ((nodalAt_ends (b := 0) (lmax := lmax) w).1 rfl).2
              rw [a1, show 2 ^ (lmax - 1) + 2 ^ (lmax - 1) = 2 ^ lmax by omega, a2]
              ring
          · exact c1 q (Or.inr hge)
        · refine c1 q (Or.inl ?_)
          have : unhatExps b lmax lmin = kk := by
            rw [hkk]; unfold unhatExps
            rw [if_neg (by omega), if_neg (by omega)]
          rw [← this]
          exact hd
      rwa [h2] at h1
    · intro e he q hq hm'
      have h1 := hsur q hq.le
      rwa [c2 e (by omega) q hq hm'] at h1

/-! ### Grids -/

variable {sizes : List ℕ}

/-- All values of a box are bounded. -/
def BoxBound (sizes : List ℕ) (f : List ℕ → K) (M : K) : Prop := ∀ x, InBox sizes x → |f x| ≤ M

/-- The part of `HatPole` for the dimension `k` of a grid. -/
def hatSizes (g : List HatDim) : List ℕ := g.map fun s => poleLength s.lmax s.b

theorem hatSizes_get (g : List HatDim) {k : ℕ} (hk : k < g.length) :
    (hatSizes g).getD k 0 = poleLength g[k].lmax g[k].b := by
  unfold hatSizes
  rw [List.getD_eq_getElem _ _ (by simpa using hk)]; simp

theorem hatSizes_pos {g : List HatDim} (hg : ∀ s ∈ g, s.Ok) : ∀ n ∈ hatSizes g, 0 < n := by
  intro n hn
  obtain ⟨s, hs, rfl⟩ := List.mem_map.1 hn
  obtain ⟨-, -, h2⟩ := hg s hs
  unfold poleLength
  rcases Nat.eq_zero_or_pos s.b with h | h
  · have := Nat.one_lt_two_pow (h2 h).ne'
    omega
  · have : 0 < 2 ^ s.lmax := by positivity
    omega

omit [IsStrictOrderedRing K] in
theorem act_bound {g : List HatDim} {k : ℕ} (hk : k < g.length) {C : ℕ → ℕ → K}
    (hC : HatPole g[k] C) {f : List ℕ → K} {M : K} (hf : BoxBound (hatSizes g) f M) :
    BoxBound (hatSizes g) (act ((hatSizes g).getD k 0) C k f) (2 * M) := by
  intro x hx
  have hk' : k < (hatSizes g).length := by simpa [hatSizes] using hk
  obtain ⟨h1, -⟩ := inBox_getD hx hk'
  rw [← List.getD_eq_getElem (hatSizes g) 0 hk', hatSizes_get g hk] at h1
  unfold act
  rw [hatSizes_get g hk]
  refine hC.norm (fun j => f (x.set k j)) M (fun j hj => hf _ (inBox_set hx hk' ?_)) _ h1
  rw [← List.getD_eq_getElem (hatSizes g) 0 hk', hatSizes_get g hk]
  exact hj

omit [IsStrictOrderedRing K] in
theorem actAll_bound {g : List HatDim} {dims : List ℕ} (hd : ∀ k ∈ dims, k < g.length)
    {C : ℕ → ℕ → ℕ → K} (hC : ∀ k (hk : k < g.length), HatPole g[k] (C k)) {f : List ℕ → K} {M : K}
    (hf : BoxBound (hatSizes g) f M) :
    BoxBound (hatSizes g) (actAll (hatSizes g) C dims f) (2 ^ dims.length * M) := by
  induction dims generalizing f M with
  | nil => simpa [actAll] using hf
  | cons k ks ih =>
    have := ih (fun k hk => hd k (by simp [hk])) (act_bound (hd k (by simp)) (hC k (hd k (by simp))) hf)
    rw [List.length_cons, pow_succ, mul_assoc]
    exact this

omit [LinearOrder K] [IsStrictOrderedRing K] in
theorem act_sub (n : ℕ) (C : ℕ → ℕ → K) (k : ℕ) (f h : List ℕ → K) (x : List ℕ) :
    act n C k (fun x => f x - h x) x = act n C k f x - act n C k h x := by
  unfold act
  rw [← Finset.sum_sub_distrib]
  exact Finset.sum_congr rfl fun j _ => by ring

/-- The matrices of a grid. -/
theorem hatPoles {g : List HatDim} (hg : ∀ s ∈ g, s.Ok) :
    ∃ C : ℕ → ℕ → ℕ → K, ∀ k (hk : k < g.length), HatPole g[k] (C k) := by
  have : ∀ k, ∃ C : ℕ → ℕ → K, ∀ hk : k < g.length, HatPole g[k] C := by
    intro k
    by_cases hk : k < g.length
    · obtain ⟨C, h⟩ := hatPole (K := K) g[k] (hg _ (List.getElem_mem hk))
      exact ⟨C, fun _ => h⟩
    · exact ⟨fun _ _ => 0, fun h => absurd h hk⟩
  choose C h using this
  exact ⟨C, h⟩

/-- Hierarchization of one dimension. -/
theorem hier_dim {g : List HatDim} (hg : ∀ s ∈ g, s.Ok) {k : ℕ} (hk : k < g.length) {C : ℕ → ℕ → K}
    (hC : HatPole g[k] C) {u : K} {A : Adder K} (u0 : 0 ≤ u) (u1 : 4 * u ≤ 1) (hA : Rounds u A)
    (junk : ℕ → ℕ → ℕ → K) (d : Buf K) (hd : d.len = (hatSizes g).prod) :
    ∃ r, mapPoles (hatSizes g) (fun p loc => (g[k]?).bind fun s =>
        hierPoleHat A s.b s.lmax s.lmin 0 [] (junk k p) loc) d k = some r ∧ r.len = d.len ∧
      ∀ (f : List ℕ → K) (M η : K), BoxBound (hatSizes g) f M →
        BoxBound (hatSizes g) (fun x => d.val (sequentialIndex (hatSizes g) x) - f x) η →
        BoxBound (hatSizes g) (fun x => r.val (sequentialIndex (hatSizes g) x) -
          act ((hatSizes g).getD k 0) C k f x) ((2 + 4 * u) * η + 4 * u * M) := by
  have hk' : k < (hatSizes g).length := by simpa [hatSizes] using hk
  have hn : (hatSizes g)[k] = poleLength g[k].lmax g[k].b := by
    rw [← List.getD_eq_getElem (hatSizes g) 0 hk', hatSizes_get g hk]
  have e2 : g[k]? = some g[k] := by simp [hk]
  simp only [e2, Option.bind_some]
  have hQ := hC.hier u A u0 u1 hA (junk k)
  rw [← hn] at hQ
  obtain ⟨r, h1, h2, h3⟩ := mapPoles_rel (hatSizes g) (hatSizes_pos hg) k hk' (by
    intro a a' c c' ha hc hQ M hM i hi
    have := hQ M (fun j hj => by rw [ha j hj]; exact hM j hj) i hi
    rw [hc i hi] at this
    rw [Finset.sum_congr rfl fun j hj => by rw [ha j (by simpa using hj)]] at this
    exact this) hQ d hd
  refine ⟨r, h1, h2, ?_⟩
  intro f M η hf hη x hx
  obtain ⟨b1, b2⟩ := inBox_getD hx hk'
  have h4 := h3 x hx (M + η) (by
    intro j hj
    have a1 := hf _ (inBox_set hx hk' hj)
    have a2 := hη _ (inBox_set hx hk' hj)
    simp only at a2
    have e : d.val (sequentialIndex (hatSizes g) (x.set k j)) =
        (d.val (sequentialIndex (hatSizes g) (x.set k j)) - f (x.set k j)) + f (x.set k j) := by ring
    beta_reduce
    rw [e]
    exact (abs_add_le _ _).trans (by linarith)) _ b1
  simp only [b2] at h4
  have h5 := act_bound hk hC hη x hx
  rw [act_sub] at h5
  have e3 : ∑ j ∈ Finset.range (hatSizes g)[k],
      C (x.getD k 0) j * d.val (sequentialIndex (hatSizes g) (x.set k j)) =
      act ((hatSizes g).getD k 0) C k (fun x => d.val (sequentialIndex (hatSizes g) x)) x := by
    rw [List.getD_eq_getElem _ _ hk']
    rfl
  rw [e3] at h4
  simp only
  have e4 : ∀ a b c : K, a - c = (a - b) + (b - c) := fun a b c => by ring
  rw [e4 _ (act ((hatSizes g).getD k 0) C k (fun x => d.val (sequentialIndex (hatSizes g) x)) x) _]
  refine (abs_add_le _ _).trans ?_
  linarith

omit [IsStrictOrderedRing K] in
/-- Dehierarchization of one dimension. -/
theorem dehier_dim {g : List HatDim} (hg : ∀ s ∈ g, s.Ok) {k : ℕ} (hk : k < g.length) {C : ℕ → ℕ → K}
    (hC : HatPole g[k] C) {u : K} {A : Adder K} (u0 : 0 ≤ u) (u1 : 4 * u ≤ 1) (hA : Rounds u A)
    (junk : ℕ → ℕ → ℕ → K) (d : Buf K) (hd : d.len = (hatSizes g).prod) :
    ∃ r, mapPoles (hatSizes g) (fun p loc => (g[k]?).bind fun s =>
        dehierPoleHat A s.b s.lmax s.lmin 0 [] (junk k p) loc) d k = some r ∧ r.len = d.len ∧
      ∀ (f : List ℕ → K) (M η : K), BoxBound (hatSizes g) f M →
        BoxBound (hatSizes g) (fun x => d.val (sequentialIndex (hatSizes g) x) -
          act ((hatSizes g).getD k 0) C k f x) η →
        (g[k].levels + 1) * η + g[k].levels * (6 * u * M) ≤ M →
        BoxBound (hatSizes g) (fun x => r.val (sequentialIndex (hatSizes g) x) - f x)
          ((g[k].levels + 1) * η + g[k].levels * (6 * u * M)) := by
  have hk' : k < (hatSizes g).length := by simpa [hatSizes] using hk
  have hn : (hatSizes g)[k] = poleLength g[k].lmax g[k].b := by
    rw [← List.getD_eq_getElem (hatSizes g) 0 hk', hatSizes_get g hk]
  have e2 : g[k]? = some g[k] := by simp [hk]
  simp only [e2, Option.bind_some]
  have hQ := hC.dehier u A u0 u1 hA (junk k)
  rw [← hn] at hQ
  obtain ⟨r, h1, h2, h3⟩ := mapPoles_rel (hatSizes g) (hatSizes_pos hg) k hk' (by
    intro a a' c c' ha hc hQ w M η hw hη hs i hi
    have := hQ w M η hw (fun j hj => by rw [ha j hj]; exact hη j hj) hs i hi
    rw [hc i hi] at this
    exact this) hQ d hd
  refine ⟨r, h1, h2, ?_⟩
  intro f M η hf hη hs x hx
  obtain ⟨b1, b2⟩ := inBox_getD hx hk'
  have hl : k < x.length := by have := hx.length_eq; omega
  have h4 := h3 x hx (fun j => f (x.set k j)) M η (fun j hj => hf _ (inBox_set hx hk' hj)) (by
    intro i hi
    have a1 := hη _ (inBox_set hx hk' hi)
    simp only [act, List.set_set] at a1
    have a2 : (x.set k i).getD k 0 = i := by simp [hl]
    rw [a2, List.getD_eq_getElem _ _ hk'] at a1
    exact a1) hs _ b1
  simp only [b2] at h4
  exact h4

/-- Hierarchization of all dimensions. -/
theorem hier_all {g : List HatDim} (hg : ∀ s ∈ g, s.Ok) {dims : List ℕ} (hd : ∀ k ∈ dims, k < g.length)
    {C : ℕ → ℕ → ℕ → K} (hC : ∀ k (hk : k < g.length), HatPole g[k] (C k)) {u : K} {A : Adder K}
    (u0 : 0 ≤ u) (u1 : 4 * u ≤ 1) (hA : Rounds u A) (junk : ℕ → ℕ → ℕ → K) (d : Buf K)
    (hlen : d.len = (hatSizes g).prod) :
    ∃ r, hierarchizeHat A g junk dims d = some r ∧ r.len = d.len ∧
      ∀ (f : List ℕ → K) (M : K) (i : ℕ), BoxBound (hatSizes g) f (2 ^ i * M) →
        BoxBound (hatSizes g) (fun x => d.val (sequentialIndex (hatSizes g) x) - f x)
          (((2 + 4 * u) ^ i - 2 ^ i) * M) →
        BoxBound (hatSizes g) (fun x => r.val (sequentialIndex (hatSizes g) x) -
          actAll (hatSizes g) C dims f x)
          (((2 + 4 * u) ^ (i + dims.length) - 2 ^ (i + dims.length)) * M) := by
  induction dims generalizing d with
  | nil => exact ⟨d, rfl, rfl, fun f M i _ h => h⟩
  | cons k ks ih =>
    have hk := hd k (by simp)
    obtain ⟨r, e1, e2, e3⟩ := hier_dim hg hk (hC k hk) u0 u1 hA junk d hlen
    obtain ⟨m, f1, f2, f3⟩ := ih (fun k hk => hd k (by simp [hk])) r (by rw [e2, hlen])
    refine ⟨m, ?_, by rw [f2, e2], ?_⟩
    · unfold hierarchizeHat transformGrid at f1 ⊢
      rw [List.foldlM_cons]
      exact (congrArg (· >>= _) e1).trans f1
    · intro f M i hf hη
      have a1 := e3 f _ _ hf hη
      have a2 := act_bound hk (hC k hk) hf
      have := f3 _ M (i + 1) (by rw [pow_succ', mul_assoc]; exact a2) (by
        have e : ((2 + 4 * u) ^ (i + 1) - 2 ^ (i + 1)) * M =
            (2 + 4 * u) * (((2 + 4 * u) ^ i - 2 ^ i) * M) + 4 * u * (2 ^ i * M) := by ring
        rw [e]
        exact a1)
      rw [List.length_cons, show i + (ks.length + 1) = i + 1 + ks.length by omega]
      exact this

/-- The product of the numbers of levels plus one. -/
def levelFactor (g : List HatDim) (dims : List ℕ) : ℕ :=
  (dims.map fun k => ((g.map HatDim.levels).getD k 0) + 1).prod

theorem levelFactor_pos (g : List HatDim) (dims : List ℕ) : 0 < levelFactor g dims := by
  unfold levelFactor
  induction dims with
  | nil => simp
  | cons k ks ih =>
    rw [List.map_cons, List.prod_cons]
    exact Nat.mul_pos (by omega) ih

/-- Dehierarchization of all dimensions. -/
theorem dehier_all {g : List HatDim} (hg : ∀ s ∈ g, s.Ok) {dims : List ℕ} (hd : ∀ k ∈ dims, k < g.length)
    {C : ℕ → ℕ → ℕ → K} (hC : ∀ k (hk : k < g.length), HatPole g[k] (C k)) {u : K} {A : Adder K}
    (u0 : 0 ≤ u) (u1 : 4 * u ≤ 1) (hA : Rounds u A) (junk : ℕ → ℕ → ℕ → K) (d : Buf K)
    (hlen : d.len = (hatSizes g).prod) :
    ∃ r, dehierarchizeHat A g junk dims d = some r ∧ r.len = d.len ∧
      ∀ (f : List ℕ → K) (M η : K), 0 ≤ M → 0 ≤ η → BoxBound (hatSizes g) f M →
        BoxBound (hatSizes g) (fun x => d.val (sequentialIndex (hatSizes g) x) -
          actAll (hatSizes g) C dims f x) η →
        levelFactor g dims * (η + 6 * u * (2 ^ dims.length - 1) * M) ≤ M →
        BoxBound (hatSizes g) (fun x => r.val (sequentialIndex (hatSizes g) x) - f x)
          (levelFactor g dims * (η + 6 * u * (2 ^ dims.length - 1) * M)) := by
  induction dims generalizing d with
  | nil =>
    refine ⟨d, rfl, rfl, fun f M η _ _ _ h _ => ?_⟩
    have e : ((levelFactor g [] : ℕ) : K) * (η + 6 * u * (2 ^ ([] : List ℕ).length - 1) * M) = η := by
      simp [levelFactor]
    rw [e]
    exact h
  | cons k ks ih =>
    have hk := hd k (by simp)
    obtain ⟨r, e1, e2, e3⟩ := dehier_dim hg hk (hC k hk) u0 u1 hA junk d hlen
    obtain ⟨m, f1, f2, f3⟩ := ih (fun k hk => hd k (by simp [hk])) r (by rw [e2, hlen])
    refine ⟨m, ?_, by rw [f2, e2], ?_⟩
    · unfold dehierarchizeHat transformGrid at f1 ⊢
      rw [List.foldlM_cons]
      exact (congrArg (· >>= _) e1).trans f1
    · intro f M η hM hη hf hs hsmall
      have a1 := actAll_bound (fun k hk => hd k (by simp [hk])) hC hf (dims := ks)
      have e4 : actAll (hatSizes g) C (k :: ks) f =
          act ((hatSizes g).getD k 0) (C k) k (actAll (hatSizes g) C ks f) := by
        rw [actAll_perm (hatSizes g) C (List.perm_append_singleton k ks).symm]
        unfold actAll
        simp
      rw [e4] at hs
      have e5 : (g.map HatDim.levels).getD k 0 = g[k].levels := by
        rw [List.getD_eq_getElem _ _ (by simpa using hk)]; simp
      set P : K := (levelFactor g ks : K) with hP
      set n : K := (g[k].levels : K) with hn
      set T : K := 2 ^ ks.length with hT
      have e6 : ((levelFactor g (k :: ks) : ℕ) : K) = (n + 1) * P := by
        rw [hP, hn]
        unfold levelFactor
        rw [List.map_cons, List.prod_cons, e5, Nat.cast_mul, Nat.cast_add, Nat.cast_one]
      have e7 : (2 : K) ^ (k :: ks).length = 2 * T := by rw [List.length_cons, pow_succ']
      rw [e6, e7] at hsmall ⊢
      have hn0 : 0 ≤ n := Nat.cast_nonneg _
      have hP1 : 1 ≤ P := by
        rw [hP]
        exact_mod_cast levelFactor_pos g ks
      have hT1 : 1 ≤ T := one_le_pow₀ (by norm_num)
      have hP0 : 0 ≤ P := by linarith
      have huM : 0 ≤ u * M := by positivity
      have hTM : 0 ≤ u * (T * M) := by positivity
      -- one dimension
      have k1 : (n + 1) * η + n * (6 * u * (T * M)) ≤ (n + 1) * (η + 6 * (u * (T * M))) := by
        nlinarith
      have k2 : (n + 1) * (η + 6 * (u * (T * M))) ≤ (n + 1) * P * (η + 6 * u * (2 * T - 1) * M) := by
        have b1 : η + 6 * (u * (T * M)) ≤ η + 6 * u * (2 * T - 1) * M := by
          have := mul_le_mul_of_nonneg_right (show T ≤ 2 * T - 1 by linarith) huM
          nlinarith
        have b0 : 0 ≤ η + 6 * (u * (T * M)) := by positivity
        have b2 : η + 6 * (u * (T * M)) ≤ P * (η + 6 * u * (2 * T - 1) * M) := by
          refine b1.trans ?_
          have := mul_le_mul_of_nonneg_right hP1 (b0.trans b1)
          linarith
        have := mul_le_mul_of_nonneg_left b2 (show 0 ≤ n + 1 by linarith)
        linarith
      have k3 : M ≤ T * M := by nlinarith
      have a2 := e3 _ _ η a1 hs (by linarith)
      -- the other dimensions
      have k4 : P * (((n + 1) * η + n * (6 * u * (T * M))) + 6 * u * (T - 1) * M) ≤
          (n + 1) * P * (η + 6 * u * (2 * T - 1) * M) := by
        have b1 : ((n + 1) * η + n * (6 * u * (T * M))) + 6 * u * (T - 1) * M ≤
            (n + 1) * (η + 6 * u * (2 * T - 1) * M) := by
          have c1 : 0 ≤ n * (u * ((T - 1) * M)) := by
            have : 0 ≤ T - 1 := by linarith
            positivity
          have c2 : 0 ≤ u * (T * M) := hTM
          have c3 : 0 ≤ n * (u * (T * M)) := by positivity
          nlinarith
        have := mul_le_mul_of_nonneg_left b1 hP0
        linarith
      have hη' : 0 ≤ (n + 1) * η + n * (6 * u * (T * M)) := by positivity
      have a3 := f3 f M _ hM hη' hf a2 (k4.trans hsmall)
      intro x hx
      exact (a3 x hx).trans k4

end Errors

end Verif

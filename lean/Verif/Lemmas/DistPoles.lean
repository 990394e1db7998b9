import Verif.Lemmas.ExchangeDehier
import Verif.Lemmas.MassPoles

/-!
# Distributed poles
-/

namespace Verif

variable {K : Type}

theorem foldl_update_known (v : ℕ → K) (remote : List (ℕ × K)) (hr : ∀ p ∈ remote, p.2 = v p.1)
    (junk : ℕ → K) (q : ℕ) (hq : (∃ p ∈ remote, p.1 = q) ∨ junk q = v q) :
    remote.foldl (fun v r => Function.update v r.1 r.2) junk q = v q := by
  induction remote generalizing junk with
  | nil => simpa using hq
  | cons p ps ih =>
    rw [List.foldl_cons]
    apply ih fun p hp => hr p (by simp [hp])
    by_cases hpq : p.1 = q
    · right
      subst hpq
      simp [hr p (by simp)]
    · rcases hq with ⟨p', hp', rfl⟩ | hq
      · rw [List.mem_cons] at hp'
        rcases hp' with rfl | hp'
        · exact absurd rfl hpq
        · exact Or.inl ⟨p', hp', rfl⟩
      · right
        rw [Function.update_of_ne (fun h => hpq h.symm), hq]

namespace Pole

/-- The received data are the values of the pole. -/
theorem remoteData_eq (P : Pole) (h : P.Ok) (v : Buf K) (hlen : v.len = poleLength P.lmax P.b)
    (R : List (ℤ × ℤ)) (hR : ∀ r i, (r, i) ∈ R → P.owner i = some r) :
    remoteData P.dec v R = some (R.map fun p => (p.2.toNat, v.val p.2.toNat)) := by
  unfold remoteData
  induction R with
  | nil => rfl
  | cons p R ih =>
    obtain ⟨r, i⟩ := p
    rw [List.mapM_cons, ih fun r i hm => hR r i (by simp [hm])]
    obtain ⟨h0, h1, c, hc, rfl, h2, h3⟩ := (P.owner_iff h i r).1 (hR r i (by simp))
    obtain ⟨lo, hi, e1, e2, e3, e4⟩ := bounds1d h.hdec hc
    unfold idxMin at' at h2
    unfold idxMax at' at h3
    simp only [e1, e2, Option.getD_some] at h2 h3
    simp only [Int.toNat_natCast, e1, Option.getD_some]
    rw [if_pos (by omega)]
    unfold slicePole Buf.get?
    simp only [hlen, e1, e2, Option.getD_some]
    rw [if_pos (by omega)]
    simp only [Option.map_some, List.map_cons]
    have : lo + (i - (lo : ℤ)).toNat = i.toNat := by omega
    rw [this]
    rfl

/-- The scratch array has the values of the pole at all local and received points. -/
theorem filled_known (P : Pole) (h : P.Ok) (v : Buf K) (hlen : v.len = poleLength P.lmax P.b)
    (R : List (ℤ × ℤ)) (junk : ℕ → K) (q : ℕ)
    (hq : (P.idxMin ≤ q ∧ (q : ℤ) ≤ P.idxMax) ∨ ∃ r, (r, (q : ℤ)) ∈ R) :
    filled ((lowerBound1d P.dec P.c).getD 0) (R.map fun p => (p.2.toNat, v.val p.2.toNat)) junk
      (slicePole P.dec v P.c) q = v.val q := by
  obtain ⟨lo, hi, e1, e2, e3, e4⟩ := bounds1d h.hdec h.hc
  unfold idxMin idxMax at hq
  unfold filled slicePole
  simp only [hlen, e1, e2, Option.getD_some] at hq ⊢
  split_ifs with hc
  · congr 1; omega
  · apply foldl_update_known v.val
    · intro p hp
      obtain ⟨p', -, rfl⟩ := List.mem_map.1 hp
      rfl
    · rcases hq with hq | ⟨r, hq⟩
      · omega
      · left
        exact ⟨_, List.mem_map_of_mem hq, by simp⟩

theorem slice_le (P : Pole) (h : P.Ok) (v : Buf K) (hlen : v.len = poleLength P.lmax P.b) :
    (lowerBound1d P.dec P.c).getD 0 + (slicePole P.dec v P.c).len ≤ poleLength P.lmax P.b ∧
    (P.idxMin = ((lowerBound1d P.dec P.c).getD 0 : ℕ)) ∧
    P.idxMax = ((lowerBound1d P.dec P.c).getD 0 : ℕ) + ((slicePole P.dec v P.c).len : ℤ) - 1 := by
  obtain ⟨lo, hi, e1, e2, e3, e4⟩ := bounds1d h.hdec h.hc
  unfold slicePole idxMin idxMax
  simp only [hlen, e1, e2, Option.getD_some]
  exact ⟨by omega, trivial, by omega⟩

variable [Field K]

/-- The values at a position agree if the index at that position is local or received. -/
theorem nodalAt_known (P : Pole) (h : P.Ok) (v : Buf K) (hlen : v.len = poleLength P.lmax P.b)
    (R : List (ℤ × ℤ)) (junk junk' : ℕ → K) (p : ℕ)
    (hp : p ≤ 2 ^ P.lmax)
    (hq : ∀ q : ℕ, q < poleLength P.lmax P.b → (q + posOff P.b = p ∨ (P.b = 1 ∧ p = 2 ^ P.lmax ∧ q = 0)) →
      (P.idxMin ≤ q ∧ (q : ℤ) ≤ P.idxMax) ∨ ∃ r, (r, (q : ℤ)) ∈ R) :
    nodalAt P.b P.lmax (filled ((lowerBound1d P.dec P.c).getD 0)
      (R.map fun p => (p.2.toNat, v.val p.2.toNat)) junk (slicePole P.dec v P.c)) p =
    nodalAt P.b P.lmax (filled 0 [] junk' v) p := by
  have hpos : 0 < 2 ^ P.lmax := by positivity
  have hb := h.hb
  have key := fun q hq1 hq2 => (P.filled_known h v hlen R junk q (hq q hq1 hq2)).trans
    (filled_serial junk' v q (by omega)).symm
  unfold poleLength posOff at key
  unfold nodalAt
  by_cases h0 : P.b = 0
  · simp only [h0, if_true] at key ⊢
    unfold pad
    split_ifs with h1
    · rfl
    · exact key _ (by omega) (Or.inl (by omega))
  · simp only [h0, if_false] at key ⊢
    split_ifs with h1
    · exact key _ (by omega) (Or.inr ⟨h1.1, h1.2, rfl⟩)
    · exact key _ (by omega) (Or.inl (by omega))

theorem off_eq (P : Pole) : P.off = (posOff P.b : ℕ) := by
  unfold off posOff
  split_ifs <;> rfl

/-- A distributed transform of a pole that goes through the levels from fine to coarse. -/
theorem fine_local (P : Pole) (h : P.Ok) (h0 : P.b = 0 → P.lmin = 0) (f : K → K → K → K)
    (T : ℕ → List (ℕ × K) → (ℕ → K) → Buf K → Option (Buf K))
    (hT : ∀ (gstart : ℕ) (remote : List (ℕ × K)) (junk : ℕ → K) (loc : Buf K),
      (∀ r ∈ remote, r.1 < poleLength P.lmax P.b) → gstart + loc.len ≤ poleLength P.lmax P.b →
      ∃ m, T gstart remote junk loc = some m ∧ m.len = loc.len ∧
        ∀ i < loc.len, m.val i = (hatExps P.b P.lmax P.lmin).foldl (stepOf f (2 ^ P.lmax))
          (nodalAt P.b P.lmax (filled gstart remote junk loc)) (gstart + i + posOff P.b))
    (junk junk' : ℕ → K) (v : Buf K) (hlen : v.len = poleLength P.lmax P.b) :
    ∃ S R m s, P.exchangeHier = some (S, R) ∧
      remoteData P.dec v R = some (R.map fun p => (p.2.toNat, v.val p.2.toNat)) ∧
      T ((lowerBound1d P.dec P.c).getD 0)
        (R.map fun p => (p.2.toNat, v.val p.2.toNat)) junk (slicePole P.dec v P.c) = some m ∧
      T 0 [] junk' v = some s ∧
      m.len = (slicePole P.dec v P.c).len ∧
      ∀ i < m.len, m.val i = s.val ((lowerBound1d P.dec P.c).getD 0 + i) := by
  have hl := h.hl
  have hb := P.bounds h
  obtain ⟨S, R, hex, -, hR⟩ := P.exchangeHier_spec h
  have hRo : ∀ r i, (r, i) ∈ R → P.owner i = some r := fun r i hm => ((hR r i).1 hm).1
  obtain ⟨hsl, hmin, hmax⟩ := P.slice_le h v hlen
  have hr : ∀ r ∈ R.map (fun p => (p.2.toNat, v.val p.2.toNat)), r.1 < poleLength P.lmax P.b := by
    intro r hm
    obtain ⟨⟨r', i⟩, hm', rfl⟩ := List.mem_map.1 hm
    have := (P.owner_iff h i r').1 (hRo r' i hm')
    have hn : P.n = (poleLength P.lmax P.b : ℕ) := rfl
    simp only
    omega
  obtain ⟨m, hm1, hm2, hm3⟩ := hT _ _ junk (slicePole P.dec v P.c) hr hsl
  obtain ⟨s, hs1, hs2, hs3⟩ := hT 0 [] junk' v (by simp) (by omega)
  refine ⟨S, R, m, s, hex, P.remoteData_eq h v hlen R hRo, hm1, hs1, hm2, ?_⟩
  intro i hi
  rw [hm3 i (by omega), hs3 _ (by omega), zero_add]
  generalize hx : (lowerBound1d P.dec P.c).getD 0 + i = x
  have hk : hatExps P.b P.lmax P.lmin = List.range (P.lmax - P.lmin) := by
    unfold hatExps
    split_ifs with hc
    · rw [h0 hc]
    · rfl
  rw [hk]
  have hxloc : P.idxMin ≤ x ∧ (x : ℤ) ≤ P.idxMax := by omega
  have hxn : x < poleLength P.lmax P.b := by omega
  have hple := posOff_le h.hb hxn
  obtain ⟨s1, s2, s3⟩ := P.ex_spec h x (by omega) (by omega)
  have hoff := P.off_eq
  have hcast : ∀ k : ℕ, (2 : ℤ) ^ k ∣ (x : ℤ) + P.off ↔ 2 ^ k ∣ x + posOff P.b := by
    intro k
    rw [hoff, ← Int.natCast_dvd_natCast]
    push_cast
    rfl
  have hn : P.n = (poleLength P.lmax P.b : ℕ) := rfl
  -- agreement at a position whose index is needed
  have agree : ∀ p ≤ 2 ^ P.lmax, (∀ q : ℕ, q < poleLength P.lmax P.b →
      (q + posOff P.b = p ∨ (P.b = 1 ∧ p = 2 ^ P.lmax ∧ q = 0)) → q = x ∨ P.HierNeed x q) →
      nodalAt P.b P.lmax (filled ((lowerBound1d P.dec P.c).getD 0)
        (R.map fun p => (p.2.toNat, v.val p.2.toNat)) junk (slicePole P.dec v P.c)) p =
      nodalAt P.b P.lmax (filled 0 [] junk' v) p := by
    intro p hp hq
    refine P.nodalAt_known h v hlen R junk junk' p hp ?_
    intro q hqn hqp
    rcases hq q hqn hqp with rfl | hneed
    · exact Or.inl hxloc
    · obtain ⟨r, hr⟩ := P.owner_exists h q (by omega) (by omega)
      by_cases hrc : r = P.c
      · left
        rw [hrc] at hr
        exact (P.owner_self h q).1 hr
      · right
        exact ⟨r, (hR r q).2 ⟨hr, hrc, x, hxloc.1, hxloc.2, hneed⟩⟩
  obtain ⟨f1, f2⟩ := step_foldl_closed f P.lmax (P.lmax - P.lmin) (by omega)
    (nodalAt P.b P.lmax (filled ((lowerBound1d P.dec P.c).getD 0)
        (R.map fun p => (p.2.toNat, v.val p.2.toNat)) junk (slicePole P.dec v P.c)))
  obtain ⟨g1, g2⟩ := step_foldl_closed f P.lmax (P.lmax - P.lmin) (by omega)
    (nodalAt P.b P.lmax (filled 0 [] junk' v))
  have hself : nodalAt P.b P.lmax (filled ((lowerBound1d P.dec P.c).getD 0)
        (R.map fun p => (p.2.toNat, v.val p.2.toNat)) junk (slicePole P.dec v P.c)) (x + posOff P.b) =
      nodalAt P.b P.lmax (filled 0 [] junk' v) (x + posOff P.b) := by
    apply agree _ hple
    intro q hqn hqp
    rcases hqp with hqp | ⟨hb1, hqp, rfl⟩
    · left; omega
    · exfalso
      have : posOff P.b = 0 := by unfold posOff; rw [hb1]; rfl
      unfold poleLength at hxn
      omega
  by_cases hc : 2 ^ (P.lmax - P.lmin) ∣ x + posOff P.b ∨ 2 ^ P.lmax ≤ x + posOff P.b
  · rw [f1 _ hc, g1 _ hc, hself]
  · push Not at hc
    have hlt : P.ex x < P.lmax - P.lmin := by
      by_contra hcc
      apply hc.1
      rw [← hcast]
      exact (s3 _ (by omega)).2 (by omega)
    have hd1 := (s3 (P.ex x) s2).2 (le_refl _)
    have hd2 := (s3 (P.ex x + 1) (by omega)).not.2 (by omega)
    have hmod : (x + posOff P.b) % (2 * 2 ^ P.ex x) = 2 ^ P.ex x := by
      rw [hcast] at hd1 hd2
      have hw : 0 < 2 ^ P.ex x := by positivity
      obtain ⟨k, hk⟩ := hd1
      rw [pow_succ', hk] at hd2
      rw [hk, mul_comm 2, Nat.mul_mod_mul_left]
      have : k % 2 = 1 := by
        by_contra hcc
        apply hd2
        obtain ⟨j, hj⟩ : 2 ∣ k := by omega
        exact ⟨j, by rw [hj]; ring⟩
      rw [this, mul_one]
    have hle : x + posOff P.b + 2 ^ P.ex x ≤ 2 ^ P.lmax :=
      step_room (by omega) _ hc.2 (by rw [← hcast]; exact hd1)
    have hge : 2 ^ P.ex x ≤ x + posOff P.b := by
      rw [← hmod]; exact Nat.mod_le _ _
    rw [f2 _ hlt _ hc.2 hmod, g2 _ hlt _ hc.2 hmod, hself]
    have hz : ((2 ^ P.ex x : ℕ) : ℤ) = 2 ^ P.ex x := by push_cast; rfl
    rw [agree (x + posOff P.b - 2 ^ P.ex x) (by omega) ?_, agree (x + posOff P.b + 2 ^ P.ex x) hle ?_]
    · intro q hqn hqp
      right
      refine ⟨P.ex x, hlt, hd1, hd2, ?_⟩
      rcases hqp with hqp | ⟨hb1, hqp, rfl⟩
      · right; left; omega
      · right; right
        have hp0 : posOff P.b = 0 := by unfold posOff; rw [hb1]; rfl
        have hpl : poleLength P.lmax P.b = 2 ^ P.lmax := by unfold poleLength; omega
        exact ⟨hb1, by rw [hn, hpl]; omega, rfl⟩
    · intro q hqn hqp
      right
      refine ⟨P.ex x, hlt, hd1, hd2, ?_⟩
      rcases hqp with hqp | ⟨hb1, hqp, rfl⟩
      · left; omega
      · exfalso; have : 0 < 2 ^ P.ex x := by positivity
        omega

/-- distributed hierarchization of a pole with hat functions -/
theorem hier_local (P : Pole) (h : P.Ok) (h0 : P.b = 0 → P.lmin = 0) (junk junk' : ℕ → K) (v : Buf K)
    (hlen : v.len = poleLength P.lmax P.b) :
    ∃ S R m s, P.exchangeHier = some (S, R) ∧
      remoteData P.dec v R = some (R.map fun p => (p.2.toNat, v.val p.2.toNat)) ∧
      hierPole .hat P.b P.lmax P.lmin ((lowerBound1d P.dec P.c).getD 0)
        (R.map fun p => (p.2.toNat, v.val p.2.toNat)) junk (slicePole P.dec v P.c) = some m ∧
      hierPole .hat P.b P.lmax P.lmin 0 [] junk' v = some s ∧
      m.len = (slicePole P.dec v P.c).len ∧
      ∀ i < m.len, m.val i = s.val ((lowerBound1d P.dec P.c).getD 0 + i) :=
  P.fine_local h h0 (fun l r v => v - 2⁻¹ * l - 2⁻¹ * r) _
    (fun gstart remote junk loc => hierPole_hat_eq h.hb h.hl h.hm gstart remote junk loc) junk junk' v hlen

/-- A distributed transform of a pole that goes through the levels from coarse to fine. -/
theorem coarse_local (P : Pole) (h : P.Ok) (f : K → K → K → K) (es : List ℕ)
    (hes : ∀ e ∈ es, e < P.lmax - P.lmin)
    (T : ℕ → List (ℕ × K) → (ℕ → K) → Buf K → Option (Buf K))
    (hT : ∀ (gstart : ℕ) (remote : List (ℕ × K)) (junk : ℕ → K) (loc : Buf K),
      (∀ r ∈ remote, r.1 < poleLength P.lmax P.b) → gstart + loc.len ≤ poleLength P.lmax P.b →
      ∃ m, T gstart remote junk loc = some m ∧ m.len = loc.len ∧
        ∀ i < loc.len, m.val i = es.foldl (stepOf f (2 ^ P.lmax))
          (nodalAt P.b P.lmax (filled gstart remote junk loc)) (gstart + i + posOff P.b))
    (junk junk' : ℕ → K) (v : Buf K) (hlen : v.len = poleLength P.lmax P.b) :
    ∃ S R m s, P.exchangeDehier = some (S, R) ∧
      remoteData P.dec v R = some (R.map fun p => (p.2.toNat, v.val p.2.toNat)) ∧
      T ((lowerBound1d P.dec P.c).getD 0)
        (R.map fun p => (p.2.toNat, v.val p.2.toNat)) junk (slicePole P.dec v P.c) = some m ∧
      T 0 [] junk' v = some s ∧
      m.len = (slicePole P.dec v P.c).len ∧
      ∀ i < m.len, m.val i = s.val ((lowerBound1d P.dec P.c).getD 0 + i) := by
  have hl := h.hl
  have hb := P.bounds h
  obtain ⟨S, R, hex, -, hR⟩ := P.exchangeDehier_spec h
  have hRo : ∀ r i, (r, i) ∈ R → P.owner i = some r := fun r i hm => ((hR r i).1 hm).1
  obtain ⟨hsl, hmin, hmax⟩ := P.slice_le h v hlen
  have hr : ∀ r ∈ R.map (fun p => (p.2.toNat, v.val p.2.toNat)), r.1 < poleLength P.lmax P.b := by
    intro r hm
    obtain ⟨⟨r', i⟩, hm', rfl⟩ := List.mem_map.1 hm
    have := (P.owner_iff h i r').1 (hRo r' i hm')
    have hn : P.n = (poleLength P.lmax P.b : ℕ) := rfl
    simp only
    omega
  obtain ⟨m, hm1, hm2, hm3⟩ := hT _ _ junk (slicePole P.dec v P.c) hr hsl
  obtain ⟨s, hs1, hs2, hs3⟩ := hT 0 [] junk' v (by simp) (by omega)
  refine ⟨S, R, m, s, hex, P.remoteData_eq h v hlen R hRo, hm1, hs1, hm2, ?_⟩
  intro i hi
  rw [hm3 i (by omega), hs3 _ (by omega), zero_add]
  generalize hx : (lowerBound1d P.dec P.c).getD 0 + i = x
  have hn : P.n = (poleLength P.lmax P.b : ℕ) := rfl
  have hoff := P.off_eq
  have hNpow : ((2 ^ P.lmax : ℕ) : ℤ) = 2 ^ P.lmax := by push_cast; rfl
  -- the positions that matter: local points and ends of cells around them
  refine agree_pass (fun p => ∃ s : ℤ, P.idxMin ≤ s ∧ s ≤ P.idxMax ∧ ((p : ℤ) = s + P.off ∨
      ∃ (E : ℕ) (a : ℤ), E ≤ P.lmax - P.lmin ∧ (2 : ℤ) ^ E ∣ a ∧ a < s + P.off ∧
        s + P.off < a + 2 ^ E ∧ ((p : ℤ) = a ∨ (p : ℤ) = a + 2 ^ E))) _ _ _ ?_ _ _ ?_
      (x + posOff P.b) ⟨x, by omega, by omega, Or.inl (by push_cast; omega)⟩
  · intro e he q hq ho
    have he := hes e he
    obtain ⟨hmod, hqlt⟩ := ho
    have hw : 0 < 2 ^ e := by positivity
    have hge : 2 ^ e ≤ q := by rw [← hmod]; exact Nat.mod_le _ _
    have hz : ((2 ^ e : ℕ) : ℤ) = 2 ^ e := by push_cast; rfl
    have hp : (2 : ℤ) ^ (e + 1) = 2 * 2 ^ e := by rw [pow_succ]; ring
    have hdm := Nat.div_add_mod q (2 * 2 ^ e)
    rw [hmod] at hdm
    have hd : (2 : ℤ) ^ (e + 1) ∣ (q : ℤ) - 2 ^ e := by
      refine ⟨((q / (2 * 2 ^ e) : ℕ) : ℤ), ?_⟩
      rw [hp]
      zify at hdm
      push_cast
      linarith
    obtain ⟨s, hs1, hs2, hs⟩ := hq
    have hin : (q : ℤ) - 2 ^ e < s + P.off ∧ s + P.off < (q : ℤ) - 2 ^ e + 2 ^ (e + 1) := by
      rcases hs with hs | ⟨E, a, hE, ha, h3, h4, hqa⟩
      · omega
      · have hEq : (2 : ℤ) ^ E ∣ (q : ℤ) := by
          rcases hqa with hqa | hqa
          · rw [hqa]; exact ha
          · rw [hqa]; exact dvd_add ha (dvd_refl _)
        have hEe : E ≤ e := by
          by_contra hc
          have hqe : (2 : ℤ) ^ (e + 1) ∣ (q : ℤ) := dvd_trans (pow_dvd_pow 2 (by omega)) hEq
          have := Int.le_of_dvd (by omega) ((dvd_sub_right hqe).1 hd)
          omega
        have : (2 : ℤ) ^ E ≤ 2 ^ e := pow_le_pow_right₀ (by norm_num) hEe
        omega
    constructor
    · exact ⟨s, hs1, hs2, Or.inr ⟨e + 1, _, by omega, hd, hin.1, hin.2, Or.inl (by omega)⟩⟩
    · exact ⟨s, hs1, hs2, Or.inr ⟨e + 1, _, by omega, hd, hin.1, hin.2, Or.inr (by omega)⟩⟩
  · rintro p ⟨s, hs1, hs2, hs⟩
    have hpr := P.pos_range h s (by omega) (by omega)
    have hple : p ≤ 2 ^ P.lmax := by
      rcases hs with hs | ⟨E, a, hE, ha, h3, h4, hqa⟩
      · omega
      · have hN : (2 : ℤ) ^ E ∣ 2 ^ P.lmax := pow_dvd_pow 2 (by omega)
        have hale : a < 2 ^ P.lmax := by omega
        have := Int.le_of_dvd (by omega) (dvd_sub hN ha)
        omega
    refine P.nodalAt_known h v hlen R junk junk' p hple ?_
    intro q hqn hqp
    have hcase : P.idxMin ≤ q ∧ (q : ℤ) ≤ P.idxMax ∨ P.DehierNeed s q := by
      rcases hs with hs | ⟨E, a, hE, ha, h3, h4, hqa⟩
      · left
        rcases hqp with hqp | ⟨hb1, hqp, rfl⟩
        · omega
        · obtain ⟨o1, o2⟩ := hpr.2.2.1 hb1
          omega
      · right
        refine ⟨E, a, hE, ha, h3, h4, ?_⟩
        rcases hqp with hqp | ⟨hb1, hqp, rfl⟩
        · rcases hqa with hqa | hqa
          · left; omega
          · right; left; omega
        · obtain ⟨o1, o2⟩ := hpr.2.2.1 hb1
          rcases hqa with hqa | hqa
          · omega
          · right; right
            exact ⟨hb1, by omega, rfl⟩
    rcases hcase with hcase | hneed
    · exact Or.inl hcase
    · obtain ⟨r, hr⟩ := P.owner_exists h q (by omega) (by omega)
      by_cases hrc : r = P.c
      · left
        rw [hrc] at hr
        exact (P.owner_self h q).1 hr
      · right
        exact ⟨r, (hR r q).2 ⟨hr, hrc, s, hs1, hs2, hneed⟩⟩

/-- distributed dehierarchization of a pole with hat functions -/
theorem dehier_local (P : Pole) (h : P.Ok) (h0 : P.b = 0 → P.lmin = 0) (junk junk' : ℕ → K)
    (v : Buf K) (hlen : v.len = poleLength P.lmax P.b) :
    ∃ S R m s, P.exchangeDehier = some (S, R) ∧
      remoteData P.dec v R = some (R.map fun p => (p.2.toNat, v.val p.2.toNat)) ∧
      dehierPole .hat P.b P.lmax P.lmin ((lowerBound1d P.dec P.c).getD 0)
        (R.map fun p => (p.2.toNat, v.val p.2.toNat)) junk (slicePole P.dec v P.c) = some m ∧
      dehierPole .hat P.b P.lmax P.lmin 0 [] junk' v = some s ∧
      m.len = (slicePole P.dec v P.c).len ∧
      ∀ i < m.len, m.val i = s.val ((lowerBound1d P.dec P.c).getD 0 + i) := by
  have hk : hatExps P.b P.lmax P.lmin = List.range (P.lmax - P.lmin) := by
    unfold hatExps
    split_ifs with hc
    · rw [h0 hc]
    · rfl
  exact P.coarse_local h (fun l r v => v + 2⁻¹ * l + 2⁻¹ * r) (hatExps P.b P.lmax P.lmin).reverse
    (by rw [hk]; simp) _
    (fun gstart remote junk loc => dehierPole_hat_eq h.hb h.hl h.hm gstart remote junk loc) junk junk' v hlen

/-! ### All data -/

omit [Field K] in
theorem exchangeAll_spec (P : Pole) (h : P.Ok) :
    (∀ r i, (r, i) ∈ P.exchangeAll.1 ↔ P.idxMin ≤ i ∧ i ≤ P.idxMax ∧ r ≠ P.c ∧ 0 ≤ r ∧
      r < P.dec.length) ∧
    (∀ r i, (r, i) ∈ P.exchangeAll.2 ↔ P.owner i = some r ∧ r ≠ P.c) := by
  have hb := P.bounds h
  unfold exchangeAll
  simp only
  constructor
  · intro r i
    simp only [List.mem_flatMap, List.mem_filter, List.mem_range, List.mem_map, Prod.mk.injEq,
      decide_eq_true_eq]
    constructor
    · rintro ⟨c, ⟨hc, hcc⟩, j, ⟨k, hk, rfl⟩, rfl, rfl⟩
      unfold fuel at hk
      refine ⟨by omega, by omega, by exact_mod_cast hcc, by omega, by omega⟩
    · rintro ⟨h1, h2, h3, h4, h5⟩
      refine ⟨r.toNat, ⟨by omega, by omega⟩, i, ⟨(i - P.idxMin).toNat, ?_, by omega⟩, by omega, rfl⟩
      unfold fuel
      omega
  · intro r i
    simp only [List.mem_flatMap, List.mem_map, List.mem_range]
    constructor
    · rintro ⟨j, ⟨k, hk, rfl⟩, hm⟩
      split_ifs at hm with hc
      · rw [mem_insertFor] at hm
        obtain ⟨hm, rfl⟩ := hm
        exact ⟨hm, P.not_self h _ r hm (by omega)⟩
      · simp at hm
    · rintro ⟨ho, hr⟩
      have hout := P.outside h i r ho hr
      have hin := (P.owner_iff h i r).1 ho
      refine ⟨i, ⟨i.toNat, by omega, by omega⟩, ?_⟩
      rw [if_pos (by omega), mem_insertFor]
      exact ⟨ho, rfl⟩

/-- A distributed transform of a pole which looks at all positions of the pole. -/
theorem all_local (P : Pole) (h : P.Ok) (s : (ℕ → K) → ℕ → K)
    (hs : LocalTo (2 ^ P.lmax) s) (T : ℕ → List (ℕ × K) → (ℕ → K) → Buf K → Option (Buf K))
    (hT : ∀ (gstart : ℕ) (remote : List (ℕ × K)) (junk : ℕ → K) (loc : Buf K),
      (∀ r ∈ remote, r.1 < poleLength P.lmax P.b) → gstart + loc.len ≤ poleLength P.lmax P.b →
      T gstart remote junk loc = some ⟨loc.len, fun i =>
        s (nodalAt P.b P.lmax (filled gstart remote junk loc)) (gstart + i)⟩)
    (junk junk' : ℕ → K) (v : Buf K) (hlen : v.len = poleLength P.lmax P.b) :
    remoteData P.dec v P.exchangeAll.2 =
      some (P.exchangeAll.2.map fun p => (p.2.toNat, v.val p.2.toNat)) ∧
    (∃ m s, T ((lowerBound1d P.dec P.c).getD 0)
        (P.exchangeAll.2.map fun p => (p.2.toNat, v.val p.2.toNat)) junk (slicePole P.dec v P.c) =
          some m ∧
      T 0 [] junk' v = some s ∧
      m.len = (slicePole P.dec v P.c).len ∧
      ∀ i < m.len, m.val i = s.val ((lowerBound1d P.dec P.c).getD 0 + i)) := by
  have hl := h.hl
  have hb := P.bounds h
  obtain ⟨-, hR⟩ := P.exchangeAll_spec h
  generalize P.exchangeAll.2 = R at hR ⊢
  have hRo : ∀ r i, (r, i) ∈ R → P.owner i = some r := fun r i hm => ((hR r i).1 hm).1
  obtain ⟨hsl, hmin, hmax⟩ := P.slice_le h v hlen
  have hn : P.n = (poleLength P.lmax P.b : ℕ) := rfl
  have hr : ∀ r ∈ R.map (fun p => (p.2.toNat, v.val p.2.toNat)), r.1 < poleLength P.lmax P.b := by
    intro r hm
    obtain ⟨⟨r', i⟩, hm', rfl⟩ := List.mem_map.1 hm
    have := (P.owner_iff h i r').1 (hRo r' i hm')
    simp only
    omega
  have a1 := hT _ _ junk (slicePole P.dec v P.c) hr hsl
  have b1 := hT 0 [] junk' v (by simp) (by omega)
  have hag : ∀ p ≤ 2 ^ P.lmax, nodalAt P.b P.lmax (filled ((lowerBound1d P.dec P.c).getD 0)
      (R.map fun p => (p.2.toNat, v.val p.2.toNat)) junk (slicePole P.dec v P.c)) p =
      nodalAt P.b P.lmax (filled 0 [] junk' v) p := by
    intro p hp
    refine P.nodalAt_known h v hlen R junk junk' p hp ?_
    intro q hqn _
    obtain ⟨r, hr⟩ := P.owner_exists h q (by omega) (by omega)
    by_cases hrc : r = P.c
    · left
      rw [hrc] at hr
      exact (P.owner_self h q).1 hr
    · exact Or.inr ⟨r, (hR r q).2 ⟨hr, hrc⟩⟩
  have hpos : 0 < 2 ^ P.lmax := by positivity
  have hpl : poleLength P.lmax P.b ≤ 2 ^ P.lmax + 1 := by unfold poleLength; have := h.hb; omega
  refine ⟨P.remoteData_eq h v hlen R hRo, _, _, a1, b1, rfl, ?_⟩
  intro i hi
  simp only [zero_add]
  simp only at hi
  exact hs _ _ hag _ (by omega)

/-- distributed mass-conserving transforms -/
theorem mass_local (P : Pole) (h : P.Ok) {β : Basis} (hβ : β.massConserving) (h0 : P.b = 1 ∨ P.b = 2)
    (hm : P.lmax ≤ 28) (junk junk' : ℕ → K) (v : Buf K) (hlen : v.len = poleLength P.lmax P.b) :
    remoteData P.dec v P.exchangeAll.2 =
      some (P.exchangeAll.2.map fun p => (p.2.toNat, v.val p.2.toNat)) ∧
    (∃ m s, hierPole β P.b P.lmax P.lmin ((lowerBound1d P.dec P.c).getD 0)
        (P.exchangeAll.2.map fun p => (p.2.toNat, v.val p.2.toNat)) junk (slicePole P.dec v P.c) =
          some m ∧
      hierPole β P.b P.lmax P.lmin 0 [] junk' v = some s ∧
      m.len = (slicePole P.dec v P.c).len ∧
      ∀ i < m.len, m.val i = s.val ((lowerBound1d P.dec P.c).getD 0 + i)) ∧
    (∃ m s, dehierPole β P.b P.lmax P.lmin ((lowerBound1d P.dec P.c).getD 0)
        (P.exchangeAll.2.map fun p => (p.2.toNat, v.val p.2.toNat)) junk (slicePole P.dec v P.c) =
          some m ∧
      dehierPole β P.b P.lmax P.lmin 0 [] junk' v = some s ∧
      m.len = (slicePole P.dec v P.c).len ∧
      ∀ i < m.len, m.val i = s.val ((lowerBound1d P.dec P.c).getD 0 + i)) := by
  have h1 := P.all_local h _ (localTo_foldl (List.range (P.lmax - P.lmin))
    (s := massStep β (2 ^ P.lmax))
    (fun e he => (localTo_mass β (by rw [List.mem_range] at he; omega)).1)) _
    (fun gstart remote junk loc hr hloc =>
      (massPole_eq hβ h0 h.hl hm gstart remote junk loc hr hloc).1) junk junk' v hlen
  have h2 := P.all_local h _ (localTo_foldl (List.range (P.lmax - P.lmin)).reverse
    (s := massUnstep β (2 ^ P.lmax))
    (fun e he => (localTo_mass β (by rw [List.mem_reverse, List.mem_range] at he; omega)).2)) _
    (fun gstart remote junk loc hr hloc =>
      (massPole_eq hβ h0 h.hl hm gstart remote junk loc hr hloc).2) junk junk' v hlen
  exact ⟨h1.1, h1.2, h2.2⟩

end Pole
end Verif

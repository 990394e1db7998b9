import Verif.Lemmas.MassPoles
import Mathlib.Tactic.NormNum
import Mathlib.Data.Rat.Cast.CharZero

/-!
# Hierarchization of one pole (C23-C27)

A pole is held completely by one process here (`gstart = 0`, nothing received); distributed poles
are in `Verif.Props.DistributedHierarchization`. `junk` is the previous contents of the scratch
array.
-/

namespace Verif

variable {K : Type} [Field K]

/-- Specification: the value at position `p` (in units of the grid spacing, `0 … 2^lmax`) of a pole
with boundary flag `b`: zero at the ends without boundary points; with a one-sided boundary the
right end is identified with the left one. -/
def poleValue (b lmax : ℕ) (loc : Buf K) (p : ℕ) : K :=
  if b = 0 then (if p = 0 ∨ p ≥ 2 ^ lmax then 0 else loc.val (p - 1))
  else if b = 1 ∧ p = 2 ^ lmax then loc.val 0
  else loc.val p

theorem nodalAt_filled {b lmax : ℕ} (hb : b ≤ 2) (junk : ℕ → K) (loc : Buf K)
    (hlen : loc.len = nodal lmax b) (p : ℕ) (hp : p ≤ 2 ^ lmax) :
    nodalAt b lmax (filled 0 [] junk loc) p = poleValue b lmax loc p := by
  have hpos : 0 < 2 ^ lmax := by positivity
  rw [nodalAt_congr hb _ loc.val (fun q hq => filled_serial junk loc q (by rw [hlen]; exact hq)) p hp]
  unfold nodalAt poleValue pad
  by_cases h0 : b = 0
  · rw [if_pos h0, if_pos h0]
    exact if_congr (by omega) rfl rfl
  · rw [if_neg h0, if_neg h0]

/-! ### C23 -/

/-- C23: for every boundary flag and every minimum level, dehierarchizing the hierarchized pole with
hat functions returns the original values, and the other way round, whatever was in the scratch
array. -/
theorem C23_hat_invertible (b lmax lmin : ℕ) (hb : b ≤ 2) (hm : lmax ≤ 29) (loc : Buf K)
    (hlen : loc.len = nodal lmax b) (junk junk' : ℕ → K) :
    (∃ m r, hierPole .hat b lmax lmin 0 [] junk loc = some m ∧
      dehierPole .hat b lmax lmin 0 [] junk' m = some r ∧
      r.len = loc.len ∧ ∀ i < loc.len, r.val i = loc.val i) ∧
    (∃ m r, dehierPole .hat b lmax lmin 0 [] junk loc = some m ∧
      hierPole .hat b lmax lmin 0 [] junk' m = some r ∧
      r.len = loc.len ∧ ∀ i < loc.len, r.val i = loc.val i) := by
  rcases Nat.lt_or_ge lmin lmax with hl | hl
  · have hpl : loc.len = poleLength lmax b := hlen
    have hes : ∀ e ∈ hatExps b lmax lmin, e < lmax := by
      unfold hatExps; simp only [List.mem_range]; omega
    have hends := nodalAt_ends (b := b) (lmax := lmax) (filled 0 [] junk loc)
    obtain ⟨m, hm1, hm2, hm3⟩ := hierPole_hat_eq hb hl hm 0 [] junk loc (by simp) (by omega)
    obtain ⟨r, hr1, hr2, hr3⟩ := dehierPole_hat_eq hb hl hm 0 [] junk' m (by simp) (by omega)
    obtain ⟨n, hn1, hn2, hn3⟩ := dehierPole_hat_eq hb hl hm 0 [] junk loc (by simp) (by omega)
    obtain ⟨s, hs1, hs2, hs3⟩ := hierPole_hat_eq hb hl hm 0 [] junk' n (by simp) (by omega)
    refine ⟨⟨m, r, hm1, hr1, by omega, ?_⟩, ⟨n, s, hn1, hs1, by omega, ?_⟩⟩
    · intro i hi
      rw [hr3 i (by omega)]
      refine roundtrip_abstract hb
        (fun v => (hatExps b lmax lmin).foldl (hatStep (2 ^ lmax)) v)
        (fun v => (hatExps b lmax lmin).reverse.foldl (unhatStep (2 ^ lmax)) v)
        (agree_upto lmax _ _ (by simpa using hes)) junk junk' loc m hpl hm2 hm3 ?_ ?_ ?_ i hi
      · intro h
        simp only [(unhat_ends lmax _ _ 0 (Or.inl rfl)).2, (unhat_ends lmax _ _ _ (Or.inr rfl)).2]
        exact hends.1 h
      · intro h
        simp only [(unhat_ends lmax _ _ 0 (Or.inl rfl)).2, (unhat_ends lmax _ _ _ (Or.inr rfl)).2]
        exact hends.2 h
      · exact foldl_inverse _ _ (fun v e => unhat_hat _ e v) _ _
    · intro i hi
      rw [hs3 i (by omega)]
      refine roundtrip_abstract hb
        (fun v => (hatExps b lmax lmin).reverse.foldl (unhatStep (2 ^ lmax)) v)
        (fun v => (hatExps b lmax lmin).foldl (hatStep (2 ^ lmax)) v)
        (agree_upto lmax _ _ hes) junk junk' loc n hpl hn2 hn3 ?_ ?_ ?_ i hi
      · intro h
        simp only [(unhat_ends lmax _ _ 0 (Or.inl rfl)).1, (unhat_ends lmax _ _ _ (Or.inr rfl)).1]
        exact hends.1 h
      · intro h
        simp only [(unhat_ends lmax _ _ 0 (Or.inl rfl)).1, (unhat_ends lmax _ _ _ (Or.inr rfl)).1]
        exact hends.2 h
      · have := foldl_inverse (unhatStep (2 ^ lmax)) (hatStep (2 ^ lmax))
          (fun v e => hat_unhat (2 ^ lmax) e v) (hatExps b lmax lmin).reverse
          (nodalAt b lmax (filled 0 [] junk loc))
        rwa [List.reverse_reverse] at this
  · unfold hierPole dehierPole
    simp only [if_pos (show lmin ≥ lmax from hl)]
    exact ⟨⟨loc, loc, rfl, rfl, rfl, fun _ _ => rfl⟩, ⟨loc, loc, rfl, rfl, rfl, fun _ _ => rfl⟩⟩

/-- The hypotheses of `C23_hat_invertible` are met by the pole `1, 4, 9, …` of a level-3 grid with
one-sided boundary. -/
example : (1 ≤ 2 ∧ 3 ≤ 29 ∧ (⟨8, fun i => ((i + 1) ^ 2 : ℚ)⟩ : Buf ℚ).len = nodal 3 1) ∧
    (hierPole .hat 1 3 1 0 [] (fun _ => 77) (⟨8, fun i => ((i + 1) ^ 2 : ℚ)⟩ : Buf ℚ)).map
      (fun d => (List.range d.len).map d.val) = some [1, -1, -4, -1, 25, -1, 36, 39] := by
  decide +kernel

/-! ### C24 -/

/-- C24: after hierarchization with hat functions, a point of level `l` above the minimum level
holds its value minus half of the sum of the values at the two points that are `2^(lmax-l)` grid
spacings away, which are its hierarchical predecessors (zero outside of a grid without boundary
points, the value at 0 for the right end with a one-sided boundary); the other points keep their
value. (Without boundary points the minimum level must be zero, as the code asserts.) -/
theorem C24_hat_surplus (b lmax lmin : ℕ) (hb : b ≤ 2) (hm : lmax ≤ 29) (h0 : b = 0 → lmin = 0)
    (loc : Buf K) (hlen : loc.len = nodal lmax b) (junk : ℕ → K) :
    ∃ m, hierPole .hat b lmax lmin 0 [] junk loc = some m ∧ m.len = loc.len ∧
      ∀ i < loc.len, ∀ l, PointLevel lmax (pos b i) l →
        m.val i = if lmin < l then
          loc.val i - (poleValue b lmax loc (pos b i - 2 ^ (lmax - l)) +
            poleValue b lmax loc (pos b i + 2 ^ (lmax - l))) / 2
        else loc.val i := by
  rcases Nat.lt_or_ge lmin lmax with hl | hl
  · obtain ⟨m, hm1, hm2, hm3⟩ := hierPole_hat_eq hb hl hm 0 [] junk loc (by simp)
      (by rw [zero_add, hlen]; rfl)
    refine ⟨m, hm1, hm2, ?_⟩
    intro i hi l hlev
    have hiN : i < nodal lmax b := hlen ▸ hi
    have hexp : hatExps b lmax lmin = List.range (lmax - lmin) := by
      unfold hatExps
      by_cases hb0 : b = 0
      · rw [if_pos hb0, h0 hb0]
      · rw [if_neg hb0]
    have hpo : 0 + i + posOff b = pos b i := by
      unfold posOff pos
      split <;> omega
    obtain ⟨c1, c2⟩ := hat_foldl_closed lmax (lmax - lmin) (by omega)
      (nodalAt b lmax (filled 0 [] junk loc))
    have hposle := (pos_le hb hiN).1
    have hv : nodalAt b lmax (filled 0 [] junk loc) (pos b i) = loc.val i := by
      rw [← hpo, zero_add, nodalAt_index hb _ _ hiN, filled_serial _ _ _ hi]
    rw [hm3 i hi, hexp, hpo]
    by_cases hlt : lmin < l
    · have h1 : 1 ≤ l := by omega
      have hll : l ≤ lmax := by
        rcases hlev with ⟨h, -⟩ | ⟨-, h, -⟩ <;> omega
      have hmod := (pointLevel_iff_mod h1 hll).1 hlev
      have hlt2 : pos b i < 2 ^ lmax := by
        rcases Nat.lt_or_ge (pos b i) (2 ^ lmax) with h | h
        · exact h
        · exfalso
          have : pos b i = 2 ^ lmax := by omega
          have h2 : PointLevel lmax (pos b i) 0 := Or.inl ⟨rfl, Or.inr this⟩
          have := pointLevel_unique hlev h2
          omega
      have hroom := odds_room (lmax := lmax) (e := lmax - l) (by omega) _ ⟨hmod, hlt2⟩
      rw [if_pos hlt, c2 (lmax - l) (by omega) _ hlt2 hmod, hv,
        nodalAt_filled hb junk loc hlen _ (by omega), nodalAt_filled hb junk loc hlen _ hroom]
      ring
    · rw [if_neg hlt, c1, hv]
      rcases hlev with ⟨rfl, h | h⟩ | ⟨h1, h2, k, hk⟩
      · rw [h]; exact Or.inl (dvd_zero _)
      · right; omega
      · left
        rw [hk]
        exact Dvd.dvd.mul_left (pow_dvd_pow 2 (by omega)) _
  · refine ⟨loc, ?_, rfl, ?_⟩
    · unfold hierPole
      simp only [if_pos (show lmin ≥ lmax from hl)]
    · intro i hi l hlev
      have hll : l ≤ lmax := by
        rcases hlev with ⟨h, -⟩ | ⟨-, h, -⟩ <;> omega
      rw [if_neg (by omega)]

/-- The hypotheses of `C24_hat_surplus`: index 1 of a level-2 grid without boundary has level 1. -/
example : (0 ≤ 2 ∧ 2 ≤ 29) ∧ (⟨3, fun i => (i : ℚ)⟩ : Buf ℚ).len = nodal 2 0 ∧
    PointLevel 2 (pos 0 1) 1 :=
  ⟨by decide, rfl, Or.inr ⟨by decide, by decide, 0, rfl⟩⟩

/-- C24, linear functions: the surpluses of a linear function above the minimum level vanish on a
grid with boundary points. -/
theorem C24_linear (lmax lmin : ℕ) (hm : lmax ≤ 29) (a c : K) [CharZero K] (junk : ℕ → K) :
    ∃ m, hierPole .hat 2 lmax lmin 0 [] junk (⟨2 ^ lmax + 1, fun i => a + c * i⟩ : Buf K) = some m ∧
      ∀ i ≤ 2 ^ lmax, ∀ l, PointLevel lmax i l → lmin < l → m.val i = 0 := by
  obtain ⟨m, h1, h2, h3⟩ := C24_hat_surplus (K := K) 2 lmax lmin (by decide) hm
    (fun h => absurd h (by decide)) ⟨2 ^ lmax + 1, fun i => a + c * i⟩
    rfl junk
  refine ⟨m, h1, ?_⟩
  intro i hi l hlev hlt
  rw [h3 i (by simp only; omega) l (by simpa [pos] using hlev), if_pos hlt]
  have hll : l ≤ lmax := by
    rcases hlev with ⟨h, -⟩ | ⟨-, h, -⟩ <;> omega
  have hmod := (pointLevel_iff_mod (by omega) hll).1 hlev
  have hle : 2 ^ (lmax - l) ≤ i := by
    have := Nat.mod_le i (2 * 2 ^ (lmax - l))
    omega
  simp only [poleValue, pos, if_neg (show ¬ (2 : ℕ) = 0 by decide),
    if_neg (show ¬ ((2 : ℕ) = 1 ∧ _) from fun h => absurd h.1 (by decide))]
  push_cast [hle]
  have h2 : (2 : K) ≠ 0 := two_ne_zero
  field_simp
  ring

/-! ### C25 -/

section CharZero

variable [CharZero K]

/-- The full statement of C25 for a basis: round trips restore every pole (with periodic data if the
basis is periodic and both ends are stored). -/
def C25_full (K : Type) [Field K] (β : Basis) (b lmax lmin : ℕ) : Prop :=
  ∀ (loc : Buf K) (junk junk' : ℕ → K), loc.len = nodal lmax b →
    (β.periodic → b = 2 → loc.val 0 = loc.val (2 ^ lmax)) →
    ∃ m r, hierPole β b lmax lmin 0 [] junk loc = some m ∧
      dehierPole β b lmax lmin 0 [] junk' m = some r ∧
      r.len = loc.len ∧ ∀ i < loc.len, r.val i = loc.val i

/-- C25 for levels up to 28, where the non-periodic bases need both boundary points. -/
theorem C25_mass_invertible_partial (β : Basis) (hβ : β.massConserving) (b lmax lmin : ℕ)
    (hb : b = 1 ∨ b = 2) (hb1 : b = 1 → β.periodic) (hm : lmax ≤ 28) :
    C25_full K β b lmax lmin := by
  intro loc junk junk' hlen hper
  rcases Nat.lt_or_ge lmin lmax with hl | hl
  · have hb2 : b ≤ 2 := by omega
    have hpl : loc.len = poleLength lmax b := hlen
    have hpo : posOff b = 0 := by unfold posOff; rw [if_neg (by omega)]
    have hpos : 0 < 2 ^ lmax := by positivity
    have hv : β.periodic = true → nodalAt b lmax (filled 0 [] junk loc) 0 =
        nodalAt b lmax (filled 0 [] junk loc) (2 ^ lmax) := by
      intro hp
      rw [nodalAt_filled hb2 junk loc hlen 0 (by omega),
        nodalAt_filled hb2 junk loc hlen _ (le_refl _)]
      rcases hb with rfl | rfl
      · simp [poleValue, hpos.ne]
      · simpa [poleValue] using hper hp rfl
    have h1 := (massPole_eq hβ hb hl hm 0 [] junk loc (by simp) (by omega)).1
    generalize hmd : (⟨loc.len, _⟩ : Buf K) = m at h1
    have hml : m.len = loc.len := by rw [← hmd]
    have hmv : ∀ i < loc.len, m.val i = (List.range (lmax - lmin)).foldl (massStep β (2 ^ lmax))
        (nodalAt b lmax (filled 0 [] junk loc)) (0 + i + posOff b) := by
      intro i _
      rw [← hmd, hpo]
      rfl
    have h2 := (massPole_eq hβ hb hl hm 0 [] junk' m (by simp) (by omega)).2
    refine ⟨m, _, h1, h2, hml, ?_⟩
    intro i hi
    have := roundtrip_abstract hb2
      (fun v => (List.range (lmax - lmin)).foldl (massStep β (2 ^ lmax)) v)
      (fun v => (List.range (lmax - lmin)).reverse.foldl (massUnstep β (2 ^ lmax)) v)
      (localTo_foldl _ (fun e he => (localTo_mass β (by
        simp only [List.mem_reverse, List.mem_range] at he; omega)).2))
      junk junk' loc m hpl hml hmv (by omega)
      (fun h => ((mass_ends_foldl hβ _ _ hv (hb1 h)).1).symm)
      (mass_foldl_inverse hβ (by omega) _ hv).1 i hi
    rw [hpo] at this
    exact this
  · unfold hierPole dehierPole
    simp only [if_pos (show lmin ≥ lmax from hl)]
    exact ⟨loc, loc, rfl, rfl, rfl, fun _ _ => rfl⟩

/-- The hypotheses of `C25_mass_invertible_partial` for the periodic biorthogonal basis on a grid
with one-sided boundary, and a transform that changes the data. -/
example : (Basis.biorthogonalPeriodic.massConserving = true ∧
      Basis.biorthogonalPeriodic.periodic = true) ∧
    (⟨4, fun i => (i ^ 2 : ℚ)⟩ : Buf ℚ).len = nodal 2 1 ∧
    (hierPole .biorthogonalPeriodic 1 2 0 0 [] (fun _ => 77) (⟨4, fun i => (i ^ 2 : ℚ)⟩ : Buf ℚ)).map
      (fun d => (List.range d.len).map d.val) = some [7 / 2, -1, 4, 7] := by
  decide +kernel

end CharZero

/-- C25 is violated: at level 29, which the constructor of the grid admits, the table of powers of
two yields zero and every mass conserving kernel reads out of bounds. -/
theorem C25_level29_violated (β : Basis) (hβ : β.massConserving) (lmin : ℕ) (hl : lmin < 29)
    (loc : Buf K) (junk : ℕ → K) (hlen : loc.len = nodal 29 2) :
    hierPole β 2 29 lmin 0 [] junk loc = none := by
  unfold hierPole
  simp only [if_neg (show ¬ lmin ≥ 29 by omega), if_pos (show 2 > 0 by decide)]
  unfold withBoundaryPole
  have hg : poleLength 29 2 = 2 ^ 29 + 1 := rfl
  have e : ((2 : ℕ) == 1) = false := rfl
  simp only [e, Bool.false_eq_true, if_false]
  rw [fillScratch_eq _ _ _ _ (by simp) (by rw [zero_add, hlen]; rfl)]
  simp only [Option.bind_eq_bind, Option.bind_some]
  obtain ⟨k, hk⟩ : ∃ k, 29 - lmin = k + 1 := ⟨29 - lmin - 1, by omega⟩
  have hpt : powerOfTwo? 29 = some 0 := rfl
  have hp0 : powerOfTwo? 0 = some 1 := rfl
  have hends : ∀ (p : Bool) (f : K → K → K) (fp : K → K → K → K → K) (d : Buf K),
      endsUpdate p f fp 0 1 d = none := by
    intro p f fp d
    have hg : ∀ d : Buf K, d.getInt? (((0 : ℕ) : ℤ) - ((1 : ℕ) : ℤ)) = none := by
      intro d
      simp [Buf.getInt?]
    unfold endsUpdate
    simp only [hg]
    cases p <;> simp
  have hodd : ∀ (c : K) (f : K → K → K → K) (d : Buf K), 0 < d.len → oddLoop c f 0 1 d = some d := by
    intro c f d hd
    simp [oddLoop, Buf.get?, hd, stencilLoop]
  have hup : ∀ (step : ℕ → ℕ → Buf K → Option (Buf K)) (d : Buf K), step 0 1 d = none →
      upLevels step 29 lmin d = none := by
    intro step d h
    unfold upLevels
    rw [hpt, hk, List.range_succ_eq_map]
    simp [hp0, h]
  have hfull : ∀ p (d : Buf K), hierFull p 29 lmin d = none := by
    intro p d
    apply hup
    simp [hierFullStep, hends]
  have hbio : ∀ p (d : Buf K), 0 < d.len → hierBio p 29 lmin d = none := by
    intro p d hd
    apply hup
    simp [hierBioStep, hodd _ _ d hd, hends]
  cases β
  · exact absurd hβ (by decide)
  · exact absurd hβ (by decide)
  · simp only [hierKernel, hfull, Option.bind_none]
  · simp only [hierKernel, hfull, Option.bind_none]
  · simp only [hierKernel, hfull, Option.bind_none]
  · simp only [hierKernel]
    rw [hbio _ _ (by simp only [hg]; omega)]
    rfl

/-- C25 is violated: with a one-sided boundary (and so only one of the two ends stored) the
non-periodic bases do not restore the data; the dispatch does not reject the combination. -/
theorem C25_one_sided_violated :
    ¬ C25_full ℚ .fullWeighting 1 2 0 ∧ ¬ C25_full ℚ .biorthogonal 1 2 0 := by
  have key : ∀ β, β = Basis.fullWeighting ∨ β = Basis.biorthogonal → ¬ C25_full ℚ β 1 2 0 := by
    intro β hβ h
    obtain ⟨m, r, h1, h2, -, h4⟩ := h ⟨4, fun i => (i : ℚ)⟩ 0 0 rfl (by
      intro _ h; exact absurd h (by decide))
    have e : ((hierPole β 1 2 0 0 [] 0 (⟨4, fun i => (i : ℚ)⟩ : Buf ℚ)).bind fun m =>
        (dehierPole β 1 2 0 0 [] 0 m).map fun r => r.val 3) = some 3 := by
      rw [h1, Option.bind_some, h2, Option.map_some]
      have := h4 3 (by decide)
      rw [this]
      rfl
    rcases hβ with rfl | rfl <;> exact absurd e (by decide +kernel)
  exact ⟨key _ (Or.inl rfl), key _ (Or.inr rfl)⟩

/-! ### C26 -/

section CharZero

variable [CharZero K]

/-- C26: hierarchizing with a mass conserving basis down to any level `lmin` keeps the trapezoidal
integral: the rule with the points of level `lmin` and spacing `2^(lmax-lmin)` applied to the result
gives the integral of the original data. -/
theorem C26_mass_conserved_partial (β : Basis) (hβ : β.massConserving) (b lmax lmin : ℕ)
    (hb : b = 1 ∨ b = 2) (hb1 : b = 1 → β.periodic) (hm : lmax ≤ 28) (hl : lmin ≤ lmax)
    (loc : Buf K) (hlen : loc.len = nodal lmax b) (junk : ℕ → K) :
    ∃ m, hierPole β b lmax lmin 0 [] junk loc = some m ∧ m.len = loc.len ∧
      trapezoid (2 ^ (lmax - lmin)) (2 ^ lmin) (poleValue b lmax m) =
        trapezoid 1 (2 ^ lmax) (poleValue b lmax loc) ∧
      (lmin < lmax → β.periodic → poleValue b lmax m 0 = poleValue b lmax m (2 ^ lmax)) := by
  rcases Nat.lt_or_ge lmin lmax with hlt | hge
  · have hb2 : b ≤ 2 := by omega
    have hpl : loc.len = poleLength lmax b := hlen
    have hpo : posOff b = 0 := by unfold posOff; rw [if_neg (by omega)]
    have hpos : 0 < 2 ^ lmax := by positivity
    have h1 := (massPole_eq hβ hb hlt hm 0 [] junk loc (by simp) (by omega)).1
    refine ⟨_, h1, rfl, ?_⟩
    obtain ⟨k, hk⟩ : ∃ k, lmax - lmin = k + 1 := ⟨lmax - lmin - 1, by omega⟩
    have hends : β.periodic → (List.range (lmax - lmin)).foldl (massStep β (2 ^ lmax))
        (nodalAt b lmax (filled 0 [] junk loc)) 0 = (List.range (lmax - lmin)).foldl
          (massStep β (2 ^ lmax)) (nodalAt b lmax (filled 0 [] junk loc)) (2 ^ lmax) := by
      intro hp
      rw [hk, List.range_succ, List.foldl_append]
      exact (mass_ends hβ hp k _).1
    have hval : ∀ p ≤ 2 ^ lmax, poleValue b lmax (⟨loc.len, fun i => (List.range (lmax - lmin)).foldl
        (massStep β (2 ^ lmax)) (nodalAt b lmax (filled 0 [] junk loc)) (0 + i)⟩ : Buf K) p =
        (List.range (lmax - lmin)).foldl (massStep β (2 ^ lmax))
          (nodalAt b lmax (filled 0 [] junk loc)) p := by
      intro p hp
      unfold poleValue
      rw [if_neg (by omega)]
      simp only [zero_add]
      split_ifs with h
      · rw [h.2]; exact hends (hb1 h.1)
      · rfl
    constructor
    · rw [trapezoid_congr _ _ _ _ (2 ^ lmax) (by rw [← pow_add]; exact (congrArg _ (by omega)))
          hval]
      have := mass_foldl β (K := K) (lmax := lmax) (k := lmax - lmin) (by omega)
        (nodalAt b lmax (filled 0 [] junk loc))
      rw [show lmax - (lmax - lmin) = lmin by omega] at this
      rw [this]
      exact trapezoid_congr _ _ _ _ (2 ^ lmax) (by rw [one_mul])
        (fun p hp => nodalAt_filled hb2 junk loc hlen p hp)
    · intro _ hp
      rw [hval 0 (by omega), hval _ (le_refl _)]
      exact hends hp
  · obtain rfl : lmin = lmax := by omega
    refine ⟨loc, ?_, rfl, ?_, fun h => absurd h (lt_irrefl _)⟩
    · unfold hierPole
      simp only [if_pos (show lmin ≥ lmin from le_refl _)]
    · rw [Nat.sub_self, pow_zero]

/-- C26, truncation: after the surpluses above level `lmin` have been changed in any way,
dehierarchization yields data with the same integral as the original data. -/
theorem C26_truncation_partial (β : Basis) (hβ : β.massConserving) (b lmax lmin : ℕ)
    (hb : b = 1 ∨ b = 2) (hb1 : b = 1 → β.periodic) (hm : lmax ≤ 28) (hl : lmin ≤ lmax)
    (loc : Buf K) (hlen : loc.len = nodal lmax b) (junk junk' : ℕ → K) :
    ∃ m, hierPole β b lmax lmin 0 [] junk loc = some m ∧
      ∀ u : Buf K, u.len = loc.len →
        (∀ i < loc.len, 2 ^ (lmax - lmin) ∣ i → u.val i = m.val i) →
        ∃ r, dehierPole β b lmax lmin 0 [] junk' u = some r ∧
          trapezoid 1 (2 ^ lmax) (poleValue b lmax r) =
            trapezoid 1 (2 ^ lmax) (poleValue b lmax loc) := by
  obtain ⟨m, h1, h2, h3, h4⟩ := C26_mass_conserved_partial β hβ b lmax lmin hb hb1 hm hl loc hlen
    junk
  refine ⟨m, h1, ?_⟩
  intro u hu hum
  have hb2 : b ≤ 2 := by omega
  have hpos : 0 < 2 ^ lmax := by positivity
  have hul : u.len = nodal lmax b := by omega
  have hnod : nodal lmax b = 2 ^ lmax + b - 1 := rfl
  have hum' : ∀ p ≤ 2 ^ lmax, 2 ^ (lmax - lmin) ∣ p →
      poleValue b lmax u p = poleValue b lmax m p := by
    intro p hp hd
    unfold poleValue
    simp only [if_neg (show ¬ b = 0 by omega)]
    split_ifs with h
    · exact hum 0 (by omega) (dvd_zero _)
    · exact hum p (by omega) hd
  have hcoarse : trapezoid (2 ^ (lmax - lmin)) (2 ^ lmin) (poleValue b lmax u) =
      trapezoid (2 ^ (lmax - lmin)) (2 ^ lmin) (poleValue b lmax m) :=
    trapezoid_congr_dvd _ _ _ _ (2 ^ lmax) (by rw [← pow_add]; exact (congrArg _ (by omega))) hum'
  rcases Nat.lt_or_ge lmin lmax with hlt | hge
  · have hpu : u.len = poleLength lmax b := hul
    have hd := (massPole_eq hβ hb hlt hm 0 [] junk' u (by simp) (by omega)).2
    refine ⟨_, hd, ?_⟩
    have hper : β.periodic = true → nodalAt b lmax (filled 0 [] junk' u) 0 =
        nodalAt b lmax (filled 0 [] junk' u) (2 ^ lmax) := by
      intro hp
      rw [nodalAt_filled hb2 junk' u hul 0 (by omega),
        nodalAt_filled hb2 junk' u hul _ (le_refl _), hum' 0 (by omega) (dvd_zero _),
        hum' _ (le_refl _) (pow_dvd_pow 2 (by omega)), h4 hlt hp]
    have hval : ∀ p ≤ 2 ^ lmax, poleValue b lmax (⟨u.len, fun i =>
        (List.range (lmax - lmin)).reverse.foldl
        (massUnstep β (2 ^ lmax)) (nodalAt b lmax (filled 0 [] junk' u)) (0 + i)⟩ : Buf K) p =
        (List.range (lmax - lmin)).reverse.foldl (massUnstep β (2 ^ lmax))
          (nodalAt b lmax (filled 0 [] junk' u)) p := by
      intro p hp
      unfold poleValue
      rw [if_neg (by omega)]
      simp only [zero_add]
      split_ifs with h
      · rw [h.2]; exact (mass_ends_foldl hβ _ _ hper (hb1 h.1)).2
      · rfl
    rw [trapezoid_congr _ _ _ _ (2 ^ lmax) (by rw [one_mul]) hval]
    have := mass_foldl β (K := K) (lmax := lmax) (k := lmax - lmin) (by omega)
      ((List.range (lmax - lmin)).reverse.foldl (massUnstep β (2 ^ lmax))
          (nodalAt b lmax (filled 0 [] junk' u)))
    rw [← this, (mass_foldl_inverse hβ (by omega) _ hper).2,
      show lmax - (lmax - lmin) = lmin by omega, ← h3, ← hcoarse]
    exact trapezoid_congr _ _ _ _ (2 ^ lmax) (by rw [← pow_add]; exact (congrArg _ (by omega)))
      (fun p hp => nodalAt_filled hb2 junk' u hul p hp)
  · obtain rfl : lmin = lmax := by omega
    refine ⟨u, ?_, ?_⟩
    · unfold dehierPole
      simp only [if_pos (show lmin ≥ lmin from le_refl _)]
    · rw [← h3, ← hcoarse, Nat.sub_self, pow_zero]

/-- Non-trivial data for C26: the integral of `0, 1, 4, 9, 16` (22) is found in two values after
two steps of the full weighting transform, and the surpluses are not all zero. -/
example : (hierPole .fullWeighting 2 2 0 0 [] (fun _ => 5) (⟨5, fun i => (i ^ 2 : ℚ)⟩ : Buf ℚ)).map
      (fun d => ((List.range d.len).map d.val, trapezoid 4 1 (poleValue 2 2 d),
        trapezoid 1 4 (poleValue 2 2 (⟨5, fun i => (i ^ 2 : ℚ)⟩ : Buf ℚ)))) =
    some ([5 / 2, -3 / 2, -1, 1 / 2, 17 / 2], 22, 22) := by
  decide +kernel

end CharZero

/-- C26 is violated for the non-periodic bases with a one-sided boundary. -/
theorem C26_one_sided_violated :
    (hierPole .fullWeighting 1 2 0 0 [] 0 (⟨4, fun i => (i : ℚ)⟩ : Buf ℚ)).map
      (fun m => (trapezoid 4 1 (poleValue 1 2 m),
        trapezoid 1 4 (poleValue 1 2 (⟨4, fun i => (i : ℚ)⟩ : Buf ℚ)))) = some (5, 6) := by
  decide +kernel

/-! ### C27 -/

/-- Specification: the kernels that the names of the bases stand for. -/
def namedKernel : Basis → (ℕ → ℕ → Buf K → Option (Buf K)) × (ℕ → ℕ → Buf K → Option (Buf K))
  | .hat => (hierHat, dehierHat)
  | .hatPeriodic => (hierHat, dehierHat)
  | .fullWeighting => (hierFull false, dehierFull false)
  | .fullWeightingPeriodic => (hierFull true, dehierFull true)
  | .biorthogonal => (hierBio false, dehierBio false)
  | .biorthogonalPeriodic => (hierBio true, dehierBio true)

/-- The full statement of C27. -/
def C27_full : Prop :=
  ∀ (β : Basis) (lmax lmin : ℕ) (d : Buf ℚ), (hierKernel β lmax lmin d) = (namedKernel β).1 lmax lmin d

/-- C27 is violated: the biorthogonal basis is hierarchized with full weighting, which differs on
the data `0, 0, 1, 0, 0` (and the dehierarchization likewise). -/
theorem C27_violated : ¬ C27_full ∧
    (hierKernel .biorthogonal 2 1 (⟨5, fun i => if i = 2 then 1 else 0⟩ : Buf ℚ)).map
      (fun d => (List.range d.len).map d.val) = some [0, -1 / 4, 1 / 2, -1 / 4, 0] ∧
    (hierBio false 2 1 (⟨5, fun i => if i = 2 then 1 else 0⟩ : Buf ℚ)).map
      (fun d => (List.range d.len).map d.val) = some [-1 / 4, -1 / 2, 3 / 4, -1 / 2, -1 / 4] ∧
    (dehierKernel .biorthogonal 2 1 (⟨5, fun i => if i = 2 then 1 else 0⟩ : Buf ℚ)).map
      (fun d => (List.range d.len).map d.val) ≠
    (dehierBio false 2 1 (⟨5, fun i => if i = 2 then 1 else 0⟩ : Buf ℚ)).map
      (fun d => (List.range d.len).map d.val) := by
  have h1 : (hierKernel .biorthogonal 2 1 (⟨5, fun i => if i = 2 then 1 else 0⟩ : Buf ℚ)).map
      (fun d => (List.range d.len).map d.val) = some [0, -1 / 4, 1 / 2, -1 / 4, 0] := by
    decide +kernel
  have h2 : (hierBio false 2 1 (⟨5, fun i => if i = 2 then 1 else 0⟩ : Buf ℚ)).map
      (fun d => (List.range d.len).map d.val) = some [-1 / 4, -1 / 2, 3 / 4, -1 / 2, -1 / 4] := by
    decide +kernel
  refine ⟨?_, h1, h2, by decide +kernel⟩
  intro h
  have := h .biorthogonal 2 1 ⟨5, fun i => if i = 2 then 1 else 0⟩
  rw [this] at h1
  exact absurd (h1.symm.trans h2) (by decide +kernel)

/-- C27 for the other bases: hierarchization and dehierarchization use the kernels of the basis. -/
theorem C27_dispatch_partial (β : Basis) (hβ : β ≠ .biorthogonal) (b lmax lmin gstart : ℕ)
    (hb : 0 < b) (hl : lmin < lmax) (remote : List (ℕ × K)) (junk : ℕ → K) (loc : Buf K) :
    hierPole β b lmax lmin gstart remote junk loc =
      withBoundaryPole (b == 1) ((namedKernel β).1 lmax lmin) (nodal lmax b) gstart remote junk loc ∧
    dehierPole β b lmax lmin gstart remote junk loc =
      withBoundaryPole (b == 1) ((namedKernel β).2 lmax lmin) (nodal lmax b) gstart remote junk
        loc := by
  unfold hierPole dehierPole
  simp only [if_neg (show ¬ lmin ≥ lmax by omega), if_pos (show b > 0 from hb)]
  cases β <;> first | exact ⟨rfl, rfl⟩ | exact absurd rfl hβ

/-- The hypotheses of `C27_dispatch_partial`. -/
example : Basis.biorthogonalPeriodic ≠ .biorthogonal ∧ 0 < 2 ∧ 1 < 3 := by decide

end Verif

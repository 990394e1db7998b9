import Verif.Model.Exchange
import Verif.Props.Levels1d
import Mathlib.Data.Int.Log
import Mathlib.Tactic.Linarith

/-!
# Lemmas on the data exchange along one dimension
-/

namespace Verif

/-- Conditions under which the exchange functions are called. -/
structure Pole.Ok (P : Pole) : Prop where
  hb : P.b ≤ 2
  hl : P.lmin < P.lmax
  hm : P.lmax ≤ 29
  hdec : ValidDec P.dec (poleLength P.lmax P.b)
  hc : P.c < P.dec.length

namespace Pole

/-- distance of index 0 to position 0 -/
def off (P : Pole) : ℤ := if P.b = 0 then 1 else 0

/-- the pole as seen by another process -/
def at' (P : Pole) (c : ℕ) : Pole := ⟨P.lmax, P.b, P.lmin, P.dec, c⟩

theorem n_eq (P : Pole) : P.n = 2 ^ P.lmax + P.b - 1 := by
  have : 0 < 2 ^ P.lmax := by positivity
  unfold n poleLength
  push_cast [Nat.cast_sub (show 1 ≤ 2 ^ P.lmax + P.b by omega)]
  rfl

theorem two_pow_pos (k : ℕ) : (0 : ℤ) < 2 ^ k := by positivity

theorem bounds (P : Pole) (h : P.Ok) :
    0 ≤ P.idxMin ∧ P.idxMin ≤ P.idxMax + 1 ∧ P.idxMax + 1 ≤ P.n := by
  obtain ⟨lo, hi, h1, h2, h3, h4⟩ := bounds1d h.hdec h.hc
  unfold idxMin idxMax n
  rw [h1, h2]
  simp only [Option.getD_some]
  omega

/-- range of the positions -/
theorem pos_range (P : Pole) (h : P.Ok) (x : ℤ) (h0 : 0 ≤ x) (h1 : x < P.n) :
    0 ≤ x + P.off ∧ x + P.off ≤ 2 ^ P.lmax ∧ (P.b = 1 → P.off = 0 ∧ P.n = 2 ^ P.lmax) ∧
      (P.b = 0 → P.off = 1 ∧ P.n = 2 ^ P.lmax - 1) ∧
      (P.b = 2 → P.off = 0 ∧ P.n = 2 ^ P.lmax + 1) := by
  have hb := h.hb
  rw [n_eq] at *
  unfold off
  split_ifs with h2
  · refine ⟨by omega, by omega, by omega, ?_, by omega⟩
    intro _; rw [h2]; simp
  · refine ⟨by omega, by omega, ?_, by omega, ?_⟩
    · intro h3; rw [h3]; simp
    · intro h3; rw [h3]; exact ⟨rfl, by push_cast; ring⟩

theorem owner_iff (P : Pole) (h : P.Ok) (x r : ℤ) :
    P.owner x = some r ↔ 0 ≤ x ∧ x < P.n ∧ ∃ c : ℕ, c < P.dec.length ∧ r = c ∧
      (P.at' c).idxMin ≤ x ∧ x ≤ (P.at' c).idxMax := by
  obtain ⟨h1, h2⟩ := C12_neighbor_lookup P.dec (poleLength P.lmax P.b) h.hdec x
  unfold owner
  constructor
  · intro ho
    have hx : 0 ≤ x ∧ x < P.n := by
      by_contra hc
      rw [h2 (by unfold n at hc; omega)] at ho
      simp at ho
    obtain ⟨c, hc, how⟩ := h1 x.toNat (by omega) (by unfold n at hx; omega)
    rw [hc] at ho
    simp only [Option.some.injEq] at ho
    refine ⟨hx.1, hx.2, c, owns1d_lt_length how, ho.symm, ?_⟩
    have := (owns1d_iff_bounds h.hdec (owns1d_lt_length how)).1 how
    unfold idxMin idxMax at'
    simp only
    omega
  · rintro ⟨hx0, hx1, c, hc, rfl, hlo, hhi⟩
    obtain ⟨c', hc', how⟩ := h1 x.toNat (by omega) (by unfold n at hx1; omega)
    have hx1' : x.toNat < poleLength P.lmax P.b := by unfold n at hx1; omega
    have ho : Owns1d P.dec (poleLength P.lmax P.b) c x.toNat := by
      rw [owns1d_iff_bounds h.hdec hc]
      unfold idxMin at' at hlo
      unfold idxMax at' at hhi
      simp only at hlo hhi
      omega
    have e1 := (owns1d_iff h.hdec _ _ hx1').1 ho
    have e2 := (owns1d_iff h.hdec _ _ hx1').1 how
    rw [hc']
    congr 2
    omega

theorem owner_exists (P : Pole) (h : P.Ok) (x : ℤ) (h0 : 0 ≤ x) (h1 : x < P.n) :
    ∃ r, P.owner x = some r := by
  obtain ⟨c, hc, -⟩ := (C12_neighbor_lookup P.dec (poleLength P.lmax P.b) h.hdec x).1 x.toNat
    (by omega) (by unfold n at h1; omega)
  exact ⟨c, hc⟩

/-- the local points are those owned by this process -/
theorem owner_self (P : Pole) (h : P.Ok) (x : ℤ) :
    P.owner x = some (P.c : ℤ) ↔ P.idxMin ≤ x ∧ x ≤ P.idxMax := by
  have hb := P.bounds h
  rw [P.owner_iff h]
  constructor
  · rintro ⟨_, _, c, _, e, h1, h2⟩
    have : c = P.c := by exact_mod_cast e.symm
    subst this
    exact ⟨h1, h2⟩
  · rintro ⟨h1, h2⟩
    exact ⟨by omega, by omega, P.c, h.hc, rfl, h1, h2⟩

theorem mem_insertFor (P : Pole) (x i r j : ℤ) :
    (r, j) ∈ P.insertFor x i ↔ P.owner x = some r ∧ j = i := by
  unfold insertFor
  cases hx : P.owner x with
  | none => simp
  | some q =>
    simp
    tauto

/-! ### Levels -/

theorem int_dvd_natAbs (k : ℕ) (p : ℤ) : 2 ^ k ∣ p.natAbs ↔ (2 : ℤ) ^ k ∣ p := by
  rw [← Int.natCast_dvd_natCast, Int.dvd_natAbs]
  push_cast
  rfl

theorem level_le (P : Pole) (x : ℤ) : P.level x ≤ P.lmax := by
  unfold level getLevelZ
  simp only
  split_ifs <;> omega

/-- levels and divisibility of positions -/
theorem level_le_iff (P : Pole) (x : ℤ) (k : ℕ) (hk : k ≤ P.lmax) :
    P.level x ≤ P.lmax - k ↔ (2 : ℤ) ^ k ∣ x + P.off := by
  have e : (if P.b = 0 then x + 1 else x) = x + P.off := by
    unfold off; split_ifs <;> simp
  unfold level getLevelZ
  simp only [e]
  by_cases h0 : x + P.off = 0
  · rw [if_pos h0, h0]
    simp only [dvd_zero, iff_true]
    omega
  · rw [if_neg h0, ← int_dvd_natAbs, dvd_iff_le_ctz _ _ (by omega)]
    omega

theorem level_nonneg (P : Pole) (h : P.Ok) (x : ℤ) (h0 : 0 ≤ x) (h1 : x < P.n) :
    0 ≤ P.level x := by
  obtain ⟨p1, p2, -⟩ := P.pos_range h x h0 h1
  have e : (if P.b = 0 then x + 1 else x) = x + P.off := by
    unfold off; split_ifs <;> simp
  unfold level getLevelZ
  simp only [e]
  split_ifs with h2
  · omega
  · have := (pointLevel_ctz (lmax := P.lmax) (x := (x + P.off).natAbs) (by
      zify
      rw [abs_of_nonneg p1]
      exact p2) (by omega)).1
    omega

/-- exponent of the largest power of two that divides the position, at most `lmax` -/
def ex (P : Pole) (x : ℤ) : ℕ := (P.lmax - P.level x).toNat

theorem ex_spec (P : Pole) (h : P.Ok) (x : ℤ) (h0 : 0 ≤ x) (h1 : x < P.n) :
    P.level x = P.lmax - P.ex x ∧ P.ex x ≤ P.lmax ∧
      ∀ k ≤ P.lmax, (2 : ℤ) ^ k ∣ x + P.off ↔ k ≤ P.ex x := by
  have hn := P.level_nonneg h x h0 h1
  have hl := P.level_le x
  refine ⟨by unfold ex; omega, by unfold ex; omega, ?_⟩
  intro k hk
  rw [← P.level_le_iff x k hk]
  unfold ex
  omega

theorem tableShift_eq (P : Pole) (h : P.Ok) (e : ℕ) (he : e < P.lmax) (l : ℤ) (hl : l = e) :
    tableShift l = 2 ^ e := by
  subst hl
  have : e < 29 := by have := h.hm; omega
  unfold tableShift
  rw [Int.toNat_natCast]
  interval_cases e <;> rfl

theorem mem_levelsAbove (P : Pole) (h : P.Ok) (x : ℤ) (h0 : 0 ≤ x) (h1 : x < P.n) (l : ℤ) :
    l ∈ P.levelsAbove (P.level x) ↔
      ∃ e : ℕ, e < P.lmax ∧ l = P.lmax - e ∧ (2 : ℤ) ^ (e + 1) ∣ x + P.off := by
  obtain ⟨s1, s2, s3⟩ := P.ex_spec h x h0 h1
  unfold levelsAbove
  rw [List.mem_map]
  constructor
  · rintro ⟨k, hk, rfl⟩
    rw [List.mem_range] at hk
    refine ⟨P.ex x - 1 - k, by omega, by omega, ?_⟩
    rw [s3 _ (by omega)]
    omega
  · rintro ⟨e, he, rfl, hd⟩
    rw [s3 _ (by omega)] at hd
    exact ⟨P.ex x - 1 - e, by rw [List.mem_range]; omega, by omega⟩

/-! ### The loops -/

theorem find?_head {α : Type} (p : α → Bool) (a : α) (l : List α) (h : p a = true) :
    (a :: l).find? p = some a := by simp [h]

/-- `getNextIndex1d` returns the next index if that one is outside or on the finest level -/
theorem nextIndex_eq (P : Pole) (x : ℤ) (h : P.idxMax ≤ x ∨ ¬ (2 : ℤ) ∣ x + 1 + P.off)
    (hl : 1 ≤ P.lmax) : P.nextIndex x = x + 1 := by
  unfold nextIndex
  rcases lt_or_ge x P.idxMax with hx | hx
  · have hn : ¬ (2 : ℤ) ∣ x + 1 + P.off := by
      rcases h with h | h
      · omega
      · exact h
    have hlev : P.level (x + 1) = P.lmax := by
      have h1 := P.level_le (x + 1)
      have h2 := (P.level_le_iff (x + 1) 1 hl).not.2 (by simpa using hn)
      push_cast at h2
      omega
    obtain ⟨m, hm⟩ : ∃ m, (P.idxMax - x).toNat = m + 1 := ⟨(P.idxMax - x).toNat - 1, by omega⟩
    rw [hm, List.range_succ_eq_map, List.map_cons]
    simp only [Nat.cast_zero, add_zero]
    rw [find?_head]
    · rfl
    · simp [hlev]
  · have : (P.idxMax - x).toNat = 0 := by omega
    rw [this]
    rfl

/-- An index that the loops skip: strictly between a point and its right predecessor, both local. -/
def Skipped (P : Pole) (x : ℤ) : Prop :=
  ∃ v, ∃ e : ℕ, e < P.lmax ∧ P.idxMin ≤ v ∧ (2 : ℤ) ^ e ∣ v + P.off ∧ v < x ∧ x < v + 2 ^ e ∧
    v + 2 ^ e ≤ P.idxMax

/-- The step of a loop: to the next index, or to the right predecessor if that is local. -/
def Step (P : Pole) (x y : ℤ) : Prop :=
  y = x + 1 ∨ ∃ e : ℕ, e < P.lmax ∧ (2 : ℤ) ^ e ∣ x + P.off ∧ y = x + 2 ^ e ∧ y ≤ P.idxMax

theorem skipped_or (P : Pole) {x y : ℤ} (hx : P.idxMin ≤ x) (hs : P.Step x y) (z : ℤ) (h1 : x < z)
    (h2 : z < y) : P.Skipped z := by
  rcases hs with rfl | ⟨e, he, hd, rfl, hy⟩
  · omega
  · exact ⟨x, e, he, hx, hd, h1, h2, hy⟩

theorem step_lt (P : Pole) {x y : ℤ} (hs : P.Step x y) : x < y := by
  rcases hs with rfl | ⟨e, _, _, rfl, _⟩
  · omega
  · have := two_pow_pos e; omega

theorem visit_eq (P : Pole) (next : ℤ → ℤ)
    (hs : ∀ x, P.idxMin ≤ x → x ≤ P.idxMax → P.Step x (next x)) :
    ∀ (fuel : ℕ) (x : ℤ), P.idxMin ≤ x → P.idxMax + 1 - x ≤ fuel →
      ∃ vs, P.visit next fuel x = some vs ∧ (∀ v ∈ vs, x ≤ v ∧ v ≤ P.idxMax) ∧
        ∀ z, x ≤ z → z ≤ P.idxMax → z ∈ vs ∨ P.Skipped z := by
  intro fuel
  induction fuel with
  | zero =>
    intro x h1 h2
    refine ⟨[], ?_, by simp, ?_⟩
    · rw [visit, if_neg (by push_cast at h2; omega)]
    · intro z _ _; push_cast at h2; omega
  | succ fuel ih =>
    intro x h1 h2
    by_cases hx : x ≤ P.idxMax
    · have hst := hs x h1 hx
      have hlt := P.step_lt hst
      obtain ⟨vs, e1, e2, e3⟩ := ih (next x) (by omega) (by push_cast at h2; omega)
      refine ⟨x :: vs, ?_, ?_, ?_⟩
      · rw [visit, if_pos hx, e1]; rfl
      · intro v hv
        rw [List.mem_cons] at hv
        rcases hv with rfl | hv
        · omega
        · have := e2 v hv; omega
      · intro z hz1 hz2
        rw [List.mem_cons]
        rcases lt_or_ge z (next x) with hz | hz
        · rcases eq_or_lt_of_le hz1 with rfl | hz1
          · exact Or.inl (Or.inl rfl)
          · exact Or.inr (P.skipped_or h1 hst z hz1 hz)
        · rcases e3 z hz hz2 with h | h
          · exact Or.inl (Or.inr h)
          · exact Or.inr h
    · refine ⟨[], ?_, by simp, ?_⟩
      · rw [visit, if_neg hx]
      · intro z _ _; omega

/-- The neighbourhood of a skipped index is local: any point closer than a power of two dividing the
position. -/
theorem skipped_local (P : Pole) {x : ℤ} (h : P.Skipped x) (e : ℕ) (hd : (2 : ℤ) ^ e ∣ x + P.off) :
    P.idxMin ≤ x - 2 ^ e ∧ x + 2 ^ e ≤ P.idxMax ∧ P.idxMin < x := by
  obtain ⟨v, E, hE, h1, hv, h2, h3, h4⟩ := h
  have hlt : e < E := by
    by_contra hc
    have hEd : (2 : ℤ) ^ E ∣ x + P.off := dvd_trans (pow_dvd_pow 2 (by omega)) hd
    have := dvd_sub hEd hv
    have := Int.le_of_dvd (by omega) this
    omega
  have hve : (2 : ℤ) ^ e ∣ v + P.off := dvd_trans (pow_dvd_pow 2 (by omega)) hv
  have d1 := Int.le_of_dvd (by omega) (dvd_sub hd hve)
  have d2 := Int.le_of_dvd (by omega) (dvd_sub (dvd_add hve (pow_dvd_pow (2 : ℤ) (le_of_lt hlt)) ) hd)
  omega

/-- The step of the loop of `exchangeData1d`. -/
theorem hierNext_step (P : Pole) (h : P.Ok) (x : ℤ) (h1 : P.idxMin ≤ x) (h2 : x ≤ P.idxMax) :
    P.Step x (P.hierNext x) := by
  have hb := P.bounds h
  have hl := h.hl
  obtain ⟨s1, s2, s3⟩ := P.ex_spec h x (by omega) (by omega)
  unfold hierNext
  simp only
  split_ifs with hc
  · left
    apply P.nextIndex_eq x _ (by omega)
    by_cases h3 : (2 : ℤ) ∣ x + P.off
    · right; omega
    · left
      have hex : P.ex x = 0 := by
        have := (s3 1 (by omega)).not.1 (by simpa using h3)
        omega
      rcases hc with hc | hc
      · omega
      · rw [P.tableShift_eq h 0 (by omega) _ (by omega)] at hc
        omega
  · push Not at hc
    have hlt : P.ex x < P.lmax := by omega
    have ht := P.tableShift_eq h (P.ex x) hlt (P.lmax - P.level x) (by omega)
    rw [ht] at hc ⊢
    exact Or.inr ⟨P.ex x, hlt, (s3 _ s2).2 (le_refl _), rfl, by omega⟩

end Pole
end Verif

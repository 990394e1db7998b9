import Verif.Model.Interpolation
import Verif.Lemmas.Tensor
import Verif.Lemmas.Levels1d
import Verif.Lemmas.Decomposition
import Mathlib.Algebra.Order.Floor.Ring
import Mathlib.Algebra.BigOperators.Module
import Mathlib.Algebra.BigOperators.Ring.Finset
import Mathlib.Tactic.Linarith
import Mathlib.Tactic.Positivity
import Mathlib.Tactic.FieldSimp
import Mathlib.Tactic.Module

/-!
# Lemmas on interpolation
-/

namespace Verif.Interpolation

variable {K : Type} [Field K] [LinearOrder K] [FloorRing K] {V : Type} [AddCommMonoid V] [Module K V]

/-- Specification: the hat function of the point with the global index `i` of a grid with the level `L`. On
a periodic grid, the point 0 is at the right end of the domain, too. -/
def hat (L b i : ℕ) (x : K) : K :=
  max 0 (1 - |x * 2 ^ L - (pos b i : ℕ)|) +
    if b = 1 ∧ i = 0 then max 0 (1 - |x * 2 ^ L - 2 ^ L|) else 0

/-- A process in one dimension. The first process has points. -/
structure DimOk (d : EvalDim) : Prop where
  boundary : d.boundary ≤ 2
  glob : d.globalSize = nodal d.level d.boundary
  range : d.lower + d.size ≤ d.globalSize
  first : d.coord = 0 → d.lower = 0 ∧ 0 < d.size
  others : d.coord ≠ 0 → 0 < d.lower

/-- The lower neighbour of a coordinate in terms of global positions. -/
def cell (d : EvalDim) (x : K) : ℤ := ⌊x * 2 ^ d.level⌋

/-- The position inside of the cell. -/
def frac (d : EvalDim) (x : K) : K := x * 2 ^ d.level - cell d x

/-- The local index of the lower neighbour. -/
def lowIdx (d : EvalDim) (x : K) : ℤ := cell d x - (d.lower + d.shift : ℕ)

variable [IsStrictOrderedRing K]

omit [AddCommMonoid V] [Module K V] in
lemma floor_eq (d : EvalDim) (x : K) :
    ⌊(x - ((d.lower + d.shift : ℕ) : K) * d.h) * 2 ^ d.level⌋ = lowIdx d x := by
  unfold lowIdx cell
  rw [← Int.floor_sub_natCast]
  congr 1
  unfold EvalDim.h
  field_simp

lemma frac_nonneg (d : EvalDim) (x : K) : 0 ≤ frac d x := by
  unfold frac cell
  linarith [Int.floor_le (x * 2 ^ d.level)]

lemma frac_lt_one (d : EvalDim) (x : K) : frac d x < 1 := by
  unfold frac cell
  linarith [Int.lt_floor_add_one (x * 2 ^ d.level)]

lemma hat_value (d : EvalDim) (x : K) (q : ℤ) :
    max 0 (1 - |x * 2 ^ d.level - q|) =
      if q = cell d x then 1 - frac d x else if q = cell d x + 1 then frac d x else 0 := by
  have h0 := frac_nonneg d x
  have h1 := frac_lt_one d x
  have hy : x * 2 ^ d.level = cell d x + frac d x := by unfold frac; ring
  rw [hy]
  split_ifs with h2 h3
  · subst h2
    rw [show (cell d x : K) + frac d x - cell d x = frac d x by ring, abs_of_nonneg h0,
      max_eq_right (by linarith)]
  · subst h3
    push_cast
    rw [show (cell d x : K) + frac d x - (cell d x + 1) = -(1 - frac d x) by ring, abs_neg,
      abs_of_nonneg (by linarith), max_eq_right (by linarith)]
    ring
  · refine max_eq_left ?_
    rcases lt_or_ge q (cell d x) with h | h
    · have : (q : K) + 1 ≤ cell d x := by exact_mod_cast h
      have := le_abs_self ((cell d x : K) + frac d x - q)
      linarith
    · have h4 : cell d x + 2 ≤ q := by omega
      have : (cell d x : K) + 2 ≤ q := by exact_mod_cast h4
      have := neg_le_abs ((cell d x : K) + frac d x - q)
      linarith

lemma pointDistance_eq (d : EvalDim) (idx : ℤ) (x : K)
    (h : |(((d.lower : ℤ) + d.shift + idx : ℤ) : K) - x * 2 ^ d.level| ≤ 1) :
    ∃ r, pointDistance d idx x = .ok r ∧
      r * 2 ^ d.level = |(((d.lower : ℤ) + d.shift + idx : ℤ) : K) - x * 2 ^ d.level| := by
  have hp : (0 : K) < 2 ^ d.level := by positivity
  have he : ((((d.lower : ℤ) + d.shift + idx : ℤ) : K) * d.h - x) * 2 ^ d.level =
      (((d.lower : ℤ) + d.shift + idx : ℤ) : K) - x * 2 ^ d.level := by
    unfold EvalDim.h
    field_simp
  have ha : |(((d.lower : ℤ) + d.shift + idx : ℤ) : K) * d.h - x| * 2 ^ d.level =
      |(((d.lower : ℤ) + d.shift + idx : ℤ) : K) - x * 2 ^ d.level| := by
    rw [← he, abs_mul, abs_of_pos hp]
  refine ⟨|(((d.lower : ℤ) + d.shift + idx : ℤ) : K) * d.h - x|, ?_, ha⟩
  unfold pointDistance
  simp only
  rw [if_neg]
  rw [not_lt]
  have : |(((d.lower : ℤ) + d.shift + idx : ℤ) : K) * d.h - x| * 2 ^ d.level ≤ d.h * 2 ^ d.level := by
    rw [ha]
    have : (d.h : K) * 2 ^ d.level = 1 := by unfold EvalDim.h; field_simp
    rw [this]
    exact h
  exact le_of_mul_le_mul_right this hp

lemma shift_pos {d : EvalDim} (i : ℕ) : pos d.boundary i = i + d.shift := by
  unfold pos EvalDim.shift
  split_ifs <;> omega

/-- Processes on which the loop of `evalLocal` goes on. -/
def Continues (d : EvalDim) (x : K) : Prop :=
  -1 ≤ lowIdx d x ∧ ((1 - d.h ≤ x ∧ d.boundary = 1 ∧ d.coord = 0) ∨ lowIdx d x ≤ (d.size : ℤ) - 1)

lemma step_false {d : EvalDim} (x : K) :
    step d (lowIdx d x) x false = .ok
      (if 0 ≤ lowIdx d x ∧ lowIdx d x < d.size then some (1 - frac d x, 0) else none) := by
  unfold step
  simp only [Bool.false_eq_true, false_and, if_false, add_zero]
  by_cases h0 : lowIdx d x < 0
  · rw [if_pos h0, if_neg (by omega)]
  · rw [if_neg h0]
    by_cases h1 : (d.size : ℤ) - 1 < lowIdx d x
    · rw [if_pos h1, if_neg (by omega)]
    · rw [if_neg h1, if_pos (by omega)]
      have hz : (((d.lower : ℤ) + d.shift + lowIdx d x : ℤ) : K) - x * 2 ^ d.level = - frac d x := by
        unfold frac lowIdx
        push_cast
        ring
      have ha : |(((d.lower : ℤ) + d.shift + lowIdx d x : ℤ) : K) - x * 2 ^ d.level| = frac d x := by
        rw [hz, abs_neg, abs_of_nonneg (frac_nonneg d x)]
      obtain ⟨r, h2, h3⟩ := pointDistance_eq d (lowIdx d x) x (by
        rw [ha]; exact (frac_lt_one d x).le)
      rw [h2]
      simp only [Outcome.bind]
      rw [h3, ha]

lemma step_true {d : EvalDim} (hd : DimOk d) (x : K) (hc : Continues d x) :
    step d (lowIdx d x) x true = .ok
      (if d.boundary = 1 ∧ lowIdx d x + 1 = d.globalSize then some (frac d x, - lowIdx d x)
        else if lowIdx d x + 1 < d.size then some (frac d x, 1) else none) ∧
      (d.boundary = 1 ∧ lowIdx d x + 1 = d.globalSize → d.lower = 0 ∧ 0 < d.size) := by
  have hw : d.boundary = 1 ∧ lowIdx d x + 1 = d.globalSize → d.lower = 0 ∧ 0 < d.size := by
    rintro ⟨h1, h2⟩
    by_cases h0 : d.coord = 0
    · exact hd.first h0
    · have h3 := hd.others h0
      have h4 := hd.range
      rcases hc.2 with h5 | h5
      · exact absurd h5.2.2 h0
      · omega
  refine ⟨?_, hw⟩
  unfold step
  simp only [if_true, true_and]
  have hc1 := hc.1
  rw [if_neg (by omega)]
  have h0 := frac_nonneg d x
  have h1 := frac_lt_one d x
  by_cases hwr : d.boundary = 1 ∧ lowIdx d x + 1 = d.globalSize
  · rw [if_pos hwr, if_pos hwr]
    have hlo := (hw hwr).1
    have hs : d.shift = 0 := by unfold EvalDim.shift; simp [hwr.1]
    have hG : d.globalSize = 2 ^ d.level := by
      rw [hd.glob, hwr.1]
      unfold nodal
      simp
    have hcell : (cell d x : K) + 1 = 2 ^ d.level := by
      have h2 := hwr.2
      unfold lowIdx at h2
      rw [hlo, hs, hG] at h2
      push_cast at h2
      have h3 : cell d x + 1 = 2 ^ d.level := by linarith
      exact_mod_cast congrArg (Int.cast (R := K)) h3
    have hz : (((d.lower : ℤ) + d.shift + 0 : ℤ) : K) - (x - 1) * 2 ^ d.level = 1 - frac d x := by
      rw [hlo, hs]
      unfold frac
      push_cast
      linarith
    have ha : |(((d.lower : ℤ) + d.shift + 0 : ℤ) : K) - (x - 1) * 2 ^ d.level| = 1 - frac d x := by
      rw [hz, abs_of_nonneg (by linarith)]
    obtain ⟨r, h2, h3⟩ := pointDistance_eq d 0 (x - 1) (by rw [ha]; linarith)
    rw [h2]
    simp only [Outcome.bind]
    rw [h3, ha]
    congr 3
    ring
  · rw [if_neg hwr, if_neg hwr]
    by_cases h2 : (d.size : ℤ) - 1 < lowIdx d x + 1
    · rw [if_pos h2, if_neg (by omega)]
    · rw [if_neg h2, if_pos (by omega)]
      have hz : (((d.lower : ℤ) + d.shift + (lowIdx d x + 1) : ℤ) : K) - x * 2 ^ d.level =
          1 - frac d x := by
        unfold frac lowIdx
        push_cast
        ring
      have ha : |(((d.lower : ℤ) + d.shift + (lowIdx d x + 1) : ℤ) : K) - x * 2 ^ d.level| =
          1 - frac d x := by
        rw [hz, abs_of_nonneg (by linarith)]
      obtain ⟨r, h3, h4⟩ := pointDistance_eq d (lowIdx d x + 1) x (by rw [ha]; linarith)
      rw [h3]
      simp only [Outcome.bind]
      rw [h4, ha]
      congr 3
      ring

/-- The contribution of a neighbour to a local point. -/
def contrib (r : Option (K × ℤ)) (li : ℤ) (i : ℕ) : K :=
  match r with
  | none => 0
  | some (w, delta) => if li + delta = i then w else 0

/-- The result of `step`. -/
def stepVal (d : EvalDim) (x : K) (upper : Bool) : Option (K × ℤ) :=
  match step d (lowIdx d x) x upper with
  | .ok r => r
  | _ => none

lemma step_eq {d : EvalDim} (hd : DimOk d) (x : K) (hc : Continues d x) (upper : Bool) :
    step d (lowIdx d x) x upper = .ok (stepVal d x upper) := by
  unfold stepVal
  cases upper with
  | false => rw [step_false]
  | true => rw [(step_true hd x hc).1]

lemma stepVal_range {d : EvalDim} (hd : DimOk d) (x : K) (hc : Continues d x) (upper : Bool) (w : K)
    (delta : ℤ) (h : stepVal d x upper = some (w, delta)) :
    0 ≤ w ∧ 0 ≤ lowIdx d x + delta ∧ lowIdx d x + delta < d.size := by
  have h0 := frac_nonneg d x
  have h1 := frac_lt_one d x
  have hc1 := hc.1
  unfold stepVal at h
  cases upper with
  | false =>
    rw [step_false] at h
    simp only at h
    split_ifs at h with h2
    simp only [Option.some.injEq, Prod.mk.injEq] at h
    obtain ⟨rfl, rfl⟩ := h
    exact ⟨by linarith, by omega, by omega⟩
  | true =>
    obtain ⟨h3, h4⟩ := step_true hd x hc
    rw [h3] at h
    simp only at h
    split_ifs at h with h2 h5
    · simp only [Option.some.injEq, Prod.mk.injEq] at h
      obtain ⟨rfl, rfl⟩ := h
      have := (h4 h2).2
      exact ⟨h0, by omega, by omega⟩
    · simp only [Option.some.injEq, Prod.mk.injEq] at h
      obtain ⟨rfl, rfl⟩ := h
      exact ⟨h0, by omega, by omega⟩

/-- The domain: `[0, 1]`, without the right end if the grid is periodic. -/
def InDomain (d : EvalDim) (x : K) : Prop := 0 ≤ x ∧ x ≤ 1 ∧ (d.boundary = 1 → x < 1)

lemma cell_lt {d : EvalDim} {x : K} (h : x < 1) : cell d x < 2 ^ d.level := by
  unfold cell
  rw [Int.floor_lt]
  push_cast
  have : (0 : K) < 2 ^ d.level := by positivity
  nlinarith

lemma cell_nonneg {d : EvalDim} {x : K} (h : 0 ≤ x) : 0 ≤ cell d x := by
  unfold cell
  rw [Int.floor_nonneg]
  positivity

lemma wrap_value {d : EvalDim} {x : K} (hx : x < 1) :
    max 0 (1 - |x * 2 ^ d.level - 2 ^ d.level|) =
      if (2 : ℤ) ^ d.level = cell d x + 1 then frac d x else 0 := by
  have := hat_value d x (2 ^ d.level)
  push_cast at this
  rw [this, if_neg]
  have := cell_lt (d := d) hx
  omega

lemma hat_eq {d : EvalDim} (hd : DimOk d) (x : K) (hx : InDomain d x) (hc : Continues d x) (i : ℕ)
    (hi : i < d.size) :
    hat d.level d.boundary (d.lower + i) x =
      contrib (stepVal d x false) (lowIdx d x) i + contrib (stepVal d x true) (lowIdx d x) i := by
  have hc1 := hc.1
  have hr := hd.range
  unfold hat
  rw [shift_pos]
  have hq := hat_value d x ((d.lower + i + d.shift : ℕ) : ℤ)
  rw [Int.cast_natCast] at hq
  rw [hq]
  have hf : contrib (stepVal d x false) (lowIdx d x) i =
      if ((d.lower + i + d.shift : ℕ) : ℤ) = cell d x then 1 - frac d x else 0 := by
    unfold stepVal
    rw [step_false]
    simp only
    have hl : lowIdx d x = cell d x - (d.lower + d.shift : ℕ) := rfl
    split_ifs with h1 h2 h2
    · simp only [contrib, add_zero]
      rw [if_pos (by omega)]
    · simp only [contrib, add_zero]
      rw [if_neg (by omega)]
    · exfalso
      omega
    · rfl
  obtain ⟨h3, h4⟩ := step_true hd x hc
  have hl : lowIdx d x = cell d x - (d.lower + d.shift : ℕ) := rfl
  by_cases hwr : d.boundary = 1 ∧ lowIdx d x + 1 = d.globalSize
  · have ht : contrib (stepVal d x true) (lowIdx d x) i = if i = 0 then frac d x else 0 := by
      unfold stepVal
      rw [h3, if_pos hwr]
      simp only [contrib]
      by_cases h0 : i = 0
      · rw [if_pos h0, if_pos (by omega)]
      · rw [if_neg h0, if_neg (by omega)]
    have hlo := (h4 hwr).1
    have hG : d.globalSize = 2 ^ d.level := by
      rw [hd.glob, hwr.1]
      unfold nodal
      simp
    have hs : d.shift = 0 := by unfold EvalDim.shift; simp [hwr.1]
    have hcell : (2 : ℤ) ^ d.level = cell d x + 1 := by
      have h2 := hwr.2
      rw [hl, hlo, hs, hG] at h2
      push_cast at h2
      linarith
    rw [hf, ht, wrap_value (hx.2.2 hwr.1), if_pos hcell]
    have hne : ((d.lower + i + d.shift : ℕ) : ℤ) ≠ cell d x + 1 := by
      rw [← hcell]
      have : ((2 : ℤ) ^ d.level) = ((2 ^ d.level : ℕ) : ℤ) := by push_cast; rfl
      rw [this, ← hG]
      omega
    rw [if_neg hne]
    congr 1
    by_cases h0 : i = 0
    · rw [if_pos ⟨hwr.1, by omega⟩, if_pos h0]
    · rw [if_neg (by rintro ⟨-, h⟩; omega), if_neg h0]
  · have ht : contrib (stepVal d x true) (lowIdx d x) i =
        if ((d.lower + i + d.shift : ℕ) : ℤ) = cell d x + 1 then frac d x else 0 := by
      unfold stepVal
      rw [h3, if_neg hwr]
      simp only
      split_ifs with h1 h2 h2
      · simp only [contrib]
        rw [if_pos (by omega)]
      · simp only [contrib]
        rw [if_neg (by omega)]
      · exfalso
        omega
      · rfl
    have hw0 : (if d.boundary = 1 ∧ d.lower + i = 0 then max 0 (1 - |x * 2 ^ d.level - 2 ^ d.level|) else 0)
        = (0 : K) := by
      split_ifs with hb
      · rw [wrap_value (hx.2.2 hb.1), if_neg]
        intro hcell
        apply hwr
        refine ⟨hb.1, ?_⟩
        have hs : d.shift = 0 := by unfold EvalDim.shift; simp [hb.1]
        have hG : d.globalSize = 2 ^ d.level := by
          rw [hd.glob, hb.1]
          unfold nodal
          simp
        rw [hl, hG, hs, show d.lower = 0 by omega]
        push_cast
        linarith
      · rfl
    rw [hf, ht, hw0, add_zero]
    split_ifs with h1 h2
    · exfalso; omega
    · ring
    · ring
    · ring

lemma hat_zero {d : EvalDim} (hd : DimOk d) (x : K) (hx : InDomain d x) (hc : ¬ Continues d x) (i : ℕ)
    (hi : i < d.size) : hat d.level d.boundary (d.lower + i) x = 0 := by
  unfold hat
  rw [shift_pos]
  have hq := hat_value d x ((d.lower + i + d.shift : ℕ) : ℤ)
  rw [Int.cast_natCast] at hq
  rw [hq]
  have hl : lowIdx d x = cell d x - (d.lower + d.shift : ℕ) := rfl
  unfold Continues at hc
  rw [not_and_or, not_or] at hc
  have h1 : ((d.lower + i + d.shift : ℕ) : ℤ) ≠ cell d x ∧
      ((d.lower + i + d.shift : ℕ) : ℤ) ≠ cell d x + 1 := by
    rcases hc with hc | hc <;> omega
  rw [if_neg h1.1, if_neg h1.2, zero_add]
  split_ifs with hb
  · have hx1 := hx.2.2 hb.1
    rw [wrap_value hx1, if_neg]
    intro hcell
    have hs : d.shift = 0 := by unfold EvalDim.shift; simp [hb.1]
    have hn := cell_nonneg (d := d) hx.1
    rcases hc with hc | hc
    · omega
    · have hlo : d.lower = 0 := by omega
      have hco : d.coord = 0 := by
        by_contra hne
        have := hd.others hne
        omega
      apply hc.1
      refine ⟨?_, hb.1, hco⟩
      have hfl : (cell d x : K) ≤ x * 2 ^ d.level := Int.floor_le _
      have hcK : (2 : K) ^ d.level = cell d x + 1 := by exact_mod_cast congrArg (Int.cast (R := K)) hcell
      unfold EvalDim.h
      have hp : (0 : K) < 2 ^ d.level := by positivity
      have : (1 - 1 / 2 ^ d.level) * 2 ^ d.level ≤ x * (2 : K) ^ d.level := by
        rw [sub_mul, one_mul, div_mul_cancel₀ _ hp.ne']
        linarith
      exact le_of_mul_le_mul_right this hp
  · rfl

/-! ## The loops -/

/-- The loop over the dimensions with the results of `step`. -/
def npure : List (EvalDim × K) → List ℕ → ℕ → ℤ → K → ℤ × K
  | (d, x) :: ds, o :: os, it, nb, phi =>
    match stepVal d x (it % 2 == 1) with
    | none => (nb, 0)
    | some (w, delta) => npure ds os (it / 2) (nb + delta * o) (phi * w)
  | _, _, _, nb, phi => (nb, phi)

/-- The list for `neighborLoop`. -/
def zd : List (EvalDim × K) → List ℕ → List (EvalDim × ℤ × K × ℕ)
  | (d, x) :: ds, o :: os => (d, lowIdx d x, x, o) :: zd ds os
  | _, _ => []

/-- The lower neighbours. -/
def lows (ds : List (EvalDim × K)) : List ℤ := ds.map fun p => lowIdx p.1 p.2

/-- The conditions on the dimensions. -/
def AllOk (ds : List (EvalDim × K)) : Prop := ∀ p ∈ ds, DimOk p.1 ∧ InDomain p.1 p.2

/-- No early return. -/
def AllContinue (ds : List (EvalDim × K)) : Prop := ∀ p ∈ ds, Continues p.1 p.2

lemma neighborLoop_eq (ds : List (EvalDim × K)) (os : List ℕ) (h : AllOk ds) (hc : AllContinue ds)
    (it : ℕ) (nb : ℤ) (phi : K) : neighborLoop (zd ds os) it nb phi = .ok (npure ds os it nb phi) := by
  induction ds generalizing os it nb phi with
  | nil => cases os <;> rfl
  | cons p ds ih =>
    obtain ⟨d, x⟩ := p
    cases os with
    | nil => rfl
    | cons o os =>
      have h1 : DimOk d ∧ InDomain d x := h (d, x) (List.mem_cons_self ..)
      have h2 : Continues d x := hc (d, x) (List.mem_cons_self ..)
      rw [zd, neighborLoop, step_eq h1.1 x h2, npure]
      simp only [Outcome.bind]
      cases stepVal d x (it % 2 == 1) with
      | none => rfl
      | some r =>
        exact ih os (fun p hp => h p (List.mem_cons_of_mem _ hp))
          (fun p hp => hc p (List.mem_cons_of_mem _ hp)) _ _ _

lemma npure_range (ds : List (EvalDim × K)) (os : List ℕ) (h : AllOk ds) (hc : AllContinue ds)
    (hl : os.length = ds.length) (it : ℕ) (nb : ℤ) (phi : K) (hphi : 0 ≤ phi) :
    0 ≤ (npure ds os it nb phi).2 ∧ ((npure ds os it nb phi).2 ≠ 0 →
      ∃ is : List ℕ, List.Forall₂ (· < ·) is (ds.map fun p => p.1.size) ∧
        (npure ds os it nb phi).1 + linear (lows ds) os = nb + linear (is.map (Nat.cast : ℕ → ℤ)) os) := by
  induction ds generalizing os it nb phi with
  | nil => exact ⟨hphi, fun _ => ⟨[], .nil, by simp [npure, lows]⟩⟩
  | cons p ds ih =>
    obtain ⟨d, x⟩ := p
    cases os with
    | nil => simp at hl
    | cons o os =>
      have h1 : DimOk d ∧ InDomain d x := h (d, x) (List.mem_cons_self ..)
      have h2 : Continues d x := hc (d, x) (List.mem_cons_self ..)
      rw [npure]
      cases hs : stepVal d x (it % 2 == 1) with
      | none => exact ⟨le_refl _, fun h => absurd rfl h⟩
      | some r =>
        obtain ⟨w, delta⟩ := r
        obtain ⟨hw, h3, h4⟩ := stepVal_range h1.1 x h2 _ w delta hs
        obtain ⟨h5, h6⟩ := ih os (fun p hp => h p (List.mem_cons_of_mem _ hp))
          (fun p hp => hc p (List.mem_cons_of_mem _ hp)) (by simpa using hl) (it / 2) (nb + delta * o)
          (phi * w) (mul_nonneg hphi hw)
        refine ⟨h5, fun hne => ?_⟩
        obtain ⟨is, h7, h8⟩ := h6 hne
        refine ⟨(lowIdx d x + delta).toNat :: is, .cons (by simp only; omega) h7, ?_⟩
        simp only [lows, List.map_cons, linear] at h8 ⊢
        rw [Int.toNat_of_nonneg h3]
        linarith

/-- The nested sum. -/
def recSum (G : ℤ → V) : List (EvalDim × K) → List ℕ → ℤ → V
  | (d, x) :: ds, o :: os, base => ∑ i ∈ Finset.range d.size,
      (contrib (stepVal d x false) (lowIdx d x) i + contrib (stepVal d x true) (lowIdx d x) i) •
        recSum G ds os (base + i * o)
  | _, _, base => G base

omit [IsStrictOrderedRing K] [FloorRing K] [LinearOrder K] [Field K] [Module K V] in
lemma sum_range_two_mul (F : ℕ → V) (M : ℕ) :
    ∑ it ∈ Finset.range (2 * M), F it = ∑ j ∈ Finset.range M, F (2 * j) + ∑ j ∈ Finset.range M, F (2 * j + 1) := by
  induction M with
  | zero => simp
  | succ M ih =>
    rw [show 2 * (M + 1) = 2 * M + 1 + 1 by ring, Finset.sum_range_succ, Finset.sum_range_succ, ih,
      Finset.sum_range_succ, Finset.sum_range_succ]
    abel

lemma sum_contrib {d : EvalDim} (hd : DimOk d) (x : K) (hc : Continues d x) (u : Bool) (R : ℤ → V)
    (base : ℤ) (o : ℕ) :
    ∑ i ∈ Finset.range d.size, contrib (stepVal d x u) (lowIdx d x) i • R (base + i * o) =
      match stepVal d x u with
      | none => 0
      | some (w, delta) => w • R (base + (lowIdx d x + delta) * o) := by
  cases hs : stepVal d x u with
  | none => simp [contrib]
  | some r =>
    obtain ⟨w, delta⟩ := r
    obtain ⟨-, h3, h4⟩ := stepVal_range hd x hc _ w delta hs
    simp only [contrib]
    rw [Finset.sum_eq_single (lowIdx d x + delta).toNat]
    · rw [if_pos (by omega), Int.toNat_of_nonneg h3]
    · intro i _ hne
      rw [if_neg (by omega), zero_smul]
    · intro hne
      simp only [Finset.mem_range] at hne
      omega

lemma sum_npure (G : ℤ → V) (ds : List (EvalDim × K)) (os : List ℕ) (h : AllOk ds) (hc : AllContinue ds)
    (hl : os.length = ds.length) (nb : ℤ) (phi : K) :
    ∑ it ∈ Finset.range (2 ^ ds.length),
        (npure ds os it nb phi).2 • G (npure ds os it nb phi).1 =
      phi • recSum G ds os (nb - linear (lows ds) os) := by
  induction ds generalizing os nb phi with
  | nil => simp [npure, recSum, lows, linear]
  | cons p ds ih =>
    obtain ⟨d, x⟩ := p
    cases os with
    | nil => simp at hl
    | cons o os =>
      have h1 : DimOk d ∧ InDomain d x := h (d, x) (List.mem_cons_self ..)
      have h2 : Continues d x := hc (d, x) (List.mem_cons_self ..)
      have ih' := ih os (fun p hp => h p (List.mem_cons_of_mem _ hp))
          (fun p hp => hc p (List.mem_cons_of_mem _ hp)) (by simpa using hl)
      rw [List.length_cons, pow_succ, mul_comm, sum_range_two_mul]
      have hF : ∀ u : Bool, ∑ j ∈ Finset.range (2 ^ ds.length),
          (npure ((d, x) :: ds) (o :: os) (2 * j + (if u then 1 else 0)) nb phi).2 •
            G (npure ((d, x) :: ds) (o :: os) (2 * j + (if u then 1 else 0)) nb phi).1 =
          phi • ∑ i ∈ Finset.range d.size, contrib (stepVal d x u) (lowIdx d x) i •
            recSum G ds os (nb - linear (lows ((d, x) :: ds)) (o :: os) + i * o) := by
        intro u
        rw [sum_contrib h1.1 x h2 u (recSum G ds os)]
        have hbit : ∀ j : ℕ, ((2 * j + (if u then 1 else 0)) % 2 == 1) = u := by
          intro j
          cases u <;> simp
        have hdiv : ∀ j : ℕ, (2 * j + (if u then 1 else 0)) / 2 = j := by
          intro j
          cases u
          · simp
          · simp
            omega
        simp only [npure, hbit, hdiv]
        cases hs : stepVal d x u with
        | none => simp
        | some r =>
          obtain ⟨w, delta⟩ := r
          simp only
          rw [ih', mul_smul]
          congr 3
          simp only [lows, List.map_cons, linear]
          ring
      have hf := hF false
      have ht := hF true
      simp only [Bool.false_eq_true, if_false, if_true, add_zero] at hf ht
      rw [hf, ht, ← smul_add, ← Finset.sum_add_distrib]
      congr 1
      rw [recSum]
      exact Finset.sum_congr rfl fun i _ => (add_smul _ _ _).symm

/-- The value read from the local data. -/
def readVal (data : List V) (i : ℤ) : V := (data[i.toNat]?).getD 0

omit [FloorRing K] [IsStrictOrderedRing K] [Field K] [LinearOrder K] [Module K V] in
lemma readAt_eq (data : List V) (i : ℤ) (h0 : 0 ≤ i) (h1 : i < data.length) :
    readAt data i = .ok (readVal data i) := by
  unfold readAt readVal
  rw [if_neg (by omega)]
  have : i.toNat < data.length := by omega
  simp [this]

lemma iterLoop_eq (ds : List (EvalDim × K)) (os : List ℕ) (h : AllOk ds) (hc : AllContinue ds)
    (nb0 : ℤ) (data : List V)
    (hr : ∀ it, 0 < (npure ds os it nb0 1).2 →
      0 ≤ (npure ds os it nb0 1).1 ∧ (npure ds os it nb0 1).1 < data.length)
    (hn : ∀ it, 0 ≤ (npure ds os it nb0 1).2) (its : List ℕ) (acc : V) :
    iterLoop (zd ds os) nb0 data its acc = .ok (acc + (its.map fun it =>
      (npure ds os it nb0 1).2 • readVal data (npure ds os it nb0 1).1).sum) := by
  induction its generalizing acc with
  | nil => simp [iterLoop]
  | cons it its ih =>
    rw [iterLoop, neighborLoop_eq ds os h hc]
    simp only [Outcome.bind]
    by_cases hp : 0 < (npure ds os it nb0 1).2
    · rw [if_pos hp, readAt_eq data _ (hr it hp).1 (hr it hp).2]
      simp only
      rw [ih, List.map_cons, List.sum_cons, add_assoc]
    · have : (npure ds os it nb0 1).2 = 0 := le_antisymm (not_lt.1 hp) (hn it)
      rw [if_neg hp, ih, List.map_cons, List.sum_cons, this, zero_smul, zero_add]

/-! ## One process -/

/-- Specification: the part of the interpolant with the points of one process; `f` is the value at local
indices. -/
def localInterp : List (EvalDim × K) → (List ℕ → V) → V
  | [], f => f []
  | (d, x) :: ds, f => ∑ i ∈ Finset.range d.size,
      hat d.level d.boundary (d.lower + i) x • localInterp ds fun is => f (i :: is)

lemma recSum_eq (G : ℤ → V) (ds : List (EvalDim × K)) (os : List ℕ) (h : AllOk ds) (hc : AllContinue ds)
    (hl : os.length = ds.length) (base : ℤ) :
    recSum G ds os base = localInterp ds fun is => G (base + linear (is.map (Nat.cast : ℕ → ℤ)) os) := by
  induction ds generalizing os base with
  | nil =>
    cases os with
    | nil => simp [recSum, localInterp, linear]
    | cons o os => simp at hl
  | cons p ds ih =>
    obtain ⟨d, x⟩ := p
    cases os with
    | nil => simp at hl
    | cons o os =>
      have h1 : DimOk d ∧ InDomain d x := h (d, x) (List.mem_cons_self ..)
      have h2 : Continues d x := hc (d, x) (List.mem_cons_self ..)
      rw [recSum, localInterp]
      refine Finset.sum_congr rfl fun i hi => ?_
      rw [hat_eq h1.1 x h1.2 h2 i (Finset.mem_range.1 hi),
        ih os (fun p hp => h p (List.mem_cons_of_mem _ hp))
          (fun p hp => hc p (List.mem_cons_of_mem _ hp)) (by simpa using hl)]
      simp only [List.map_cons, linear, add_assoc]

omit [IsStrictOrderedRing K] [FloorRing K] in
lemma localInterp_congr (ds : List (EvalDim × K)) (f g : List ℕ → V)
    (h : ∀ is, List.Forall₂ (· < ·) is (ds.map fun p => p.1.size) → f is = g is) :
    localInterp ds f = localInterp ds g := by
  induction ds generalizing f g with
  | nil => exact h [] .nil
  | cons p ds ih =>
    obtain ⟨d, x⟩ := p
    rw [localInterp, localInterp]
    refine Finset.sum_congr rfl fun i hi => ?_
    rw [ih _ _ fun is his => h (i :: is) (.cons (Finset.mem_range.1 hi) his)]

lemma localInterp_zero (ds : List (EvalDim × K)) (f : List ℕ → V) (h : AllOk ds)
    (hc : ¬ AllContinue ds) : localInterp ds f = 0 := by
  induction ds generalizing f with
  | nil => exact absurd (fun p hp => by simp at hp) hc
  | cons p ds ih =>
    obtain ⟨d, x⟩ := p
    have h1 : DimOk d ∧ InDomain d x := h (d, x) (List.mem_cons_self ..)
    rw [localInterp]
    refine Finset.sum_eq_zero fun i hi => ?_
    by_cases h2 : Continues d x
    · rw [ih _ (fun p hp => h p (List.mem_cons_of_mem _ hp)) (fun hall => hc ?_), smul_zero]
      intro p hp
      rcases List.mem_cons.1 hp with rfl | hp
      · exact h2
      · exact hall p hp
    · rw [hat_zero h1.1 x h1.2 h2 i (Finset.mem_range.1 hi), zero_smul]

omit [AddCommMonoid V] [Module K V] in
lemma lowerIndices_eq (ds : List (EvalDim × K)) (h : AllOk ds) :
    lowerIndices (ds.map (·.1)) (ds.map (·.2)) =
      .ok (open Classical in if AllContinue ds then some (lows ds) else none) := by
  classical
  induction ds with
  | nil =>
    rw [if_pos (show AllContinue [] from fun p hp => by simp at hp)]
    rfl
  | cons p ds ih =>
    obtain ⟨d, x⟩ := p
    have h1 : DimOk d ∧ InDomain d x := h (d, x) (List.mem_cons_self ..)
    rw [List.map_cons, List.map_cons, lowerIndices]
    simp only [floor_eq]
    rw [if_neg (by
      rintro (h | h)
      · exact absurd h1.2.1 (not_le.2 h)
      · exact absurd h1.2.2.1 (not_le.2 h))]
    rw [ih fun p hp => h p (List.mem_cons_of_mem _ hp)]
    have hall : AllContinue ((d, x) :: ds) ↔ Continues d x ∧ AllContinue ds := by
      constructor
      · intro h
        exact ⟨h _ (List.mem_cons_self ..), fun p hp => h p (List.mem_cons_of_mem _ hp)⟩
      · rintro ⟨h2, h3⟩ p hp
        rcases List.mem_cons.1 hp with rfl | hp
        · exact h2
        · exact h3 p hp
    by_cases ha : lowIdx d x < -1
    · rw [if_pos ha, if_neg]
      rw [hall]
      rintro ⟨h2, -⟩
      have := h2.1
      omega
    · rw [if_neg ha]
      by_cases hb : ¬ (1 - d.h ≤ x ∧ d.boundary = 1 ∧ d.coord = 0) ∧ (d.size : ℤ) - 1 < lowIdx d x
      · rw [if_pos hb, if_neg]
        rw [hall]
        rintro ⟨h2, -⟩
        rcases h2.2 with h3 | h3
        · exact hb.1 h3
        · omega
      · rw [if_neg hb]
        have h2 : Continues d x := by
          refine ⟨by omega, ?_⟩
          rw [not_and_or, not_not, not_lt] at hb
          exact hb
        simp only [Outcome.bind]
        by_cases h3 : AllContinue ds
        · rw [if_pos h3, if_pos (hall.2 ⟨h2, h3⟩)]
          rfl
        · rw [if_neg h3, if_neg fun h => h3 (hall.1 h).2]
          rfl

omit [IsStrictOrderedRing K] in
lemma zipDims_eq (ds : List (EvalDim × K)) (os : List ℕ) :
    zipDims (ds.map (·.1)) (lows ds) (ds.map (·.2)) os = zd ds os := by
  induction ds generalizing os with
  | nil => cases os <;> rfl
  | cons p ds ih =>
    cases os with
    | nil => rfl
    | cons o os =>
      simp only [List.map_cons, lows, zipDims, zd]
      rw [← ih os]
      rfl

lemma linear_mul (e : ℕ) (is : List ℤ) (os : List ℕ) :
    linear is (os.map (e * ·)) = e * linear is os := by
  induction is generalizing os with
  | nil => simp [linear]
  | cons i is ih =>
    cases os with
    | nil => simp [linear]
    | cons o os =>
      simp only [List.map_cons, linear, ih]
      push_cast
      ring

lemma linear_eq (es is : List ℕ) (h : is.length = es.length) :
    linear (is.map (Nat.cast : ℕ → ℤ)) (tensorOffsets es) = sequentialIndex es is := by
  induction es generalizing is with
  | nil =>
    cases is with
    | nil => simp [linear, sequentialIndex]
    | cons i is => simp at h
  | cons e es ih =>
    cases is with
    | nil => simp at h
    | cons i is =>
      rw [tensorOffsets_cons, sequentialIndex_cons, List.map_cons, linear, linear_mul,
        ih is (by simpa using h)]
      push_cast
      ring

/-- The result of a process. -/
lemma evalLocal_eq (ds : List (EvalDim × K)) (data : List V) (h : AllOk ds)
    (hlen : data.length = (ds.map fun p => p.1.size).prod) :
    evalLocal (ds.map (·.1)) (ds.map (·.2)) data =
      .ok (localInterp ds fun is => (data[sequentialIndex (ds.map fun p => p.1.size) is]?).getD 0) := by
  classical
  unfold evalLocal
  rw [lowerIndices_eq ds h]
  by_cases hc : AllContinue ds
  · rw [if_pos hc]
    simp only [Outcome.bind]
    have hsz : (ds.map (·.1)).map (·.size) = ds.map fun p => p.1.size := by simp
    rw [hsz, zipDims_eq]
    have hl : (tensorOffsets (ds.map fun p => p.1.size)).length = ds.length := by simp
    have hN := fun it => npure_range ds _ h hc hl it
      (linear (lows ds) (tensorOffsets (ds.map fun p => p.1.size))) 1 zero_le_one
    rw [iterLoop_eq ds _ h hc _ data _ (fun it => (hN it).1)]
    · have hs := sum_npure (readVal data) ds _ h hc hl
        (linear (lows ds) (tensorOffsets (ds.map fun p => p.1.size))) 1
      rw [zero_add, ← List.sum_toFinset _ List.nodup_range]
      rw [List.toFinset_range, List.length_map, hs, one_smul, sub_self,
        recSum_eq _ ds _ h hc hl]
      congr 1
      refine localInterp_congr ds _ _ fun is his => ?_
      rw [zero_add, linear_eq _ _ (by simpa using his.length_eq)]
      rfl
    · intro it hp
      obtain ⟨is, h1, h2⟩ := (hN it).2 hp.ne'
      rw [linear_eq _ _ (by simpa using h1.length_eq)] at h2
      have h3 := sequentialIndex_lt _ _ h1
      constructor <;> omega
  · rw [if_neg hc]
    simp only [Outcome.bind]
    rw [localInterp_zero ds _ h hc]

/-! ## All processes -/

/-- One dimension of the whole grid: level, boundary flag, decomposition, and the coordinate at which to
interpolate. -/
structure Axis (K : Type) where
  level : ℕ
  boundary : ℕ
  dec : List ℕ
  x : K

/-- The number of points in one dimension. -/
def Axis.points (a : Axis K) : ℕ := nodal a.level a.boundary

/-- The first index of the process `c`. -/
def Axis.lower (a : Axis K) (c : ℕ) : ℕ := (lowerBound1d a.dec c).getD 0

/-- What the process `c` knows about the dimension. -/
def Axis.dim (a : Axis K) (c : ℕ) : EvalDim where
  level := a.level
  boundary := a.boundary
  globalSize := a.points
  lower := a.lower c
  size := (upperBound1d a.dec a.points c).getD 0 - a.lower c
  coord := c

/-- A decomposition with points on the first process, and a coordinate in the domain. -/
structure AxisOk (a : Axis K) : Prop where
  boundary : a.boundary ≤ 2
  valid : ValidDec a.dec a.points
  points : 0 < a.points
  first : ∀ c ∈ a.dec.tail, 0 < c
  lo : 0 ≤ a.x
  hi : a.x ≤ 1
  periodic : a.boundary = 1 → a.x < 1

omit [Field K] [LinearOrder K] [FloorRing K] [IsStrictOrderedRing K] in
lemma lower_zero {a : Axis K} (h : ValidDec a.dec a.points) : a.lower 0 = 0 := by
  unfold Axis.lower lowerBound1d
  rw [List.getElem?_eq_getElem h.length_pos, h.getElem_zero]
  rfl

omit [FloorRing K] [IsStrictOrderedRing K] in
lemma dimOk_dim {a : Axis K} (h : AxisOk a) (c : ℕ) (hc : c < a.dec.length) : DimOk (a.dim c) where
  boundary := h.boundary
  glob := rfl
  range := by
    obtain ⟨lo, hi, h1, h2, h3, h4⟩ := bounds1d h.valid hc
    simp only [Axis.dim, Axis.lower, h1, h2, Option.getD_some]
    omega
  first := by
    intro h0
    have h0 : c = 0 := h0
    subst h0
    refine ⟨lower_zero h.valid, ?_⟩
    simp only [Axis.dim, lower_zero h.valid]
    unfold upperBound1d
    split_ifs with h1
    · rw [lowerBound1d, List.getElem?_eq_getElem h1]
      have : a.dec[0 + 1] ∈ a.dec.tail := by
        rw [List.mem_iff_getElem]
        exact ⟨0, by simp; omega, by simp⟩
      have := h.first _ this
      simpa using this
    · simpa using h.points
  others := by
    intro h0
    have h0 : c ≠ 0 := h0
    obtain ⟨k, rfl⟩ := Nat.exists_eq_succ_of_ne_zero h0
    simp only [Axis.dim, Axis.lower, lowerBound1d, List.getElem?_eq_getElem hc, Option.getD_some]
    apply h.first
    rw [List.mem_iff_getElem]
    exact ⟨k, by simp; omega, by simp⟩

/-- The dimensions of a process with its coordinates, and the interpolation coordinates. -/
def dimsOf : List (Axis K) → List ℕ → List (EvalDim × K)
  | a :: as, c :: cs => (a.dim c, a.x) :: dimsOf as cs
  | _, _ => []

omit [FloorRing K] [IsStrictOrderedRing K] in
lemma allOk_dimsOf (as : List (Axis K)) (cs : List ℕ) (h : ∀ a ∈ as, AxisOk a)
    (hc : List.Forall₂ (· < ·) cs (as.map fun a => a.dec.length)) : AllOk (dimsOf as cs) := by
  induction as generalizing cs with
  | nil => intro p hp; cases cs <;> simp [dimsOf] at hp
  | cons a as ih =>
    cases cs with
    | nil => intro p hp; simp [dimsOf] at hp
    | cons c cs =>
      rw [List.map_cons, List.forall₂_cons] at hc
      intro p hp
      rw [dimsOf, List.mem_cons] at hp
      have ha := h a (List.mem_cons_self ..)
      rcases hp with rfl | hp
      · exact ⟨dimOk_dim ha c hc.1, ha.lo, ha.hi, ha.periodic⟩
      · exact ih cs (fun a ha => h a (List.mem_cons_of_mem _ ha)) hc.2 p hp

/-- Specification: the multilinear interpolant, the sum over all points of the product of the hat functions
times the value. -/
def interp : List (Axis K) → (List ℕ → V) → V
  | [], f => f []
  | a :: as, f => ∑ i ∈ Finset.range (nodal a.level a.boundary),
      hat a.level a.boundary i a.x • interp as fun is => f (i :: is)

lemma sum_split_aux {M : Type} [AddCommMonoid M] (F : ℕ → M) (n a : ℕ) (dec : List ℕ)
    (h : (a :: dec).Pairwise (· ≤ ·)) (hle : ∀ x ∈ a :: dec, x ≤ n) :
    ∑ c ∈ Finset.range (a :: dec).length,
      ∑ i ∈ Finset.Ico ((lowerBound1d (a :: dec) c).getD 0) ((upperBound1d (a :: dec) n c).getD 0), F i =
      ∑ i ∈ Finset.Ico a n, F i := by
  induction dec generalizing a with
  | nil => simp [lowerBound1d, upperBound1d]
  | cons b dec ih =>
    have h' := (List.pairwise_cons.1 h).2
    have hab : a ≤ b := (List.pairwise_cons.1 h).1 b (by simp)
    have hbn : b ≤ n := hle b (by simp)
    have ih' := ih b h' (fun x hx => hle x (by simp at hx ⊢; tauto))
    rw [List.length_cons, Finset.sum_range_succ']
    have e : ∀ c, (lowerBound1d (a :: b :: dec) (c + 1)).getD 0 = (lowerBound1d (b :: dec) c).getD 0 ∧
        (upperBound1d (a :: b :: dec) n (c + 1)).getD 0 = (upperBound1d (b :: dec) n c).getD 0 := by
      intro c
      simp [upperBound1d, lowerBound1d]
    simp only [(e _).1, (e _).2]
    rw [ih']
    have e0 : (lowerBound1d (a :: b :: dec) 0).getD 0 = a ∧ (upperBound1d (a :: b :: dec) n 0).getD 0 = b := by
      simp [upperBound1d, lowerBound1d]
    rw [e0.1, e0.2, add_comm, Finset.sum_Ico_consecutive _ hab hbn]

/-- The points of the processes are all points. -/
lemma sum_split {M : Type} [AddCommMonoid M] (F : ℕ → M) (n : ℕ) (dec : List ℕ) (h : ValidDec dec n) :
    ∑ c ∈ Finset.range dec.length,
      ∑ i ∈ Finset.range ((upperBound1d dec n c).getD 0 - (lowerBound1d dec c).getD 0),
        F ((lowerBound1d dec c).getD 0 + i) = ∑ i ∈ Finset.range n, F i := by
  have h0 := h.head
  cases dec with
  | nil => simp at h0
  | cons a dec =>
    simp at h0
    subst h0
    have := sum_split_aux F n 0 dec h.sorted h.le
    simp only [Finset.sum_Ico_eq_sum_range] at this
    simpa using this

/-- All coordinates of processes. -/
def allCoords : List ℕ → List (List ℕ)
  | [] => [[]]
  | n :: ns => (List.range n).flatMap fun c => (allCoords ns).map (c :: ·)

lemma mem_allCoords (ns c : List ℕ) : c ∈ allCoords ns ↔ List.Forall₂ (· < ·) c ns := by
  induction ns generalizing c with
  | nil => simp [allCoords]
  | cons n ns ih =>
    simp only [allCoords, List.mem_flatMap, List.mem_map, List.mem_range]
    constructor
    · rintro ⟨i, hi, cs, hcs, rfl⟩
      exact .cons hi ((ih cs).1 hcs)
    · intro h
      cases c with
      | nil => simp at h
      | cons i cs =>
        rw [List.forall₂_cons] at h
        exact ⟨i, h.1, cs, (ih cs).2 h.2, rfl⟩

lemma nodup_allCoords (ns : List ℕ) : (allCoords ns).Nodup := by
  induction ns with
  | nil => simp [allCoords]
  | cons n ns ih =>
    rw [allCoords, List.nodup_flatMap]
    constructor
    · intro c _
      exact ih.map fun a b h => by simpa using h
    · refine List.Pairwise.imp ?_ (List.nodup_iff_pairwise_ne.1 (List.nodup_range (n := n)))
      intro a b hab c hc1 hc2
      simp only [List.mem_map] at hc1 hc2
      obtain ⟨c1, -, rfl⟩ := hc1
      obtain ⟨c2, -, h2⟩ := hc2
      simp only [List.cons.injEq] at h2
      exact hab h2.1.symm

lemma sum_allCoords_cons {M : Type} [AddCommMonoid M] (n : ℕ) (ns : List ℕ) (g : List ℕ → M) :
    ((allCoords (n :: ns)).map g).sum =
      ∑ c ∈ Finset.range n, ((allCoords ns).map fun cs => g (c :: cs)).sum := by
  rw [allCoords]
  induction n with
  | zero => simp
  | succ n ih =>
    rw [List.range_succ, List.flatMap_append, List.map_append, List.sum_append, ih,
      Finset.sum_range_succ]
    simp [List.map_map, Function.comp_def]

/-- The lower bounds of a process. -/
def lowers : List (Axis K) → List ℕ → List ℕ
  | a :: as, c :: cs => a.lower c :: lowers as cs
  | _, _ => []

omit [FloorRing K] [IsStrictOrderedRing K] [LinearOrder K] [Field K] in
lemma sum_smul_list (k : ℕ → K) [Field K] (n : ℕ) (l : List (List ℕ)) (g : ℕ → List ℕ → V) [Module K V] :
    (l.map fun cs => ∑ i ∈ Finset.range n, k i • g i cs).sum =
      ∑ i ∈ Finset.range n, k i • (l.map fun cs => g i cs).sum := by
  induction l with
  | nil => simp
  | cons c l ih =>
    simp only [List.map_cons, List.sum_cons]
    rw [ih, ← Finset.sum_add_distrib]
    exact Finset.sum_congr rfl fun i _ => (smul_add _ _ _).symm

omit [FloorRing K] [IsStrictOrderedRing K] in
lemma sum_localInterp (as : List (Axis K)) (h : ∀ a ∈ as, ValidDec a.dec a.points) (f : List ℕ → V) :
    ((allCoords (as.map fun a => a.dec.length)).map fun cs =>
      localInterp (dimsOf as cs) fun is => f (List.zipWith (· + ·) (lowers as cs) is)).sum =
      interp as f := by
  induction as generalizing f with
  | nil => simp [allCoords, dimsOf, localInterp, interp, lowers]
  | cons a as ih =>
    rw [List.map_cons, sum_allCoords_cons, interp]
    rw [← sum_split (fun i => hat a.level a.boundary i a.x • interp as fun is => f (i :: is))
      (nodal a.level a.boundary) a.dec (h a (List.mem_cons_self ..))]
    refine Finset.sum_congr rfl fun c _ => ?_
    simp only [dimsOf, localInterp, lowers, List.zipWith_cons_cons]
    rw [sum_smul_list]
    refine Finset.sum_congr rfl fun i _ => ?_
    rw [ih (fun a ha => h a (List.mem_cons_of_mem _ ha)) fun is => f ((a.lower c + i) :: is)]
    rfl

/-! ## Sums of hat functions -/

omit [FloorRing K] [AddCommMonoid V] [Module K V] in
lemma hat_nonneg (L b i : ℕ) (x : K) : 0 ≤ hat L b i x := by
  unfold hat
  refine add_nonneg (le_max_left _ _) ?_
  split_ifs
  · exact le_max_left _ _
  · exact le_refl _

/-- The hat function at a grid point. -/
lemma hat_grid (L b i j : ℕ) (hb : b ≤ 2) (hj : j < nodal L b) :
    hat L b i (((pos b j : ℕ) : K) / 2 ^ L) = if i = j then 1 else 0 := by
  have hp : (2 : K) ^ L ≠ 0 := by positivity
  have hz : ∀ u v : ℕ, max 0 (1 - |(u : K) - v|) = if v = u then 1 else 0 := by
    intro u v
    have hv := hat_value (K := K) ⟨0, 0, 0, 0, 0, 0⟩ u v
    have hc : cell ⟨0, 0, 0, 0, 0, 0⟩ (u : K) = (u : ℤ) := by simp [cell]
    have hf : frac ⟨0, 0, 0, 0, 0, 0⟩ (u : K) = 0 := by simp [frac, hc]
    rw [hc, hf] at hv
    simp only [pow_zero, mul_one, sub_zero, Int.cast_natCast, Nat.cast_inj, ite_self] at hv
    exact hv
  unfold hat
  rw [div_mul_cancel₀ _ hp, hz]
  have h2 := hz (pos b j) (2 ^ L)
  push_cast at h2
  rw [h2]
  have hne : b = 1 → 2 ^ L ≠ pos b j := by
    intro h1
    subst h1
    unfold nodal at hj
    have h3 : pos 1 j = j := by simp [pos]
    rw [h3]
    omega
  have hpe : pos b i = pos b j ↔ i = j := by
    unfold pos
    split_ifs <;> omega
  by_cases hij : i = j
  · rw [if_pos (hpe.2 hij), if_pos hij]
    split_ifs with h3 h4
    · exact absurd h4 (hne h3.1)
    · ring
    · ring
  · rw [if_neg (fun h => hij (hpe.1 h)), if_neg hij]
    split_ifs with h3 h4
    · exact absurd h4 (hne h3.1)
    · ring
    · ring

/-- The hat functions of a grid with boundary add up to one. -/
lemma sum_hat (L b : ℕ) (hb : b = 1 ∨ b = 2) (x : K) (h0 : 0 ≤ x) (h1 : x ≤ 1) (hper : b = 1 → x < 1) :
    ∑ i ∈ Finset.range (nodal L b), hat L b i x = 1 := by
  obtain ⟨d, rfl, rfl⟩ : ∃ d : EvalDim, d.level = L ∧ d.boundary = b := ⟨⟨L, b, 0, 0, 0, 0⟩, rfl, rfl⟩
  have hm := cell_nonneg (d := d) h0
  obtain ⟨m, hm⟩ := Int.eq_ofNat_of_zero_le hm
  have hpos : ∀ i, pos d.boundary i = i := by
    intro i
    unfold pos
    rcases hb with hb | hb <;> simp [hb]
  have hv : ∀ i : ℕ, max 0 (1 - |x * 2 ^ d.level - (pos d.boundary i : ℕ)|) =
      (if m = i then 1 - frac d x else 0) + (if m + 1 = i then frac d x else 0) := by
    intro i
    rw [hpos]
    have := hat_value d x i
    rw [Int.cast_natCast] at this
    rw [this, hm]
    by_cases ha : m = i
    · rw [if_pos (by omega), if_pos ha, if_neg (by omega), add_zero]
    · rw [if_neg (by omega), if_neg ha, zero_add]
      by_cases hb : m + 1 = i
      · rw [if_pos (by omega), if_pos hb]
      · rw [if_neg (by omega), if_neg hb]
  unfold hat
  simp only [hv]
  rw [Finset.sum_add_distrib, Finset.sum_add_distrib, Finset.sum_ite_eq, Finset.sum_ite_eq]
  simp only [Finset.mem_range]
  rcases hb with hb | hb
  · have hN : nodal d.level d.boundary = 2 ^ d.level := by rw [hb]; unfold nodal; simp
    have hlt := cell_lt (d := d) (hper hb)
    have hlt' : m < 2 ^ d.level := by
      rw [hm] at hlt
      exact_mod_cast hlt
    rw [hN, if_pos hlt']
    simp only [hb, true_and]
    rw [Finset.sum_ite_eq' , if_pos (Finset.mem_range.2 (by positivity)), wrap_value (hper hb), hm]
    by_cases h2 : m + 1 < 2 ^ d.level
    · rw [if_pos h2, if_neg]
      · ring
      · intro h
        have : 2 ^ d.level = m + 1 := by exact_mod_cast h
        omega
    · rw [if_neg h2, if_pos]
      · ring
      · have : 2 ^ d.level = m + 1 := by omega
        exact_mod_cast this
  · have hN : nodal d.level d.boundary = 2 ^ d.level + 1 := by rw [hb]; unfold nodal; simp
    have hne : ∀ i : ℕ, (if d.boundary = 1 ∧ i = 0 then max 0 (1 - |x * 2 ^ d.level - 2 ^ d.level|) else 0)
        = (0 : K) := by
      intro i
      rw [if_neg]
      omega
    simp only [hne, Finset.sum_const_zero, add_zero]
    have hle : m ≤ 2 ^ d.level := by
      have h2 : cell d x ≤ 2 ^ d.level := by
        unfold cell
        have : x * 2 ^ d.level ≤ ((2 ^ d.level : ℤ) : K) := by
          push_cast
          have : (0 : K) < 2 ^ d.level := by positivity
          nlinarith
        exact_mod_cast (Int.floor_le _).trans this
      rw [hm] at h2
      exact_mod_cast h2
    rw [hN, if_pos (by omega)]
    by_cases h2 : m + 1 < 2 ^ d.level + 1
    · rw [if_pos h2]
      ring
    · rw [if_neg h2]
      have hme : m = 2 ^ d.level := by omega
      have hf : frac d x = 0 := by
        refine le_antisymm ?_ (frac_nonneg d x)
        unfold frac
        rw [hm, hme]
        push_cast
        have : (0 : K) < 2 ^ d.level := by positivity
        nlinarith
      rw [hf]
      ring

end Verif.Interpolation

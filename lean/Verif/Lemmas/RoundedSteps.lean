import Verif.Lemmas.RoundedGroups
import Verif.Lemmas.PlotInterp
import Verif.Props.MachineGrid

/-!
# Lemmas on the steps of a combination in the arithmetic of a machine
-/

namespace Verif

open Interpolation

variable {K : Type} [Field K] [LinearOrder K] [IsStrictOrderedRing K]

/-! ### Interpolants are not larger than their values -/

theorem sum_hat_le [FloorRing K] (L b : ℕ) (hb : b ≤ 2) (x : K) (h0 : 0 ≤ x) (h1 : x ≤ 1)
    (hper : b = 1 → x < 1) : ∑ i ∈ Finset.range (nodal L b), hat L b i x ≤ 1 := by
  rcases Nat.eq_zero_or_pos b with rfl | hpos
  · have h2 := sum_hat L 2 (Or.inr rfl) x h0 h1 (by simp)
    have e : nodal L 2 = nodal L 0 + 1 + 1 := by
      have : 0 < 2 ^ L := by positivity
      unfold nodal; omega
    rw [e, Finset.sum_range_succ, Finset.sum_range_succ'] at h2
    have e2 : ∑ i ∈ Finset.range (nodal L 0), hat L 0 i x = ∑ i ∈ Finset.range (nodal L 0), hat L 2 (i + 1) x := by
      refine Finset.sum_congr rfl fun i _ => ?_
      simp [hat, pos]
    rw [e2]
    have := hat_nonneg L 2 0 x
    have := hat_nonneg L 2 (nodal L 0 + 1) x
    linarith
  · exact (sum_hat L b (by omega) x h0 h1 hper).le

/-- The coordinate lies in the domain. -/
structure InDomainAxis (a : Axis K) : Prop where
  boundary : a.boundary ≤ 2
  lo : 0 ≤ a.x
  hi : a.x ≤ 1
  periodic : a.boundary = 1 → a.x < 1

theorem interp_bound [FloorRing K] (axes : List (Axis K)) (ha : ∀ a ∈ axes, InDomainAxis a)
    (f : List ℕ → K) {M : K} (hM : 0 ≤ M)
    (hf : ∀ is, InBox (axes.map fun a => nodal a.level a.boundary) is → |f is| ≤ M) :
    |interp axes f| ≤ M := by
  induction axes generalizing f with
  | nil => exact hf [] .nil
  | cons a as ih =>
    rw [interp]
    have h1 : ∀ i ∈ Finset.range (nodal a.level a.boundary),
        |hat a.level a.boundary i a.x • interp as fun is => f (i :: is)| ≤
          hat a.level a.boundary i a.x * M := by
      intro i hi
      rw [smul_eq_mul, abs_mul, abs_of_nonneg (hat_nonneg _ _ _ _)]
      exact mul_le_mul_of_nonneg_left (ih (fun a h => ha a (by simp [h])) _ fun is his =>
        hf _ (.cons (Finset.mem_range.1 hi) his)) (hat_nonneg _ _ _ _)
    refine (Finset.abs_sum_le_sum_abs _ _).trans ((Finset.sum_le_sum h1).trans ?_)
    rw [← Finset.sum_mul]
    obtain ⟨b1, b2, b3, b4⟩ := ha a (by simp)
    have := mul_le_mul_of_nonneg_right (sum_hat_le a.level a.boundary b1 a.x b2 b3 b4) hM
    linarith

theorem axesAt_domain {refs : List RefDim} (hr : ∀ r ∈ refs, r.boundary ≤ 2) {M x : List ℕ}
    (hM : List.Forall₂ (fun l (r : RefDim) => l ≤ r.level) M refs) (hx : InBox (wholeSizes refs M) x)
    (L : List ℕ) (hL : L.length = refs.length) :
    (∀ a ∈ (axesAt refs L (placeOf refs M x) : List (Axis K)), InDomainAxis a) ∧
      (axesAt refs L (placeOf refs M x) : List (Axis K)).map (fun a => nodal a.level a.boundary) =
        wholeSizes refs L := by
  induction hM generalizing x L with
  | nil =>
    cases hx
    cases L with
    | nil => exact ⟨by simp [axesAt], rfl⟩
    | cons l ls => simp at hL
  | @cons m r ms rs h1 h2 ih =>
    unfold wholeSizes at hx
    rw [List.zipWith_cons_cons] at hx
    cases hx with
    | @cons j _ xs _ hj hxs =>
      cases L with
      | nil => simp at hL
      | cons l ls =>
        obtain ⟨i1, i2⟩ := ih (fun r h => hr r (by simp [h])) hxs ls (by simpa using hL)
        unfold placeOf
        rw [List.zipWith_cons_cons, List.zipWith_cons_cons, axesAt]
        refine ⟨fun a ha => ?_, ?_⟩
        · rw [List.mem_cons] at ha
          rcases ha with rfl | ha
          · have hb := hr r (by simp)
            have e : (((pos r.boundary (refIndex r.boundary (r.level - m) j) : ℕ) : K) / 2 ^ r.level) =
                ((pos r.boundary j : ℕ) : K) / 2 ^ m := by
              rw [C16_refIndex_same_point]
              have e : (2 : K) ^ r.level = 2 ^ m * 2 ^ (r.level - m) := by
                rw [← pow_add]; congr 1; omega
              rw [e]
              push_cast
              have : (2 : K) ^ (r.level - m) ≠ 0 := by positivity
              field_simp
            have hp : (0 : K) < 2 ^ m := by positivity
            have hpn : 0 < 2 ^ m := by positivity
            refine ⟨hb, ?_, ?_, ?_⟩ <;> simp only
            · rw [e]; positivity
            · rw [e, div_le_one hp]
              have : pos r.boundary j ≤ 2 ^ m := by
                unfold pos; unfold nodal at hj; split_ifs <;> omega
              exact_mod_cast this
            · intro h1
              rw [e, div_lt_one hp]
              have : pos r.boundary j < 2 ^ m := by
                unfold pos; unfold nodal at hj; split_ifs <;> omega
              exact_mod_cast this
          · exact i1 a ha
        · rw [List.map_cons]
          unfold wholeSizes
          rw [List.zipWith_cons_cons]
          congr 1

theorem interpAt_bound [FloorRing K] {refs : List RefDim} (hr : ∀ r ∈ refs, ValidRef r) {L M : List ℕ}
    (hL : ValidComponent refs L) (hM : ValidComponent refs M) (u : ℕ → K) {B : K} (hB : 0 ≤ B)
    (hu : ∀ q < numLocal (oneProcess refs) L, |u q| ≤ B) {p : ℕ} (hp : p < numLocal (oneProcess refs) M) :
    |interpAt refs L u (spatialOf (oneProcess refs) M p)| ≤ B := by
  unfold numLocal at hp hu
  rw [sizes_oneProcess] at hp hu
  obtain ⟨x1, x2⟩ := getVectorIndex_spec _ _ hp
  obtain ⟨a1, a2⟩ := axesAt_domain (K := K) (fun r h => (hr r h).boundary) hM.le x1 L hL.le.length_eq
  rw [spatial_oneProcess]
  unfold interpAt
  refine interp_bound _ a1 _ hB fun is his => hu _ ?_
  rw [a2] at his
  exact sequentialIndex_lt _ _ his

/-! ### Sums over the tasks -/

omit [LinearOrder K] [IsStrictOrderedRing K] in
theorem sum_place_one {refs : List RefDim} {L z : List ℕ} (x : ℕ → K) :
    (∑ q ∈ Finset.range (numLocal refs L) with spatialOf refs L q = z, x q) = 0 ∨
      ∃ q < numLocal refs L, ∀ x : ℕ → K,
        (∑ q ∈ Finset.range (numLocal refs L) with spatialOf refs L q = z, x q) = x q := by
  by_cases h : ∃ q < numLocal refs L, spatialOf refs L q = z
  · obtain ⟨q, h1, h2⟩ := h
    refine Or.inr ⟨q, h1, fun x => ?_⟩
    rw [Finset.sum_eq_single q]
    · intro q' hq' hne
      rw [Finset.mem_filter, Finset.mem_range] at hq'
      exact absurd (spatialOf_injective hq'.1 h1 (hq'.2.trans h2.symm)) hne
    · intro hq
      exact absurd (Finset.mem_filter.2 ⟨Finset.mem_range.2 h1, h2⟩) hq
  · refine Or.inl (Finset.sum_eq_zero fun q hq => ?_)
    rw [Finset.mem_filter, Finset.mem_range] at hq
    exact absurd ⟨q, hq.1, hq.2⟩ h

theorem listSum_close {α : Type} (l : List α) (f f' w : α → K) (h : ∀ a ∈ l, |f' a - f a| ≤ w a) :
    |(l.map f').sum - (l.map f).sum| ≤ (l.map w).sum := by
  induction l with
  | nil => simp
  | cons a l ih =>
    have := h a (by simp)
    have ih := ih fun a ha => h a (by simp [ha])
    simp only [List.map_cons, List.sum_cons]
    rw [show f' a + (l.map f').sum - (f a + (l.map f).sum) = f' a - f a + ((l.map f').sum - (l.map f).sum)
      by ring]
    exact (abs_add_le _ _).trans (add_le_add this ih)

/-- The combination of values with errors. -/
theorem valueAtPlace_near {refs : List RefDim} {n : ℕ} {T T1 : ℕ → List (K × List ℕ × (ℕ → K))}
    {F : List ℕ → (ℕ → K) → ℕ → K} {δ : K} (hδ : 0 ≤ δ)
    (h : ∀ g < n, List.Forall₂ (fun t t1 => t1.1 = t.1 ∧ t1.2.1 = t.2.1 ∧
      ∀ q < numLocal refs t.2.1, |t1.2.2 q - F t.2.1 t.2.2 q| ≤ δ) (T g) (T1 g)) (z : List ℕ) :
    |valueAtPlace refs n T1 z - valueAtPlace refs n (hierVals F T) z| ≤ absSum n T * δ := by
  unfold valueAtPlace absSum
  rw [← List.sum_map_mul_right]
  refine listSum_close _ _ _ _ fun g hg => ?_
  have hg := h g (List.mem_range.1 hg)
  unfold hierVals
  rw [List.map_map]
  generalize T g = ts, T1 g = ts1 at hg
  induction hg with
  | nil => simp
  | @cons t t1 ts ts1 h1 _ ih =>
    simp only [List.map_cons, List.sum_cons, Function.comp_apply, add_mul]
    obtain ⟨e1, e2, e3⟩ := h1
    rw [add_sub_add_comm]
    refine (abs_add_le _ _).trans (add_le_add ?_ ih)
    rw [e1, e2, ← mul_sub, ← Finset.sum_sub_distrib, abs_mul]
    refine mul_le_mul_of_nonneg_left ?_ (abs_nonneg _)
    rcases sum_place_one (refs := refs) (L := t.2.1) (z := z)
      (fun q => t1.2.2 q - F t.2.1 t.2.2 q) with h0 | ⟨q, q1, q2⟩
    · rw [h0, abs_zero]; exact hδ
    · rw [q2]
      exact e3 q q1

end Verif

import Verif.Props.GridTransform
import Verif.Props.Transfer

/-!
# Hierarchization with hat functions and restriction to coarser grids
-/

namespace Verif

variable {K : Type} [Field K]

theorem refIndex_lt_nodal {b L R i : ℕ} (hb : b ≤ 2) (hLR : L ≤ R) (hi : i < nodal L b) :
    refIndex b (R - L) i < nodal R b := by
  have hR : 2 ^ R = 2 ^ L * 2 ^ (R - L) := by rw [← pow_add]; congr 1; omega
  have hp : 0 < 2 ^ (R - L) := by positivity
  have hq : 0 < 2 ^ L := by positivity
  unfold nodal at *
  unfold refIndex
  split
  · subst b
    have : (i + 1) * 2 ^ (R - L) ≤ (2 ^ L - 1) * 2 ^ (R - L) := Nat.mul_le_mul_right _ (by omega)
    rw [Nat.sub_mul, ← hR, one_mul] at this
    have : 0 < (i + 1) * 2 ^ (R - L) := by positivity
    omega
  · by_cases h2 : b = 2
    · have : i * 2 ^ (R - L) ≤ 2 ^ L * 2 ^ (R - L) := Nat.mul_le_mul_right _ (by omega)
      omega
    · have : (i + 1) * 2 ^ (R - L) ≤ 2 ^ L * 2 ^ (R - L) := Nat.mul_le_mul_right _ (by omega)
      rw [add_mul] at this
      omega

/-- the values of a coarse pole sampled from a fine pole -/
theorem poleValue_restrict {b L R : ℕ} (hLR : L ≤ R) (n n' : ℕ) (w : ℕ → K) (p : ℕ) :
    poleValue b L ⟨n, fun j => w (refIndex b (R - L) j)⟩ p =
      poleValue b R ⟨n', w⟩ (p * 2 ^ (R - L)) := by
  have hR : 2 ^ R = 2 ^ L * 2 ^ (R - L) := by rw [← pow_add]; congr 1; omega
  have hq : 0 < 2 ^ (R - L) := by positivity
  have hq' : 0 < 2 ^ L := by positivity
  have e1 : p * 2 ^ (R - L) = 2 ^ R ↔ p = 2 ^ L := by
    rw [hR]; exact Nat.mul_left_inj (by omega)
  have e2 : 2 ^ R ≤ p * 2 ^ (R - L) ↔ 2 ^ L ≤ p := by
    rw [hR]; exact Nat.mul_le_mul_right_iff hq
  have e3 : p * 2 ^ (R - L) = 0 ↔ p = 0 := by
    rw [Nat.mul_eq_zero]; omega
  unfold poleValue refIndex
  by_cases h0 : b = 0
  · simp only [if_pos h0, ge_iff_le, e2, e3]
    split
    · rfl
    · congr 2
      rw [Nat.sub_add_cancel (by omega)]
  · simp only [if_neg h0, e1]
    split
    · rw [zero_mul]
    · rfl

/-- In one dimension: hierarchizing the values of a coarse grid that are sampled from a fine grid
yields the hierarchical values of the fine grid at the same points. -/
theorem hat_restrict {b L R lmin : ℕ} (hb : b ≤ 2) (hR : R ≤ 29) (hLR : L ≤ R)
    (h0 : b = 0 → lmin = 0) {A A' : ℕ → ℕ → K} {junk junk' : ℕ → ℕ → K}
    (hA : LinPole (nodal L b) (fun p loc => hierPole .hat b L lmin 0 [] (junk p) loc) A)
    (hA' : LinPole (nodal R b) (fun p loc => hierPole .hat b R lmin 0 [] (junk' p) loc) A')
    (w : ℕ → K) {i : ℕ} (hi : i < nodal L b) :
    ∑ j ∈ Finset.range (nodal L b), A i j * w (refIndex b (R - L) j) =
      ∑ j ∈ Finset.range (nodal R b), A' (refIndex b (R - L) i) j * w j := by
  have hi' := refIndex_lt_nodal hb hLR hi
  obtain ⟨m, a1, a2, a3⟩ := hA 0 ⟨nodal L b, fun j => w (refIndex b (R - L) j)⟩ rfl
  obtain ⟨m', b1, b2, b3⟩ := hA' 0 ⟨nodal R b, w⟩ rfl
  obtain ⟨s, c1, c2, c3⟩ := C24_hat_surplus b L lmin hb (by omega) h0
    ⟨nodal L b, fun j => w (refIndex b (R - L) j)⟩ rfl (junk 0)
  obtain ⟨s', d1, d2, d3⟩ := C24_hat_surplus b R lmin hb hR h0 ⟨nodal R b, w⟩ rfl (junk' 0)
  obtain rfl := Option.some.inj (a1.symm.trans c1)
  obtain rfl := Option.some.inj (b1.symm.trans d1)
  have ha := a3 i hi
  have hb' := b3 _ hi'
  simp only at ha hb'
  rw [← ha, ← hb']
  obtain ⟨l, -, hl, hlev, -⟩ := C14_level L b i hb hi
  have hsame := C16_refIndex_same_point b R L i
  have hlev' : PointLevel R (pos b (refIndex b (R - L) i)) l := by
    rw [hsame, ← pointLevel_scale hLR hl]; exact hlev
  rw [c3 i hi l hlev, d3 _ hi' l hlev']
  split
  · have e : 2 ^ (R - l) = 2 ^ (L - l) * 2 ^ (R - L) := by
      rw [← pow_add]; congr 1; omega
    rw [hsame, e, ← Nat.sub_mul, ← add_mul,
      poleValue_restrict hLR (nodal L b) (nodal R b) w, poleValue_restrict hLR (nodal L b) (nodal R b) w]
  · rfl

/-- In all dimensions of a box: if every matrix `A k` on the coarse grid acts on values sampled from
the fine grid as `A' k` on the fine grid, then so do all of them together. -/
theorem actAll_restrict {sizes sizes' : List ℕ} {ρ : List (ℕ → ℕ)} (hρ : ρ.length = sizes.length)
    {A A' : ℕ → ℕ → ℕ → K} {dims : List ℕ} (hd : ∀ k ∈ dims, k < sizes.length)
    (h : ∀ k ∈ dims, ∀ w : ℕ → K, ∀ i < sizes.getD k 0,
      ∑ j ∈ Finset.range (sizes.getD k 0), A k i j * w ((ρ.getD k id) j) =
        ∑ j ∈ Finset.range (sizes'.getD k 0), A' k ((ρ.getD k id) i) j * w j)
    (f f' : List ℕ → K)
    (hf : AgreeBox sizes f fun x => f' (List.zipWith (fun r x => r x) ρ x)) :
    AgreeBox sizes (actAll sizes A dims f)
      fun x => actAll sizes' A' dims f' (List.zipWith (fun r x => r x) ρ x) := by
  induction dims generalizing f f' with
  | nil => exact hf
  | cons k ks ih =>
    refine ih (fun k hk => hd k (by simp [hk])) (fun k hk => h k (by simp [hk])) _ _ ?_
    intro x hx
    have hk := hd k (by simp)
    have hlen := hx.length_eq
    have hxk := (inBox_getD hx hk).1
    have hρk : k < ρ.length := by omega
    have e : ∀ j, List.zipWith (fun r x => r x) ρ (x.set k j) =
        (List.zipWith (fun r x => r x) ρ x).set k ((ρ.getD k id) j) := by
      intro j
      apply List.ext_getElem
      · simp
      · intro i h1 h2
        rw [List.getElem_zipWith, List.getElem_set, List.getElem_set]
        split
        · rename_i hki
          subst hki
          rw [List.getD_eq_getElem _ _ hρk]
        · rw [List.getElem_zipWith]
    have e2 : (List.zipWith (fun r x => r x) ρ x).getD k 0 = (ρ.getD k id) (x.getD k 0) := by
      rw [List.getD_eq_getElem _ _ (by rw [List.length_zipWith]; omega), List.getElem_zipWith,
        List.getD_eq_getElem _ _ hρk, List.getD_eq_getElem _ _ (by omega)]
    have hk' : sizes.getD k 0 = sizes[k] := List.getD_eq_getElem _ _ hk
    simp only [act]
    rw [e2, ← h k (by simp) (fun j => f' ((List.zipWith (fun r x => r x) ρ x).set k j)) (x.getD k 0)
      (by rw [hk']; exact hxk)]
    apply Finset.sum_congr rfl
    intro j hj
    have := hf _ (inBox_set hx hk (j := j) (by rw [← hk']; simpa using hj))
    simp only [e] at this
    rw [this]

end Verif

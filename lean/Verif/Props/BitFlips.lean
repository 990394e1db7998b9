import Verif.Lemmas.BitFlips

/-!
# Property C122: bits are flipped at random, each choice alike
-/

namespace Verif.BitFlips

/-- The bits (word, position in the word) in which the arrays differ. -/
def differentBits (a b : List (BitVec 32)) : Finset (ℕ × ℕ) :=
  (Finset.range a.length ×ˢ Finset.range 32).filter fun q =>
    (a[q.1]?).map (·.getLsbD q.2) ≠ (b[q.1]?).map (·.getLsbD q.2)

/-- Random numbers as the distributions of the loop give them: the `t`-th one is at least `t` and less than the
number of bits. -/
def Drawn (a : List (BitVec 32)) (rs : List ℕ) : Prop :=
  ∀ t (h : t < rs.length), t ≤ rs[t] ∧ rs[t] < 32 * a.length

theorem drawn_iff (a : List (BitVec 32)) (rs : List ℕ) : Drawn a rs ↔ InBounds (32 * a.length) 0 rs := by
  unfold Drawn InBounds
  simp only [Nat.zero_add]

theorem different_iff (a b : List (BitVec 32)) (ps : List ℕ)
    (hb : ∀ w j, j < 32 → bitAt b w j = (bitAt a w j).map fun x => x ^^ decide (∃ p ∈ ps, At p w j))
    (q : ℕ × ℕ) : q ∈ differentBits a b ↔ q.1 < a.length ∧ q.2 < 32 ∧ ∃ p ∈ ps, At p q.1 q.2 := by
  unfold differentBits
  rw [Finset.mem_filter, Finset.mem_product, Finset.mem_range, Finset.mem_range]
  change (_ ∧ bitAt a q.1 q.2 ≠ bitAt b q.1 q.2) ↔ _
  rw [and_assoc]
  refine and_congr_right fun h1 => and_congr_right fun h2 => ?_
  rw [hb _ _ h2]
  have : bitAt a q.1 q.2 = some ((a[q.1]).getLsbD q.2) := by
    rw [bitAt, List.getElem?_eq_getElem h1]; rfl
  rw [this, Option.map_some]
  by_cases h : ∃ p ∈ ps, At p q.1 q.2
  · simp only [h, decide_true, Bool.xor_true, iff_true]
    cases (a[q.1]).getLsbD q.2 <;> simp
  · simp only [h, decide_false, Bool.xor_false, ne_eq, not_true_eq_false]

theorem different_image (a b : List (BitVec 32)) (ps : List ℕ) (hp : ∀ p ∈ ps, p < 32 * a.length)
    (hb : ∀ w j, j < 32 → bitAt b w j = (bitAt a w j).map fun x => x ^^ decide (∃ p ∈ ps, At p w j)) :
    differentBits a b = ps.toFinset.image fun p => (p / 32, 31 - p % 32) := by
  ext q
  rw [different_iff a b ps hb, Finset.mem_image]
  constructor
  · rintro ⟨-, -, p, hp, h1, h2⟩
    exact ⟨p, by simpa using hp, by rw [h1, h2]⟩
  · rintro ⟨p, h1, rfl⟩
    have := hp p (by simpa using h1)
    exact ⟨by simp only; omega, by simp only; omega, p, by simpa using h1, rfl, rfl⟩

theorem position_inj {p q : ℕ} (h : (p / 32, 31 - p % 32) = (q / 32, 31 - q % 32)) : p = q := by
  simp only [Prod.mk.injEq] at h
  omega

/-- the arrays are equal if their bits are -/
theorem ext_bits {a b : List (BitVec 32)} (h : a.length = b.length)
    (hb : ∀ w j, j < 32 → bitAt a w j = bitAt b w j) : a = b := by
  apply List.ext_getElem h
  intro w h1 h2
  apply BitVec.eq_of_getLsbD_eq
  intro j hj
  have := hb w j hj
  rw [bitAt, bitAt, List.getElem?_eq_getElem h1, List.getElem?_eq_getElem h2] at this
  simpa using this

/-- What `manipulateBits` does, for the bits that are picked. -/
theorem manipulate_eq (a : List (BitVec 32)) (ha : 32 * a.length < 2 ^ 31) (rs ps : List ℕ)
    (h : picks 0 (List.range (32 * a.length)) rs = some ps) : manipulateBits rs a = ps.foldlM flipBit a := by
  have hn : 4 * a.length * 8 = 32 * a.length := by omega
  unfold manipulateBits
  simp only [hn]
  rw [if_neg (by omega)]
  by_cases h0 : 0 < rs.length
  · rw [if_pos h0, flipLoop_eq rs 0 _ ps h a]
  · have : rs = [] := List.length_eq_zero_iff.1 (by omega)
    subst this
    cases h
    rw [if_neg h0]
    rfl

/-- C122: exactly as many bits are flipped as asked for, whatever the random numbers are. -/
theorem C122_exact (a : List (BitVec 32)) (ha : 32 * a.length < 2 ^ 31) (rs : List ℕ) (hr : Drawn a rs) :
    ∃ b, manipulateBits rs a = some b ∧ b.length = a.length ∧ (differentBits a b).card = rs.length := by
  obtain ⟨ps, h1, h2, h3, h4⟩ := picks_ok (32 * a.length) rs 0 (List.range (32 * a.length)) (by simp)
    List.nodup_range ((drawn_iff a rs).1 hr)
  have hp : ∀ p ∈ ps, p < 32 * a.length := fun p hp => by simpa using h4 p hp
  obtain ⟨b, h5, h6, h7⟩ := flips_spec ps h3 a hp
  refine ⟨b, by rw [manipulate_eq a ha rs ps h1, h5], h6, ?_⟩
  rw [different_image a b ps hp h7, Finset.card_image_of_injective _ fun p q h => position_inj h,
    List.toFinset_card_of_nodup h3, h2]

example : Drawn [5#32, 7#32] [40, 40, 2] := by
  intro t ht
  match t, ht with
  | 0, _ | 1, _ | 2, _ => simp

/-- C122: all choices of `k` bits are alike: for every array which differs from the old one in `k` bits, the same
number, `k!`, of sequences of random numbers leads to it; for other arrays there is no such sequence. -/
theorem C122_uniform (a : List (BitVec 32)) (ha : 32 * a.length < 2 ^ 31) (b : List (BitVec 32))
    (hb : b.length = a.length) (k : ℕ) :
    {rs : List ℕ | rs.length = k ∧ Drawn a rs ∧ manipulateBits rs a = some b}.ncard =
      if (differentBits a b).card = k then k.factorial else 0 := by
  set n := 32 * a.length with hn
  by_cases hk : (differentBits a b).card = k
  · rw [if_pos hk]
    -- the positions of the different bits
    set D := (Finset.range n).filter fun p => (p / 32, 31 - p % 32) ∈ differentBits a b with hD
    have hDimage : D.image (fun p => (p / 32, 31 - p % 32)) = differentBits a b := by
      ext q
      rw [Finset.mem_image]
      constructor
      · rintro ⟨p, h1, rfl⟩
        exact (Finset.mem_filter.1 h1).2
      · intro hq
        have h2 := (Finset.mem_filter.1 hq).1
        rw [Finset.mem_product, Finset.mem_range, Finset.mem_range] at h2
        have h3 : (32 * q.1 + (31 - q.2)) / 32 = q.1 := by omega
        have h4 : 31 - (32 * q.1 + (31 - q.2)) % 32 = q.2 := by omega
        refine ⟨32 * q.1 + (31 - q.2), ?_, by rw [h3, h4]⟩
        rw [hD, Finset.mem_filter, Finset.mem_range, h3, h4]
        exact ⟨by omega, hq⟩
    have hcard : D.card = k := by
      rw [← hk, ← hDimage, Finset.card_image_of_injective _ fun p q h => position_inj h]
    have hlen : D.toList.length = k := by rw [Finset.length_toList, hcard]
    have hperm : (D.toList.permutations.toFinset : Finset (List ℕ)).card = k.factorial := by
      rw [List.toFinset_card_of_nodup (List.nodup_permutations _ D.nodup_toList),
        List.length_permutations, hlen]
    rw [← hperm, ← Set.ncard_coe_finset]
    have hok := fun rs (h : Drawn a rs) => picks_ok n rs 0 (List.range n) (by simp)
      List.nodup_range ((drawn_iff a rs).1 h)
    refine Set.ncard_congr (fun rs hrs => (hok rs hrs.2.1).choose) ?_ ?_ ?_
    · rintro rs ⟨h1, h2, h3⟩
      obtain ⟨e1, e2, e3, e4⟩ := (hok rs h2).choose_spec
      set ps := (hok rs h2).choose
      have hp : ∀ p ∈ ps, p < n := fun p hp => by simpa using e4 p hp
      obtain ⟨b', f1, f2, f3⟩ := flips_spec ps e3 a hp
      rw [manipulate_eq a ha rs ps e1, f1] at h3
      cases h3
      have hps : ps.toFinset = D := by
        ext p
        rw [hD, Finset.mem_filter, Finset.mem_range, different_image a b ps hp f3, Finset.mem_image]
        constructor
        · intro h
          exact ⟨hp p (by simpa using h), p, h, rfl⟩
        · rintro ⟨-, q, hq, he⟩
          rwa [← position_inj he]
      simp only [List.coe_toFinset, Set.mem_ofPred_eq, List.mem_permutations]
      rw [List.perm_ext_iff_of_nodup e3 D.nodup_toList]
      intro p
      rw [Finset.mem_toList, ← hps, List.mem_toFinset]
    · rintro rs rs' ⟨h1, h2, h3⟩ ⟨h1', h2', h3'⟩ he
      have e1 := (hok rs h2).choose_spec.1
      have e1' := (hok rs' h2').choose_spec.1
      rw [show (hok rs h2).choose = (hok rs' h2').choose from he] at e1
      exact picks_inj n rs rs' 0 _ _ (by simp) List.nodup_range e1 e1'
    · intro ps hps
      simp only [List.coe_toFinset, Set.mem_ofPred_eq, List.mem_permutations] at hps
      have hnd : ps.Nodup := hps.symm.nodup D.nodup_toList
      have hmem : ∀ p, p ∈ ps ↔ p ∈ D := fun p => by rw [hps.mem_iff, Finset.mem_toList]
      have hp : ∀ p ∈ ps, p < n := fun p hp => by
        have := Finset.mem_filter.1 ((hmem p).1 hp)
        exact Finset.mem_range.1 this.1
      obtain ⟨rs, g1, g2⟩ := picks_surj n ps 0 (List.range n) (by simp) List.nodup_range hnd
        (fun p hp' => by simpa using hp p hp')
      have hdr := (drawn_iff a rs).2 g1
      obtain ⟨e1, e2, e3, e4⟩ := (hok rs hdr).choose_spec
      have heq : (hok rs hdr).choose = ps := Option.some.inj (e1.symm.trans g2)
      obtain ⟨b', f1, f2, f3⟩ := flips_spec ps hnd a hp
      have hbb : b' = b := by
        have hdiff := different_image a b' ps hp f3
        have hsame : differentBits a b' = differentBits a b := by
          rw [hdiff, ← hDimage]
          congr 1
          ext p
          rw [List.mem_toFinset, hmem]
        refine ext_bits (f2.trans hb.symm) fun w j hj => ?_
        by_cases hw : w < a.length
        · have h2 := Finset.ext_iff.1 hsame (w, j)
          unfold differentBits at h2
          rw [Finset.mem_filter, Finset.mem_filter, Finset.mem_product, Finset.mem_range,
            Finset.mem_range] at h2
          change (_ ∧ bitAt a w j ≠ bitAt b' w j) ↔ (_ ∧ bitAt a w j ≠ bitAt b w j) at h2
          simp only [hw, hj, and_self, true_and] at h2
          unfold bitAt at h2 ⊢
          rw [List.getElem?_eq_getElem hw, List.getElem?_eq_getElem (by omega : w < b'.length),
            List.getElem?_eq_getElem (by omega : w < b.length)] at h2
          rw [List.getElem?_eq_getElem (by omega : w < b'.length),
            List.getElem?_eq_getElem (by omega : w < b.length)]
          simp only [Option.map_some, ne_eq, Option.some.injEq] at h2 ⊢
          revert h2
          cases (a[w]).getLsbD j <;> cases (b'[w]'(by omega)).getLsbD j <;>
            cases (b[w]'(by omega)).getLsbD j <;> simp
        · unfold bitAt
          rw [List.getElem?_eq_none (by omega), List.getElem?_eq_none (by omega)]
      refine ⟨rs, ⟨?_, hdr, ?_⟩, heq⟩
      · rw [← e2, heq, hps.length_eq, hlen]
      · rw [manipulate_eq a ha rs ps g2, f1, hbb]
  · rw [if_neg hk]
    have : {rs : List ℕ | rs.length = k ∧ Drawn a rs ∧ manipulateBits rs a = some b} = ∅ := by
      ext rs
      simp only [Set.mem_ofPred_eq, Set.mem_empty_iff_false, iff_false]
      rintro ⟨h1, h2, h3⟩
      obtain ⟨b', g1, -, g2⟩ := C122_exact a ha rs h2
      rw [h3] at g1
      cases g1
      exact hk (g2.trans h1)
    rw [this, Set.ncard_empty]

/-- one flip in two words: bit 63 of the positions is the lowest bit of the second word -/
example : manipulateBits [63] [5#32, 7#32] = some [5#32, 6#32] ∧
    (differentBits [5#32, 7#32] [5#32, 6#32]).card = 1 := by decide +kernel

/-- C122 is violated for arrays of 256 MiB and more: the number of bits overflows. -/
theorem C122_large_violated (a : List (BitVec 32)) (ha : 2 ^ 26 ≤ a.length) (rs : List ℕ) :
    manipulateBits rs a = none := by
  unfold manipulateBits
  simp only
  rw [if_pos (by omega)]

end Verif.BitFlips

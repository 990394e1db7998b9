import Verif.Model.BitFlips
import Mathlib.Data.Finset.Card
import Mathlib.Data.List.Permutation
import Mathlib.Data.Set.Card
import Mathlib.Data.Finset.Prod
import Mathlib.Tactic.ByContra

/-!
# Flipping bits at random: which bits are chosen
-/

namespace Verif.BitFlips

/-- The positions of the bits that are flipped, in this order. -/
def picks : (i : ℕ) → (bits : List ℕ) → (rs : List ℕ) → Option (List ℕ)
  | _, _, [] => some []
  | i, bits, r :: rs => do
    let x ← bits[r]?
    let y ← bits[i]?
    let ps ← picks (i + 1) ((bits.set r y).set i x) rs
    return x :: ps

theorem mem_drop_iff (l : List ℕ) (k x : ℕ) : x ∈ l.drop k ↔ ∃ t, k ≤ t ∧ l[t]? = some x := by
  rw [List.mem_iff_getElem?]
  constructor
  · rintro ⟨i, hi⟩
    exact ⟨k + i, by omega, by rw [← hi, List.getElem?_drop]⟩
  · rintro ⟨t, ht, h⟩
    exact ⟨t - k, by rw [List.getElem?_drop, ← h]; congr 1; omega⟩

theorem swap_get (bits : List ℕ) (i r x y : ℕ) (hx : bits[r]? = some x) (hy : bits[i]? = some y) (t : ℕ) :
    ((bits.set r y).set i x)[t]? = bits[if t = i then r else if t = r then i else t]? := by
  obtain ⟨hr, -⟩ := List.getElem?_eq_some_iff.1 hx
  obtain ⟨hi, -⟩ := List.getElem?_eq_some_iff.1 hy
  rw [List.getElem?_set, List.getElem?_set]
  by_cases h1 : t = i
  · subst h1
    simp only [List.length_set, hi, if_true, hx]
  · by_cases h2 : t = r
    · subst h2
      simp only [hr, if_true, hy, if_neg h1, if_neg (Ne.symm h1)]
    · simp only [if_neg h1, if_neg h2, if_neg (Ne.symm h1), if_neg (Ne.symm h2)]

theorem swap_nodup (bits : List ℕ) (h : bits.Nodup) (i r x y : ℕ) (hx : bits[r]? = some x)
    (hy : bits[i]? = some y) : ((bits.set r y).set i x).Nodup := by
  obtain ⟨hr, -⟩ := List.getElem?_eq_some_iff.1 hx
  obtain ⟨hi, -⟩ := List.getElem?_eq_some_iff.1 hy
  rw [List.nodup_iff_getElem?_ne_getElem?]
  intro s t hst ht he
  rw [List.length_set, List.length_set] at ht
  rw [swap_get bits i r x y hx hy, swap_get bits i r x y hx hy] at he
  have := (List.getElem?_inj (by split_ifs <;> omega) h).1 he
  split_ifs at this <;> omega

theorem swap_drop (bits : List ℕ) (h : bits.Nodup) (i r x y : ℕ) (hir : i ≤ r) (hx : bits[r]? = some x)
    (hy : bits[i]? = some y) (z : ℕ) :
    z ∈ ((bits.set r y).set i x).drop (i + 1) ↔ z ∈ bits.drop i ∧ z ≠ x := by
  obtain ⟨hr, -⟩ := List.getElem?_eq_some_iff.1 hx
  obtain ⟨hi, -⟩ := List.getElem?_eq_some_iff.1 hy
  rw [mem_drop_iff, mem_drop_iff]
  constructor
  · rintro ⟨t, ht, h1⟩
    rw [swap_get bits i r x y hx hy, if_neg (by omega)] at h1
    refine ⟨⟨_, ?_, h1⟩, ?_⟩
    · split_ifs <;> omega
    · rintro rfl
      have := (List.getElem?_inj hr h).1 (hx.trans h1.symm)
      split_ifs at this <;> omega
  · rintro ⟨⟨t, ht, h1⟩, hne⟩
    have hne : t ≠ r := by
      rintro rfl
      rw [h1] at hx
      exact hne (Option.some.inj hx)
    by_cases hti : t = i
    · subst hti
      refine ⟨r, by omega, ?_⟩
      rw [swap_get bits t r x y hx hy, if_neg (by omega), if_pos rfl, h1]
    · refine ⟨t, by omega, ?_⟩
      rw [swap_get bits i r x y hx hy, if_neg hti, if_neg hne, h1]

/-- The random numbers are between the bounds of their distributions. -/
def InBounds (n i : ℕ) (rs : List ℕ) : Prop := ∀ t (h : t < rs.length), i + t ≤ rs[t] ∧ rs[t] < n

theorem inBounds_cons (n i r : ℕ) (rs : List ℕ) :
    InBounds n i (r :: rs) ↔ (i ≤ r ∧ r < n) ∧ InBounds n (i + 1) rs := by
  constructor
  · intro h
    refine ⟨by have := h 0 (by simp); simp only [List.getElem_cons_zero] at this; omega, fun t ht => ?_⟩
    have := h (t + 1) (by simpa using ht)
    simp only [List.getElem_cons_succ] at this
    omega
  · rintro ⟨h1, h2⟩ t ht
    match t, ht with
    | 0, _ => simpa using h1
    | t + 1, ht =>
      have := h2 t (by simpa using ht)
      simp only [List.getElem_cons_succ]
      omega

theorem picks_ok (n : ℕ) (rs : List ℕ) (i : ℕ) (bits : List ℕ) (hn : bits.length = n) (hd : bits.Nodup)
    (h : InBounds n i rs) :
    ∃ ps, picks i bits rs = some ps ∧ ps.length = rs.length ∧ ps.Nodup ∧ ∀ p ∈ ps, p ∈ bits.drop i := by
  induction rs generalizing i bits with
  | nil => exact ⟨[], rfl, rfl, .nil, by simp⟩
  | cons r rs ih =>
    obtain ⟨⟨h1, h2⟩, h3⟩ := (inBounds_cons _ _ _ _).1 h
    have hx := List.getElem?_eq_getElem (l := bits) (i := r) (by omega)
    have hy := List.getElem?_eq_getElem (l := bits) (i := i) (by omega)
    obtain ⟨ps, e1, e2, e3, e4⟩ := ih (i + 1) _ (by simpa using hn) (swap_nodup bits hd i r _ _ hx hy) h3
    have hdrop := swap_drop bits hd i r _ _ h1 hx hy
    refine ⟨bits[r] :: ps, ?_, by simp [e2], ?_, ?_⟩
    · rw [picks, hx, hy]
      simp only [Option.bind_eq_bind, Option.bind_some, e1]
      rfl
    · rw [List.nodup_cons]
      exact ⟨fun hm => ((hdrop _).1 (e4 _ hm)).2 rfl, e3⟩
    · intro p hp
      rcases List.mem_cons.1 hp with rfl | hp
      · exact (mem_drop_iff _ _ _).2 ⟨r, h1, hx⟩
      · exact ((hdrop _).1 (e4 _ hp)).1

theorem picks_cons {i : ℕ} {bits : List ℕ} {r : ℕ} {rs ps : List ℕ} (h : picks i bits (r :: rs) = some ps) :
    ∃ x y ps', bits[r]? = some x ∧ bits[i]? = some y ∧
      picks (i + 1) ((bits.set r y).set i x) rs = some ps' ∧ ps = x :: ps' := by
  rw [picks] at h
  simp only [Option.bind_eq_bind, Option.bind_eq_some_iff] at h
  obtain ⟨x, hx, y, hy, ps', hp, e⟩ := h
  exact ⟨x, y, ps', hx, hy, hp, (Option.some.inj e).symm⟩

theorem picks_inj (n : ℕ) (rs rs' : List ℕ) (i : ℕ) (bits ps : List ℕ) (hn : bits.length = n)
    (hd : bits.Nodup) (h : picks i bits rs = some ps) (h' : picks i bits rs' = some ps) : rs = rs' := by
  induction rs generalizing i bits ps rs' with
  | nil =>
    cases h
    cases rs' with
    | nil => rfl
    | cons r' rs' => obtain ⟨x, y, ps', -, -, -, h⟩ := picks_cons h'; cases h
  | cons r rs ih =>
    obtain ⟨x, y, ps1, hx, hy, h1, rfl⟩ := picks_cons h
    cases rs' with
    | nil => cases h'
    | cons r' rs' =>
      obtain ⟨x', y', ps2, hx', hy', h2, e⟩ := picks_cons h'
      cases e
      obtain ⟨hr, -⟩ := List.getElem?_eq_some_iff.1 hx
      have hrr := (List.getElem?_inj hr hd).1 (hx.trans hx'.symm)
      subst hrr
      rw [hy] at hy'
      cases hy'
      rw [ih rs' (i + 1) _ _ (by simpa using hn) (swap_nodup bits hd i r _ _ hx hy) h1 h2]

theorem picks_surj (n : ℕ) (ps : List ℕ) (i : ℕ) (bits : List ℕ) (hn : bits.length = n) (hd : bits.Nodup)
    (hp : ps.Nodup) (hm : ∀ p ∈ ps, p ∈ bits.drop i) :
    ∃ rs, InBounds n i rs ∧ picks i bits rs = some ps := by
  induction ps generalizing i bits with
  | nil => exact ⟨[], fun t ht => absurd ht (by simp), rfl⟩
  | cons p ps ih =>
    obtain ⟨r, hir, hx⟩ := (mem_drop_iff _ _ _).1 (hm p (by simp))
    obtain ⟨hr, -⟩ := List.getElem?_eq_some_iff.1 hx
    have hy := List.getElem?_eq_getElem (l := bits) (i := i) (by omega)
    rw [List.nodup_cons] at hp
    obtain ⟨rs, h1, h2⟩ := ih (i + 1) _ (by simpa using hn) (swap_nodup bits hd i r _ _ hx hy) hp.2 (by
      intro q hq
      rw [swap_drop bits hd i r _ _ hir hx hy]
      refine ⟨hm q (by simp [hq]), ?_⟩
      rintro rfl
      exact hp.1 hq)
    refine ⟨r :: rs, (inBounds_cons _ _ _ _).2 ⟨⟨hir, by omega⟩, h1⟩, ?_⟩
    rw [picks, hx, hy]
    simp only [Option.bind_eq_bind, Option.bind_some, h2]
    rfl

/-- The loop flips the bits that are picked. -/
theorem flipLoop_eq (rs : List ℕ) (i : ℕ) (bits ps : List ℕ) (h : picks i bits rs = some ps)
    (a : List (BitVec 32)) : flipLoop i bits rs a = ps.foldlM flipBit a := by
  induction rs generalizing i bits ps a with
  | nil => cases h; rfl
  | cons r rs ih =>
    obtain ⟨x, y, ps', hx, hy, h1, rfl⟩ := picks_cons h
    have hg := swap_get bits i r x y hx hy i
    rw [if_pos rfl, hx] at hg
    rw [flipLoop, hx, hy]
    simp only [Option.bind_eq_bind, Option.bind_some, hg, List.foldlM_cons]
    congr 1
    funext a
    exact ih (i + 1) _ _ h1 a

/-! ### The bits -/

/-- Bit `j` of word `w`. -/
def bitAt (a : List (BitVec 32)) (w j : ℕ) : Option Bool := (a[w]?).map fun x => x.getLsbD j

/-- Bit `j` of word `w` is at position `p`. -/
def At (p w j : ℕ) : Prop := p / 32 = w ∧ 31 - p % 32 = j

instance (p w j : ℕ) : Decidable (At p w j) := by unfold At; infer_instance

theorem flipBit_spec (a : List (BitVec 32)) (p : ℕ) (hp : p < 32 * a.length) :
    ∃ b, flipBit a p = some b ∧ b.length = a.length ∧
      ∀ w j, j < 32 → bitAt b w j = (bitAt a w j).map fun x => x ^^ decide (At p w j) := by
  have hw : p / 32 < a.length := by omega
  have hx := List.getElem?_eq_getElem (l := a) (i := p / 32) hw
  refine ⟨_, by rw [flipBit, hx]; rfl, by simp, fun w j hj => ?_⟩
  unfold bitAt
  rw [List.getElem?_set]
  by_cases h : p / 32 = w
  · subst h
    simp only [hw, if_true, hx, Option.map_some, BitVec.getLsbD_xor, BitVec.getLsbD_shiftLeft,
      BitVec.getLsbD_one, At, true_and]
    congr 2
    by_cases h2 : 31 - p % 32 = j
    · subst h2
      simp
      omega
    · simp only [h2, decide_false]
      by_cases h3 : j < 31 - p % 32
      · simp [h3]
      · have : ¬ (j - (31 - p % 32) = 0) := by omega
        simp [this]
  · have : ¬ At p w j := fun hh => h hh.1
    simp only [this, decide_false, Bool.xor_false, Option.map_map]
    rw [if_neg (by omega)]
    rfl

theorem flips_spec (ps : List ℕ) (hd : ps.Nodup) (a : List (BitVec 32)) (hp : ∀ p ∈ ps, p < 32 * a.length) :
    ∃ b, ps.foldlM flipBit a = some b ∧ b.length = a.length ∧
      ∀ w j, j < 32 → bitAt b w j = (bitAt a w j).map fun x => x ^^ decide (∃ p ∈ ps, At p w j) := by
  induction ps generalizing a with
  | nil => exact ⟨a, rfl, rfl, fun w j _ => by simp⟩
  | cons p ps ih =>
    obtain ⟨a', h1, h2, h3⟩ := flipBit_spec a p (hp p (by simp))
    rw [List.nodup_cons] at hd
    obtain ⟨b, h4, h5, h6⟩ := ih hd.2 a' (fun q hq => by rw [h2]; exact hp q (by simp [hq]))
    refine ⟨b, ?_, h5.trans h2, fun w j hj => ?_⟩
    · rw [List.foldlM_cons, h1]; exact h4
    · rw [h6 w j hj, h3 w j hj, Option.map_map]
      congr 1
      funext x
      simp only [Function.comp, Bool.xor_assoc]
      congr 1
      by_cases hA : At p w j
      · have : ¬ ∃ q ∈ ps, At q w j := by
          rintro ⟨q, hq, hB⟩
          unfold At at hA hB
          have : p = q := by omega
          exact hd.1 (this ▸ hq)
        simp [hA, this]
      · simp [hA]

end Verif.BitFlips

import Verif.Lemmas.Exchange
import Mathlib.Tactic.LinearCombination

/-!
# The exchange for hierarchization
-/

namespace Verif
namespace Pole

/-- Index `s` needs index `i` to be hierarchized: `i` is a direct predecessor of `s`, where with a
one-sided boundary index 0 also stands for the virtual point after the last one. -/
def HierNeed (P : Pole) (s i : ℤ) : Prop :=
  ∃ e : ℕ, e < P.lmax - P.lmin ∧ (2 : ℤ) ^ e ∣ s + P.off ∧ ¬ (2 : ℤ) ^ (e + 1) ∣ s + P.off ∧
    (i = s - 2 ^ e ∨ i = s + 2 ^ e ∨ (P.b = 1 ∧ s + 2 ^ e = P.n ∧ i = 0))

theorem mem_hierSends (P : Pole) (h : P.Ok) (x : ℤ) (h0 : 0 ≤ x) (h1 : x < P.n) (r i : ℤ) :
    (r, i) ∈ P.hierSends x ↔ i = x ∧ ∃ e : ℕ, e < P.lmax - P.lmin ∧ (2 : ℤ) ^ (e + 1) ∣ x + P.off ∧
      ∃ s, P.owner s = some r ∧ ((s = x - 2 ^ e ∧ s < P.idxMin) ∨ (s = x + 2 ^ e ∧ P.idxMax < s) ∨
        (P.b = 1 ∧ x = 0 ∧ s = P.n - 2 ^ e ∧ P.idxMax < s)) := by
  have hl := h.hl
  unfold hierSends
  rw [List.mem_flatMap]
  constructor
  · rintro ⟨l, hl', hm⟩
    obtain ⟨e, he, rfl, hd⟩ := (P.mem_levelsAbove h x h0 h1 l).1 hl'
    split_ifs at hm with hlm
    swap
    · simp at hm
    have hw := two_pow_pos e
    rw [P.tableShift_eq h e he _ (by omega)] at hm
    simp only [List.flatMap_cons, List.flatMap_nil, List.append_nil, List.mem_append] at hm
    rcases hm with (hm | hm) | (hm | hm)
    · split_ifs at hm with hc
      swap
      · simp at hm
      rw [mem_insertFor] at hm
      exact ⟨hm.2, e, by omega, hd, _, hm.1, by omega⟩
    · split_ifs at hm with hc hc'
      · rw [mem_insertFor] at hm
        exact ⟨hm.2, e, by omega, hd, _, hm.1, Or.inr (Or.inr ⟨hc.1, hc.2.1, by omega, hc'⟩)⟩
      · simp at hm
      · simp at hm
    · split_ifs at hm with hc
      swap
      · simp at hm
      rw [mem_insertFor] at hm
      exact ⟨hm.2, e, by omega, hd, _, hm.1, by omega⟩
    · rw [if_neg (by omega)] at hm
      simp at hm
  · rintro ⟨rfl, e, he, hd, s, hs, hc⟩
    have hw := two_pow_pos e
    have hsn := (P.owner_iff h s r).1 hs
    refine ⟨P.lmax - e, (P.mem_levelsAbove h i h0 h1 _).2 ⟨e, by omega, rfl, hd⟩, ?_⟩
    rw [if_pos (by omega), P.tableShift_eq h e (by omega) _ (by omega)]
    simp only [List.flatMap_cons, List.flatMap_nil, List.append_nil, List.mem_append]
    rcases hc with ⟨rfl, hc⟩ | ⟨rfl, hc⟩ | ⟨hb, rfl, rfl, hc⟩
    · left; left
      rw [if_pos (by omega), mem_insertFor]
      exact ⟨by rw [← hs]; congr 1; ring, rfl⟩
    · right; left
      rw [if_pos (by omega), mem_insertFor]
      exact ⟨by rw [← hs]; congr 1; ring, rfl⟩
    · left; right
      rw [if_pos ⟨hb, rfl, by omega⟩, if_pos (by omega), mem_insertFor]
      exact ⟨by rw [← hs]; congr 1; ring, rfl⟩

theorem mem_hierRecvs (P : Pole) (h : P.Ok) (x : ℤ) (h1 : P.idxMin ≤ x) (h2 : x ≤ P.idxMax)
    (r i : ℤ) :
    (r, i) ∈ P.hierRecvs x ↔ P.owner i = some r ∧ r ≠ P.c ∧ P.HierNeed x i := by
  have hl := h.hl
  have hb := P.bounds h
  obtain ⟨s1, s2, s3⟩ := P.ex_spec h x (by omega) (by omega)
  have hself := P.owner_self h
  unfold hierRecvs
  simp only
  constructor
  · intro hm
    split_ifs at hm with hlm
    swap
    · simp at hm
    have hex : P.ex x < P.lmax - P.lmin := by omega
    have hd1 := (s3 (P.ex x) s2).2 (le_refl _)
    have hd2 := (s3 (P.ex x + 1) (by omega)).not.2 (by omega)
    have hw := two_pow_pos (P.ex x)
    rw [P.tableShift_eq h (P.ex x) (by omega) _ (by omega)] at hm
    have key : ∀ j, P.owner j = some r → (j < P.idxMin ∨ P.idxMax < j) → r ≠ P.c := by
      rintro j hj hj' rfl
      have := (hself j).1 hj
      omega
    simp only [List.flatMap_cons, List.flatMap_nil, List.append_nil, List.mem_append] at hm
    rcases hm with (hm | hm) | (hm | hm)
    · split_ifs at hm with hc
      swap
      · simp at hm
      rw [mem_insertFor] at hm
      obtain ⟨hm, rfl⟩ := hm
      exact ⟨hm, key _ hm (by omega), P.ex x, hex, hd1, hd2, Or.inl (by ring)⟩
    · rw [if_neg (by omega)] at hm
      simp at hm
    · split_ifs at hm with hc
      swap
      · simp at hm
      rw [mem_insertFor] at hm
      obtain ⟨hm, rfl⟩ := hm
      exact ⟨hm, key _ hm (by omega), P.ex x, hex, hd1, hd2, Or.inr (Or.inl (by ring))⟩
    · split_ifs at hm with hc
      swap
      · simp at hm
      cases ho : P.owner 0 with
      | none => rw [ho] at hm; simp at hm
      | some q =>
        rw [ho] at hm
        simp only [Option.toList_some, List.flatMap_cons, List.flatMap_nil, List.append_nil] at hm
        split_ifs at hm with hq
        · simp only [List.mem_cons, Prod.mk.injEq, List.not_mem_nil, or_false] at hm
          obtain ⟨rfl, rfl⟩ := hm
          exact ⟨ho, hq, P.ex x, hex, hd1, hd2, Or.inr (Or.inr ⟨hc.1, by omega, rfl⟩)⟩
        · simp at hm
  · rintro ⟨ho, hr, e, he, hd1, hd2, hc⟩
    have hex : P.ex x = e := by
      have a1 := (s3 e (by omega)).1 hd1
      have a2 := (s3 (e + 1) (by omega)).not.1 hd2
      omega
    have hw := two_pow_pos e
    have hi := (P.owner_iff h i r).1 ho
    rw [if_pos (by omega), P.tableShift_eq h e (by omega) _ (by omega)]
    simp only [List.flatMap_cons, List.flatMap_nil, List.append_nil, List.mem_append]
    have key : ¬ (P.idxMin ≤ i ∧ i ≤ P.idxMax) := by
      intro hc
      have := (hself i).2 hc
      rw [this] at ho
      simp at ho
      exact hr ho.symm
    rcases hc with rfl | rfl | ⟨hb1, hn, rfl⟩
    · left; left
      rw [if_pos (by omega), mem_insertFor]
      exact ⟨by rw [← ho]; congr 1; ring, by ring⟩
    · right; left
      rw [if_pos (by omega), mem_insertFor]
      exact ⟨by rw [← ho]; congr 1; ring, by ring⟩
    · right; right
      rw [if_pos ⟨hb1, by omega, by omega⟩, ho]
      simp [hr]

/-- What `exchangeData1d` sends and receives. -/
theorem exchangeHier_spec (P : Pole) (h : P.Ok) :
    ∃ S R, P.exchangeHier = some (S, R) ∧
      (∀ r i, (r, i) ∈ S ↔ P.idxMin ≤ i ∧ i ≤ P.idxMax ∧ r ≠ P.c ∧
        ∃ s, P.owner s = some r ∧ P.HierNeed s i) ∧
      (∀ r i, (r, i) ∈ R ↔ P.owner i = some r ∧ r ≠ P.c ∧
        ∃ s, P.idxMin ≤ s ∧ s ≤ P.idxMax ∧ P.HierNeed s i) := by
  have hb := P.bounds h
  have hl := h.hl
  obtain ⟨vs, hv, hv1, hv2⟩ := P.visit_eq P.hierNext (fun x h1 h2 => P.hierNext_step h x h1 h2)
    P.fuel P.idxMin (le_refl _) (by unfold fuel; omega)
  have hself := P.owner_self h
  refine ⟨_, _, by unfold exchangeHier; rw [hv]; rfl, ?_, ?_⟩
  · intro r i
    rw [List.mem_flatMap]
    constructor
    · rintro ⟨x, hx, hm⟩
      have hx' := hv1 x hx
      obtain ⟨rfl, e, he, hd, s, hs, hc⟩ := (P.mem_hierSends h x (by omega) (by omega) r i).1 hm
      have hw := two_pow_pos e
      have hp : (2 : ℤ) ^ (e + 1) = 2 * 2 ^ e := by rw [pow_succ]; ring
      have hde : (2 : ℤ) ^ e ∣ i + P.off := dvd_trans (pow_dvd_pow 2 (by omega)) hd
      have hnd : ¬ (2 : ℤ) ^ (e + 1) ∣ 2 ^ e := by
        intro hc
        have := Int.le_of_dvd hw hc
        omega
      refine ⟨hx'.1, hx'.2, ?_, s, hs, e, he, ?_⟩
      · rintro rfl
        have := (hself s).1 hs
        omega
      · rcases hc with ⟨rfl, hc⟩ | ⟨rfl, hc⟩ | ⟨hb1, rfl, rfl, hc⟩
        · refine ⟨?_, ?_, Or.inr (Or.inl (by ring))⟩
          · rw [show i - 2 ^ e + P.off = i + P.off - 2 ^ e by ring]
            exact dvd_sub hde (dvd_refl _)
          · rw [show i - 2 ^ e + P.off = i + P.off - 2 ^ e by ring]
            intro hc
            exact hnd ((dvd_sub_right hd).1 hc)
        · refine ⟨?_, ?_, Or.inl (by ring)⟩
          · rw [show i + 2 ^ e + P.off = i + P.off + 2 ^ e by ring]
            exact dvd_add hde (dvd_refl _)
          · rw [show i + 2 ^ e + P.off = i + P.off + 2 ^ e by ring]
            intro hc
            exact hnd ((dvd_add_right hd).1 hc)
        · obtain ⟨e1, e2⟩ := (P.pos_range h 0 (by omega) (by omega)).2.2.1 hb1
          have dn : (2 : ℤ) ^ (e + 1) ∣ P.n := by rw [e2]; exact pow_dvd_pow 2 (by omega)
          refine ⟨?_, ?_, Or.inr (Or.inr ⟨hb1, by ring, rfl⟩)⟩
          · rw [e1, add_zero]
            exact dvd_sub (dvd_trans (pow_dvd_pow 2 (by omega)) dn) (dvd_refl _)
          · rw [e1, add_zero]
            intro hc
            exact hnd ((dvd_sub_right dn).1 hc)
    · rintro ⟨hi1, hi2, hr, s, hs, e, he, hd1, hd2, hc⟩
      have hw := two_pow_pos e
      have hp : (2 : ℤ) ^ (e + 1) = 2 * 2 ^ e := by rw [pow_succ]; ring
      obtain ⟨hs0, hsn, -⟩ := (P.owner_iff h s r).1 hs
      have hns : ¬ (P.idxMin ≤ s ∧ s ≤ P.idxMax) := by
        intro hc
        have := (hself s).2 hc
        rw [this] at hs
        simp at hs
        exact hr hs.symm
      -- the position of the predecessor is a multiple of the next power
      obtain ⟨m, hm⟩ := hd1
      have hodd : ¬ (2 : ℤ) ∣ m := by
        rintro ⟨k, rfl⟩
        exact hd2 ⟨k, by rw [hm, hp]; ring⟩
      have hmem : (r, i) ∈ P.hierSends i := by
        rw [P.mem_hierSends h i (by omega) (by omega)]
        refine ⟨rfl, e, he, ?_, s, hs, ?_⟩
        · rcases hc with rfl | rfl | ⟨hb1, hn, rfl⟩
          · obtain ⟨k, hk⟩ : (2 : ℤ) ∣ m - 1 := by omega
            exact ⟨k, by rw [hp]; linear_combination hm + 2 ^ e * hk⟩
          · obtain ⟨k, hk⟩ : (2 : ℤ) ∣ m + 1 := by omega
            exact ⟨k, by rw [hp]; linear_combination hm + 2 ^ e * hk⟩
          · obtain ⟨e1, e2⟩ := (P.pos_range h 0 (by omega) (by omega)).2.2.1 hb1
            rw [e1]; simp
        · rcases hc with rfl | rfl | ⟨hb1, hn, rfl⟩
          · right; left; constructor <;> omega
          · left; constructor <;> omega
          · right; right; refine ⟨hb1, rfl, by omega, by omega⟩
      rcases hv2 i hi1 hi2 with hv | hv
      · exact ⟨i, hv, hmem⟩
      · exfalso
        obtain ⟨-, e', he', hd', s', hs', hc'⟩ :=
          (P.mem_hierSends h i (by omega) (by omega) r i).1 hmem
        have hloc := P.skipped_local hv e' (dvd_trans (pow_dvd_pow 2 (by omega)) hd')
        omega
  · intro r i
    rw [List.mem_flatMap]
    constructor
    · rintro ⟨x, hx, hm⟩
      have hx' := hv1 x hx
      obtain ⟨a, b, c⟩ := (P.mem_hierRecvs h x hx'.1 hx'.2 r i).1 hm
      exact ⟨a, b, x, hx'.1, hx'.2, c⟩
    · rintro ⟨ho, hr, s, hs1, hs2, hn⟩
      rcases hv2 s hs1 hs2 with hv | hv
      · exact ⟨s, hv, (P.mem_hierRecvs h s hs1 hs2 r i).2 ⟨ho, hr, hn⟩⟩
      · exfalso
        obtain ⟨e, he, hd1, hd2, hc⟩ := hn
        have hloc := P.skipped_local hv e hd1
        have hw := two_pow_pos e
        have hni : ¬ (P.idxMin ≤ i ∧ i ≤ P.idxMax) := by
          intro hc
          have := (hself i).2 hc
          rw [this] at ho
          simp at ho
          exact hr ho.symm
        omega

end Pole
end Verif

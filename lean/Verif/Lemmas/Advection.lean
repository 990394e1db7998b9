import Verif.Model.Advection
import Verif.Lemmas.GroupGrid
import Verif.Lemmas.PoleLoop
import Mathlib.Algebra.BigOperators.Intervals
import Mathlib.Tactic.Ring

/-!
# Lemmas on the advection solver
-/

namespace Verif.Advection

open GroupGrid

variable {K : Type}

/-- A loop that adds to different elements. -/
lemma foldlM_add [Ring K] {ι : Type} (n : ℕ) (L : List ι) (pos : ι → ℕ) (t : ι → K)
    (step : List K → ι → Option (List K))
    (hstep : ∀ phi : List K, phi.length = n → ∀ i ∈ L,
      step phi i = some (phi.set (pos i) (phi.getD (pos i) 0 + t i)))
    (hnd : (L.map pos).Nodup) (hlt : ∀ i ∈ L, pos i < n) (phi : List K) (hphi : phi.length = n) :
    ∃ phi', L.foldlM step phi = some phi' ∧ phi'.length = n ∧
      (∀ i ∈ L, phi'.getD (pos i) 0 = phi.getD (pos i) 0 + t i) ∧
      ∀ p, p ∉ L.map pos → phi'.getD p 0 = phi.getD p 0 := by
  induction L generalizing phi with
  | nil => exact ⟨phi, rfl, hphi, by simp, fun _ _ => rfl⟩
  | cons i L ih =>
    rw [List.map_cons, List.nodup_cons] at hnd
    obtain ⟨phi', h1, h2, h3, h4⟩ := ih (fun phi h j hj => hstep phi h j (List.mem_cons_of_mem _ hj)) hnd.2
      (fun j hj => hlt j (List.mem_cons_of_mem _ hj)) (phi.set (pos i) (phi.getD (pos i) 0 + t i)) (by simp [hphi])
    have hi : pos i < phi.length := by rw [hphi]; exact hlt i (List.mem_cons_self ..)
    have hset : ∀ p, p ≠ pos i → (phi.set (pos i) (phi.getD (pos i) 0 + t i)).getD p 0 = phi.getD p 0 := by
      intro p hp
      simp only [List.getD_eq_getElem?_getD, List.getElem?_set_ne (Ne.symm hp)]
    refine ⟨phi', ?_, h2, ?_, ?_⟩
    · rw [List.foldlM_cons, hstep phi hphi i (List.mem_cons_self ..)]
      exact h1
    · intro j hj
      rcases List.mem_cons.1 hj with rfl | hj
      · rw [h4 _ hnd.1, List.getD_eq_getElem?_getD, List.getElem?_set_self hi]
        rfl
      · rw [h3 j hj, hset]
        intro e
        exact hnd.1 (e ▸ List.mem_map_of_mem hj)
    · intro p hp
      rw [List.map_cons, List.mem_cons] at hp
      push Not at hp
      rw [h4 p hp.2, hset p hp.1]

lemma addTerm_eq [Ring K] (phi : List K) (li : ℕ) (t : K) (h : li < phi.length) :
    addTerm phi li t = some (phi.set li (phi.getD li 0 + t)) := by
  unfold addTerm
  rw [List.getD_eq_getElem?_getD, List.getElem?_eq_getElem h]
  rfl

lemma readAt_eq [Ring K] (u : List K) (i : ℤ) (h0 : 0 ≤ i) (h : i < u.length) :
    readAt u i = some (u.getD i.toNat 0) := by
  unfold readAt
  rw [if_pos ⟨h0, h⟩, List.getD_eq_getElem?_getD, List.getElem?_eq_getElem (by omega)]
  rfl

/-! ### The shape of the local data -/

/-- The sizes around one dimension: `S` elements below, `m` in it, `B` above. -/
structure Around (sizes : List ℕ) (d S m B : ℕ) : Prop where
  split : ∃ as bs : List ℕ, sizes = as ++ m :: bs ∧ as.length = d ∧ S = as.prod ∧ B = bs.prod
  posS : 0 < S
  posm : 0 < m
  posB : 0 < B

lemma list_prod_pos (l : List ℕ) (h : ∀ s ∈ l, 0 < s) : 0 < l.prod := by
  induction l with
  | nil => simp
  | cons a l ih =>
    rw [List.prod_cons]
    exact Nat.mul_pos (h a (List.mem_cons_self ..)) (ih fun s hs => h s (List.mem_cons_of_mem _ hs))

lemma forall₂_split {us vs as bs : List ℕ} {i m : ℕ} (hl : us.length = as.length)
    (h : List.Forall₂ (· < ·) (us ++ i :: vs) (as ++ m :: bs)) :
    List.Forall₂ (· < ·) us as ∧ i < m ∧ List.Forall₂ (· < ·) vs bs := by
  induction as generalizing us with
  | nil =>
    obtain rfl := List.eq_nil_of_length_eq_zero hl
    rw [List.nil_append, List.nil_append, List.forall₂_cons] at h
    exact ⟨.nil, h⟩
  | cons a as ih =>
    obtain ⟨u, us, rfl⟩ := List.exists_cons_of_length_eq_add_one hl
    rw [List.cons_append, List.cons_append, List.forall₂_cons] at h
    obtain ⟨h1, h2⟩ := ih (by simpa using hl) h.2
    exact ⟨.cons h.1 h1, h2⟩

lemma around_exists (sizes : List ℕ) (hpos : ∀ s ∈ sizes, 0 < s) (d : ℕ) (hd : d < sizes.length) :
    ∃ S B, Around sizes d S (sizes.getD d 0) B := by
  refine ⟨(sizes.take d).prod, (sizes.drop (d + 1)).prod, ⟨_, _, ?_, ?_, rfl, rfl⟩, ?_, ?_, ?_⟩
  · rw [List.getD_eq_getElem?_getD, List.getElem?_eq_getElem hd, Option.getD_some,
      List.getElem_cons_drop, List.take_append_drop]
  · simp; omega
  · exact list_prod_pos _ fun s hs => hpos s (List.mem_of_mem_take hs)
  · rw [List.getD_eq_getElem?_getD, List.getElem?_eq_getElem hd]
    exact hpos _ (List.getElem_mem hd)
  · exact list_prod_pos _ fun s hs => hpos s (List.mem_of_mem_drop hs)

namespace Around

variable {sizes : List ℕ} {d S m B : ℕ}

lemma prod_eq (h : Around sizes d S m B) : sizes.prod = B * (S * m) := by
  obtain ⟨as, bs, rfl, -, rfl, rfl⟩ := h.split
  rw [List.prod_append, List.prod_cons]
  ring

lemma lt (h : Around sizes d S m B) : d < sizes.length := by
  obtain ⟨as, bs, rfl, rfl, -, -⟩ := h.split
  simp

lemma size_eq (h : Around sizes d S m B) : tensorSize sizes = B * (S * m) := by
  rw [← h.prod_eq]
  unfold tensorSize
  rw [if_neg, foldl_mul_eq, Nat.one_mul]
  have := h.lt
  rintro rfl
  simp at this

lemma offset_eq (h : Around sizes d S m B) : (tensorOffsets sizes)[d]? = some S := by
  obtain ⟨as, bs, rfl, rfl, rfl, -⟩ := h.split
  exact tensorOffsets_split as bs m

lemma getElem_eq (h : Around sizes d S m B) : sizes[d]? = some m := by
  obtain ⟨as, bs, rfl, rfl, -, -⟩ := h.split
  simp

/-- Index vectors and their parts below, in and above the dimension. -/
lemma index_split (h : Around sizes d S m B) (y : List ℕ) (hy : List.Forall₂ (· < ·) y sizes) :
    ∃ lo hi, lo < S ∧ hi < B ∧ y.getD d 0 < m ∧
      (∀ i, sequentialIndex sizes (y.set d i) = hi * (S * m) + lo + i * S) ∧
      sequentialIndex (sizes.set d 1) (y.set d 0) = lo + hi * S := by
  obtain ⟨as, bs, rfl, rfl, rfl, rfl⟩ := h.split
  have hlen : y.length = as.length + (bs.length + 1) := by
    rw [hy.length_eq]
    simp
  have hsplit : ∃ us i vs, y = us ++ i :: vs ∧ us.length = as.length := by
    refine ⟨y.take as.length, y.getD as.length 0, y.drop (as.length + 1), ?_, by simp; omega⟩
    rw [List.getD_eq_getElem?_getD, List.getElem?_eq_getElem (by omega), Option.getD_some,
      List.getElem_cons_drop, List.take_append_drop]
  obtain ⟨us, i, vs, rfl, hu⟩ := hsplit
  obtain ⟨h1, h2, h3⟩ := forall₂_split hu hy
  have hset : ∀ j, (us ++ i :: vs).set as.length j = us ++ j :: vs := by
    intro j
    rw [← hu, List.set_append_right _ _ (Nat.le_refl _), Nat.sub_self, List.set_cons_zero]
  refine ⟨sequentialIndex as us, sequentialIndex bs vs, sequentialIndex_lt _ _ h1,
    sequentialIndex_lt _ _ h3, ?_, fun j => ?_, ?_⟩
  · rw [← hu]
    simpa using h2
  · rw [hset, sequentialIndex_split _ _ _ _ _ _ hu]
  · rw [hset, List.set_append_right _ _ (Nat.le_refl _), Nat.sub_self, List.set_cons_zero,
      sequentialIndex_split _ _ _ _ _ _ hu]
    ring

/-- The position of an index vector. -/
lemma index_eq (h : Around sizes d S m B) (y : List ℕ) (hy : List.Forall₂ (· < ·) y sizes) :
    ∃ lo hi, lo < S ∧ hi < B ∧ y.getD d 0 < m ∧
      sequentialIndex sizes y = hi * (S * m) + lo + y.getD d 0 * S ∧
      (∀ i, sequentialIndex sizes (y.set d i) = hi * (S * m) + lo + i * S) ∧
      sequentialIndex (sizes.set d 1) (y.set d 0) = lo + hi * S := by
  obtain ⟨lo, hi, h1, h2, h3, h4, h5⟩ := h.index_split y hy
  refine ⟨lo, hi, h1, h2, h3, ?_, h4, h5⟩
  rw [← h4]
  congr 1
  have hd : d < y.length := by
    rw [hy.length_eq]
    exact h.lt
  rw [List.getD_eq_getElem?_getD, List.getElem?_eq_getElem hd, Option.getD_some, List.set_getElem_self]

end Around

/-! ### The loops for one dimension -/

/-- The element that is `S` in front, around the end. -/
def before (n S li : ℕ) : ℕ := if li < S then li + n - S else li - S

lemma before_lt {n S li : ℕ} (hS : 0 < S) (hSn : S ≤ n) (h : li < n) : before n S li < n := by
  unfold before
  split <;> omega

lemma tmod_before {n S li : ℕ} (hSn : S ≤ n) (h : li < n) :
    ((li : ℤ) - S + n).tmod n = before n S li := by
  rw [Int.tmod_eq_emod_of_nonneg (by omega)]
  unfold before
  split
  · rw [Int.emod_eq_of_lt (by omega) (by omega)]
    omega
  · rw [Int.add_emod_right, Int.emod_eq_of_lt (by omega) (by omega)]
    omega

lemma Around.le {sizes : List ℕ} {d S m B : ℕ} (h : Around sizes d S m B) : S ≤ tensorSize sizes := by
  rw [h.size_eq]
  calc S ≤ S * m := Nat.le_mul_of_pos_right _ h.posm
    _ ≤ _ := Nat.le_mul_of_pos_left _ h.posB

lemma neighborCheck_eq {sizes : List ℕ} {d S m B : ℕ} (h : Around sizes d S m B) (li : ℕ)
    (hli : li < tensorSize sizes) : neighborCheck sizes d S li = true := by
  obtain ⟨h1, h2⟩ := getVectorIndex_spec sizes li (by rwa [h.prod_eq, ← h.size_eq])
  unfold neighborCheck
  generalize hx : getVectorIndex sizes li = x at h1 h2
  obtain ⟨lo, hi, -, -, -, a4, a5, -⟩ := h.index_eq x h1
  simp only []
  split
  · rename_i h0
    have hm : x.modify d (· - 1) = x.set d (x.getD d 0 - 1) := by
      have hd : d < x.length := by
        rw [h1.length_eq]
        exact h.lt
      refine ext_getD (by simp) fun i hi => ?_
      rw [getD_modify _ _ _ _ hd, getD_set _ _ _ _ hd]
    rw [hm, a5, decide_eq_true_eq]
    rw [a4] at h2
    obtain ⟨k, hk⟩ : ∃ k, x.getD d 0 = k + 1 := ⟨x.getD d 0 - 1, by omega⟩
    rw [hk, Nat.add_mul, Nat.one_mul] at h2
    rw [hk, Nat.add_sub_cancel]
    omega
  · rfl

lemma updateElement_eq [Ring K] {sizes : List ℕ} {d S m B : ℕ} (h : Around sizes d S m B) (u : List K)
    (hu : u.length = tensorSize sizes) (oneOverH : K) (nb : ℕ → ℤ) (phi : List K)
    (hphi : phi.length = tensorSize sizes) (li : ℕ) (hli : li < tensorSize sizes)
    (hnb : nb li = before (tensorSize sizes) S li) :
    updateElement sizes u oneOverH d S nb phi li = some (phi.set li (phi.getD li 0 +
      (u.getD li 0 - u.getD (before (tensorSize sizes) S li) 0) * oneOverH)) := by
  have hb := before_lt h.posS h.le hli
  unfold updateElement
  rw [if_pos (neighborCheck_eq h li hli), hnb, readAt_eq _ _ (by omega) (by omega)]
  have hx : u[li]? = some (u.getD li 0) := by
    rw [List.getD_eq_getElem?_getD, List.getElem?_eq_getElem (by omega)]
    rfl
  simp only [Option.bind_eq_bind, Option.bind_some, hx]
  rw [addTerm_eq _ _ _ (by omega), one_mul, Int.toNat_natCast]

/-- The update loops. -/
lemma updateAll_eq [Ring K] (v : Variant) {sizes : List ℕ} {d S m B : ℕ} (h : Around sizes d S m B)
    (u : List K) (hu : u.length = tensorSize sizes) (oneOverH : K) (phi : List K)
    (hphi : phi.length = tensorSize sizes) :
    ∃ phi', updateAll v sizes u oneOverH d S phi = some phi' ∧ phi'.length = tensorSize sizes ∧
      ∀ li < tensorSize sizes, phi'.getD li 0 = phi.getD li 0 +
        (u.getD li 0 - u.getD (before (tensorSize sizes) S li) 0) * oneOverH := by
  have hle := h.le
  have hloop : ∀ (nb : ℕ → ℤ) (L : List ℕ), L.Nodup → (∀ li ∈ L, li < tensorSize sizes) →
      (∀ li ∈ L, nb li = before (tensorSize sizes) S li) → ∀ phi : List K,
      phi.length = tensorSize sizes →
      ∃ phi', L.foldlM (updateElement sizes u oneOverH d S nb) phi = some phi' ∧
        phi'.length = tensorSize sizes ∧
        (∀ li ∈ L, phi'.getD li 0 = phi.getD li 0 +
          (u.getD li 0 - u.getD (before (tensorSize sizes) S li) 0) * oneOverH) ∧
        ∀ li, li ∉ L → phi'.getD li 0 = phi.getD li 0 := by
    intro nb L hnd hlt hnb phi hphi
    have := foldlM_add (tensorSize sizes) L id
      (fun li => (u.getD li 0 - u.getD (before (tensorSize sizes) S li) 0) * oneOverH)
      (updateElement sizes u oneOverH d S nb)
      (fun phi hphi li hli => updateElement_eq h u hu oneOverH nb phi hphi li (hlt li hli) (hnb li hli))
      (by simpa using hnd) hlt phi hphi
    simpa using this
  cases v with
  | serial =>
    obtain ⟨phi', h1, h2, h3, -⟩ := hloop (fun li => ((li : ℤ) - S + tensorSize sizes).tmod (tensorSize sizes))
      (List.range (tensorSize sizes)) List.nodup_range (by simp)
      (fun li hli => tmod_before hle (by simpa using hli)) phi hphi
    exact ⟨phi', h1, h2, fun li hli => h3 li (by simpa using hli)⟩
  | threads =>
    obtain ⟨phi1, a1, a2, a3, a4⟩ := hloop (fun li => (li : ℤ) - S + tensorSize sizes) (List.range S)
      List.nodup_range (fun li hli => by have := List.mem_range.1 hli; omega)
      (fun li hli => by
        have := List.mem_range.1 hli
        rw [before, if_pos this]
        omega) phi hphi
    have hmem : ∀ li, li ∈ List.range' S (tensorSize sizes - S) ↔ S ≤ li ∧ li < tensorSize sizes := by
      intro li
      rw [List.mem_range'_1]
      omega
    obtain ⟨phi2, b1, b2, b3, b4⟩ := hloop (fun li => (li : ℤ) - S) (List.range' S (tensorSize sizes - S))
      List.nodup_range' (fun li hli => ((hmem li).1 hli).2)
      (fun li hli => by
        have := (hmem li).1 hli
        rw [before, if_neg (by omega)]
        omega) phi1 a2
    refine ⟨phi2, ?_, b2, fun li hli => ?_⟩
    · simp only [updateAll, Option.bind_eq_bind, a1, Option.bind_some, b1]
    · by_cases hlt : li < S
      · rw [b4 li (by rw [hmem]; omega), a3 li (List.mem_range.2 hlt)]
      · rw [b3 li ((hmem li).2 ⟨by omega, hli⟩), a4 li (by rw [List.mem_range]; exact hlt)]

/-- What the loops over the lowest layer do with a pair of the nested loops. -/
def triple (n S m : ℕ) (p : ℕ × ℕ) : ℕ × ℤ × ℕ :=
  (p.1 * (S * m) + p.2, (before n S (p.1 * (S * m) + p.2) : ℤ), p.2 + p.1 * S)

lemma pairs_eq_product (a b S : ℕ) : pairs a b S = List.range' a b ×ˢ List.range S := rfl

lemma mem_pairs (B S : ℕ) (p : ℕ × ℕ) : p ∈ pairs 0 B S ↔ p.1 < B ∧ p.2 < S := by
  obtain ⟨a, b⟩ := p
  rw [pairs_eq_product, List.mem_product, List.mem_range'_1, List.mem_range]
  simp

lemma nodup_pairs (a b S : ℕ) : (pairs a b S).Nodup := by
  rw [pairs_eq_product]
  exact List.Nodup.product List.nodup_range' List.nodup_range

lemma zipIdx_map_range {α : Type} (f : ℕ → α) (S k : ℕ) :
    ((List.range S).map f).zipIdx k = (List.range S).map fun i => (f i, k + i) := by
  refine List.ext_getElem (by simp) fun i h1 h2 => ?_
  simp

lemma zipIdx_pairs (a B S k : ℕ) :
    (pairs a B S).zipIdx k = (pairs a B S).map fun p => (p, p.2 + (p.1 - a) * S + k) := by
  induction B with
  | zero => rfl
  | succ B ih =>
    have hs : pairs a (B + 1) S = pairs a B S ++ (List.range S).map fun nLower => (a + B, nLower) := by
      unfold pairs
      rw [List.range'_concat, List.flatMap_append]
      simp
    have hlen : (pairs a B S).length = B * S := by
      rw [pairs_eq_product, List.length_product]
      simp
    rw [hs, List.zipIdx_append, ih, List.map_append, hlen, zipIdx_map_range, List.map_map]
    congr 1
    refine List.map_congr_left fun i _ => ?_
    simp only [Function.comp, Prod.mk.injEq, true_and, Nat.add_sub_cancel_left]
    omega

/-- The loops over the lowest layer. -/
lemma layer_eq (v : Variant) {S m B : ℕ} (hm : 0 < m) (hB : 0 < B) :
    layer v (B * (S * m)) S (S * m) B = (pairs 0 B S).map (triple (B * (S * m)) S m) := by
  have hlt : ∀ p ∈ pairs 0 B S, p.1 * (S * m) + p.2 < B * (S * m) := by
    intro p hp
    obtain ⟨h1, h2⟩ := (mem_pairs B S p).1 hp
    have : (p.1 + 1) * (S * m) ≤ B * (S * m) := Nat.mul_le_mul_right _ h1
    have : S ≤ S * m := Nat.le_mul_of_pos_right _ hm
    rw [Nat.add_mul] at *
    omega
  have hle : S ≤ B * (S * m) :=
    le_trans (Nat.le_mul_of_pos_right _ hm) (Nat.le_mul_of_pos_left _ hB)
  cases v with
  | serial =>
    unfold layer
    rw [zipIdx_pairs, List.map_map]
    refine List.map_congr_left fun p hp => ?_
    simp only [Function.comp, triple, Nat.sub_zero, Nat.add_zero, Prod.mk.injEq, true_and]
    exact ⟨tmod_before hle (hlt p hp), trivial⟩
  | threads =>
    have hs : pairs 0 B S = ((List.range S).map fun nLower => (0, nLower)) ++ pairs 1 (B - 1) S := by
      obtain ⟨k, rfl⟩ : ∃ k, B = k + 1 := ⟨B - 1, by omega⟩
      unfold pairs
      rw [List.range'_succ, List.flatMap_cons, Nat.add_sub_cancel]
    have hsub : ∀ p ∈ pairs 1 (B - 1) S, 1 ≤ p.1 ∧ p.2 < S := by
      rintro ⟨a, b⟩ hp
      rw [pairs_eq_product, List.mem_product, List.mem_range'_1, List.mem_range] at hp
      exact ⟨hp.1.1, hp.2⟩
    rw [hs, List.map_append, List.map_map]
    simp only [layer]
    congr 1
    · refine List.map_congr_left fun i hi => ?_
      have := List.mem_range.1 hi
      simp only [Function.comp, triple, Nat.zero_mul, Nat.zero_add, Nat.add_zero, Prod.mk.injEq, true_and,
        and_true]
      rw [before, if_pos this]
      omega
    · refine List.map_congr_left fun p hp => ?_
      have h1 := (hsub p hp).1
      have h2 : S * m ≤ p.1 * (S * m) := Nat.le_mul_of_pos_left _ h1
      have h3 : S ≤ S * m := Nat.le_mul_of_pos_right _ hm
      simp only [triple, Prod.mk.injEq, true_and, and_true]
      rw [before, if_neg (by omega)]
      omega

/-- The loops over the lowest layer: what is added. -/
lemma correctAll_eq [Ring K] (v : Variant) {sizes : List ℕ} {d S m B : ℕ} (h : Around sizes d S m B)
    (u ghost : List K) (hu : u.length = tensorSize sizes) (hghost : ghost.length = B * S) (oneOverH : K)
    (phi : List K) (hphi : phi.length = tensorSize sizes) :
    ∃ phi', (layer v (tensorSize sizes) S (S * m) B).foldlM (correctElement sizes u ghost oneOverH d) phi =
        some phi' ∧ phi'.length = tensorSize sizes ∧
      (∀ hi lo, hi < B → lo < S → phi'.getD (hi * (S * m) + lo) 0 = phi.getD (hi * (S * m) + lo) 0 +
        (u.getD (before (tensorSize sizes) S (hi * (S * m) + lo)) 0 - ghost.getD (lo + hi * S) 0) *
          oneOverH) ∧
      ∀ hi lo i, hi < B → lo < S → 0 < i → i < m → phi'.getD (hi * (S * m) + lo + i * S) 0 =
        phi.getD (hi * (S * m) + lo + i * S) 0 := by
  have hn := h.size_eq
  have hlt : ∀ p ∈ pairs 0 B S, p.1 * (S * m) + p.2 < tensorSize sizes := by
    intro p hp
    obtain ⟨h1, h2⟩ := (mem_pairs B S p).1 hp
    have h3 : (p.1 + 1) * (S * m) ≤ B * (S * m) := Nat.mul_le_mul_right _ h1
    have h4 : S ≤ S * m := Nat.le_mul_of_pos_right _ h.posm
    rw [Nat.add_mul, Nat.one_mul] at h3
    omega
  have hl : layer v (tensorSize sizes) S (S * m) B = (pairs 0 B S).map (triple (tensorSize sizes) S m) := by
    rw [hn]
    exact layer_eq v h.posm h.posB
  have hdec : ∀ p ∈ pairs 0 B S, (getVectorIndex sizes (p.1 * (S * m) + p.2)).getD d 0 = 0 := by
    intro p hp
    obtain ⟨h1, h2⟩ := getVectorIndex_spec sizes (p.1 * (S * m) + p.2)
      (by rw [h.prod_eq, ← hn]; exact hlt p hp)
    obtain ⟨lo, hi, a1, a2, a3, a4, -, -⟩ := h.index_eq _ h1
    rw [a4] at h2
    exact (pole_decode (hi := hi) (hi' := p.1) (i' := 0) a1 a3 ((mem_pairs B S p).1 hp).2 h.posm (by omega)).2.2
  rw [hl, List.foldlM_map]
  obtain ⟨phi', h1, h2, h3, h4⟩ := foldlM_add (tensorSize sizes) (pairs 0 B S)
    (fun p => p.1 * (S * m) + p.2)
    (fun p => (u.getD (before (tensorSize sizes) S (p.1 * (S * m) + p.2)) 0 - ghost.getD (p.2 + p.1 * S) 0) *
      oneOverH)
    (fun phi p => correctElement sizes u ghost oneOverH d phi (triple (tensorSize sizes) S m p))
    (by
      intro phi hphi p hp
      have hp' := (mem_pairs B S p).1 hp
      have hb := before_lt h.posS h.le (hlt p hp)
      have hg : ghost[p.2 + p.1 * S]? = some (ghost.getD (p.2 + p.1 * S) 0) := by
        have h5 : (p.1 + 1) * S ≤ B * S := Nat.mul_le_mul_right _ hp'.1
        rw [Nat.add_mul, Nat.one_mul] at h5
        rw [List.getD_eq_getElem?_getD, List.getElem?_eq_getElem (by omega)]
        rfl
      unfold correctElement triple
      rw [if_pos ⟨hlt p hp, hdec p hp⟩]
      simp only []
      rw [readAt_eq _ _ (by omega) (by omega)]
      simp only [Option.bind_eq_bind, Option.bind_some, hg]
      rw [addTerm_eq _ _ _ (by rw [hphi]; exact hlt p hp), one_mul, Int.toNat_natCast])
    (by
      refine List.Nodup.map_on ?_ (nodup_pairs 0 B S)
      intro p hp q hq e
      have hp' := (mem_pairs B S p).1 hp
      have hq' := (mem_pairs B S q).1 hq
      have := pole_decode (n := m) (hi := p.1) (hi' := q.1) (i := 0) (i' := 0) hp'.2 h.posm hq'.2 h.posm
        (by omega)
      exact Prod.ext this.1 this.2.1)
    hlt phi hphi
  refine ⟨phi', h1, h2, fun hi lo hhi hlo => h3 (hi, lo) ((mem_pairs B S _).2 ⟨hhi, hlo⟩), ?_⟩
  intro hi lo i hhi hlo h0 hi'
  refine h4 _ fun hmem => ?_
  obtain ⟨p, hp, e⟩ := List.mem_map.1 hmem
  have := pole_decode (n := m) (hi := p.1) (hi' := hi) (i := 0) (i' := i) ((mem_pairs B S p).1 hp).2 h.posm hlo hi'
    (by omega)
  omega

end Verif.Advection

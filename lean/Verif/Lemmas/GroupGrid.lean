import Verif.Model.GroupGrid
import Verif.Props.Indexing
import Mathlib.Data.List.GetD
import Mathlib.Data.List.Nodup

/-!
# Lemmas for operations of a process group on its grid
-/

namespace Verif.GroupGrid

/-! ### Vectors by components -/

lemma ext_getD {a b : List ℕ} (h : a.length = b.length)
    (hi : ∀ i < a.length, a.getD i 0 = b.getD i 0) : a = b := by
  refine List.ext_getElem h fun i h1 h2 => ?_
  have := hi i h1
  rwa [List.getD_eq_getElem _ _ h1, List.getD_eq_getElem _ _ h2] at this

lemma getD_add (a b : List ℕ) (h : a.length = b.length) (i : ℕ) :
    (List.zipWith (· + ·) a b).getD i 0 = a.getD i 0 + b.getD i 0 := by
  induction a generalizing b i with
  | nil =>
    cases b with
    | nil => rfl
    | cons _ _ => simp at h
  | cons x a ih =>
    cases b with
    | nil => simp at h
    | cons y b =>
      cases i with
      | zero => rfl
      | succ i => simpa using ih b (by simpa using h) i

lemma getD_sub (a b : List ℕ) (h : a.length = b.length) (i : ℕ) :
    (List.zipWith (· - ·) a b).getD i 0 = a.getD i 0 - b.getD i 0 := by
  induction a generalizing b i with
  | nil =>
    cases b with
    | nil => rfl
    | cons _ _ => simp at h
  | cons x a ih =>
    cases b with
    | nil => simp at h
    | cons y b =>
      cases i with
      | zero => rfl
      | succ i => simpa using ih b (by simpa using h) i

lemma getD_set (a : List ℕ) (d v i : ℕ) (hd : d < a.length) :
    (a.set d v).getD i 0 = if i = d then v else a.getD i 0 := by
  rw [List.getD_eq_getElem?_getD, List.getD_eq_getElem?_getD, List.getElem?_set]
  by_cases h : d = i
  · subst h
    simp [hd]
  · rw [if_neg h, if_neg (Ne.symm h)]

lemma getD_modify (a : List ℕ) (d i : ℕ) (f : ℕ → ℕ) (hd : d < a.length) :
    (a.modify d f).getD i 0 = if i = d then f (a.getD d 0) else a.getD i 0 := by
  rw [List.getD_eq_getElem?_getD, List.getD_eq_getElem?_getD, List.getElem?_modify]
  by_cases h : d = i
  · subst h
    simp [hd]
  · simp [h, Ne.symm h]

lemma forall₂_lt_iff (y s : List ℕ) : List.Forall₂ (· < ·) y s ↔
    y.length = s.length ∧ ∀ i < s.length, y.getD i 0 < s.getD i 0 := by
  induction y generalizing s with
  | nil =>
    cases s with
    | nil => simp
    | cons _ _ => simp
  | cons a y ih =>
    cases s with
    | nil => simp
    | cons b s =>
      rw [List.forall₂_cons, ih]
      constructor
      · rintro ⟨h1, h2, h3⟩
        refine ⟨by simp [h2], fun i hi => ?_⟩
        cases i with
        | zero => simpa using h1
        | succ i => simpa using h3 i (by simpa using hi)
      · rintro ⟨h1, h2⟩
        refine ⟨by simpa using h2 0 (by simp), by simpa using h1, fun i hi => ?_⟩
        simpa using h2 (i + 1) (by simpa using hi)

/-! ### Subarrays -/

/-- The arguments of a subarray are legal. -/
structure Inside (sizes subsizes starts : List ℕ) : Prop where
  len1 : subsizes.length = sizes.length
  len2 : starts.length = sizes.length
  bound : ∀ i < sizes.length, 1 ≤ subsizes.getD i 0 ∧ starts.getD i 0 + subsizes.getD i 0 ≤ sizes.getD i 0

lemma Inside.tail {n s t : ℕ} {ns ss ts : List ℕ} (h : Inside (n :: ns) (s :: ss) (t :: ts)) :
    Inside ns ss ts :=
  ⟨by simpa using h.len1, by simpa using h.len2, fun i hi => by
    simpa using h.bound (i + 1) (by simpa using hi)⟩

lemma createSubarray_eq {sizes subsizes starts : List ℕ} (h : Inside sizes subsizes starts) :
    createSubarray sizes subsizes starts = some (subarrayPositions sizes subsizes starts) := by
  unfold createSubarray
  rw [if_pos]
  refine ⟨h.len1.symm, h.len2.symm, ?_⟩
  induction sizes generalizing subsizes starts with
  | nil => simp
  | cons n ns ih =>
    obtain ⟨s, ss, rfl⟩ := List.exists_cons_of_length_eq_add_one (h.len1)
    obtain ⟨t, ts, rfl⟩ := List.exists_cons_of_length_eq_add_one (h.len2)
    have h0 := h.bound 0 (by simp)
    simp only [List.getD_cons_zero] at h0
    rw [List.zip_cons_cons, List.zipWith_cons_cons, List.all_cons, ih h.tail]
    simp
    omega

lemma getElem?_flatMap_block {α β : Type} (l : List α) (f : α → List β) (s : ℕ)
    (hf : ∀ a ∈ l, (f a).length = s) (i q : ℕ) (hi : i < s) :
    (l.flatMap f)[i + s * q]? = (l[q]?).bind fun a => (f a)[i]? := by
  induction l generalizing q with
  | nil => simp
  | cons a l ih =>
    have ha := hf a (by simp)
    rw [List.flatMap_cons]
    cases q with
    | zero =>
      rw [List.getElem?_append_left (by rw [ha]; omega)]
      simp
    | succ q =>
      have e : i + s * (q + 1) = s + (i + s * q) := by ring
      rw [List.getElem?_append_right (by rw [ha]; omega), ha, e, Nat.add_sub_cancel_left,
        ih (fun a h => hf a (by simp [h]))]
      simp

lemma subarrayPositions_length {sizes subsizes starts : List ℕ} (h : Inside sizes subsizes starts) :
    (subarrayPositions sizes subsizes starts).length = subsizes.prod := by
  induction sizes generalizing subsizes starts with
  | nil =>
    have h1 := List.length_eq_zero_iff.1 h.len1
    subst h1
    rfl
  | cons n ns ih =>
    obtain ⟨s, ss, rfl⟩ := List.exists_cons_of_length_eq_add_one (h.len1)
    obtain ⟨t, ts, rfl⟩ := List.exists_cons_of_length_eq_add_one (h.len2)
    rw [subarrayPositions, List.length_flatMap, List.prod_cons]
    simp [ih h.tail, mul_comm]

lemma subarrayPositions_get {sizes subsizes starts : List ℕ} (h : Inside sizes subsizes starts)
    {y : List ℕ} (hy : List.Forall₂ (· < ·) y subsizes) :
    (subarrayPositions sizes subsizes starts)[sequentialIndex subsizes y]? =
      some (sequentialIndex sizes (List.zipWith (· + ·) starts y)) := by
  induction sizes generalizing subsizes starts y with
  | nil =>
    have h1 := List.length_eq_zero_iff.1 h.len1
    have h2 := List.length_eq_zero_iff.1 h.len2
    subst h1 h2
    cases hy
    rfl
  | cons n ns ih =>
    obtain ⟨s, ss, rfl⟩ := List.exists_cons_of_length_eq_add_one (h.len1)
    obtain ⟨t, ts, rfl⟩ := List.exists_cons_of_length_eq_add_one (h.len2)
    rw [List.forall₂_cons_right_iff] at hy
    obtain ⟨y0, ys, h0, hys, rfl⟩ := hy
    rw [sequentialIndex_cons, subarrayPositions, getElem?_flatMap_block _ _ s (by simp) _ _ h0,
      ih h.tail hys, List.zipWith_cons_cons, sequentialIndex_cons]
    simp [h0]

/-- The index of an element of a subarray in the whole array. -/
lemma Inside.lt {sizes subsizes starts : List ℕ} (h : Inside sizes subsizes starts)
    {y : List ℕ} (hy : List.Forall₂ (· < ·) y subsizes) :
    List.Forall₂ (· < ·) (List.zipWith (· + ·) starts y) sizes := by
  rw [forall₂_lt_iff] at hy ⊢
  have hl : starts.length = y.length := by rw [h.len2, hy.1, h.len1]
  refine ⟨by rw [List.length_zipWith, ← hl, Nat.min_self, h.len2], fun i hi => ?_⟩
  rw [getD_add _ _ hl]
  have := h.bound i hi
  have := hy.2 i (by rw [h.len1]; exact hi)
  omega

lemma seq_inj {sizes x y : List ℕ} (hx : List.Forall₂ (· < ·) x sizes)
    (hy : List.Forall₂ (· < ·) y sizes) (h : sequentialIndex sizes x = sequentialIndex sizes y) :
    x = y := by
  rw [← getVectorIndex_sequentialIndex sizes x hx, h, getVectorIndex_sequentialIndex sizes y hy]

lemma add_left_inj_vec {a x y : List ℕ} (hx : a.length = x.length) (hy : a.length = y.length)
    (h : List.zipWith (· + ·) a x = List.zipWith (· + ·) a y) : x = y := by
  refine ext_getD (hx.symm.trans hy) fun i _ => ?_
  have := congrArg (fun l => l.getD i 0) h
  simp only [getD_add _ _ hx, getD_add _ _ hy] at this
  omega

lemma mem_subarrayPositions {sizes subsizes starts : List ℕ} (h : Inside sizes subsizes starts) {p : ℕ}
    (hp : p ∈ subarrayPositions sizes subsizes starts) : ∃ y, List.Forall₂ (· < ·) y subsizes ∧
      p = sequentialIndex sizes (List.zipWith (· + ·) starts y) := by
  obtain ⟨k, hk, rfl⟩ := List.mem_iff_getElem.1 hp
  have hk' : k < subsizes.prod := by rwa [subarrayPositions_length h] at hk
  obtain ⟨a1, a2⟩ := getVectorIndex_spec subsizes k hk'
  refine ⟨_, a1, ?_⟩
  have := subarrayPositions_get h a1
  rw [a2, List.getElem?_eq_getElem hk] at this
  exact Option.some.inj this

lemma nodup_subarrayPositions {sizes subsizes starts : List ℕ} (h : Inside sizes subsizes starts) :
    (subarrayPositions sizes subsizes starts).Nodup := by
  rw [List.nodup_iff_injective_getElem]
  rintro ⟨i, hi⟩ ⟨j, hj⟩ he
  simp only at he
  have hi' : i < subsizes.prod := by rwa [subarrayPositions_length h] at hi
  have hj' : j < subsizes.prod := by rwa [subarrayPositions_length h] at hj
  obtain ⟨a1, a2⟩ := getVectorIndex_spec subsizes i hi'
  obtain ⟨b1, b2⟩ := getVectorIndex_spec subsizes j hj'
  have e1 := subarrayPositions_get h a1
  have e2 := subarrayPositions_get h b1
  rw [a2, List.getElem?_eq_getElem hi] at e1
  rw [b2, List.getElem?_eq_getElem hj] at e2
  have e := seq_inj (h.lt a1) (h.lt b1)
    ((Option.some.inj e1).symm.trans (he.trans (Option.some.inj e2)))
  have l1 : starts.length = (getVectorIndex subsizes i).length := by
    rw [a1.length_eq, h.len1, h.len2]
  have l2 : starts.length = (getVectorIndex subsizes j).length := by
    rw [b1.length_eq, h.len1, h.len2]
  have := add_left_inj_vec l1 l2 e
  rw [Fin.mk.injEq, ← a2, ← b2, this]

/-! ### Sending and receiving -/

lemma foldl_set_zip {K : Type} (pos : List ℕ) (msg buf : List K) (hn : pos.Nodup)
    (hl : msg.length = pos.length) (hp : ∀ p ∈ pos, p < buf.length) :
    let r := (pos.zip msg).foldl (fun b pv => b.set pv.1 pv.2) buf
    r.length = buf.length ∧ (∀ k p : ℕ, pos[k]? = some p → r[p]? = msg[k]?) ∧
      ∀ j : ℕ, j ∉ pos → r[j]? = buf[j]? := by
  induction pos generalizing msg buf with
  | nil => simp
  | cons p pos ih =>
    cases msg with
    | nil => simp at hl
    | cons m msg =>
      obtain ⟨hn1, hn2⟩ := List.nodup_cons.1 hn
      obtain ⟨a1, a2, a3⟩ := ih msg (buf.set p m) hn2 (by simpa using hl)
        (fun q hq => by simpa using hp q (by simp [hq]))
      simp only [List.zip_cons_cons, List.foldl_cons]
      refine ⟨by rw [a1, List.length_set], fun k q hk => ?_, fun j hj => ?_⟩
      · cases k with
        | zero =>
          obtain rfl : p = q := by simpa using hk
          rw [a3 p hn1, List.getElem?_set_self (hp p (by simp))]
          rfl
        | succ k => exact a2 k q (by simpa using hk)
      · rw [List.mem_cons, not_or] at hj
        rw [a3 j hj.2, List.getElem?_set_ne (Ne.symm hj.1)]

/-- Receiving into a subarray. -/
lemma receive_subarray {K : Type} {sizes subsizes starts : List ℕ} (h : Inside sizes subsizes starts)
    (buf msg : List K) (hb : buf.length = sizes.prod) (hm : msg.length = subsizes.prod) :
    ∃ r, receive buf (subarrayPositions sizes subsizes starts) msg = some r ∧
      r.length = sizes.prod ∧
      (∀ y, List.Forall₂ (· < ·) y subsizes →
        r[sequentialIndex sizes (List.zipWith (· + ·) starts y)]? = msg[sequentialIndex subsizes y]?) ∧
      ∀ x, List.Forall₂ (· < ·) x sizes →
        (∀ y, List.Forall₂ (· < ·) y subsizes → x ≠ List.zipWith (· + ·) starts y) →
        r[sequentialIndex sizes x]? = buf[sequentialIndex sizes x]? := by
  have hlen := subarrayPositions_length h
  have hin : ∀ p ∈ subarrayPositions sizes subsizes starts, p < buf.length := by
    intro p hp
    obtain ⟨y, hy, rfl⟩ := mem_subarrayPositions h hp
    rw [hb]
    exact sequentialIndex_lt _ _ (h.lt hy)
  obtain ⟨a1, a2, a3⟩ := foldl_set_zip (subarrayPositions sizes subsizes starts) msg buf
    (nodup_subarrayPositions h) (by rw [hm, hlen]) hin
  refine ⟨_, ?_, a1.trans hb, fun y hy => a2 _ _ (subarrayPositions_get h hy), fun x hx hne => a3 _ ?_⟩
  · unfold receive
    rw [if_pos]
    exact ⟨by rw [hm, hlen], by simpa using hin⟩
  · intro hc
    obtain ⟨y, hy, he⟩ := mem_subarrayPositions h hc
    exact hne y hy (seq_inj hx (h.lt hy) he)

lemma mapM_some {α β : Type} (f : α → Option β) (l : List α) (h : ∀ a ∈ l, ∃ b, f a = some b) :
    ∃ m, l.mapM f = some m ∧ m.length = l.length ∧ ∀ k : ℕ, m[k]? = (l[k]?).bind f := by
  induction l with
  | nil => exact ⟨[], rfl, rfl, by simp⟩
  | cons a l ih =>
    obtain ⟨b, hb⟩ := h a (by simp)
    obtain ⟨m, h1, h2, h3⟩ := ih fun a ha => h a (by simp [ha])
    refine ⟨b :: m, ?_, by simp [h2], fun k => ?_⟩
    · rw [List.mapM_cons, hb, h1]
      rfl
    · cases k with
      | zero => simp [hb]
      | succ k => simpa using h3 k

/-- Sending a subarray. -/
lemma pack_subarray {K : Type} {sizes subsizes starts : List ℕ} (h : Inside sizes subsizes starts)
    (buf : List K) (hb : buf.length = sizes.prod) :
    ∃ m, pack buf (subarrayPositions sizes subsizes starts) = some m ∧ m.length = subsizes.prod ∧
      ∀ y, List.Forall₂ (· < ·) y subsizes →
        m[sequentialIndex subsizes y]? = buf[sequentialIndex sizes (List.zipWith (· + ·) starts y)]? := by
  obtain ⟨m, h1, h2, h3⟩ := mapM_some (fun p => buf[p]?) (subarrayPositions sizes subsizes starts) (by
    intro p hp
    obtain ⟨y, hy, rfl⟩ := mem_subarrayPositions h hp
    have : sequentialIndex sizes (List.zipWith (· + ·) starts y) < buf.length := by
      rw [hb]
      exact sequentialIndex_lt _ _ (h.lt hy)
    exact ⟨_, List.getElem?_eq_getElem this⟩)
  refine ⟨m, h1, by rw [h2, subarrayPositions_length h], fun y hy => ?_⟩
  rw [h3, subarrayPositions_get h hy]
  rfl

/-! ### Grids without empty parts -/

/-- Every process has points in every dimension. -/
def FullParts (g : List Dim1) : Prop :=
  ∀ d ∈ g, d.dec.head? = some 0 ∧ d.dec.Pairwise (· < ·) ∧ ∀ x ∈ d.dec, x < d.numPoints

lemma FullParts.validGrid {g : List Dim1} (h : FullParts g) : ValidGrid g := fun d hd =>
  ⟨(h d hd).1, (h d hd).2.1.imp fun h => h.le, fun x hx => ((h d hd).2.2 x hx).le⟩

/-- First index of process `k` in dimension `i`. -/
def lo1 (g : List Dim1) (i k : ℕ) : ℕ := ((g[i]?).bind fun d => lowerBound1d d.dec k).getD 0

/-- First index behind process `k` in dimension `i`. -/
def up1 (g : List Dim1) (i k : ℕ) : ℕ := ((g[i]?).bind fun d => upperBound1d d.dec d.numPoints k).getD 0

lemma getD_lowerBounds (g : List Dim1) (c : List ℕ) (h : c.length = g.length) (i : ℕ) (hi : i < g.length) :
    (lowerBounds g c).getD i 0 = lo1 g i (c.getD i 0) := by
  induction g generalizing c i with
  | nil => simp at hi
  | cons d g ih =>
    obtain ⟨c0, cs, rfl⟩ := List.exists_cons_of_length_eq_add_one h
    cases i with
    | zero => simp [lowerBounds, lo1]
    | succ i => simpa [lowerBounds, lo1] using ih cs (by simpa using h) i (by simpa using hi)

lemma getD_upperBounds (g : List Dim1) (c : List ℕ) (h : c.length = g.length) (i : ℕ) (hi : i < g.length) :
    (upperBounds g c).getD i 0 = up1 g i (c.getD i 0) := by
  induction g generalizing c i with
  | nil => simp at hi
  | cons d g ih =>
    obtain ⟨c0, cs, rfl⟩ := List.exists_cons_of_length_eq_add_one h
    cases i with
    | zero => simp [upperBounds, up1]
    | succ i => simpa [upperBounds, up1] using ih cs (by simpa using h) i (by simpa using hi)

lemma length_lowerBounds (g : List Dim1) (c : List ℕ) (h : c.length = g.length) :
    (lowerBounds g c).length = g.length := by
  simp [lowerBounds, h]

lemma length_upperBounds (g : List Dim1) (c : List ℕ) (h : c.length = g.length) :
    (upperBounds g c).length = g.length := by
  simp [upperBounds, h]

lemma length_localSizes (g : List Dim1) (c : List ℕ) (h : c.length = g.length) :
    (localSizes g c).length = g.length := by
  simp [localSizes, lowerBounds, upperBounds, h]

lemma getD_localSizes (g : List Dim1) (c : List ℕ) (h : c.length = g.length) (i : ℕ) (hi : i < g.length) :
    (localSizes g c).getD i 0 = up1 g i (c.getD i 0) - lo1 g i (c.getD i 0) := by
  unfold localSizes
  rw [getD_sub _ _ (by rw [length_lowerBounds g c h, length_upperBounds g c h]),
    getD_lowerBounds g c h i hi, getD_upperBounds g c h i hi]

lemma getD_globalSizes (g : List Dim1) (i : ℕ) (hi : i < g.length) :
    (globalSizes g).getD i 0 = g[i].numPoints := by
  simp [globalSizes, hi]

lemma getD_procsOf (g : List Dim1) (i : ℕ) (hi : i < g.length) :
    (procsOf g).getD i 0 = g[i].dec.length := by
  simp [procsOf, hi]

lemma validCoords_iff (g : List Dim1) (c : List ℕ) : ValidCoords g c ↔
    c.length = g.length ∧ ∀ i < g.length, c.getD i 0 < (procsOf g).getD i 0 := by
  have : ValidCoords g c ↔ List.Forall₂ (· < ·) c (procsOf g) := by
    unfold ValidCoords procsOf
    rw [List.forall₂_map_right_iff]
  rw [this, forall₂_lt_iff]
  simp [procsOf]

/-- The bounds of a process in one dimension. -/
lemma bounds_full {g : List Dim1} (h : FullParts g) (i : ℕ) (hi : i < g.length) (k : ℕ)
    (hk : k < (procsOf g).getD i 0) :
    lo1 g i k < up1 g i k ∧ up1 g i k ≤ (globalSizes g).getD i 0 ∧ (k = 0 → lo1 g i k = 0) ∧
      (0 < k → 0 < lo1 g i k) ∧
      (k + 1 < (procsOf g).getD i 0 → up1 g i k = lo1 g i (k + 1) ∧
        up1 g i k < (globalSizes g).getD i 0) ∧
      (k + 1 = (procsOf g).getD i 0 → up1 g i k = (globalSizes g).getD i 0) := by
  rw [getD_procsOf g i hi] at hk ⊢
  rw [getD_globalSizes g i hi]
  obtain ⟨h1, h2, h3⟩ := h g[i] (List.getElem_mem hi)
  have e1 : lo1 g i k = g[i].dec[k] := by
    simp [lo1, hi, lowerBound1d, hk]
  have e0 : g[i].dec[0]'(by omega) = 0 := by
    rw [List.head?_eq_getElem?, List.getElem?_eq_getElem (by omega)] at h1
    exact Option.some.inj h1
  have hpw := List.pairwise_iff_getElem.1 h2
  have hlt := h3 g[i].dec[k] (List.getElem_mem hk)
  refine ⟨?_, ?_, ?_, ?_, ?_, ?_⟩
  · rw [e1]
    by_cases hc : k + 1 < g[i].dec.length
    · have : up1 g i k = g[i].dec[k + 1] := by simp [up1, hi, upperBound1d, hc, lowerBound1d]
      rw [this]
      exact hpw _ _ hk hc (by omega)
    · have : up1 g i k = g[i].numPoints := by simp [up1, hi, upperBound1d, hc]
      omega
  · by_cases hc : k + 1 < g[i].dec.length
    · have : up1 g i k = g[i].dec[k + 1] := by simp [up1, hi, upperBound1d, hc, lowerBound1d]
      rw [this]
      exact (h3 _ (List.getElem_mem hc)).le
    · have : up1 g i k = g[i].numPoints := by simp [up1, hi, upperBound1d, hc]
      omega
  · rintro rfl
    rw [e1, e0]
  · intro hpos
    rw [e1]
    have := hpw 0 k (by omega) hk hpos
    omega
  · intro hc
    have : up1 g i k = g[i].dec[k + 1] := by simp [up1, hi, upperBound1d, hc, lowerBound1d]
    refine ⟨?_, by rw [this]; exact h3 _ (List.getElem_mem hc)⟩
    rw [this]
    simp [lo1, hi, lowerBound1d, hc]
  · intro hc
    simp [up1, hi, upperBound1d, show ¬ k + 1 < g[i].dec.length by omega]

/-- The part of a process is inside of the grid. -/
lemma inside_part {g : List Dim1} (h : FullParts g) {c : List ℕ} (hc : ValidCoords g c) :
    Inside (globalSizes g) (localSizes g c) (lowerBounds g c) := by
  obtain ⟨hl, hb⟩ := (validCoords_iff g c).1 hc
  have hg : (globalSizes g).length = g.length := by simp [globalSizes]
  refine ⟨by rw [length_localSizes g c hl, hg], by rw [length_lowerBounds g c hl, hg], fun i hi => ?_⟩
  rw [hg] at hi
  obtain ⟨h1, h2, -⟩ := bounds_full h i hi _ (hb i hi)
  rw [getD_localSizes g c hl i hi, getD_lowerBounds g c hl i hi]
  omega

/-- A point is on a process if and only if it is one of its local points. -/
lemma here_iff {g : List Dim1} (h : ValidGrid g) {c : List ℕ} (hc : ValidCoords g c) {x : List ℕ}
    (hx : IsPoint g x) : isGlobalIndexHere g c x = true ↔
      ∃ y, List.Forall₂ (· < ·) y (localSizes g c) ∧ x = List.zipWith (· + ·) (lowerBounds g c) y := by
  constructor
  · intro hh
    have key : ∀ (g : List Dim1) (c x : List ℕ), ValidCoords g c → IsPoint g x →
        isGlobalIndexHere g c x = true → ∀ i < g.length,
          (lowerBounds g c).getD i 0 ≤ x.getD i 0 ∧ x.getD i 0 < (upperBounds g c).getD i 0 := by
      intro g
      induction g with
      | nil => simp
      | cons d g ih =>
        intro c x hc hx hh i hi
        unfold ValidCoords at hc
        unfold IsPoint globalSizes at hx
        rw [List.forall₂_cons_right_iff] at hc
        rw [List.map_cons, List.forall₂_cons_right_iff] at hx
        obtain ⟨c0, cs, hc0, hcs, rfl⟩ := hc
        obtain ⟨x0, xs, hx0, hxs, rfl⟩ := hx
        rw [isGlobalIndexHere_cons] at hh
        cases i with
        | zero => simpa [lowerBounds, upperBounds] using hh.1
        | succ i => simpa [lowerBounds, upperBounds] using ih cs xs hcs hxs hh.2 i (by simpa using hi)
    have hxl : x.length = g.length := by
      have := hx.length_eq
      simpa [globalSizes] using this
    have hcl := ((validCoords_iff g c).1 hc).1
    have hb := key g c x hc hx hh
    have hl : (lowerBounds g c).length = x.length := by rw [length_lowerBounds g c hcl, hxl]
    refine ⟨List.zipWith (· - ·) x (lowerBounds g c), ?_, ?_⟩
    · rw [forall₂_lt_iff]
      refine ⟨by rw [List.length_zipWith, hl, Nat.min_self, hxl, length_localSizes g c hcl],
        fun i hi => ?_⟩
      rw [length_localSizes g c hcl] at hi
      rw [getD_sub _ _ hl.symm, getD_localSizes g c hcl i hi]
      have := hb i hi
      rw [getD_lowerBounds g c hcl i hi, getD_upperBounds g c hcl i hi] at this
      rw [getD_lowerBounds g c hcl i hi]
      omega
    · refine ext_getD (by simp [hl]) fun i hi => ?_
      rw [getD_add _ _ (by simp [hl]), getD_sub _ _ hl.symm]
      have := hb i (by omega)
      omega
  · rintro ⟨y, hy, rfl⟩
    exact (here_of_local g h c hc y hy).2.1

/-- The buffers of the group hold the values of `V` at the points of the grid. -/
def Represents {K : Type} (g : List Dim1) (data : List ℕ → List K) (V : List ℕ → K) : Prop :=
  ∀ c, ValidCoords g c → (data c).length = (localSizes g c).prod ∧
    ∀ y, List.Forall₂ (· < ·) y (localSizes g c) →
      (data c)[sequentialIndex (localSizes g c) y]? =
        some (V (List.zipWith (· + ·) (lowerBounds g c) y))

end Verif.GroupGrid

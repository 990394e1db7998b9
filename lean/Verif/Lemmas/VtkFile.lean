import Verif.Model.VtkFile
import Verif.Lemmas.GroupGrid
import Mathlib.Data.List.Nodup
import Std.Data.String.ToNat
import Mathlib.Tactic.Ring
import Mathlib.Tactic.Linarith

/-!
# Lemmas on VTK plot files
-/

namespace Verif.VtkFile

open GroupGrid

variable {K : Type}

/-! ### The order of the values -/

lemma flatMap_range (a b : ℕ) :
    ((List.range b).flatMap fun i => (List.range a).map fun j => a * i + j) = List.range (a * b) := by
  induction b with
  | zero => simp
  | succ b ih =>
    rw [List.range_succ, List.flatMap_append, ih, Nat.mul_succ, List.range_add]
    simp

lemma readOrder_eq (sizes : List ℕ) (h1 : sizes ≠ []) (h2 : sizes.length < 4) :
    readOrder (tensorOffsets sizes) sizes = some (List.range sizes.prod) := by
  match sizes, h1, h2 with
  | [n0], _, _ => simp [readOrder]
  | [n0, n1], _, _ =>
    have e : tensorOffsets [n0, n1] = [1, n0] := by simp [tensorOffsets, offsetsLoop]
    rw [e]
    simp only [readOrder, flatMap_range, List.prod_cons, List.prod_nil, Nat.mul_one]
  | [n0, n1, n2], _, _ =>
    have e : tensorOffsets [n0, n1, n2] = [1, n0, n0 * n1] := by simp [tensorOffsets, offsetsLoop]
    rw [e]
    simp only [readOrder, List.prod_cons, List.prod_nil, Nat.mul_one]
    have h : ∀ k, ((List.range n1).flatMap fun i => (List.range n0).map fun j => n0 * n1 * k + n0 * i + j) =
        (List.range (n0 * n1)).map fun j => n0 * n1 * k + j := by
      intro k
      rw [← flatMap_range, List.map_flatMap]
      simp only [List.map_map, Function.comp_def, Nat.add_assoc]
    simp only [h, flatMap_range]
    rw [Nat.mul_assoc]
  | _ :: _ :: _ :: _ :: _, _, h =>
    exfalso
    simp at h
    omega

lemma mapM_range (u : List K) : ((List.range u.length).mapM fun i => u[i]?) = some u := by
  obtain ⟨l, h1, h2⟩ := mapM_some (fun i => u[i]?) (List.range u.length) fun i hi =>
    ⟨u[i]'(by simpa using hi), List.getElem?_eq_getElem _⟩
  rw [h1]
  congr 1
  refine List.ext_getElem? fun k => ?_
  rw [h2.2 k]
  by_cases hk : k < u.length
  · rw [List.getElem?_range hk]
    rfl
  · rw [List.getElem?_eq_none (by simpa using hk), List.getElem?_eq_none (by simpa using hk)]
    rfl

/-! ### The extent -/

lemma sequentialIndex_first (s : List ℕ) : sequentialIndex s (s.map fun _ => 0) = 0 := by
  induction s with
  | nil => rfl
  | cons a s ih => rw [List.map_cons, sequentialIndex_cons, ih]; simp

lemma sequentialIndex_last (s : List ℕ) (h : ∀ a ∈ s, 0 < a) :
    sequentialIndex s (s.map (· - 1)) + 1 = s.prod := by
  induction s with
  | nil => rfl
  | cons a s ih =>
    rw [List.map_cons, sequentialIndex_cons, List.prod_cons, ← ih fun b hb => h b (by simp [hb])]
    have := h a (by simp)
    rw [Nat.mul_add]
    omega

/-- The box of indices of a part. -/
def box (L S : List ℕ) : List (ℕ × ℕ) :=
  (resize3 0 L).zip (resize3 0 (List.zipWith (· + ·) L (S.map (· - 1))))

lemma forall₂_first {s : List ℕ} (h : ∀ a ∈ s, 0 < a) : List.Forall₂ (· < ·) (s.map fun _ => 0) s := by
  rw [List.forall₂_map_left_iff, List.forall₂_same]
  exact h

lemma forall₂_last {s : List ℕ} (h : ∀ a ∈ s, 0 < a) : List.Forall₂ (· < ·) (s.map (· - 1)) s := by
  rw [List.forall₂_map_left_iff, List.forall₂_same]
  intro a ha
  have := h a ha
  omega

lemma localExtent_eq (g : List Dim1) (hg : ValidGrid g) (h0 : g ≠ []) (c : List ℕ) (hc : ValidCoords g c)
    (hpos : ∀ s ∈ localSizes g c, 0 < s) :
    localExtent g c = some (box (lowerBounds g c) (localSizes g c)) := by
  obtain ⟨hl, -⟩ := (validCoords_iff g c).1 hc
  have lS := length_localSizes g c hl
  have lL := length_lowerBounds g c hl
  have hn : tensorSize (localSizes g c) = (localSizes g c).prod := by
    unfold tensorSize
    rw [if_neg, foldl_mul_eq, Nat.one_mul]
    intro h
    rw [h] at lS
    exact h0 (List.eq_nil_of_length_eq_zero lS.symm)
  have hlast := sequentialIndex_last _ hpos
  have hvl := getVectorIndex_sequentialIndex _ _ (forall₂_last hpos)
  have hvf := getVectorIndex_sequentialIndex _ _ (forall₂_first hpos)
  rw [sequentialIndex_first] at hvf
  have a1 := (C13_local_to_global g hg c hc 0 (by omega)).2.1
  have a2 := (C13_local_to_global g hg c hc ((localSizes g c).prod - 1) (by omega)).2.1
  rw [show (localSizes g c).prod - 1 = sequentialIndex (localSizes g c) ((localSizes g c).map (· - 1)) by omega] at a2
  rw [hvl] at a2
  rw [hvf] at a1
  have e0 : List.zipWith (· + ·) (lowerBounds g c) ((localSizes g c).map fun _ => 0) = lowerBounds g c := by
    refine ext_getD (by simp [lS, lL]) fun i hi => ?_
    rw [getD_add _ _ (by simp [lS, lL])]
    rw [List.getD_eq_getElem?_getD (l := (localSizes g c).map _), List.getElem?_map]
    cases (localSizes g c)[i]? <;> simp
  rw [e0] at a1
  unfold localExtent
  rw [hn]
  simp only []
  rw [if_neg (by omega), a1]
  rw [show (localSizes g c).prod - 1 = sequentialIndex (localSizes g c) ((localSizes g c).map (· - 1)) by omega, a2]
  rfl

lemma cases3 {L S : List ℕ} (hlen : L.length = S.length) (h1 : S ≠ []) (h3 : S.length < 4) :
    (∃ a s, L = [a] ∧ S = [s]) ∨ (∃ a b s t, L = [a, b] ∧ S = [s, t]) ∨
      ∃ a b d s t r, L = [a, b, d] ∧ S = [s, t, r] := by
  have h0 : S.length ≠ 0 := fun h => h1 (List.eq_nil_of_length_eq_zero h)
  obtain h | h | h : S.length = 1 ∨ S.length = 2 ∨ S.length = 3 := by omega
  · obtain ⟨s, rfl⟩ := List.length_eq_one_iff.1 h
    obtain ⟨a, rfl⟩ := List.length_eq_one_iff.1 hlen
    exact .inl ⟨a, s, rfl, rfl⟩
  · obtain ⟨s, t, rfl⟩ := List.length_eq_two.1 h
    obtain ⟨a, b, rfl⟩ := List.length_eq_two.1 hlen
    exact .inr (.inl ⟨a, b, s, t, rfl, rfl⟩)
  · obtain ⟨s, t, r, rfl⟩ := List.length_eq_three.1 h
    obtain ⟨a, b, d, rfl⟩ := List.length_eq_three.1 hlen
    exact .inr (.inr ⟨a, b, d, s, t, r, rfl, rfl⟩)

lemma covers_box (p : VtkPiece K) (L S : List ℕ) (hlen : L.length = S.length) (h1 : S ≠ []) (h3 : S.length < 4)
    (hS : ∀ s ∈ S, 0 < s) (hp : p.extent = box L S) (z : List ℕ) :
    p.covers z = true ↔
      ∃ y, List.Forall₂ (· < ·) y S ∧ z = resize3 0 (List.zipWith (· + ·) L y) := by
  unfold VtkPiece.covers
  rw [hp]
  constructor
  · intro h
    rw [Bool.and_eq_true, beq_iff_eq] at h
    obtain ⟨hz, h⟩ := h
    obtain ⟨x, y, w, rfl⟩ := List.length_eq_three.1 hz
    obtain ⟨a, s, rfl, rfl⟩ | ⟨a, b, s, t, rfl, rfl⟩ | ⟨a, b, d, s, t, r, rfl, rfl⟩ := cases3 hlen h1 h3
    · have := hS s (by simp)
      simp [box, resize3] at h
      refine ⟨[x - a], by simp; omega, ?_⟩
      simp [resize3]
      omega
    · have := hS s (by simp)
      have := hS t (by simp)
      simp [box, resize3] at h
      refine ⟨[x - a, y - b], by simp; omega, ?_⟩
      simp [resize3]
      omega
    · have := hS s (by simp)
      have := hS t (by simp)
      have := hS r (by simp)
      simp [box, resize3] at h
      refine ⟨[x - a, y - b, w - d], by simp; omega, ?_⟩
      simp [resize3]
      omega
  · rintro ⟨y, hy, rfl⟩
    have hyl := hy.length_eq
    obtain ⟨a, s, rfl, rfl⟩ | ⟨a, b, s, t, rfl, rfl⟩ | ⟨a, b, d, s, t, r, rfl, rfl⟩ := cases3 hlen h1 h3
    · obtain ⟨x, rfl⟩ := List.length_eq_one_iff.1 hyl
      simp at hy
      simp [box, resize3]
      omega
    · obtain ⟨x, y, rfl⟩ := List.length_eq_two.1 hyl
      simp at hy
      simp [box, resize3]
      omega
    · obtain ⟨x, y, w, rfl⟩ := List.length_eq_three.1 hyl
      simp at hy
      simp [box, resize3]
      omega

lemma position_box (L S : List ℕ) (hlen : L.length = S.length) (h1 : S ≠ []) (h3 : S.length < 4)
    (y : List ℕ) (hy : List.Forall₂ (· < ·) y S) :
    VtkPiece.position (box L S) (resize3 0 (List.zipWith (· + ·) L y)) = sequentialIndex S y := by
  have hyl := hy.length_eq
  obtain ⟨a, s, rfl, rfl⟩ | ⟨a, b, s, t, rfl, rfl⟩ | ⟨a, b, d, s, t, r, rfl, rfl⟩ := cases3 hlen h1 h3
  · obtain ⟨x, rfl⟩ := List.length_eq_one_iff.1 hyl
    simp [box, resize3, VtkPiece.position, sequentialIndex, tensorOffsets, offsetsLoop]
  · obtain ⟨x, y, rfl⟩ := List.length_eq_two.1 hyl
    simp at hy
    simp [box, resize3, VtkPiece.position, sequentialIndex, tensorOffsets, offsetsLoop]
    rw [show a + (s - 1) + 1 - a = s by omega]
    ring
  · obtain ⟨x, y, w, rfl⟩ := List.length_eq_three.1 hyl
    simp at hy
    simp [box, resize3, VtkPiece.position, sequentialIndex, tensorOffsets, offsetsLoop]
    rw [show a + (s - 1) + 1 - a = s by omega, show b + (t - 1) + 1 - b = t by omega]
    ring

lemma shape_box (p : VtkPiece K) (L S : List ℕ) (hlen : L.length = S.length) (h1 : S ≠ []) (h3 : S.length < 4)
    (hS : ∀ s ∈ S, 0 < s) (hp : p.extent = box L S) : p.shape.foldr (· * ·) 1 = S.prod := by
  unfold VtkPiece.shape
  rw [hp]
  obtain ⟨a, s, rfl, rfl⟩ | ⟨a, b, s, t, rfl, rfl⟩ | ⟨a, b, d, s, t, r, rfl, rfl⟩ := cases3 hlen h1 h3
  · have := hS s (by simp)
    simp [box, resize3]
    omega
  · have := hS s (by simp)
    have := hS t (by simp)
    simp [box, resize3]
    rw [show a + (s - 1) + 1 - a = s by omega, show b + (t - 1) + 1 - b = t by omega]
  · have := hS s (by simp)
    have := hS t (by simp)
    have := hS r (by simp)
    simp [box, resize3]
    rw [show a + (s - 1) + 1 - a = s by omega, show b + (t - 1) + 1 - b = t by omega,
      show d + (r - 1) + 1 - d = r by omega]

/-! ### The names -/

lemma split_at (c : Char) (a a' r r' : List Char) (ha : c ∉ a) (ha' : c ∉ a')
    (h : a ++ c :: r = a' ++ c :: r') : a = a' ∧ r = r' := by
  induction a generalizing a' with
  | nil =>
    cases a' with
    | nil => simpa using h
    | cons x a' =>
      simp only [List.nil_append, List.cons_append, List.cons.injEq] at h
      exact absurd (by simp [h.1]) ha'
  | cons x a ih =>
    cases a' with
    | nil =>
      simp only [List.nil_append, List.cons_append, List.cons.injEq] at h
      exact absurd (by simp [h.1]) ha
    | cons x' a' =>
      simp only [List.cons_append, List.cons.injEq] at h
      obtain ⟨h1, h2⟩ := ih a' (fun hc => ha (by simp [hc])) (fun hc => ha' (by simp [hc])) h.2
      exact ⟨by rw [h.1, h1], h2⟩

lemma not_mem_repr {c : Char} (hc : c.isDigit = false) (n : ℕ) : c ∉ (Nat.repr n).toList := by
  intro h
  have : (Nat.repr n).toList = Nat.toDigits 10 n := by simp [Nat.repr]
  rw [this] at h
  have := Nat.isDigit_of_mem_toDigits (by decide) (by decide) h
  rw [hc] at this
  exact absurd this (by simp)

lemma repr_inj {m n : ℕ} (h : (Nat.repr m).toList = (Nat.repr n).toList) : m = n :=
  Nat.repr_injective (String.toList_inj.1 h)

lemma levels_inj (l l' : List ℕ) (r r' : List Char) (hlen : l.length = l'.length)
    (h : l.flatMap (fun l => (Nat.repr l).toList ++ ['_']) ++ r =
      l'.flatMap (fun l => (Nat.repr l).toList ++ ['_']) ++ r') : l = l' ∧ r = r' := by
  induction l generalizing l' with
  | nil =>
    obtain rfl := List.eq_nil_of_length_eq_zero hlen.symm
    exact ⟨rfl, by simpa using h⟩
  | cons a l ih =>
    cases l' with
    | nil => simp at hlen
    | cons a' l' =>
      simp only [List.flatMap_cons, List.append_assoc, List.cons_append, List.nil_append] at h
      obtain ⟨h1, h2⟩ := split_at '_' _ _ _ _ (not_mem_repr (by decide) _) (not_mem_repr (by decide) _) h
      obtain ⟨h3, h4⟩ := ih l' (by simpa using hlen) h2
      exact ⟨by rw [repr_inj h1, h3], h4⟩

lemma pieceName_inj {l l' : List ℕ} {s s' r r' : ℕ} (hlen : l.length = l'.length)
    (h : pieceName l s r = pieceName l' s' r') : l = l' ∧ s = s' ∧ r = r' := by
  unfold pieceName at h
  simp only [List.append_assoc, List.cons_append] at h
  obtain ⟨h1, h2⟩ := levels_inj l l' _ _ hlen (List.append_cancel_left h)
  simp only [List.cons.injEq, true_and] at h2
  obtain ⟨h3, h4⟩ := split_at '_' _ _ _ _ (not_mem_repr (by decide) _) (not_mem_repr (by decide) _) h2
  exact ⟨h1, repr_inj h3, repr_inj (List.append_cancel_right h4)⟩

end Verif.VtkFile

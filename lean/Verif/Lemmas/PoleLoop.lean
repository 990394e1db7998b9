import Verif.Model.PoleLoop
import Verif.Lemmas.Tensor
import Mathlib.Algebra.BigOperators.Ring.Finset
import Mathlib.Data.List.GetD

/-!
# Lemmas on the loops over dimensions and poles
-/

namespace Verif

variable {K : Type}

theorem tensorOffsets_split (as bs : List ℕ) (n : ℕ) :
    (tensorOffsets (as ++ n :: bs))[as.length]? = some as.prod := by
  induction as with
  | nil => simp [tensorOffsets_cons]
  | cons a as ih =>
    rw [List.cons_append, tensorOffsets_cons, List.length_cons, List.getElem?_cons_succ,
      List.getElem?_map, ih, List.prod_cons]
    rfl

theorem sequentialIndex_split (as bs us vs : List ℕ) (n i : ℕ) (h : us.length = as.length) :
    sequentialIndex (as ++ n :: bs) (us ++ i :: vs) =
      (sequentialIndex bs vs * (as.prod * n) + sequentialIndex as us) + i * as.prod := by
  induction as generalizing us with
  | nil =>
    cases us with
    | nil =>
      rw [List.nil_append, List.nil_append, sequentialIndex_cons]
      simp only [sequentialIndex_nil, List.prod_nil]
      ring
    | cons _ _ => simp at h
  | cons a as ih =>
    cases us with
    | nil => simp at h
    | cons u us =>
      rw [List.cons_append, List.cons_append, sequentialIndex_cons, sequentialIndex_cons,
        ih us (by simpa using h), List.prod_cons]
      ring

/-- decoding an element of a pole -/
theorem pole_decode {S n hi lo i hi' lo' i' : ℕ} (h1 : lo < S) (h2 : i < n) (h3 : lo' < S)
    (h4 : i' < n) (e : hi * (S * n) + lo + i * S = hi' * (S * n) + lo' + i' * S) :
    hi = hi' ∧ lo = lo' ∧ i = i' := by
  have e' : S * (hi * n + i) + lo = S * (hi' * n + i') + lo' := by
    have r1 : S * (hi * n + i) + lo = hi * (S * n) + lo + i * S := by ring
    have r2 : S * (hi' * n + i') + lo' = hi' * (S * n) + lo' + i' * S := by ring
    rw [r1, r2, e]
  have a1 : (S * (hi * n + i) + lo) % S = lo := by
    rw [Nat.mul_add_mod, Nat.mod_eq_of_lt h1]
  have a2 : (S * (hi' * n + i') + lo') % S = lo' := by
    rw [Nat.mul_add_mod, Nat.mod_eq_of_lt h3]
  have hlo : lo = lo' := by rw [← a1, ← a2, e']
  have hS : 0 < S := by omega
  have e2 : n * hi + i = n * hi' + i' := by
    have := Nat.eq_of_mul_eq_mul_left hS (show S * (hi * n + i) = S * (hi' * n + i') by omega)
    rw [mul_comm n, mul_comm n]
    exact this
  have b1 : (n * hi + i) % n = i := by rw [Nat.mul_add_mod, Nat.mod_eq_of_lt h2]
  have b2 : (n * hi' + i') % n = i' := by rw [Nat.mul_add_mod, Nat.mod_eq_of_lt h4]
  have hi_eq : i = i' := by rw [← b1, ← b2, e2]
  have hn : 0 < n := by omega
  refine ⟨?_, hlo, hi_eq⟩
  exact Nat.eq_of_mul_eq_mul_left hn (by omega)

/-- writing back one pole -/
theorem write_pole (S start : ℕ) (hS : 0 < S) (m d : Buf K) (n : ℕ) (hm : n ≤ m.len)
    (hd : ∀ i < n, start + i * S < d.len) :
    ∃ r, (List.range n).foldlM (fun (d : Buf K) i => (m.get? i).bind (d.set? (start + i * S))) d =
        some r ∧ r.len = d.len ∧
      (∀ i < n, r.val (start + i * S) = m.val i) ∧
      ∀ q, (∀ i < n, q ≠ start + i * S) → r.val q = d.val q := by
  induction n with
  | zero => exact ⟨d, rfl, rfl, by simp, fun q _ => rfl⟩
  | succ n ih =>
    obtain ⟨r, h1, h2, h3, h4⟩ := ih (by omega) fun i hi => hd i (by omega)
    refine ⟨⟨r.len, Function.update r.val (start + n * S) (m.val n)⟩, ?_, h2, ?_, ?_⟩
    · rw [List.range_succ, List.foldlM_append, h1]
      have e : start + n * S < r.len := by rw [h2]; exact hd n (by omega)
      simp [Buf.get?, Buf.set?, e, show n < m.len by omega]
    · intro i hi
      by_cases e : i = n
      · subst e; simp
      · have : start + i * S ≠ start + n * S := by
          intro h
          exact e (Nat.eq_of_mul_eq_mul_right hS (by omega))
        simp only [Function.update_of_ne this]
        exact h3 i (by omega)
    · intro q hq
      simp only [Function.update_of_ne (hq n (by omega))]
      exact h4 q fun i hi => hq i (by omega)

/-- A transform of poles of length `n` with matrix `A`. -/
def LinPole [Field K] (n : ℕ) (T : ℕ → Buf K → Option (Buf K)) (A : ℕ → ℕ → K) : Prop :=
  ∀ p (loc : Buf K), loc.len = n → ∃ m, T p loc = some m ∧ m.len = n ∧
    ∀ i < n, m.val i = ∑ j ∈ Finset.range n, A i j * loc.val j

variable [Field K]

theorem poleStep_eq {S n : ℕ} {T : ℕ → Buf K → Option (Buf K)}
    {A : ℕ → ℕ → K} (hT : LinPole n T A) (N : ℕ) (d : Buf K) (hd : d.len = N * (S * n))
    (hi lo : ℕ) (h1 : hi < N) (h2 : lo < S) :
    ∃ r, poleStep S n T d (hi, lo) = some r ∧ r.len = d.len ∧
      (∀ i < n, r.val (hi * (S * n) + lo + i * S) =
        ∑ j ∈ Finset.range n, A i j * d.val (hi * (S * n) + lo + j * S)) ∧
      ∀ hi' lo', lo' < S → (hi', lo') ≠ (hi, lo) → ∀ i < n,
        r.val (hi' * (S * n) + lo' + i * S) = d.val (hi' * (S * n) + lo' + i * S) := by
  obtain ⟨m, e1, e2, e3⟩ := hT (lo + hi * S) ⟨n, fun i => d.val (hi * (S * n) + lo + i * S)⟩ rfl
  have hb : ∀ i < n, hi * (S * n) + lo + i * S < d.len := by
    intro i hi'
    rw [hd]
    have r1 : (hi + 1) * (S * n) ≤ N * (S * n) := Nat.mul_le_mul_right _ h1
    have r2 : (i + 1) * S ≤ n * S := Nat.mul_le_mul_right _ hi'
    nlinarith
  obtain ⟨r, f1, f2, f3, f4⟩ := write_pole S (hi * (S * n) + lo) (by omega) m d n e2.ge hb
  refine ⟨r, ?_, f2, ?_, ?_⟩
  · unfold poleStep
    simp only [e1, Option.bind_some]
    exact f1
  · intro i hi'
    rw [f3 i hi', e3 i hi']
  · intro hi' lo' h3 hne i h4
    apply f4
    intro j hj e
    obtain ⟨q1, q2, -⟩ := pole_decode h3 h4 h2 hj e
    exact hne (by rw [q1, q2])

theorem poles_eq {S n : ℕ} {T : ℕ → Buf K → Option (Buf K)}
    {A : ℕ → ℕ → K} (hT : LinPole n T A) (N : ℕ) (ps : List (ℕ × ℕ)) (hnd : ps.Nodup)
    (hps : ∀ p ∈ ps, p.1 < N ∧ p.2 < S) (d : Buf K) (hd : d.len = N * (S * n)) :
    ∃ r, ps.foldlM (poleStep S n T) d = some r ∧ r.len = d.len ∧
      (∀ hi lo, (hi, lo) ∈ ps → ∀ i < n, r.val (hi * (S * n) + lo + i * S) =
        ∑ j ∈ Finset.range n, A i j * d.val (hi * (S * n) + lo + j * S)) ∧
      ∀ hi lo, lo < S → (hi, lo) ∉ ps → ∀ i < n,
        r.val (hi * (S * n) + lo + i * S) = d.val (hi * (S * n) + lo + i * S) := by
  induction ps generalizing d with
  | nil => exact ⟨d, rfl, rfl, by simp, fun _ _ _ _ _ _ => rfl⟩
  | cons p ps ih =>
    obtain ⟨hi, lo⟩ := p
    obtain ⟨h1, h2⟩ := hps (hi, lo) (by simp)
    obtain ⟨r, e1, e2, e3, e4⟩ := poleStep_eq hT N d hd hi lo h1 h2
    rw [List.nodup_cons] at hnd
    obtain ⟨s, f1, f2, f3, f4⟩ := ih hnd.2 (fun p hp => hps p (by simp [hp])) r (by rw [e2, hd])
    refine ⟨s, ?_, by rw [f2, e2], ?_, ?_⟩
    · rw [List.foldlM_cons, e1]
      exact f1
    · intro hi' lo' hm i hi''
      rcases List.mem_cons.1 hm with e | hm
      · obtain ⟨rfl, rfl⟩ := Prod.mk.inj e
        rw [f4 _ _ h2 hnd.1 i hi'', e3 i hi'']
      · rw [f3 _ _ hm i hi'']
        refine Finset.sum_congr rfl fun j hj => ?_
        rw [e4 hi' lo' (hps (hi', lo') (by simp [hm])).2 (fun e => hnd.1 (e ▸ hm)) j (by simpa using hj)]
    · intro hi' lo' h3 hm i hi''
      rw [List.mem_cons, not_or] at hm
      rw [f4 _ _ h3 hm.2 i hi'', e4 _ _ h3 hm.1 i hi'']

theorem poles_nodup (N S : ℕ) :
    ((List.range N).flatMap fun hi => (List.range S).map fun lo => (hi, lo)).Nodup := by
  have := List.nodup_range (n := N) |>.product (List.nodup_range (n := S))
  exact this

/-- A multi-index of the grid. -/
def InBox (sizes x : List ℕ) : Prop := List.Forall₂ (· < ·) x sizes

/-- The effect of the loops over the poles of dimension `k`, in terms of multi-indices. -/
theorem mapPoles_eq (sizes : List ℕ) (hpos : ∀ n ∈ sizes, 0 < n) (k : ℕ) (hk : k < sizes.length)
    {T : ℕ → Buf K → Option (Buf K)} {A : ℕ → ℕ → K} (hT : LinPole sizes[k] T A) (d : Buf K)
    (hd : d.len = sizes.prod) :
    ∃ r, mapPoles sizes T d k = some r ∧ r.len = d.len ∧
      ∀ x, InBox sizes x → r.val (sequentialIndex sizes x) =
        ∑ j ∈ Finset.range sizes[k], A (x.getD k 0) j *
          d.val (sequentialIndex sizes (x.set k j)) := by
  obtain ⟨as, n, bs, hs, hl⟩ : ∃ as n bs, sizes = as ++ n :: bs ∧ as.length = k :=
    ⟨sizes.take k, sizes[k], sizes.drop (k + 1), by simp, by simp; omega⟩
  subst hl
  have hn : sizes[as.length] = n := by simp [hs]
  rw [hn] at hT ⊢
  have hn0 : 0 < n := hpos n (by simp [hs])
  have hS0 : 0 < as.prod := by
    have : ∀ l : List ℕ, (∀ a ∈ l, 0 < a) → 0 < l.prod := by
      intro l hl
      induction l with
      | nil => simp
      | cons a l ih =>
        rw [List.prod_cons]
        exact Nat.mul_pos (hl a (by simp)) (ih fun b hb => hl b (by simp [hb]))
    exact this as fun a ha => hpos a (by simp [hs, ha])
  have hlen : d.len = bs.prod * (as.prod * n) := by
    rw [hd, hs, List.prod_append, List.prod_cons]; ring
  have hj : 0 < as.prod * n := Nat.mul_pos hS0 hn0
  obtain ⟨r, e1, e2, e3, -⟩ := poles_eq hT bs.prod _ (poles_nodup bs.prod as.prod) (by
    intro p hp
    simp only [List.mem_flatMap, List.mem_range, List.mem_map] at hp
    obtain ⟨hi, h1, lo, h2, rfl⟩ := hp
    exact ⟨h1, h2⟩) d hlen
  refine ⟨r, ?_, e2, ?_⟩
  · unfold mapPoles
    have h1 : sizes[as.length]? = some n := by simp [hs]
    have h2 : (tensorOffsets sizes)[as.length]? = some as.prod := by
      rw [hs]; exact tensorOffsets_split as bs n
    rw [h1, h2]
    simp only [Option.bind_some]
    rw [if_neg hj.ne', hlen, Nat.mul_div_cancel _ hj]
    exact e1
  · intro x hx
    unfold InBox at hx
    rw [hs] at hx
    obtain ⟨us, vs', h1, h2, rfl⟩ : ∃ us vs, List.Forall₂ (· < ·) us as ∧
        List.Forall₂ (· < ·) vs (n :: bs) ∧ x = us ++ vs :=
      ⟨x.take as.length, x.drop as.length, List.forall₂_take_append _ _ _ hx,
        List.forall₂_drop_append _ _ _ hx, (List.take_append_drop _ _).symm⟩
    obtain ⟨i, vs, hi, h3, rfl⟩ : ∃ i vs, i < n ∧ List.Forall₂ (· < ·) vs bs ∧ vs' = i :: vs := by
      cases h2 with
      | cons a b => exact ⟨_, _, a, b, rfl⟩
    have hu : us.length = as.length := h1.length_eq
    rw [hs, sequentialIndex_split _ _ _ _ _ _ hu, e3 _ _ (by
      simp only [List.mem_flatMap, List.mem_range, List.mem_map, Prod.mk.injEq]
      exact ⟨_, sequentialIndex_lt _ _ h3, _, sequentialIndex_lt _ _ h1, rfl, rfl⟩) i hi]
    refine Finset.sum_congr rfl fun j _ => ?_
    have e4 : (us ++ i :: vs).getD as.length 0 = i := by
      rw [← hu]; simp
    have e5 : (us ++ i :: vs).set as.length j = us ++ j :: vs := by
      rw [← hu]; simp
    rw [e4, e5, sequentialIndex_split _ _ _ _ _ _ hu]

end Verif

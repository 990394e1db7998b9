import Verif.Lemmas.GridTransform

/-!
# Loops over poles with transforms that need not be linear
-/

namespace Verif

variable {K : Type}

/-- A transform of poles of length `n` that relates the values before and afterwards by `Q`. -/
def RelPole (n : ℕ) (T : ℕ → Buf K → Option (Buf K)) (Q : (ℕ → K) → (ℕ → K) → Prop) : Prop :=
  ∀ p (loc : Buf K), loc.len = n → ∃ m, T p loc = some m ∧ m.len = n ∧ Q loc.val m.val

/-- The relation only looks at the first `n` values. -/
def OnFirst (n : ℕ) (Q : (ℕ → K) → (ℕ → K) → Prop) : Prop :=
  ∀ a a' b b' : ℕ → K, (∀ i < n, a i = a' i) → (∀ i < n, b i = b' i) → Q a b → Q a' b'

theorem poleStep_rel {S n : ℕ} {T : ℕ → Buf K → Option (Buf K)} {Q : (ℕ → K) → (ℕ → K) → Prop}
    (hQ : OnFirst n Q) (hT : RelPole n T Q) (N : ℕ) (d : Buf K) (hd : d.len = N * (S * n))
    (hi lo : ℕ) (h1 : hi < N) (h2 : lo < S) :
    ∃ r, poleStep S n T d (hi, lo) = some r ∧ r.len = d.len ∧
      Q (fun i => d.val (hi * (S * n) + lo + i * S)) (fun i => r.val (hi * (S * n) + lo + i * S)) ∧
      ∀ hi' lo', lo' < S → (hi', lo') ≠ (hi, lo) → ∀ i < n,
        r.val (hi' * (S * n) + lo' + i * S) = d.val (hi' * (S * n) + lo' + i * S) := by
  obtain ⟨m, e1, e2, e3⟩ := hT (lo + hi * S) ⟨n, fun i => d.val (hi * (S * n) + lo + i * S)⟩ rfl
  have hb : ∀ i < n, hi * (S * n) + lo + i * S < d.len := by
    intro i hi'
    rw [hd]
    have r1 : (hi + 1) * (S * n) ≤ N * (S * n) := Nat.mul_le_mul_right _ h1
    have r2 : (i + 1) * S ≤ n * S := Nat.mul_le_mul_right _ hi'
    nlinarith
  obtain ⟨r, f1, f2, f3, f4⟩ := write_pole S (hi * (S * n) + lo) (by omega) m d n e2.ge hb
  refine ⟨r, ?_, f2, ?_, ?_⟩
  · unfold poleStep
    simp only [e1, Option.bind_some]
    exact f1
  · exact hQ _ _ _ _ (fun _ _ => rfl) (fun i hi' => (f3 i hi').symm) e3
  · intro hi' lo' h3 hne i h4
    apply f4
    intro j hj e
    obtain ⟨q1, q2, -⟩ := pole_decode h3 h4 h2 hj e
    exact hne (by rw [q1, q2])

theorem poles_rel {S n : ℕ} {T : ℕ → Buf K → Option (Buf K)} {Q : (ℕ → K) → (ℕ → K) → Prop}
    (hQ : OnFirst n Q) (hT : RelPole n T Q) (N : ℕ) (ps : List (ℕ × ℕ)) (hnd : ps.Nodup)
    (hps : ∀ p ∈ ps, p.1 < N ∧ p.2 < S) (d : Buf K) (hd : d.len = N * (S * n)) :
    ∃ r, ps.foldlM (poleStep S n T) d = some r ∧ r.len = d.len ∧
      (∀ hi lo, (hi, lo) ∈ ps → Q (fun i => d.val (hi * (S * n) + lo + i * S))
        (fun i => r.val (hi * (S * n) + lo + i * S))) ∧
      ∀ hi lo, lo < S → (hi, lo) ∉ ps → ∀ i < n,
        r.val (hi * (S * n) + lo + i * S) = d.val (hi * (S * n) + lo + i * S) := by
  induction ps generalizing d with
  | nil => exact ⟨d, rfl, rfl, by simp, fun _ _ _ _ _ _ => rfl⟩
  | cons p ps ih =>
    obtain ⟨hi, lo⟩ := p
    obtain ⟨h1, h2⟩ := hps (hi, lo) (by simp)
    obtain ⟨r, e1, e2, e3, e4⟩ := poleStep_rel hQ hT N d hd hi lo h1 h2
    rw [List.nodup_cons] at hnd
    obtain ⟨s, f1, f2, f3, f4⟩ := ih hnd.2 (fun p hp => hps p (by simp [hp])) r (by rw [e2, hd])
    refine ⟨s, ?_, by rw [f2, e2], ?_, ?_⟩
    · rw [List.foldlM_cons, e1]
      exact f1
    · intro hi' lo' hm
      rcases List.mem_cons.1 hm with e | hm
      · obtain ⟨rfl, rfl⟩ := Prod.mk.inj e
        exact hQ _ _ _ _ (fun _ _ => rfl) (fun i hi => (f4 _ _ h2 hnd.1 i hi).symm) e3
      · exact hQ _ _ _ _ (fun i hi => e4 hi' lo' (hps (hi', lo') (by simp [hm])).2
          (fun e => hnd.1 (e ▸ hm)) i hi) (fun _ _ => rfl) (f3 _ _ hm)
    · intro hi' lo' h3 hm i hi''
      rw [List.mem_cons, not_or] at hm
      rw [f4 _ _ h3 hm.2 i hi'', e4 _ _ h3 hm.1 i hi'']

/-- The effect of the loops over the poles of dimension `k`, in terms of multi-indices. -/
theorem mapPoles_rel (sizes : List ℕ) (hpos : ∀ n ∈ sizes, 0 < n) (k : ℕ) (hk : k < sizes.length)
    {T : ℕ → Buf K → Option (Buf K)} {Q : (ℕ → K) → (ℕ → K) → Prop} (hQ : OnFirst sizes[k] Q)
    (hT : RelPole sizes[k] T Q) (d : Buf K) (hd : d.len = sizes.prod) :
    ∃ r, mapPoles sizes T d k = some r ∧ r.len = d.len ∧
      ∀ x, InBox sizes x → Q (fun j => d.val (sequentialIndex sizes (x.set k j)))
        (fun j => r.val (sequentialIndex sizes (x.set k j))) := by
  obtain ⟨as, n, bs, hs, hl⟩ : ∃ as n bs, sizes = as ++ n :: bs ∧ as.length = k :=
    ⟨sizes.take k, sizes[k], sizes.drop (k + 1), by simp, by simp; omega⟩
  subst hl
  have hn : sizes[as.length] = n := by simp [hs]
  rw [hn] at hT hQ
  have hn0 : 0 < n := hpos n (by simp [hs])
  have hS0 : 0 < as.prod := by
    have : ∀ l : List ℕ, (∀ a ∈ l, 0 < a) → 0 < l.prod := by
      intro l hl
      induction l with
      | nil => simp
      | cons a l ih =>
        rw [List.prod_cons]
        exact Nat.mul_pos (hl a (by simp)) (ih fun b hb => hl b (by simp [hb]))
    exact this as fun a ha => hpos a (by simp [hs, ha])
  have hlen : d.len = bs.prod * (as.prod * n) := by
    rw [hd, hs, List.prod_append, List.prod_cons]; ring
  have hj : 0 < as.prod * n := Nat.mul_pos hS0 hn0
  obtain ⟨r, e1, e2, e3, -⟩ := poles_rel hQ hT bs.prod _ (poles_nodup bs.prod as.prod) (by
    intro p hp
    simp only [List.mem_flatMap, List.mem_range, List.mem_map] at hp
    obtain ⟨hi, h1, lo, h2, rfl⟩ := hp
    exact ⟨h1, h2⟩) d hlen
  refine ⟨r, ?_, e2, ?_⟩
  · unfold mapPoles
    have h1 : sizes[as.length]? = some n := by simp [hs]
    have h2 : (tensorOffsets sizes)[as.length]? = some as.prod := by
      rw [hs]; exact tensorOffsets_split as bs n
    rw [h1, h2]
    simp only [Option.bind_some]
    rw [if_neg hj.ne', hlen, Nat.mul_div_cancel _ hj]
    exact e1
  · intro x hx
    unfold InBox at hx
    rw [hs] at hx
    obtain ⟨us, vs', h1, h2, rfl⟩ : ∃ us vs, List.Forall₂ (· < ·) us as ∧
        List.Forall₂ (· < ·) vs (n :: bs) ∧ x = us ++ vs :=
      ⟨x.take as.length, x.drop as.length, List.forall₂_take_append _ _ _ hx,
        List.forall₂_drop_append _ _ _ hx, (List.take_append_drop _ _).symm⟩
    obtain ⟨i, vs, hi, h3, rfl⟩ : ∃ i vs, i < n ∧ List.Forall₂ (· < ·) vs bs ∧ vs' = i :: vs := by
      cases h2 with
      | cons a b => exact ⟨_, _, a, b, rfl⟩
    have hu : us.length = as.length := h1.length_eq
    have e5 : ∀ j, (us ++ i :: vs).set as.length j = us ++ j :: vs := by
      intro j
      rw [← hu]; simp
    have e6 : ∀ j, sequentialIndex sizes ((us ++ i :: vs).set as.length j) =
        (sequentialIndex bs vs * (as.prod * n) + sequentialIndex as us) + j * as.prod := by
      intro j
      rw [e5, hs, sequentialIndex_split _ _ _ _ _ _ hu]
    simp only [e6]
    exact e3 _ _ (by
      simp only [List.mem_flatMap, List.mem_range, List.mem_map, Prod.mk.injEq]
      exact ⟨_, sequentialIndex_lt _ _ h3, _, sequentialIndex_lt _ _ h1, rfl, rfl⟩)

/-- A transform of poles of length `n` with the values `F`. -/
def FunPole (n : ℕ) (T : ℕ → Buf K → Option (Buf K)) (F : (ℕ → K) → ℕ → K) : Prop :=
  ∀ p (loc : Buf K), loc.len = n → ∃ m, T p loc = some m ∧ m.len = n ∧ ∀ i < n, m.val i = F loc.val i

/-- `F` only looks at the first `n` values. -/
def FirstOnly (n : ℕ) (F : (ℕ → K) → ℕ → K) : Prop :=
  ∀ v w : ℕ → K, (∀ i < n, v i = w i) → ∀ i < n, F v i = F w i

/-- `mapPoles_rel` for functions. -/
theorem mapPoles_fun (sizes : List ℕ) (hpos : ∀ n ∈ sizes, 0 < n) (k : ℕ) (hk : k < sizes.length)
    {T : ℕ → Buf K → Option (Buf K)} {F : (ℕ → K) → ℕ → K} (hF : FirstOnly sizes[k] F)
    (hT : FunPole sizes[k] T F) (d : Buf K) (hd : d.len = sizes.prod) :
    ∃ r, mapPoles sizes T d k = some r ∧ r.len = d.len ∧
      ∀ x, InBox sizes x → r.val (sequentialIndex sizes x) =
        F (fun j => d.val (sequentialIndex sizes (x.set k j))) (x.getD k 0) := by
  obtain ⟨r, h1, h2, h3⟩ := mapPoles_rel sizes hpos k hk (Q := fun a b => ∀ i < sizes[k], b i = F a i)
    (fun a a' b b' ha hb h i hi => by rw [← hb i hi, h i hi]; exact hF _ _ ha i hi)
    (fun p loc hl => hT p loc hl) d hd
  refine ⟨r, h1, h2, fun x hx => ?_⟩
  have hkx : k < x.length := by rw [hx.length_eq]; exact hk
  have e : x.getD k 0 = x[k] := by simp [hkx]
  have hlt : x.getD k 0 < sizes[k] := by
    rw [e]
    exact (List.forall₂_iff_get.1 hx).2 k hkx hk
  have := h3 x hx _ hlt
  simp only [e, List.set_getElem_self] at this ⊢
  exact this

/-- The linear transform of poles of length `n` with the matrix `A`. -/
def linFun [Field K] (n : ℕ) (A : ℕ → ℕ → K) (v : ℕ → K) (i : ℕ) : K := ∑ j ∈ Finset.range n, A i j * v j

theorem LinPole.funPole [Field K] {n : ℕ} {T : ℕ → Buf K → Option (Buf K)} {A : ℕ → ℕ → K}
    (h : LinPole n T A) : FunPole n T (linFun n A) := h

theorem firstOnly_lin [Field K] (n : ℕ) (A : ℕ → ℕ → K) : FirstOnly n (linFun n A) := by
  intro v w h i _
  apply Finset.sum_congr rfl
  intro j hj
  rw [h j (Finset.mem_range.1 hj)]

end Verif

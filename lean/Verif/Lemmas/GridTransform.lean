import Verif.Lemmas.PoleLoop
import Verif.Lemmas.MassPoles
import Mathlib.Algebra.BigOperators.Fin
import Mathlib.Tactic.LinearCombination

/-!
# Lemmas on transforms of grids dimension by dimension
-/

namespace Verif

variable {K : Type} [Field K]

/-- The action of a matrix on dimension `k` of a function of multi-indices. -/
def act (n : ℕ) (A : ℕ → ℕ → K) (k : ℕ) (f : List ℕ → K) (x : List ℕ) : K :=
  ∑ j ∈ Finset.range n, A (x.getD k 0) j * f (x.set k j)

omit [Field K] in
theorem getD_set_ne (x : List ℕ) (k l j d : ℕ) (h : k ≠ l) : (x.set k j).getD l d = x.getD l d := by
  simp [List.getD_eq_getElem?_getD, List.getElem?_set_ne h]

theorem act_comm (n m : ℕ) (A B : ℕ → ℕ → K) (k l : ℕ) (h : k ≠ l) (f : List ℕ → K) :
    act n A k (act m B l f) = act m B l (act n A k f) := by
  funext x
  unfold act
  simp only [Finset.mul_sum]
  rw [Finset.sum_comm]
  refine Finset.sum_congr rfl fun i _ => Finset.sum_congr rfl fun j _ => ?_
  rw [getD_set_ne _ _ _ _ _ h, getD_set_ne _ _ _ _ _ h.symm, List.set_comm _ _ h]
  ring

theorem inBox_set {sizes x : List ℕ} (hx : InBox sizes x) {k j : ℕ} (hk : k < sizes.length)
    (hj : j < sizes[k]) : InBox sizes (x.set k j) := by
  unfold InBox at *
  rw [List.forall₂_iff_get] at *
  obtain ⟨h1, h2⟩ := hx
  refine ⟨by simpa using h1, ?_⟩
  intro i hi1 hi2
  by_cases e : k = i
  · subst e; simpa using hj
  · have := h2 i (by simpa using hi1) hi2
    simpa [List.getElem_set, e] using this

theorem inBox_getD {sizes x : List ℕ} (hx : InBox sizes x) {k : ℕ} (hk : k < sizes.length) :
    x.getD k 0 < sizes[k] ∧ x.set k (x.getD k 0) = x := by
  unfold InBox at hx
  rw [List.forall₂_iff_get] at hx
  obtain ⟨h1, h2⟩ := hx
  have hk' : k < x.length := by omega
  have := h2 k hk' hk
  simp only [List.get_eq_getElem] at this
  rw [List.getD_eq_getElem _ _ hk']
  exact ⟨this, by simp⟩

/-- agreement on a box -/
def AgreeBox (sizes : List ℕ) (f g : List ℕ → K) : Prop := ∀ x, InBox sizes x → f x = g x

theorem act_congr {sizes : List ℕ} {k : ℕ} (hk : k < sizes.length) (A : ℕ → ℕ → K)
    {f g : List ℕ → K} (h : AgreeBox sizes f g) :
    AgreeBox sizes (act sizes[k] A k f) (act sizes[k] A k g) := by
  intro x hx
  unfold act
  refine Finset.sum_congr rfl fun j hj => ?_
  rw [h _ (inBox_set hx hk (by simpa using hj))]

/-- Matrices on the dimensions of a box, applied in the order of a list. -/
def actAll (sizes : List ℕ) (A : ℕ → ℕ → ℕ → K) (dims : List ℕ) (f : List ℕ → K) : List ℕ → K :=
  dims.foldl (fun f k => act (sizes.getD k 0) (A k) k f) f

theorem act_congr' {sizes : List ℕ} {k : ℕ} (hk : k < sizes.length) (A : ℕ → ℕ → K)
    {f g : List ℕ → K} (h : AgreeBox sizes f g) :
    AgreeBox sizes (act (sizes.getD k 0) A k f) (act (sizes.getD k 0) A k g) := by
  rw [List.getD_eq_getElem _ _ hk]
  exact act_congr hk A h

theorem actAll_congr {sizes dims : List ℕ} (hd : ∀ k ∈ dims, k < sizes.length)
    (A : ℕ → ℕ → ℕ → K) {f g : List ℕ → K} (h : AgreeBox sizes f g) :
    AgreeBox sizes (actAll sizes A dims f) (actAll sizes A dims g) := by
  induction dims generalizing f g with
  | nil => exact h
  | cons k ks ih => exact ih (fun k hk => hd k (by simp [hk])) (act_congr' (hd k (by simp)) _ h)

theorem actAll_perm (sizes : List ℕ) (A : ℕ → ℕ → ℕ → K) {dims dims' : List ℕ}
    (h : dims.Perm dims') (f : List ℕ → K) : actAll sizes A dims f = actAll sizes A dims' f := by
  unfold actAll
  refine h.foldl_eq' (fun k _ l _ f => ?_) f
  by_cases e : k = l
  · rw [e]
  · exact act_comm _ _ _ _ _ _ (fun h => e h.symm) f

/-- `B` is the inverse of `A` on the first `n` indices. -/
def InverseOn (n : ℕ) (B A : ℕ → ℕ → K) : Prop :=
  ∀ i < n, ∀ l < n, ∑ j ∈ Finset.range n, B i j * A j l = if i = l then 1 else 0

theorem act_inverse {sizes : List ℕ} {k : ℕ} (hk : k < sizes.length) {A B : ℕ → ℕ → K}
    (h : InverseOn sizes[k] B A) (f : List ℕ → K) :
    AgreeBox sizes (act (sizes.getD k 0) B k (act (sizes.getD k 0) A k f)) f := by
  intro x hx
  rw [List.getD_eq_getElem _ _ hk]
  obtain ⟨h1, h2⟩ := inBox_getD hx hk
  have hl : k < x.length := by
    have := hx.length_eq; omega
  unfold act
  have e : ∀ j ∈ Finset.range sizes[k], B (x.getD k 0) j *
      ∑ l ∈ Finset.range sizes[k], A ((x.set k j).getD k 0) l * f ((x.set k j).set k l) =
      ∑ l ∈ Finset.range sizes[k], B (x.getD k 0) j * A j l * f (x.set k l) := by
    intro j _
    rw [Finset.mul_sum]
    refine Finset.sum_congr rfl fun l _ => ?_
    have e0 : (x.set k j).getD k 0 = j := by
      rw [List.getD_eq_getElem _ _ (by simpa using hl), List.getElem_set_self]
    rw [List.set_set, e0]
    ring
  rw [Finset.sum_congr rfl e, Finset.sum_comm]
  have e' : ∀ l ∈ Finset.range sizes[k],
      ∑ j ∈ Finset.range sizes[k], B (x.getD k 0) j * A j l * f (x.set k l) =
      if x.getD k 0 = l then f x else 0 := by
    intro l hl'
    rw [← Finset.sum_mul, h _ h1 l (by simpa using hl')]
    split_ifs with e
    · rw [← e, h2, one_mul]
    · rw [zero_mul]
  rw [Finset.sum_congr rfl e', Finset.sum_ite_eq]
  rw [if_pos (by simpa using h1)]

theorem actAll_inverse {sizes dims : List ℕ} (hd : ∀ k ∈ dims, k < sizes.length)
    {A B : ℕ → ℕ → ℕ → K} (h : ∀ k ∈ dims, InverseOn (sizes.getD k 0) (B k) (A k))
    (f : List ℕ → K) :
    AgreeBox sizes (actAll sizes B dims (actAll sizes A dims f)) f := by
  rw [actAll_perm sizes B dims.reverse_perm.symm]
  induction dims generalizing f with
  | nil => intro x _; rfl
  | cons k ks ih =>
    have hk := hd k (by simp)
    have e : actAll sizes B (k :: ks).reverse (actAll sizes A (k :: ks) f) =
        act (sizes.getD k 0) (B k) k
          (actAll sizes B ks.reverse (actAll sizes A ks (act (sizes.getD k 0) (A k) k f))) := by
      unfold actAll
      simp
    rw [e]
    have h1 := ih (fun k hk => hd k (by simp [hk])) (fun k hk => h k (by simp [hk]))
      (act (sizes.getD k 0) (A k) k f)
    intro x hx
    rw [act_congr' hk (B k) h1 x hx]
    have := h k (by simp)
    rw [List.getD_eq_getElem _ _ hk] at this
    exact act_inverse hk this f x hx

/-- The loops over the dimensions in terms of multi-indices. -/
theorem transformGrid_eq {sizes dims : List ℕ} (hpos : ∀ n ∈ sizes, 0 < n)
    (hd : ∀ k ∈ dims, k < sizes.length) {T : ℕ → ℕ → Buf K → Option (Buf K)} {A : ℕ → ℕ → ℕ → K}
    (hT : ∀ k ∈ dims, LinPole (sizes.getD k 0) (T k) (A k)) (d : Buf K)
    (hlen : d.len = sizes.prod) :
    ∃ m, transformGrid sizes T dims d = some m ∧ m.len = d.len ∧
      AgreeBox sizes (fun x => m.val (sequentialIndex sizes x))
        (actAll sizes A dims fun x => d.val (sequentialIndex sizes x)) := by
  induction dims generalizing d with
  | nil => exact ⟨d, rfl, rfl, fun _ _ => rfl⟩
  | cons k ks ih =>
    have hk := hd k (by simp)
    have hTk := hT k (by simp)
    rw [List.getD_eq_getElem _ _ hk] at hTk
    obtain ⟨r, e1, e2, e3⟩ := mapPoles_eq sizes hpos k hk hTk d hlen
    obtain ⟨m, f1, f2, f3⟩ := ih (fun k hk => hd k (by simp [hk])) (fun k hk => hT k (by simp [hk]))
      r (by rw [e2, hlen])
    refine ⟨m, ?_, by rw [f2, e2], ?_⟩
    · unfold transformGrid at f1 ⊢
      rw [List.foldlM_cons, e1]
      exact f1
    · intro x hx
      rw [f3 x hx]
      have h2 : AgreeBox sizes (fun x => r.val (sequentialIndex sizes x))
          (act (sizes.getD k 0) (A k) k fun x => d.val (sequentialIndex sizes x)) := by
        rw [List.getD_eq_getElem _ _ hk]
        exact e3
      exact actAll_congr (fun k hk => hd k (by simp [hk])) A h2 x hx

/-! ### Linearity of the transforms of poles -/

/-- linear maps of arrays -/
def IsLin (G : (ℕ → K) → ℕ → K) : Prop :=
  ∀ u v c, G (fun q => u q + c * v q) = fun p => G u p + c * G v p

theorem IsLin.comp {F G : (ℕ → K) → ℕ → K} (hF : IsLin F) (hG : IsLin G) :
    IsLin (fun v => F (G v)) := by
  intro u v c
  simp only
  rw [hG u v c, hF]

theorem IsLin.foldl {s : (ℕ → K) → ℕ → ℕ → K} (es : List ℕ)
    (h : ∀ e, IsLin (fun v => s v e)) : IsLin (fun v => es.foldl s v) := by
  induction es with
  | nil => intro u v c; rfl
  | cons e es ih => exact ih.comp (h e)

theorem isLin_pass (P : ℕ → Prop) [DecidablePred P] (w : ℕ) (F : K → K → K → K) (a b e : K)
    (hF : ∀ l r v, F l r v = a * l + b * r + e * v) : IsLin (pass P w F) := by
  intro u v c
  funext q
  unfold pass
  by_cases h : P q
  · simp only [if_pos h, hF]; ring
  · simp only [if_neg h]

theorem isLin_ends (periodic : Bool) (f : K → K → K) (fp : K → K → K → K → K) (N w : ℕ)
    (a b : K) (hf : ∀ x y, f x y = a * x + b * y) (a' b' : K)
    (hp : ∀ x y z t, fp x y z t = a' * (x + y) + b' * (z + t)) : IsLin (passEnds periodic f fp N w) := by
  intro u v c
  funext q
  unfold passEnds
  simp only [hf, hp]
  split_ifs <;> ring

theorem isLin_nodalAt (b lmax : ℕ) : IsLin (nodalAt (K := K) b lmax) := by
  intro u v c
  funext q
  unfold nodalAt pad
  split_ifs <;> ring

theorem isLin_hat (N e : ℕ) : IsLin (fun v : ℕ → K => hatStep N v e) ∧
    IsLin (fun v : ℕ → K => unhatStep N v e) :=
  ⟨isLin_pass _ _ _ (-2⁻¹) (-2⁻¹) 1 (by intros; ring), isLin_pass _ _ _ 2⁻¹ 2⁻¹ 1 (by intros; ring)⟩

theorem isLin_full (p : Bool) (N e : ℕ) : IsLin (fun v : ℕ → K => fullStep p N v e) ∧
    IsLin (fun v : ℕ → K => unfullStep p N v e) ∧ IsLin (fun v : ℕ → K => bioStep p N v e) ∧
    IsLin (fun v : ℕ → K => unbioStep p N v e) := by
  refine ⟨?_, ?_, ?_, ?_⟩
  · exact (isLin_pass _ _ _ (-2⁻¹) (-2⁻¹) 1 (by intros; ring)).comp
      ((isLin_pass _ _ _ 4⁻¹ 4⁻¹ 2⁻¹ (by intros; ring)).comp
        (isLin_ends _ _ _ _ _ 2⁻¹ 2⁻¹ (by intros; ring) 4⁻¹ 4⁻¹ (by intros; ring)))
  · exact (isLin_ends _ _ _ _ _ 2 (-1) (by intros; ring) 1 (-2⁻¹) (by intros; ring)).comp
      ((isLin_pass _ _ _ (-2⁻¹) (-2⁻¹) 2 (by intros; ring)).comp
        (isLin_pass _ _ _ 2⁻¹ 2⁻¹ 1 (by intros; ring)))
  · exact (isLin_pass _ _ _ 4⁻¹ 4⁻¹ 1 (by intros; ring)).comp
      ((isLin_ends _ _ _ _ _ 1 2⁻¹ (by intros; ring) 2⁻¹ 4⁻¹ (by intros; ring)).comp
        (isLin_pass _ _ _ (-2⁻¹) (-2⁻¹) 1 (by intros; ring)))
  · exact (isLin_pass _ _ _ 2⁻¹ 2⁻¹ 1 (by intros; ring)).comp
      ((isLin_pass _ _ _ (-4⁻¹) (-4⁻¹) 1 (by intros; ring)).comp
        (isLin_ends _ _ _ _ _ 1 (-2⁻¹) (by intros; ring) 2⁻¹ (-4⁻¹) (by intros; ring)))

theorem isLin_mass (β : Basis) (N e : ℕ) : IsLin (fun v : ℕ → K => massStep β N v e) ∧
    IsLin (fun v : ℕ → K => massUnstep β N v e) := by
  obtain ⟨a1, a2, a3, a4⟩ := isLin_full (K := K) true N e
  obtain ⟨b1, b2, b3, b4⟩ := isLin_full (K := K) false N e
  cases β
  case fullWeightingPeriodic => exact ⟨a1, a2⟩
  case biorthogonalPeriodic => exact ⟨a3, a4⟩
  all_goals exact ⟨b1, b2⟩

/-- unit vectors -/
def unitAt (j : ℕ) (q : ℕ) : K := if q = j then 1 else 0

theorem IsLin.sum {G : (ℕ → K) → ℕ → K} (hG : IsLin G) (n : ℕ) (v : ℕ → K) (p : ℕ) :
    G (fun q => ∑ j ∈ Finset.range n, v j * unitAt j q) p =
      ∑ j ∈ Finset.range n, G (unitAt j) p * v j := by
  have h0 : G (fun _ => 0) p = 0 := by
    have := congrFun (hG (fun _ => 0) (fun _ => 0) 1) p
    simp only [mul_zero, add_zero, one_mul] at this
    linear_combination -this
  induction n with
  | zero => simpa using h0
  | succ n ih =>
    simp only [Finset.sum_range_succ]
    have := congrFun (hG (fun q => ∑ j ∈ Finset.range n, v j * unitAt j q) (unitAt n) (v n)) p
    rw [this, ih, mul_comm]

/-- A transform of poles of length `n` that is given by a linear map of arrays. -/
theorem linPole_of {n : ℕ} {T : ℕ → Buf K → Option (Buf K)} {G : (ℕ → K) → ℕ → K} (off : ℕ)
    (hG : IsLin G)
    (hT : ∀ p (loc : Buf K) (v : ℕ → K), loc.len = n → (∀ q < n, v q = loc.val q) →
      ∃ m, T p loc = some m ∧ m.len = n ∧ ∀ i < n, m.val i = G v (i + off)) :
    LinPole n T fun i j => G (unitAt j) (i + off) := by
  intro p loc hlen
  obtain ⟨m, h1, h2, h3⟩ := hT p loc (fun q => ∑ j ∈ Finset.range n, loc.val j * unitAt j q) hlen (by
    intro q hq
    unfold unitAt
    simp [hq])
  refine ⟨m, h1, h2, fun i hi => ?_⟩
  rw [h3 i hi, hG.sum]

/-- Two transforms that are inverse to each other have matrices inverse to each other. -/
theorem inverseOn_of {n : ℕ} {T T' : ℕ → Buf K → Option (Buf K)} {A B : ℕ → ℕ → K}
    (hT : LinPole n T A) (hT' : LinPole n T' B)
    (h : ∀ loc : Buf K, loc.len = n → ∃ m r, T 0 loc = some m ∧ T' 0 m = some r ∧
      ∀ i < n, r.val i = loc.val i) : InverseOn n B A := by
  intro i hi l hl
  obtain ⟨m, r, e1, e2, e3⟩ := h ⟨n, unitAt l⟩ rfl
  obtain ⟨m', f1, f2, f3⟩ := hT 0 ⟨n, unitAt l⟩ rfl
  rw [e1] at f1
  cases f1
  obtain ⟨r', g1, g2, g3⟩ := hT' 0 m f2
  rw [e2] at g1
  cases g1
  have h1 := e3 i hi
  rw [g3 i hi] at h1
  simp only [unitAt] at h1
  rw [← h1]
  refine Finset.sum_congr rfl fun j hj => ?_
  rw [f3 j (by simpa using hj)]
  simp [unitAt, hl]

theorem hat_linPole {b lmax lmin : ℕ} (hb : b ≤ 2) (hm : lmax ≤ 29) :
    ∃ A B : ℕ → ℕ → K, ∀ junk : ℕ → ℕ → K,
      LinPole (poleLength lmax b) (fun p loc => hierPole .hat b lmax lmin 0 [] (junk p) loc) A ∧
      LinPole (poleLength lmax b) (fun p loc => dehierPole .hat b lmax lmin 0 [] (junk p) loc) B := by
  rcases Nat.lt_or_ge lmin lmax with hl | hl
  · have hes : ∀ e ∈ hatExps b lmax lmin, e < lmax := by
      unfold hatExps; simp only [List.mem_range]; omega
    have hle : ∀ i < poleLength lmax b, i + posOff b ≤ 2 ^ lmax := by
      have : 0 < 2 ^ lmax := by positivity
      unfold poleLength posOff
      intro i hi
      split_ifs <;> omega
    refine ⟨_, _, fun junk => ⟨linPole_of (posOff b) ((IsLin.foldl (hatExps b lmax lmin) fun e =>
      (isLin_hat (2 ^ lmax) e).1).comp (isLin_nodalAt b lmax)) ?_,
      linPole_of (posOff b) ((IsLin.foldl (hatExps b lmax lmin).reverse fun e =>
      (isLin_hat (2 ^ lmax) e).2).comp (isLin_nodalAt b lmax)) ?_⟩⟩
    · intro p loc v hlen hv
      obtain ⟨m, h1, h2, h3⟩ := hierPole_hat_eq hb hl hm 0 [] (junk p) loc (by simp) (by omega)
      refine ⟨m, h1, by omega, fun i hi => ?_⟩
      rw [h3 i (by omega), Nat.zero_add]
      refine agree_upto lmax _ _ hes _ _ (nodalAt_congr hb _ _ ?_) _ (hle i hi)
      intro q hq
      rw [filled_serial _ _ _ (by omega), hv q hq]
    · intro p loc v hlen hv
      obtain ⟨m, h1, h2, h3⟩ := dehierPole_hat_eq hb hl hm 0 [] (junk p) loc (by simp) (by omega)
      refine ⟨m, h1, by omega, fun i hi => ?_⟩
      rw [h3 i (by omega), Nat.zero_add]
      refine agree_upto lmax _ _ (by simpa using hes) _ _ (nodalAt_congr hb _ _ ?_) _ (hle i hi)
      intro q hq
      rw [filled_serial _ _ _ (by omega), hv q hq]
  · have hid : IsLin (fun v : ℕ → K => v) := fun _ _ _ => rfl
    refine ⟨_, _, fun junk => ⟨linPole_of 0 hid ?_, linPole_of 0 hid ?_⟩⟩
    · intro p loc v hlen hv
      refine ⟨loc, by unfold hierPole; rw [if_pos hl], hlen, fun i hi => (hv i hi).symm⟩
    · intro p loc v hlen hv
      refine ⟨loc, by unfold dehierPole; rw [if_pos hl], hlen, fun i hi => (hv i hi).symm⟩

theorem mass_linPole {β : Basis} (hβ : β.massConserving) {b lmax lmin : ℕ} (hb : b = 1 ∨ b = 2)
    (hm : lmax ≤ 28) :
    ∃ A B : ℕ → ℕ → K, ∀ junk : ℕ → ℕ → K,
      LinPole (poleLength lmax b) (fun p loc => hierPole β b lmax lmin 0 [] (junk p) loc) A ∧
      LinPole (poleLength lmax b) (fun p loc => dehierPole β b lmax lmin 0 [] (junk p) loc) B := by
  rcases Nat.lt_or_ge lmin lmax with hl | hl
  · have hb2 : b ≤ 2 := by omega
    have hle : ∀ i < poleLength lmax b, i ≤ 2 ^ lmax := by
      have : 0 < 2 ^ lmax := by positivity
      unfold poleLength
      intro i hi
      omega
    refine ⟨_, _, fun junk => ⟨linPole_of 0 ((IsLin.foldl (List.range (lmax - lmin)) fun e =>
      (isLin_mass β (2 ^ lmax) e).1).comp (isLin_nodalAt b lmax)) ?_,
      linPole_of 0 ((IsLin.foldl (List.range (lmax - lmin)).reverse fun e =>
      (isLin_mass β (2 ^ lmax) e).2).comp (isLin_nodalAt b lmax)) ?_⟩⟩
    · intro p loc v hlen hv
      refine ⟨_, (massPole_eq hβ hb hl hm 0 [] (junk p) loc (by simp) (by omega)).1, hlen,
        fun i hi => ?_⟩
      simp only [Nat.zero_add, Nat.add_zero]
      refine localTo_foldl (List.range (lmax - lmin)) (s := massStep β (2 ^ lmax))
        (fun e he => (localTo_mass β (by simp only [List.mem_range] at he; omega)).1) _ _
        (nodalAt_congr hb2 _ _ ?_) _ (hle i hi)
      intro q hq
      rw [filled_serial _ _ _ (by omega), hv q hq]
    · intro p loc v hlen hv
      refine ⟨_, (massPole_eq hβ hb hl hm 0 [] (junk p) loc (by simp) (by omega)).2, hlen,
        fun i hi => ?_⟩
      simp only [Nat.zero_add, Nat.add_zero]
      refine localTo_foldl (List.range (lmax - lmin)).reverse (s := massUnstep β (2 ^ lmax))
        (fun e he => (localTo_mass β (by simp only [List.mem_reverse, List.mem_range] at he; omega)).2) _ _
        (nodalAt_congr hb2 _ _ ?_) _ (hle i hi)
      intro q hq
      rw [filled_serial _ _ _ (by omega), hv q hq]
  · have hid : IsLin (fun v : ℕ → K => v) := fun _ _ _ => rfl
    refine ⟨_, _, fun junk => ⟨linPole_of 0 hid ?_, linPole_of 0 hid ?_⟩⟩
    · intro p loc v hlen hv
      refine ⟨loc, by unfold hierPole; rw [if_pos hl], hlen, fun i hi => (hv i hi).symm⟩
    · intro p loc v hlen hv
      refine ⟨loc, by unfold dehierPole; rw [if_pos hl], hlen, fun i hi => (hv i hi).symm⟩

end Verif

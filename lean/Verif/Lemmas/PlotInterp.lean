import Verif.Lemmas.Plot
import Verif.Props.Interpolation

/-!
# Hierarchical surpluses of piecewise linear interpolants
-/

namespace Verif

open Interpolation

section oneDim

variable {K : Type} [Field K] [LinearOrder K] [IsStrictOrderedRing K]

/-- A tent with peak at an integer is linear between neighbouring integers. -/
theorem tent_mid (c j : ℕ) {a b : K} (ha : (j : K) ≤ a) (ha' : a ≤ j + 1) (hb : (j : K) ≤ b)
    (hb' : b ≤ j + 1) :
    max 0 (1 - |(a + b) / 2 - c|) = (max 0 (1 - |a - c|) + max 0 (1 - |b - c|)) / 2 := by
  have key : (∀ y : K, (j : K) ≤ y → y ≤ j + 1 → max 0 (1 - |y - c|) = 0) ∨
      (∀ y : K, (j : K) ≤ y → y ≤ j + 1 → max 0 (1 - |y - c|) = 1 - (c - y)) ∨
      ∀ y : K, (j : K) ≤ y → y ≤ j + 1 → max 0 (1 - |y - c|) = 1 - (y - c) := by
    rcases lt_trichotomy (j + 1) c with h | h | h
    · left
      intro y h1 h2
      have : ((j + 1 + 1 : ℕ) : K) ≤ c := Nat.cast_le.2 (by omega)
      push_cast at this
      rw [abs_of_nonpos (by linarith), max_eq_left (by linarith)]
    · right; left
      intro y h1 h2
      have : ((j + 1 : ℕ) : K) = c := by rw [h]
      push_cast at this
      rw [abs_of_nonpos (by linarith), max_eq_right (by linarith)]
      ring
    · rcases Nat.eq_or_lt_of_le (show c ≤ j by omega) with h' | h'
      · right; right
        intro y h1 h2
        subst h'
        rw [abs_of_nonneg (by linarith), max_eq_right (by linarith)]
      · left
        intro y h1 h2
        have : ((c + 1 : ℕ) : K) ≤ j := Nat.cast_le.2 (by omega)
        push_cast at this
        rw [abs_of_nonneg (by linarith), max_eq_left (by linarith)]
  rcases key with h | h | h <;>
    rw [h a ha ha', h b hb hb', h ((a + b) / 2) (by linarith) (by linarith)] <;> ring

theorem hat_mid (L b i j : ℕ) {x y : K} (hx : (j : K) ≤ x * 2 ^ L) (hx' : x * 2 ^ L ≤ j + 1)
    (hy : (j : K) ≤ y * 2 ^ L) (hy' : y * 2 ^ L ≤ j + 1) :
    hat L b i ((x + y) / 2) = (hat L b i x + hat L b i y) / 2 := by
  unfold hat
  have e : (x + y) / 2 * 2 ^ L = (x * 2 ^ L + y * 2 ^ L) / 2 := by ring
  rw [e, tent_mid _ j hx hx' hy hy']
  have e2 := tent_mid (2 ^ L) j hx hx' hy hy'
  push_cast at e2
  rw [e2]
  split
  · ring
  · ring

/-- The interpolant of the values `G` in one dimension. -/
def lineAt (L b : ℕ) (G : ℕ → K) (x : K) : K := ∑ i ∈ Finset.range (nodal L b), hat L b i x * G i

theorem lineAt_mid (L b : ℕ) (G : ℕ → K) (j : ℕ) {x y : K} (hx : (j : K) ≤ x * 2 ^ L)
    (hx' : x * 2 ^ L ≤ j + 1) (hy : (j : K) ≤ y * 2 ^ L) (hy' : y * 2 ^ L ≤ j + 1) :
    lineAt L b G ((x + y) / 2) = (lineAt L b G x + lineAt L b G y) / 2 := by
  unfold lineAt
  rw [← Finset.sum_add_distrib, div_eq_mul_inv (∑ _ ∈ _, _), Finset.sum_mul]
  refine Finset.sum_congr rfl fun i _ => ?_
  rw [hat_mid L b i j hx hx' hy hy']
  ring

/-- The values of a pole sampled from an interpolant. -/
theorem poleValue_line {L b l : ℕ} (hb : b ≤ 2) (G : ℕ → K) (n p : ℕ) (hp : p ≤ 2 ^ l) :
    poleValue b l ⟨n, fun j => lineAt L b G (((pos b j : ℕ) : K) / 2 ^ l)⟩ p =
      lineAt L b G ((p : K) / 2 ^ l) := by
  have hpos : (0 : K) < 2 ^ l := by positivity
  have hposL : (1 : K) ≤ 2 ^ L := one_le_pow₀ (by norm_num)
  unfold poleValue
  by_cases h0 : b = 0
  · subst h0
    rw [if_pos rfl]
    by_cases hend : p = 0 ∨ p ≥ 2 ^ l
    · rw [if_pos hend]
      symm
      unfold lineAt
      refine Finset.sum_eq_zero fun i hi => ?_
      have hi' := Finset.mem_range.1 hi
      obtain ⟨q1, q2, q3⟩ := pos_le (by omega : (0 : ℕ) ≤ 2) hi'
      have q2 := q2 (by omega)
      have q3 := q3 rfl
      have : hat L 0 i ((p : K) / 2 ^ l) = 0 := by
        unfold hat
        rw [if_neg (by omega), add_zero]
        rcases hend with rfl | hge
        · have : ((1 : ℕ) : K) ≤ (pos 0 i : ℕ) := Nat.cast_le.2 q3
          push_cast at this
          rw [Nat.cast_zero, zero_div, zero_mul, zero_sub, abs_neg, abs_of_nonneg (by linarith),
            max_eq_left (by linarith)]
        · have hpe : p = 2 ^ l := by omega
          have : ((pos 0 i + 1 : ℕ) : K) ≤ (2 ^ L : ℕ) := Nat.cast_le.2 q2
          push_cast at this
          rw [hpe, Nat.cast_pow, Nat.cast_ofNat, div_self hpos.ne', one_mul,
            abs_of_nonneg (by linarith), max_eq_left (by linarith)]
      rw [this, zero_mul]
    · rw [if_neg hend]
      simp only [pos, if_pos]
      rw [Nat.sub_add_cancel (by omega)]
  · rw [if_neg h0]
    by_cases h1 : b = 1 ∧ p = 2 ^ l
    · rw [if_pos h1]
      obtain ⟨rfl, rfl⟩ := h1
      simp only [pos]
      rw [if_neg (by omega)]
      unfold lineAt
      refine Finset.sum_congr rfl fun i hi => ?_
      congr 1
      have hi' := Finset.mem_range.1 hi
      obtain ⟨-, q2, -⟩ := pos_le (by omega : (1 : ℕ) ≤ 2) hi'
      have q2 := q2 (by omega)
      have q2' : ((pos 1 i + 1 : ℕ) : K) ≤ (2 ^ L : ℕ) := Nat.cast_le.2 q2
      push_cast at q2'
      unfold hat
      rw [Nat.cast_zero, zero_div, zero_mul, Nat.cast_pow, Nat.cast_ofNat, div_self hpos.ne', one_mul]
      have e1 : max 0 (1 - |(2 : K) ^ L - (pos 1 i : ℕ)|) = 0 := by
        rw [abs_of_nonneg (by linarith), max_eq_left (by linarith)]
      rw [e1]
      by_cases hi0 : i = 0
      · subst hi0
        have e2 : max 0 (1 - |0 - (2 : K) ^ L|) = 0 := by
          rw [zero_sub, abs_neg, abs_of_nonneg (by linarith), max_eq_left (by linarith)]
        simp only [and_self, if_true, e2]
        simp [pos]
      · rw [if_neg (by tauto), if_neg (by tauto)]
        have h3 : ((1 : ℕ) : K) ≤ (pos 1 i : ℕ) := by
          refine Nat.cast_le.2 ?_
          simp only [pos]
          rw [if_neg (by omega)]
          omega
        push_cast at h3
        rw [zero_sub, abs_neg, abs_of_nonneg (by linarith), max_eq_left (by linarith)]
    · rw [if_neg h1]
      simp only [pos, if_neg h0]

/-- In one dimension: the surplus of an interpolant vanishes at points of finer levels. -/
theorem line_surplus_zero {L b l lmin lam i : ℕ} (hb : b ≤ 2) (hl : l ≤ 29) (h0 : b = 0 → lmin = 0)
    {A : ℕ → ℕ → K} {junk : ℕ → ℕ → K}
    (hA : LinPole (nodal l b) (fun p loc => hierPole .hat b l lmin 0 [] (junk p) loc) A)
    (G : ℕ → K) (hi : i < nodal l b) (hlev : PointLevel l (pos b i) lam) (h1 : L < lam)
    (h2 : lmin < lam) :
    ∑ j ∈ Finset.range (nodal l b), A i j * lineAt L b G (((pos b j : ℕ) : K) / 2 ^ l) = 0 := by
  obtain ⟨m, a1, a2, a3⟩ := hA 0 ⟨nodal l b, fun j => lineAt L b G (((pos b j : ℕ) : K) / 2 ^ l)⟩ rfl
  obtain ⟨s, c1, c2, c3⟩ := C24_hat_surplus b l lmin hb hl h0
    ⟨nodal l b, fun j => lineAt L b G (((pos b j : ℕ) : K) / 2 ^ l)⟩ rfl (junk 0)
  obtain rfl := Option.some.inj (a1.symm.trans c1)
  rw [← a3 i hi, c3 i hi lam hlev, if_pos h2]
  obtain ⟨hx, -, -⟩ := pos_le hb hi
  rcases hlev with ⟨rfl, -⟩ | ⟨hlam, hlaml, r, hr⟩
  · omega
  have hw : 0 < 2 ^ (l - lam) := by positivity
  have hl2 : 2 ^ l = 2 ^ lam * 2 ^ (l - lam) := by rw [← pow_add]; congr 1; omega
  have hlam2 : 2 ^ lam = 2 * 2 ^ (lam - 1) := by rw [← pow_succ']; congr 1; omega
  have hup : pos b i + 2 ^ (l - lam) ≤ 2 ^ l := by
    rw [hr, hl2, hlam2] at hx
    rw [hr, hl2, hlam2]
    have : 2 * r + 1 ≤ 2 * 2 ^ (lam - 1) := Nat.le_of_mul_le_mul_right hx hw
    have h3 : 2 * r + 1 + 1 ≤ 2 * 2 ^ (lam - 1) := by omega
    have h4 := Nat.mul_le_mul_right (2 ^ (l - lam)) h3
    rw [add_mul, one_mul] at h4
    exact h4
  have hlo : pos b i - 2 ^ (l - lam) = 2 * r * 2 ^ (l - lam) := by
    rw [hr, add_mul, one_mul, Nat.add_sub_cancel]
  have hhi : pos b i + 2 ^ (l - lam) = (2 * r + 2) * 2 ^ (l - lam) := by
    rw [hr]; ring
  rw [poleValue_line hb G _ _ hup, poleValue_line hb G _ _ (by omega)]
  simp only
  -- the cell of the coarse grid
  obtain ⟨s, hs⟩ : ∃ s, lam = L + 1 + s := ⟨lam - L - 1, by omega⟩
  have hdiv := Nat.div_add_mod r (2 ^ s)
  have hmod := Nat.mod_lt r (show 0 < 2 ^ s by positivity)
  set q := r / 2 ^ s with hq
  have c2 : r + 1 ≤ (q + 1) * 2 ^ s := by
    rw [add_mul, one_mul, mul_comm q]; omega
  have c1 : q * 2 ^ s ≤ r := by rw [mul_comm]; omega
  have c1' : (q : K) * 2 ^ s ≤ r := by exact_mod_cast c1
  have c2' : (r : K) + 1 ≤ ((q : K) + 1) * 2 ^ s := by exact_mod_cast c2
  have hws : (0 : K) < 2 ^ s := by positivity
  have ex : ∀ m : ℕ, ((m * 2 ^ (l - lam) : ℕ) : K) / 2 ^ l * 2 ^ L = (m : K) / (2 * 2 ^ s) := by
    intro m
    have e : (2 : K) ^ l = 2 ^ L * 2 * 2 ^ s * 2 ^ (l - lam) := by
      rw [← pow_succ, ← pow_add, ← pow_add]; congr 1; omega
    rw [e]
    push_cast
    have hw' : (2 : K) ^ (l - lam) ≠ 0 := by positivity
    have hL' : (2 : K) ^ L ≠ 0 := by positivity
    field_simp
  have hmid : ((pos b i : ℕ) : K) / 2 ^ l =
      (((2 * r * 2 ^ (l - lam) : ℕ) : K) / 2 ^ l + (((2 * r + 2) * 2 ^ (l - lam) : ℕ) : K) / 2 ^ l) / 2 := by
    rw [hr]
    push_cast
    ring
  have g1 : ∀ m : ℕ, 2 * r ≤ m → m ≤ 2 * r + 2 →
      (q : K) ≤ ((m * 2 ^ (l - lam) : ℕ) : K) / 2 ^ l * 2 ^ L ∧
      ((m * 2 ^ (l - lam) : ℕ) : K) / 2 ^ l * 2 ^ L ≤ q + 1 := by
    intro m m1 m2
    have m1' : (2 : K) * r ≤ m := by exact_mod_cast m1
    have m2' : (m : K) ≤ 2 * r + 2 := by exact_mod_cast m2
    rw [ex m, le_div_iff₀ (by positivity), div_le_iff₀ (by positivity)]
    constructor <;> linarith
  rw [hlo, hhi, hmid, lineAt_mid L b G q (g1 _ (le_refl _) (by omega)).1 (g1 _ (le_refl _) (by omega)).2
    (g1 _ (by omega) (le_refl _)).1 (g1 _ (by omega) (le_refl _)).2]
  ring

end oneDim

/-! ### Interpolants of component grids -/

variable {K : Type}

/-- The axes of the component grid of level `L` with the coordinates of place `z`. -/
def axesAt [Field K] : (refs : List RefDim) → (L z : List ℕ) → List (Axis K)
  | r :: rs, l :: ls, z :: zs =>
    ⟨l, r.boundary, [0], ((pos r.boundary z : ℕ) : K) / 2 ^ r.level⟩ :: axesAt rs ls zs
  | _, _, _ => []

/-- The multilinear interpolant of the component grid of level `L` with values `u` at place `z`. -/
def interpAt [Field K] [LinearOrder K] (refs : List RefDim) (L : List ℕ) (u : ℕ → K)
    (z : List ℕ) : K :=
  interp (axesAt (K := K) refs L z) fun is => u (sequentialIndex (wholeSizes refs L) is)

section interp

variable [Field K] [LinearOrder K] [IsStrictOrderedRing K]

omit [IsStrictOrderedRing K] in
/-- Along one dimension, an interpolant is an interpolant in one dimension. -/
theorem interp_line (refs : List RefDim) (L z : List ℕ) (hL : L.length = refs.length)
    (hz : z.length = refs.length) (k : ℕ) (hk : k < refs.length) (F : List ℕ → K) :
    ∃ G : ℕ → K, ∀ j, interp (axesAt (K := K) refs L (z.set k j)) F =
      lineAt L[k] refs[k].boundary G (((pos refs[k].boundary j : ℕ) : K) / 2 ^ refs[k].level) := by
  induction refs generalizing L z k F with
  | nil => simp at hk
  | cons r rs ih =>
    obtain ⟨l, ls, rfl⟩ : ∃ l ls, L = l :: ls := by
      cases L with
      | nil => simp at hL
      | cons l ls => exact ⟨l, ls, rfl⟩
    obtain ⟨y, ys, rfl⟩ : ∃ y ys, z = y :: ys := by
      cases z with
      | nil => simp at hz
      | cons y ys => exact ⟨y, ys, rfl⟩
    cases k with
    | zero =>
      refine ⟨fun i => interp (axesAt (K := K) rs ls ys) fun is => F (i :: is), fun j => ?_⟩
      rw [List.set_cons_zero, axesAt, interp]
      rfl
    | succ k =>
      have hk' : k < rs.length := by simpa using hk
      choose G hG using fun i => ih ls ys (by simpa using hL) (by simpa using hz) k hk'
        fun is => F (i :: is)
      refine ⟨fun i => ∑ i0 ∈ Finset.range (nodal l r.boundary),
        hat l r.boundary i0 (((pos r.boundary y : ℕ) : K) / 2 ^ r.level) * G i0 i, fun j => ?_⟩
      rw [List.set_cons_succ, axesAt, interp]
      simp only [hG, smul_eq_mul, List.getElem_cons_succ, lineAt, Finset.mul_sum]
      rw [Finset.sum_comm]
      refine Finset.sum_congr rfl fun i _ => Finset.sum_congr rfl fun i0 _ => ?_
      ring

theorem placeOf_set (refs : List RefDim) (L x : List ℕ) (k j : ℕ) (hk : k < refs.length)
    (hL : L.length = refs.length) :
    placeOf refs L (x.set k j) =
      (placeOf refs L x).set k (refIndex refs[k].boundary (refs[k].level - L[k]) j) := by
  unfold placeOf
  apply List.ext_getElem
  · simp
  · intro i h1 h2
    rw [List.getElem_zipWith, List.getElem_set, List.getElem_set]
    split
    · rename_i h
      subst h
      simp
    · simp

omit [LinearOrder K] [IsStrictOrderedRing K] in
theorem axesAt_length (refs : List RefDim) (L z : List ℕ) (hL : L.length = refs.length)
    (hz : z.length = refs.length) : (axesAt refs L z : List (Axis K)).length = refs.length := by
  induction refs generalizing L z with
  | nil => rfl
  | cons r rs ih =>
    cases L with
    | nil => simp at hL
    | cons l ls =>
      cases z with
      | nil => simp at hz
      | cons y ys =>
        rw [axesAt, List.length_cons, ih ls ys (by simpa using hL) (by simpa using hz),
          List.length_cons]

theorem axesAt_grid (refs : List RefDim) (L x : List ℕ)
    (hL : List.Forall₂ (fun l (r : RefDim) => l ≤ r.level) L refs) (hx : InBox (wholeSizes refs L) x) :
    List.Forall₂ (fun j (a : Axis K) => j < nodal a.level a.boundary ∧
      a.x = ((pos a.boundary j : ℕ) : K) / 2 ^ a.level) x (axesAt refs L (placeOf refs L x)) := by
  induction hL generalizing x with
  | nil => cases hx; exact .nil
  | @cons l r ls rs h1 h2 ih =>
    unfold wholeSizes at hx
    rw [List.zipWith_cons_cons] at hx
    cases hx with
    | @cons a _ xs _ ha hxs =>
      unfold placeOf
      rw [List.zipWith_cons_cons, List.zipWith_cons_cons, axesAt]
      refine .cons ⟨ha, ?_⟩ (ih xs hxs)
      simp only
      rw [C16_refIndex_same_point]
      have e : (2 : K) ^ r.level = 2 ^ l * 2 ^ (r.level - l) := by
        rw [← pow_add]; congr 1; omega
      rw [e]
      push_cast
      have : (2 : K) ^ (r.level - l) ≠ 0 := by positivity
      field_simp

omit [LinearOrder K] [IsStrictOrderedRing K] in
theorem axesAt_boundary {refs : List RefDim} (hr : ∀ r ∈ refs, r.boundary ≤ 2) (L z : List ℕ) :
    ∀ a ∈ (axesAt refs L z : List (Axis K)), a.boundary ≤ 2 := by
  induction refs generalizing L z with
  | nil => intro a ha; simp [axesAt] at ha
  | cons r rs ih =>
    cases L with
    | nil => intro a ha; simp [axesAt] at ha
    | cons l ls =>
      cases z with
      | nil => intro a ha; simp [axesAt] at ha
      | cons y ys =>
        intro a ha
        rw [axesAt, List.mem_cons] at ha
        rcases ha with rfl | ha
        · exact hr r (by simp)
        · exact ih (fun r h => hr r (by simp [h])) ls ys a ha

/-- The interpolant at the points of its grid. -/
theorem interpAt_grid [FloorRing K] {refs : List RefDim} (hr : ∀ r ∈ refs, ValidRef r) {L : List ℕ}
    (hL : ValidComponent refs L) (u : ℕ → K) {q : ℕ} (hq : q < numLocal (oneProcess refs) L) :
    interpAt refs L u (spatialOf (oneProcess refs) L q) = u q := by
  unfold numLocal at hq
  rw [sizes_oneProcess] at hq
  obtain ⟨x1, x2⟩ := getVectorIndex_spec _ _ hq
  rw [spatial_oneProcess]
  unfold interpAt
  rw [C56_interp_grid_point _ (axesAt_boundary (fun r h => (hr r h).boundary) _ _) _
    (axesAt_grid refs L _ hL.le x1), x2]

end interp

/-! ### The transformations are linear and act dimension by dimension -/

section acts

variable [Field K]

theorem act_listSum {α : Type} (n : ℕ) (A : ℕ → ℕ → K) (k : ℕ) (l : List α)
    (f : α → List ℕ → K) (x : List ℕ) :
    act n A k (fun x => (l.map fun t => f t x).sum) x = (l.map fun t => act n A k (f t) x).sum := by
  induction l with
  | nil => simp [act]
  | cons t l ih =>
    simp only [List.map_cons, List.sum_cons]
    rw [← ih]
    unfold act
    rw [← Finset.sum_add_distrib]
    refine Finset.sum_congr rfl fun j _ => ?_
    ring

theorem actAll_listSum {α : Type} (sizes : List ℕ) (A : ℕ → ℕ → ℕ → K) (dims : List ℕ) (l : List α)
    (f : α → List ℕ → K) (x : List ℕ) :
    actAll sizes A dims (fun x => (l.map fun t => f t x).sum) x =
      (l.map fun t => actAll sizes A dims (f t) x).sum := by
  induction dims generalizing f with
  | nil => rfl
  | cons k ks ih =>
    have := ih fun t => act (sizes.getD k 0) (A k) k (f t)
    unfold actAll at this ⊢
    simp only [List.foldl_cons]
    rw [← this]
    have e : (act (sizes.getD k 0) (A k) k fun x => (l.map fun t => f t x).sum) =
        fun x => (l.map fun t => act (sizes.getD k 0) (A k) k (f t) x).sum := by
      funext x
      exact act_listSum _ _ _ _ _ _
    rw [e]

theorem actAll_mul (sizes : List ℕ) (A : ℕ → ℕ → ℕ → K) (dims : List ℕ) (c : K)
    (f : List ℕ → K) (x : List ℕ) :
    actAll sizes A dims (fun x => c * f x) x = c * actAll sizes A dims f x := by
  induction dims generalizing f with
  | nil => rfl
  | cons k ks ih =>
    have := ih (act (sizes.getD k 0) (A k) k f)
    unfold actAll at this ⊢
    simp only [List.foldl_cons]
    rw [← this]
    have e : (act (sizes.getD k 0) (A k) k fun x => c * f x) =
        fun x => c * act (sizes.getD k 0) (A k) k f x := by
      funext x
      unfold act
      rw [Finset.mul_sum]
      refine Finset.sum_congr rfl fun j _ => ?_
      ring
    rw [e]

/-- If the values of all points with index `i` in dimension `k` vanish, transformations in other dimensions
keep them zero. -/
theorem actAll_zero_slice {sizes dims : List ℕ} (hd : ∀ k ∈ dims, k < sizes.length)
    (A : ℕ → ℕ → ℕ → K) {k i : ℕ} (hk : k ∉ dims) {g : List ℕ → K}
    (h : ∀ x, InBox sizes x → x.getD k 0 = i → g x = 0) :
    ∀ x, InBox sizes x → x.getD k 0 = i → actAll sizes A dims g x = 0 := by
  induction dims generalizing g with
  | nil => exact h
  | cons m ms ih =>
    have hm := hd m (by simp)
    refine ih (fun k h => hd k (by simp [h])) (fun h => hk (by simp [h])) ?_
    intro x hx hxk
    unfold act
    refine Finset.sum_eq_zero fun j hj => ?_
    rw [List.getD_eq_getElem _ _ hm, Finset.mem_range] at hj
    rw [h _ (inBox_set hx hm hj) (by
      rw [getD_set_ne _ _ _ _ _ (by rintro rfl; simp at hk)]; exact hxk), mul_zero]

theorem selectedDims_nodup (sel : List Bool) : (selectedDims sel).Nodup :=
  List.Nodup.filter _ List.nodup_range

/-- The hierarchization of a component grid as transformations dimension by dimension. -/
theorem hier_act {refs : List RefDim} (hr : ∀ r ∈ refs, ValidRef r) (hs : Serial refs)
    {P : CombineParams} (hP : ParamsOk refs P)
    {H D : List ℕ → (ℕ → K) → ℕ → K} {L : List ℕ} (hL : ValidComponent refs L)
    (hm : GridMaps (compDims refs P L) (selectedDims P.sel) (H L) (D L)) :
    ∃ A : ℕ → ℕ → ℕ → K,
      (∀ u : ℕ → K, ∀ p < numLocal refs L, H L u p =
        actAll ((List.zipWith localOf refs L).map (·.size)) A (selectedDims P.sel)
          (fun x => u (sequentialIndex ((List.zipWith localOf refs L).map (·.size)) x))
          (getVectorIndex ((List.zipWith localOf refs L).map (·.size)) p)) ∧
      ∀ k ∈ selectedDims P.sel, ∀ (hk : k < refs.length) (hk' : k < L.length),
        LinPole (nodal L[k] refs[k].boundary) (fun _ loc =>
          hierPole (P.bases[k]'(by rw [← hP.bases.length_eq]; exact hk)) refs[k].boundary L[k]
            ((effectiveLMin P.boundary P.lmin)[k]'(by rw [length_effectiveLMin, hP.lmin]; exact hk))
            0 [] (fun _ => 0) loc) (A k) := by
  have hi := compDims_invertible (L := L) hr hs hP hL
  obtain ⟨A, B, hA⟩ := grid_linPoles (K := K) (compDims refs P L) fun s hs => (hi.1 s hs).1
  obtain ⟨hlL, heL⟩ := compDims_getElem hs hP hL.le.length_eq
  have hsz := compDims_sizes hs hP hL.le.length_eq
  have hd : ∀ k ∈ selectedDims P.sel, k < (compDims refs P L).length := by
    intro k hk
    rw [hlL, ← hP.sel]
    exact selectedDims_lt k hk
  have hd' : ∀ k ∈ selectedDims P.sel,
      k < ((compDims refs P L).map fun s => poleLength s.lmax s.b).length := by simpa using hd
  have hnum : ((compDims refs P L).map fun s => nodal s.lmax s.b).prod = numLocal refs L := by
    rw [hsz]; rfl
  refine ⟨A, fun u p hp => ?_, fun k hk hk1 hk2 => ?_⟩
  · obtain ⟨m, a1, a2, a3⟩ := hm.hier (fun _ _ _ => 0) ⟨numLocal refs L, u⟩ hnum.symm
    obtain ⟨m', b1, b2, b3⟩ := transformGrid_eq (grid_pos _ hi.2) hd'
      (fun k hk => (hA k (hd k hk) fun _ _ _ => 0).1) ⟨numLocal refs L, u⟩ hnum.symm
    obtain rfl := Option.some.inj (a1.symm.trans b1)
    rw [← a3 p hp]
    obtain ⟨c1, c2⟩ := getVectorIndex_spec ((compDims refs P L).map fun s => nodal s.lmax s.b) p
      (by rw [hnum]; exact hp)
    have hb3 := b3 _ c1
    simp only at hb3
    rw [show sequentialIndex ((compDims refs P L).map fun s => poleLength s.lmax s.b) _ = p from c2]
      at hb3
    rw [hb3, ← hsz]
    rfl
  · have e1 : ((compDims refs P L).map fun s => poleLength s.lmax s.b).getD k 0 =
        nodal L[k] refs[k].boundary := by
      rw [List.getD_eq_getElem _ _ (by simpa using hd k hk), List.getElem_map, heL k hk1]
      rfl
    have hAk := (hA k (hd k hk) fun _ _ _ => 0).1
    rw [e1, List.getElem?_eq_getElem (hd k hk), heL k hk1] at hAk
    simpa only [Option.bind_some] using hAk

end acts

/-! ### Surpluses of interpolants -/

theorem inSubspace_getElem {g : List LocalDim} {x l : List ℕ} (h : InSubspace g x l) (k : ℕ)
    (hk : k < g.length) : ∃ (hx : k < x.length) (hl : k < l.length),
      x[k] < g[k].size ∧ (PointLevel g[k].level (pos g[k].boundary (g[k].first + x[k])) l[k] ∨
        (l[k] = 1 ∧ PointLevel g[k].level (pos g[k].boundary (g[k].first + x[k])) 0)) := by
  induction g generalizing x l k with
  | nil => simp at hk
  | cons d g ih =>
    cases x with
    | nil => simp [InSubspace] at h
    | cons y ys =>
      cases l with
      | nil => simp [InSubspace] at h
      | cons a as =>
        rw [InSubspace] at h
        cases k with
        | zero => exact ⟨by simp, by simp, h.1⟩
        | succ k =>
          obtain ⟨h1, h2, h3⟩ := ih h.2 k (by simpa using hk)
          exact ⟨by simpa using h1, by simpa using h2, by simpa using h3⟩

section surplus

variable [Field K] [LinearOrder K] [IsStrictOrderedRing K]

theorem oneProcess_getElem (refs : List RefDim) (k : ℕ) (hk : k < (oneProcess refs).length)
    (hk' : k < refs.length) :
    (oneProcess refs)[k].boundary = refs[k].boundary ∧ (oneProcess refs)[k].level = refs[k].level := by
  simp [oneProcess]

/-- Hierarchical surpluses of the interpolant of a grid of level `L` on a grid of level `M` vanish at the
points which are finer than `L` in a hierarchized dimension. -/
theorem interp_surplus_zero {refs : List RefDim} (hr : ∀ r ∈ refs, ValidRef r)
    {P : CombineParams} (hP : ParamsOk refs P) (hhat : ∀ β ∈ P.bases, β = .hat)
    {H D : List ℕ → (ℕ → K) → ℕ → K} {L M : List ℕ} (hL : ValidComponent refs L)
    (hM : ValidComponent refs M)
    (hm : GridMaps (compDims (oneProcess refs) P M) (selectedDims P.sel) (H M) (D M))
    (u : ℕ → K) {p : ℕ} (hp : p < numLocal (oneProcess refs) M) {k lam : ℕ}
    (hk : k ∈ selectedDims P.sel) (hkr : k < refs.length) (hkL : k < L.length) (hkM : k < M.length)
    (hlev : PointLevel M[k] (pos refs[k].boundary ((getVectorIndex (wholeSizes refs M) p).getD k 0)) lam)
    (h1 : L[k] < lam) (h2 : (effectiveLMin P.boundary P.lmin).getD k 0 < lam) :
    H M (fun q => interpAt refs L u (spatialOf (oneProcess refs) M q)) p = 0 := by
  have hP' := paramsOk_oneProcess hP
  have hM' := validComponent_oneProcess.2 hM
  obtain ⟨A, a1, a2⟩ := hier_act (validRef_oneProcess hr) (serial_oneProcess refs) hP' hM' hm
  have hk1 : k < (oneProcess refs).length := by simpa [oneProcess] using hkr
  obtain ⟨eb, -⟩ := oneProcess_getElem refs k hk1 hkr
  have hA := a2 k hk hk1 hkM
  rw [a1 _ p hp, sizes_oneProcess]
  have hw : k < (wholeSizes refs M).length := by
    unfold wholeSizes; rw [List.length_zipWith]; omega
  have hwk : (wholeSizes refs M)[k] = nodal M[k] refs[k].boundary := by
    simp only [wholeSizes, List.getElem_zipWith]
  have hb : P.bases[k]'(by rw [← hP.bases.length_eq]; exact hkr) = .hat :=
    hhat _ (List.getElem_mem _)
  have hd : ∀ k ∈ selectedDims P.sel, k < (wholeSizes refs M).length := by
    intro j hj
    have := selectedDims_lt j hj
    have h3 := hP.sel
    have h4 := hM.le.length_eq
    unfold wholeSizes
    rw [List.length_zipWith]
    omega
  have hlt : p < (wholeSizes refs M).prod := by
    unfold numLocal at hp; rwa [sizes_oneProcess] at hp
  obtain ⟨x1, -⟩ := getVectorIndex_spec _ _ hlt
  rw [actAll_perm _ A (List.perm_cons_erase hk)]
  refine actAll_zero_slice (g := act ((wholeSizes refs M).getD k 0) (A k) k fun x =>
      interpAt refs L u (spatialOf (oneProcess refs) M (sequentialIndex (wholeSizes refs M) x)))
    (i := (getVectorIndex (wholeSizes refs M) p).getD k 0)
    (fun j hj => hd j (List.mem_of_mem_erase hj)) A
    (fun h => ((selectedDims_nodup P.sel).mem_erase_iff.1 h).1 rfl) ?_ _ x1 rfl
  intro x hx hxk
  have hxl : k < x.length := by
    have := hx.length_eq; omega
  have hxk' : x[k] < nodal M[k] refs[k].boundary := by
    have := (inBox_getD hx hw)
    rw [← hwk]
    have h3 := List.forall₂_iff_get.1 hx
    exact h3.2 k hxl hw
  obtain ⟨G, hG⟩ := interp_line refs L (placeOf refs M x) hL.le.length_eq (by
    unfold placeOf
    have e1 := hx.length_eq
    unfold wholeSizes at e1
    rw [List.length_zipWith] at e1
    rw [List.length_zipWith, List.length_zipWith]
    have := hM.le.length_eq
    omega) k hkr fun is => u (sequentialIndex (wholeSizes refs L) is)
  unfold act
  rw [List.getD_eq_getElem _ _ hw, hwk]
  have h2' := (List.forall₂_iff_get.1 hP.bases).2 k hkr (by rw [← hP.bases.length_eq]; exact hkr)
  have hle := (List.forall₂_iff_get.1 hM.le).2 k hkM hkr
  simp only [List.get_eq_getElem] at hle h2'
  have h29 : M[k] ≤ 29 := by
    have : refs[k].level ≤ 29 := by
      rw [hb] at h2'
      rcases h2' with h2' | h2' <;> omega
    omega
  have hlm : (effectiveLMin P.boundary P.lmin).getD k 0 =
      (effectiveLMin P.boundary P.lmin)[k]'(by rw [length_effectiveLMin, hP.lmin]; exact hkr) :=
    List.getD_eq_getElem _ _ _
  rw [hlm] at h2
  rw [eb, hb] at hA
  have key := line_surplus_zero (L := L[k]) (hr _ (List.getElem_mem hkr)).boundary h29
    (effectiveLMin_zero hP hkr) (junk := fun _ _ => 0) hA G (i := x[k]) hxk' (lam := lam) (by
      rw [List.getD_eq_getElem _ _ hxl] at hxk
      rw [hxk]; exact hlev) h1 h2
  rw [← key, List.getD_eq_getElem _ _ hxl]
  refine Finset.sum_congr rfl fun j hj => ?_
  have hj' : InBox (wholeSizes refs M) (x.set k j) :=
    inBox_set hx hw (by rw [hwk]; exact Finset.mem_range.1 hj)
  beta_reduce
  rw [spatial_oneProcess, getVectorIndex_sequentialIndex _ _ hj',
    placeOf_set refs M x k j hkr hM.le.length_eq]
  unfold interpAt
  rw [hG, C16_refIndex_same_point]
  have e : (2 : K) ^ refs[k].level = 2 ^ M[k] * 2 ^ (refs[k].level - M[k]) := by
    rw [← pow_add]; congr 1; omega
  congr 2
  rw [e]
  push_cast
  have : (2 : K) ^ (refs[k].level - M[k]) ≠ 0 := by positivity
  field_simp

/-- The surpluses of a component grid, taken at the points of another grid and zero elsewhere, are the
surpluses of the interpolant on the other grid. -/
theorem interp_surplus [FloorRing K] {refs : List RefDim} (hr : ∀ r ∈ refs, ValidRef r)
    {P : CombineParams} (hP : ParamsOk refs P) (hhat : ∀ β ∈ P.bases, β = .hat)
    {H D : List ℕ → (ℕ → K) → ℕ → K}
    (hm : ∀ L, ValidComponent refs L →
      GridMaps (compDims (oneProcess refs) P L) (selectedDims P.sel) (H L) (D L))
    {L M : List ℕ} (hL : ValidComponent refs L) (hM : ValidComponent refs M)
    (hlmin : List.Forall₂ (· ≤ ·) (effectiveLMin P.boundary P.lmin) L)
    (hsel : ∀ k < refs.length, P.sel.getD k false = false → M.getD k 0 ≤ L.getD k 0)
    (u : ℕ → K) {p : ℕ} (hp : p < numLocal (oneProcess refs) M) :
    (∑ q ∈ Finset.range (numLocal (oneProcess refs) L) with
        spatialOf (oneProcess refs) L q = spatialOf (oneProcess refs) M p, H L u q) =
      H M (fun q => interpAt refs L u (spatialOf (oneProcess refs) M q)) p := by
  have hr' := validRef_oneProcess hr
  have hL' := validComponent_oneProcess.2 hL
  have hM' := validComponent_oneProcess.2 hM
  obtain ⟨v, hv⟩ := hier_samples hr' (serial_oneProcess refs) (paramsOk_oneProcess hP) hhat
    (fun L h => hm L (validComponent_oneProcess.1 h)) (interpAt refs L u)
  have e1 : (∑ q ∈ Finset.range (numLocal (oneProcess refs) L) with
        spatialOf (oneProcess refs) L q = spatialOf (oneProcess refs) M p, H L u q) =
      ∑ q ∈ Finset.range (numLocal (oneProcess refs) L) with
        spatialOf (oneProcess refs) L q = spatialOf (oneProcess refs) M p,
        v (spatialOf (oneProcess refs) M p) := by
    refine Finset.sum_congr rfl fun q hq => ?_
    rw [Finset.mem_filter, Finset.mem_range] at hq
    rw [hv L hL' u (fun p hp => (interpAt_grid hr hL u hp).symm) q hq.1, hq.2]
  obtain ⟨l, ⟨s1, s2, s3⟩, -⟩ := exists_unique_subspace (List.zipWith localOf (oneProcess refs) M)
    (validLocal_of_component hr' hM') _ (getVectorIndex_spec _ _ hp).1
  have hlenM := hM.le.length_eq
  have hlenL := hL.le.length_eq
  have hlenO : (oneProcess refs).length = refs.length := by simp [oneProcess]
  have hl : l ∈ getDownSet M := by
    rw [mem_downSet_iff]
    refine ⟨s1, ?_⟩
    rw [List.forall₂_iff_get] at s3 ⊢
    have e := s3.1
    rw [List.length_zipWith] at e
    refine ⟨by omega, fun i a b => ?_⟩
    have := s3.2 i a (by rw [List.length_zipWith]; omega)
    simp only [List.get_eq_getElem, List.getElem_zipWith, localOf] at this ⊢
    exact this
  have hpm := ((points_facts hr' hM' hl).2.2.1 p).2 ⟨hp, s2⟩
  obtain ⟨j, hj, hpj⟩ := List.mem_iff_getElem.1 hpm
  have e2 := sum_same_place hr' hL' hM' hl hj hpj fun _ => v (spatialOf (oneProcess refs) M p)
  rw [e1, e2]
  split
  · exact (hv M hM' _ (fun _ _ => rfl) p hp).symm
  · rename_i hn
    symm
    rw [mem_downSet_iff] at hn
    have hl2 := ((mem_downSet_iff _ _).1 hl).2
    have hll := hl2.length_eq
    have : ∃ k, ∃ (h1 : k < l.length) (h2 : k < L.length), L[k] < l[k] := by
      by_contra hcon
      push Not at hcon
      refine hn ⟨s1, ?_⟩
      rw [List.forall₂_iff_get]
      exact ⟨by omega, fun i a b => hcon i a b⟩
    obtain ⟨k, h1, h2, hlt⟩ := this
    have hkr : k < refs.length := by omega
    have hkM : k < M.length := by omega
    have hkO : k < (oneProcess refs).length := by omega
    have hle := (List.forall₂_iff_get.1 hl2).2 k h1 hkM
    simp only [List.get_eq_getElem] at hle
    have hk : k ∈ selectedDims P.sel := by
      unfold selectedDims
      rw [List.mem_filter, List.mem_range, hP.sel]
      refine ⟨hkr, ?_⟩
      by_contra hcon
      have := hsel k hkr (by simpa using hcon)
      rw [List.getD_eq_getElem _ _ hkM, List.getD_eq_getElem _ _ h2] at this
      omega
    have hlm : k < (effectiveLMin P.boundary P.lmin).length := by
      have := hlmin.length_eq; omega
    have hlm2 := (List.forall₂_iff_get.1 hlmin).2 k hlm h2
    simp only [List.get_eq_getElem] at hlm2
    obtain ⟨g1, g2, g3, g4⟩ := inSubspace_getElem s2 k (by rw [List.length_zipWith]; omega)
    rw [sizes_oneProcess] at g1
    simp only [sizes_oneProcess] at g4
    have hLpos := hL.pos _ (List.getElem_mem h2)
    rw [List.getElem_zipWith, localOf_serial (serial_oneProcess refs _ (List.getElem_mem hkO)),
      (oneProcess_getElem refs k hkO hkr).1] at g4
    rcases g4 with g4 | g4
    · refine interp_surplus_zero hr hP hhat hL hM (hm M hM) u hp hk hkr h2 hkM (lam := l[k]) ?_ hlt ?_
      · rw [List.getD_eq_getElem _ _ g1]
        simpa only [zero_add] using g4
      · rw [List.getD_eq_getElem _ _ hlm]
        omega
    · omega

/-- Dehierarchizing the combined surpluses on any grid gives the combination of the interpolants. -/
theorem plot_interp [FloorRing K] {refs : List RefDim} (hr : ∀ r ∈ refs, ValidRef r)
    {P : CombineParams} (hP : ParamsOk refs P) (hhat : ∀ β ∈ P.bases, β = .hat)
    {H D : List ℕ → (ℕ → K) → ℕ → K}
    (hm : ∀ L, ValidComponent refs L →
      GridMaps (compDims (oneProcess refs) P L) (selectedDims P.sel) (H L) (D L))
    {n : ℕ} {T : ℕ → List (K × List ℕ × (ℕ → K))} {M : List ℕ} (hM : ValidComponent refs M)
    (hT : ∀ g < n, ∀ t ∈ T g, ValidComponent refs t.2.1 ∧
      List.Forall₂ (· ≤ ·) (effectiveLMin P.boundary P.lmin) t.2.1 ∧
      ∀ k < refs.length, P.sel.getD k false = false → M.getD k 0 ≤ t.2.1.getD k 0)
    {p : ℕ} (hp : p < numLocal (oneProcess refs) M) :
    D M (fun q => valueAtPlace (oneProcess refs) n (hierVals H T) (spatialOf (oneProcess refs) M q)) p =
      ((List.range n).map fun m => ((T m).map fun t =>
        t.1 * interpAt refs t.2.1 t.2.2 (spatialOf (oneProcess refs) M p)).sum).sum := by
  have hnum : ((compDims (oneProcess refs) P M).map fun s => nodal s.lmax s.b).prod =
      numLocal (oneProcess refs) M := by
    rw [compDims_sizes (serial_oneProcess refs) (paramsOk_oneProcess hP)
      (validComponent_oneProcess.2 hM).le.length_eq]; rfl
  obtain ⟨A, a1, -⟩ := hier_act (validRef_oneProcess hr) (serial_oneProcess refs)
    (paramsOk_oneProcess hP) (validComponent_oneProcess.2 hM) (hm M hM)
  set W : ℕ → K := fun q => ((List.range n).map fun m => ((T m).map fun t =>
    t.1 * interpAt refs t.2.1 t.2.2 (spatialOf (oneProcess refs) M q)).sum).sum with hW
  have key : ∀ q < numLocal (oneProcess refs) M,
      valueAtPlace (oneProcess refs) n (hierVals H T) (spatialOf (oneProcess refs) M q) = H M W q := by
    intro q hq
    rw [a1 W q hq, hW]
    simp only
    rw [actAll_listSum _ _ _ _ fun m x => ((T m).map fun t =>
      t.1 * interpAt refs t.2.1 t.2.2 (spatialOf (oneProcess refs) M
        (sequentialIndex ((List.zipWith localOf (oneProcess refs) M).map (·.size)) x))).sum]
    unfold valueAtPlace
    congr 1
    refine List.map_congr_left fun m hmem => ?_
    rw [actAll_listSum _ _ _ _ fun (t : K × List ℕ × (ℕ → K)) x =>
      t.1 * interpAt refs t.2.1 t.2.2 (spatialOf (oneProcess refs) M
        (sequentialIndex ((List.zipWith localOf (oneProcess refs) M).map (·.size)) x))]
    unfold hierVals
    rw [List.map_map]
    congr 1
    refine List.map_congr_left fun t ht => ?_
    obtain ⟨t1, t2, t3⟩ := hT m (List.mem_range.1 hmem) t ht
    rw [actAll_mul, ← a1 (fun q => interpAt refs t.2.1 t.2.2 (spatialOf (oneProcess refs) M q)) q hq]
    simp only [Function.comp]
    rw [interp_surplus hr hP hhat hm t1 hM t2 t3 t.2.2 hq]
  rw [((hm M hM).congr _ (H M W) (by rw [hnum]; exact key) p (by rw [hnum]; exact hp)).2]
  exact ((hm M hM).inv W p (by rw [hnum]; exact hp)).1

end surplus

end Verif

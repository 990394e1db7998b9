import Verif.Model.ErrorNorms
import Mathlib.Tactic.Ring
import Mathlib.Tactic.FieldSimp
import Mathlib.Tactic.Positivity

/-!
# C131: error norms of the Python interface

An error is 0 exactly if the arrays agree. Relative errors do not change with the unit of the values and are 1
for the approximation 0. If all values deviate by `e`, the average error is `|e|`. The norms for GENE do not
depend on the layers of points that are zero by convention.
-/

namespace Verif.ErrorNorms

private theorem ok_bind {α β : Type} (a : α) (f : α → Outcome β) : (Outcome.ok a).bind f = f a := rfl

/-! ### Indices -/

private theorem length_indices : ∀ s : List ℕ, (indices s).length = s.prod
  | [] => rfl
  | n :: s => by
    rw [indices, List.length_flatMap, List.prod_cons]
    simp [length_indices s]

/-- An index within a shape. -/
def Within (idx shape : List ℕ) : Prop := List.Forall₂ (· < ·) idx shape

private theorem mem_indices : ∀ {s idx : List ℕ}, idx ∈ indices s → Within idx s
  | [], idx, h => by
    rw [indices, List.mem_singleton] at h
    rw [h]
    exact .nil
  | n :: s, idx, h => by
    rw [indices, List.mem_flatMap] at h
    obtain ⟨i, hi, h⟩ := h
    obtain ⟨t, ht, rfl⟩ := List.mem_map.mp h
    exact .cons (List.mem_range.mp hi) (mem_indices ht)

private theorem indices_mem : ∀ {s idx : List ℕ}, Within idx s → idx ∈ indices s
  | _, _, .nil => by simp [indices]
  | _, _, .cons (a := i) (l₁ := t) hi ht => by
    rw [indices, List.mem_flatMap]
    exact ⟨i, List.mem_range.mpr hi, List.mem_map.mpr ⟨t, indices_mem ht, rfl⟩⟩

private theorem sub_same {a r : NDArray} (h : a.shape = r.shape) :
    sub a.flatten r.flatten = .ok ((indices r.shape).map fun i => a.val i - r.val i) := by
  unfold sub NDArray.flatten
  rw [h, if_pos (by simp), List.zipWith_map, List.zipWith_self]

/-! ### Zero -/

private theorem sum_eq_zero : ∀ {l : List ℝ}, (∀ x ∈ l, 0 ≤ x) → (l.sum = 0 ↔ ∀ x ∈ l, x = 0)
  | [], _ => by simp
  | x :: l, h => by
    have h0 : 0 ≤ l.sum := List.sum_nonneg fun y hy => h y (by simp [hy])
    have hx := h x (by simp)
    rw [List.sum_cons, List.forall_mem_cons, ← sum_eq_zero fun y hy => h y (by simp [hy])]
    constructor
    · intro e
      constructor <;> linarith
    · rintro ⟨e1, e2⟩
      rw [e1, e2, add_zero]

private theorem sum_norm_nonneg (l : List ℂ) : 0 ≤ (l.map (‖·‖ ^ 2)).sum :=
  List.sum_nonneg fun x hx => by
    obtain ⟨z, -, rfl⟩ := List.mem_map.mp hx
    positivity

private theorem norm1_eq_zero {l : List ℂ} : norm1 l = 0 ↔ ∀ z ∈ l, z = 0 := by
  unfold norm1
  rw [sum_eq_zero fun x hx => by
    obtain ⟨z, -, rfl⟩ := List.mem_map.mp hx
    exact norm_nonneg z]
  simp

private theorem norm2_eq_zero {l : List ℂ} : norm2 l = 0 ↔ ∀ z ∈ l, z = 0 := by
  unfold norm2
  rw [Real.sqrt_eq_zero (sum_norm_nonneg l), sum_eq_zero fun x hx => by
    obtain ⟨z, -, rfl⟩ := List.mem_map.mp hx
    positivity]
  simp

private theorem max_eq_zero : ∀ {l : List ℂ}, (l.map (‖·‖)).foldr max 0 = 0 ↔ ∀ z ∈ l, z = 0
  | [] => by simp
  | z :: l => by
    have h0 : ∀ m : List ℂ, (0 : ℝ) ≤ (m.map (‖·‖)).foldr max 0 := fun m => by
      cases m with
      | nil => exact le_refl _
      | cons w m => exact le_max_of_le_left (norm_nonneg w)
    rw [List.map_cons, List.foldr_cons, List.forall_mem_cons, ← max_eq_zero]
    constructor
    · intro e
      have h1 : ‖z‖ ≤ 0 := (le_max_left _ _).trans_eq e
      have h2 : (l.map (‖·‖)).foldr max 0 ≤ 0 := (le_max_right _ _).trans_eq e
      exact ⟨norm_le_zero_iff.mp h1, le_antisymm h2 (h0 l)⟩
    · rintro ⟨e1, e2⟩
      rw [e2, e1, norm_zero, max_self]

private theorem forall_diff {a r : NDArray} :
    (∀ z ∈ (indices r.shape).map fun i => a.val i - r.val i, z = 0)
      ↔ ∀ i, Within i r.shape → a.val i = r.val i := by
  constructor
  · intro h i hi
    exact sub_eq_zero.mp (h _ (List.mem_map.mpr ⟨i, indices_mem hi, rfl⟩))
  · intro h z hz
    obtain ⟨i, hi, rfl⟩ := List.mem_map.mp hz
    exact sub_eq_zero.mpr (h i (mem_indices hi))

/-- **C131 (zero).** The errors are 0 exactly if the arrays agree. -/
theorem C131_zero {a r : NDArray} (h : a.shape = r.shape) :
    (∃ e, l1Error a r = .ok e ∧ (e = 0 ↔ ∀ i, Within i r.shape → a.val i = r.val i))
      ∧ (∃ e, l2Error a r = .ok e ∧ (e = 0 ↔ ∀ i, Within i r.shape → a.val i = r.val i))
      ∧ (r.size ≠ 0 →
        ∃ e, lInfError a r = .ok e ∧ (e = 0 ↔ ∀ i, Within i r.shape → a.val i = r.val i)) := by
  unfold l1Error l2Error lInfError
  rw [sub_same h, ok_bind, ok_bind, ok_bind]
  refine ⟨⟨_, rfl, norm1_eq_zero.trans forall_diff⟩, ⟨_, rfl, norm2_eq_zero.trans forall_diff⟩, fun hs => ?_⟩
  unfold normInf
  rw [if_neg (by rw [List.length_map, length_indices]; exact hs)]
  exact ⟨_, rfl, max_eq_zero.trans forall_diff⟩

/-- An array with a constant value. -/
def const (shape : List ℕ) (z : ℂ) : NDArray := ⟨shape, fun _ => z⟩

example : (const [2, 3] 1).shape = (const [2, 3] 0).shape ∧ (const [2, 3] 0).size ≠ 0 := by decide

/-! ### Relative errors -/

/-- All values times `c`. -/
def scale (c : ℂ) (a : NDArray) : NDArray := ⟨a.shape, fun i => c * a.val i⟩

private theorem norm2_scale (c : ℂ) (l : List ℂ) : norm2 (l.map (c * ·)) = ‖c‖ * norm2 l := by
  unfold norm2
  have : ((l.map (c * ·)).map (‖·‖ ^ 2)).sum = ‖c‖ ^ 2 * (l.map (‖·‖ ^ 2)).sum := by
    rw [List.map_map, ← List.sum_map_mul_left]
    congr 2
    funext z
    simp only [Function.comp, Complex.norm_mul]
    ring
  rw [this, Real.sqrt_mul (by positivity), Real.sqrt_sq (norm_nonneg c)]

private theorem max_scale (c : ℂ) : ∀ l : List ℂ,
    ((l.map (c * ·)).map (‖·‖)).foldr max 0 = ‖c‖ * (l.map (‖·‖)).foldr max 0
  | [] => by simp
  | z :: l => by
    rw [List.map_cons, List.map_cons, List.foldr_cons, max_scale c l, List.map_cons, List.foldr_cons,
      Complex.norm_mul, mul_max_of_nonneg _ _ (norm_nonneg c)]

private theorem normInf_of {x : List ℂ} (h : x.length ≠ 0) :
    normInf x = .ok ((x.map (‖·‖)).foldr max 0) := if_neg h

private theorem normInf_scale {c : ℂ} {x : List ℂ} (h : x.length ≠ 0) :
    normInf (x.map (c * ·)) = .ok (‖c‖ * (x.map (‖·‖)).foldr max 0) := by
  rw [normInf_of (by rw [List.length_map]; exact h), max_scale]

private theorem diff_scale (c : ℂ) (a r : NDArray) :
    ((indices (scale c r).shape).map fun i => (scale c a).val i - (scale c r).val i)
      = ((indices r.shape).map fun i => a.val i - r.val i).map (c * ·) := by
  rw [List.map_map]
  refine List.map_congr_left fun i _ => ?_
  simp only [scale, Function.comp]
  ring

private theorem flatten_scale (c : ℂ) (r : NDArray) : (scale c r).flatten = r.flatten.map (c * ·) := by
  unfold NDArray.flatten
  rw [List.map_map]
  rfl

private theorem divide_scale {x y k : ℝ} (hk : k ≠ 0) : divide (k * x) (k * y) = divide x y := by
  unfold divide
  by_cases hy : y = 0
  · rw [if_pos hy, if_pos (by rw [hy, mul_zero])]
  · rw [if_neg hy, if_neg (mul_ne_zero hk hy), mul_div_mul_left _ _ hk]

/-- **C131 (units).** Relative errors do not change if all values are multiplied with a number. -/
theorem C131_units {a r : NDArray} (h : a.shape = r.shape) {c : ℂ} (hc : c ≠ 0) :
    l2RelativeError (scale c a) (scale c r) = l2RelativeError a r
      ∧ lInfRelativeError (scale c a) (scale c r) = lInfRelativeError a r := by
  have hk : ‖c‖ ≠ 0 := norm_ne_zero_iff.mpr hc
  have hs : (scale c a).shape = (scale c r).shape := h
  constructor
  · unfold l2RelativeError l2Error
    rw [sub_same h, sub_same hs, ok_bind, ok_bind, ok_bind, ok_bind, diff_scale, flatten_scale, norm2_scale,
      norm2_scale, divide_scale hk]
  · unfold lInfRelativeError lInfError
    rw [sub_same h, sub_same hs, ok_bind, ok_bind, diff_scale, flatten_scale]
    by_cases h0 : r.shape.prod = 0
    · have hl : indices r.shape = [] := List.length_eq_zero_iff.mp ((length_indices _).trans h0)
      rw [hl]
      rfl
    · have h1 : ∀ f : List ℕ → ℂ, ((indices r.shape).map f).length ≠ 0 := fun f => by
        rw [List.length_map, length_indices]
        exact h0
      rw [normInf_scale (h1 _), normInf_scale (x := r.flatten) (h1 _), normInf_of (h1 _),
        normInf_of (x := r.flatten) (h1 _), ok_bind, ok_bind, ok_bind, ok_bind, divide_scale hk]

example : (const [2, 3] 1).shape = (const [2, 3] 0).shape ∧ (2 : ℂ) ≠ 0 := ⟨rfl, by norm_num⟩

private theorem norm_zero_sub (r : NDArray) (f : ℂ → ℝ) (hf : ∀ z, f (-z) = f z) :
    ((indices r.shape).map fun i => (const r.shape 0).val i - r.val i).map f = r.flatten.map f := by
  unfold NDArray.flatten
  rw [List.map_map, List.map_map]
  refine List.map_congr_left fun i _ => ?_
  simp only [Function.comp, const, zero_sub, hf]

private theorem divide_self {x : ℝ} (h : x ≠ 0) : divide x x = .ok 1 := by
  unfold divide
  rw [if_neg h, div_self h]

/-- **C131 (zero approximation).** If the reference is not 0, the approximation 0 has the relative error 1. -/
theorem C131_relative_partial {r : NDArray} {i : List ℕ} (hi : Within i r.shape) (h : r.val i ≠ 0) :
    l2RelativeError (const r.shape 0) r = .ok 1 ∧ lInfRelativeError (const r.shape 0) r = .ok 1 := by
  have hz : ¬ ∀ z ∈ r.flatten, z = 0 := fun hz => h (hz _ (List.mem_map.mpr ⟨i, indices_mem hi, rfl⟩))
  have hl : r.shape.prod ≠ 0 := by
    rw [← length_indices]
    exact (List.length_pos_of_mem (indices_mem hi)).ne'
  constructor
  · unfold l2RelativeError l2Error
    rw [sub_same (a := const r.shape 0) (r := r) rfl, ok_bind, ok_bind]
    have : norm2 ((indices r.shape).map fun i => (const r.shape 0).val i - r.val i) = norm2 r.flatten := by
      unfold norm2
      rw [norm_zero_sub r (‖·‖ ^ 2) fun z => by simp]
    rw [this]
    exact divide_self fun e => hz (norm2_eq_zero.mp e)
  · unfold lInfRelativeError lInfError
    rw [sub_same (a := const r.shape 0) (r := r) rfl, ok_bind]
    unfold normInf
    rw [if_neg (by rw [List.length_map, length_indices]; exact hl), ok_bind,
      if_neg (by unfold NDArray.flatten; rw [List.length_map, length_indices]; exact hl), ok_bind,
      norm_zero_sub r (‖·‖) fun z => norm_neg z]
    exact divide_self fun e => hz (max_eq_zero.mp e)

example : Within [1, 2] (const [2, 3] 5).shape ∧ (const [2, 3] 5).val [1, 2] ≠ 0 :=
  ⟨.cons (by decide) (.cons (by decide) .nil), by norm_num [const]⟩

/-- **C131 is violated by the code (L1, one axis).** The relative error is divided by the number of entries once
more: the approximation 0 has the relative error `1 / n`. -/
theorem C131_l1_relative_violated {n : ℕ} {f : List ℕ → ℂ} {i : ℕ} (hi : i < n) (h : f [i] ≠ 0) :
    l1RelativeError (const [n] 0) ⟨[n], f⟩ = .ok (1 / n) := by
  have hz : ¬ ∀ z ∈ (⟨[n], f⟩ : NDArray).flatten, z = 0 := fun hz =>
    h (hz _ (List.mem_map.mpr ⟨[i], indices_mem (.cons hi .nil), rfl⟩))
  have hn : (n : ℝ) ≠ 0 := by
    have : 0 < n := by omega
    positivity
  unfold l1RelativeError l1Error
  rw [sub_same (a := const [n] 0) (r := ⟨[n], f⟩) rfl, ok_bind, ok_bind]
  have e : norm1 ((indices [n]).map fun i => (const [n] 0).val i - f i) = norm1 (⟨[n], f⟩ : NDArray).flatten := by
    unfold norm1
    rw [norm_zero_sub ⟨[n], f⟩ (‖·‖) fun z => norm_neg z]
  rw [e, matrixNorm1, ok_bind, divide_self fun e => hz (norm1_eq_zero.mp e), ok_bind, NDArray.len]
  simp only [const, ok_bind]
  unfold divide
  rw [if_neg hn]

example : (1 : ℕ) < 3 ∧ (const [3] 5).val [1] ≠ 0 := ⟨by decide, by norm_num [const]⟩

/-- **C131 is violated by the code (L1, three and more axes).** There is an exception, since the norm of the
reference is taken without flattening it. This includes all arrays of GENE, which have six axes. -/
theorem C131_l1_axes_violated {a r : NDArray} (h : a.shape = r.shape) (hr : 3 ≤ r.shape.length) :
    l1RelativeError a r = .error := by
  have hm : matrixNorm1 r = .error := by
    unfold matrixNorm1
    match hs : r.shape with
    | [] => rfl
    | [_] => rw [hs] at hr; simp at hr
    | [_, _] => rw [hs] at hr; simp at hr
    | _ :: _ :: _ :: _ => rfl
  unfold l1RelativeError l1Error
  rw [sub_same h, ok_bind, ok_bind, hm]
  rfl

example : (const [1, 8, 16, 16, 1, 9] 1).shape = (const [1, 8, 16, 16, 1, 9] 0).shape
    ∧ 3 ≤ (const [1, 8, 16, 16, 1, 9] 0).shape.length := by decide

/-! ### Average errors -/

private theorem sum_const {l : List (List ℕ)} {f : List ℕ → ℂ} {g : ℂ → ℝ} {e : ℂ}
    (h : ∀ i ∈ l, f i = e) : ((l.map f).map g).sum = l.length * g e := by
  rw [List.map_map, List.map_congr_left (g := fun _ => g e) fun i hi => by rw [Function.comp, h i hi],
    List.map_const', List.sum_replicate, nsmul_eq_mul]

private theorem l1_const {a r : NDArray} (h : a.shape = r.shape) {e : ℂ}
    (he : ∀ i, Within i r.shape → a.val i - r.val i = e) :
    l1Error a r = .ok (r.shape.prod * ‖e‖) := by
  unfold l1Error
  rw [sub_same h, ok_bind]
  unfold norm1
  rw [sum_const fun i hi => he i (mem_indices hi), length_indices]

private theorem l2_const {a r : NDArray} (h : a.shape = r.shape) {e : ℂ}
    (he : ∀ i, Within i r.shape → a.val i - r.val i = e) :
    l2Error a r = .ok (Real.sqrt r.shape.prod * ‖e‖) := by
  unfold l2Error
  rw [sub_same h, ok_bind]
  unfold norm2
  rw [sum_const fun i hi => he i (mem_indices hi), length_indices, Real.sqrt_mul (by positivity)]
  simp

/-- **C131 (average).** If all values deviate by `e`, the average L1 error is `|e|`. For arrays with one axis this
holds for the L2 error as well. -/
theorem C131_average_partial {a r : NDArray} (h : a.shape = r.shape) (hs : r.size ≠ 0) {e : ℂ}
    (he : ∀ i, Within i r.shape → a.val i - r.val i = e) :
    l1AverageError a r = .ok ‖e‖ ∧ (r.shape.length = 1 → l2AverageError a r = .ok ‖e‖) := by
  have hs' : (r.shape.prod : ℝ) ≠ 0 := Nat.cast_ne_zero.mpr hs
  constructor
  · unfold l1AverageError NDArray.size
    rw [h, if_pos rfl, l1_const h he, ok_bind]
    unfold divide
    rw [if_neg hs', mul_div_cancel_left₀ _ hs']
  · intro hl
    unfold l2AverageError NDArray.len
    rw [l2_const h he, ok_bind, h]
    obtain ⟨n, hn⟩ := List.length_eq_one_iff.mp hl
    rw [hn] at hs' ⊢
    rw [List.prod_singleton] at hs' ⊢
    rw [ok_bind]
    have : Real.sqrt n ≠ 0 := by
      rw [Real.sqrt_ne_zero (by positivity)]
      exact hs'
    unfold divide
    rw [if_neg this, mul_div_cancel_left₀ _ this]

example : (const [4] 3).shape = (const [4] 1).shape ∧ (const [4] 1).size ≠ 0
    ∧ (∀ i, Within i (const [4] 1).shape → (const [4] 3).val i - (const [4] 1).val i = 2) :=
  ⟨rfl, by decide, fun _ _ => by norm_num [const]⟩

/-- **C131 is violated by the code (L2 average, several axes).** Only the first axis counts: the average error of
values that all deviate by `e` is `|e|` times the root of the number of entries of the other axes. -/
theorem C131_l2_average_violated {a r : NDArray} (h : a.shape = r.shape) {n : ℕ} {s : List ℕ}
    (hr : r.shape = n :: s) (hn : n ≠ 0) {e : ℂ} (he : ∀ i, Within i r.shape → a.val i - r.val i = e) :
    l2AverageError a r = .ok (Real.sqrt s.prod * ‖e‖) := by
  unfold l2AverageError NDArray.len
  rw [l2_const h he, ok_bind, h, hr, List.prod_cons, Nat.cast_mul, Real.sqrt_mul (by positivity)]
  simp only [ok_bind]
  have : Real.sqrt n ≠ 0 := by
    rw [Real.sqrt_ne_zero (by positivity)]
    exact Nat.cast_ne_zero.mpr hn
  unfold divide
  rw [if_neg this, mul_assoc, mul_div_cancel_left₀ _ this]

/-- With 2 times 4 entries that deviate by 1, the average error is 2. -/
example : l2AverageError (const [2, 4] 1) (const [2, 4] 0) = .ok 2 := by
  rw [C131_l2_average_violated (a := const [2, 4] 1) (r := const [2, 4] 0) (n := 2) (s := [4]) (e := 1) rfl rfl
    (by decide) fun _ _ => by norm_num [const]]
  have : Real.sqrt (([4] : List ℕ).prod : ℕ) = 2 := by
    rw [show (([4] : List ℕ).prod : ℕ) = 4 from rfl, show ((4 : ℕ) : ℝ) = 2 ^ 2 by norm_num,
      Real.sqrt_sq (by norm_num)]
  rw [this, show ‖(1 : ℂ)‖ = 1 by simpa using Complex.norm_natCast 1, mul_one]

/-! ### The norms for GENE -/

/-- The inner points of an array with six axes: without the last point of axes 1 and 3, and without the first and
the last point of axis 2. -/
def Inner (shape : List ℕ) (i : List ℕ) : Prop :=
  Within i shape ∧ i.getD 1 0 + 1 < shape.getD 1 0 ∧ 1 ≤ i.getD 2 0 ∧ i.getD 2 0 + 1 < shape.getD 2 0
    ∧ i.getD 3 0 + 1 < shape.getD 3 0

private theorem within_six {i : List ℕ} {a b c d e f : ℕ} (h : Within i [a, b, c, d, e, f]) :
    ∃ i0 i1 i2 i3 i4 i5, i = [i0, i1, i2, i3, i4, i5] ∧ i0 < a ∧ i1 < b ∧ i2 < c ∧ i3 < d ∧ i4 < e ∧ i5 < f := by
  obtain _ | ⟨h0, _ | ⟨h1, _ | ⟨h2, _ | ⟨h3, _ | ⟨h4, _ | ⟨h5, _ | _⟩⟩⟩⟩⟩⟩ := h
  exact ⟨_, _, _, _, _, _, rfl, h0, h1, h2, h3, h4, h5⟩

private theorem six_within {a b c d e f i0 i1 i2 i3 i4 i5 : ℕ} (h0 : i0 < a) (h1 : i1 < b) (h2 : i2 < c)
    (h3 : i3 < d) (h4 : i4 < e) (h5 : i5 < f) : Within [i0, i1, i2, i3, i4, i5] [a, b, c, d, e, f] :=
  .cons h0 (.cons h1 (.cons h2 (.cons h3 (.cons h4 (.cons h5 .nil)))))

private theorem cut_six (v : List ℕ → ℂ) (a b c d e f : ℕ) {cuts : List (ℕ × ℕ)} (h : cuts.length = 6) :
    (⟨[a, b, c, d, e, f], v⟩ : NDArray).cut cuts
      = .ok ⟨List.zipWith (fun n c => n - c.1 - c.2) [a, b, c, d, e, f] cuts,
        fun idx => v (List.zipWith (fun i c => i + c.1) idx cuts)⟩ := if_pos h.symm

private theorem l1_congr {a r a' r' : NDArray} (h : a.shape = r.shape) (h1 : a'.shape = r'.shape)
    (h2 : r.shape = r'.shape) (hv : ∀ i, Within i r.shape → a.val i - r.val i = a'.val i - r'.val i) :
    l1Error a r = l1Error a' r' := by
  unfold l1Error
  rw [sub_same h, sub_same h1, ← h2, List.map_congr_left fun i hi => hv i (mem_indices hi)]

private theorem l2_congr {a r a' r' : NDArray} (h : a.shape = r.shape) (h1 : a'.shape = r'.shape)
    (h2 : r.shape = r'.shape) (hv : ∀ i, Within i r.shape → a.val i - r.val i = a'.val i - r'.val i) :
    l2Error a r = l2Error a' r' := by
  unfold l2Error
  rw [sub_same h, sub_same h1, ← h2, List.map_congr_left fun i hi => hv i (mem_indices hi)]

/-- The part of an array that is used. -/
private def part (s : List ℕ) (v : List ℕ → ℂ) (cuts : List (ℕ × ℕ)) : NDArray :=
  ⟨List.zipWith (fun n c => n - c.1 - c.2) s cuts, fun idx => v (List.zipWith (fun i c => i + c.1) idx cuts)⟩

private theorem l1Gene_six (v w : List ℕ → ℂ) (a b c d e f : ℕ) :
    l1AverageErrorGene ⟨[a, b, c, d, e, f], v⟩ ⟨[a, b, c, d, e, f], w⟩
      = (l1Error (part [a, b, c, d, e, f] v cutsL1) (part [a, b, c, d, e, f] w cutsL1)).bind fun x =>
        divide x ((List.zipWith (fun n (c : ℕ × ℕ) => n - c.1 - c.2) [a, b, c, d, e, f] cutsL1).prod : ℕ) := by
  unfold l1AverageErrorGene
  rw [if_pos (by rfl), cut_six v a b c d e f (show cutsL1.length = 6 from rfl), ok_bind,
    cut_six w a b c d e f (show cutsL1.length = 6 from rfl), ok_bind]
  rfl

private theorem l2Gene_six (v w : List ℕ → ℂ) (a b c d e f : ℕ) :
    l2AverageErrorGene ⟨[a, b, c, d, e, f], v⟩ ⟨[a, b, c, d, e, f], w⟩
      = (l2Error (part [a, b, c, d, e, f] v cutsL2) (part [a, b, c, d, e, f] w cutsL2)).bind fun x =>
        if 0 ∈ [e - 1 - 1, f - 0 - 0] then .error
        else divide x (Real.sqrt ([a - 0 - 0, b - 0 - 1, c - 1 - 1, d - 0 - 1].prod : ℕ)) := by
  unfold l2AverageErrorGene
  rw [cut_six v a b c d e f (show cutsL2.length = 6 from rfl), ok_bind,
    cut_six w a b c d e f (show cutsL2.length = 6 from rfl), ok_bind]
  rfl

/-- **C131 (boundary).** The average errors for GENE do not depend on the values at points that are not inner
points. -/
theorem C131_gene_boundary {s : List ℕ} (hs : s.length = 6) {v w v' w' : List ℕ → ℂ}
    (h : ∀ i, Inner s i → v i - w i = v' i - w' i) :
    l1AverageErrorGene ⟨s, v⟩ ⟨s, w⟩ = l1AverageErrorGene ⟨s, v'⟩ ⟨s, w'⟩
      ∧ l2AverageErrorGene ⟨s, v⟩ ⟨s, w⟩ = l2AverageErrorGene ⟨s, v'⟩ ⟨s, w'⟩ := by
  match s, hs with
  | [a, b, c, d, e, f], _ =>
  constructor
  · rw [l1Gene_six, l1Gene_six]
    refine congrArg (Outcome.bind · _) (l1_congr rfl rfl rfl fun i hi => ?_)
    obtain ⟨i0, i1, i2, i3, i4, i5, rfl, h0, h1, h2, h3, h4, h5⟩ := within_six hi
    dsimp only at h0 h1 h2 h3 h4 h5
    refine h _ ⟨six_within ?_ ?_ ?_ ?_ ?_ ?_, ?_, ?_, ?_, ?_⟩ <;> simp [cutsL1] <;> omega
  · rw [l2Gene_six, l2Gene_six]
    refine congrArg (Outcome.bind · _) (l2_congr rfl rfl rfl fun i hi => ?_)
    obtain ⟨i0, i1, i2, i3, i4, i5, rfl, h0, h1, h2, h3, h4, h5⟩ := within_six hi
    dsimp only at h0 h1 h2 h3 h4 h5
    refine h _ ⟨six_within ?_ ?_ ?_ ?_ ?_ ?_, ?_, ?_, ?_, ?_⟩ <;> simp [cutsL2] <;> omega

/-- Values that differ at a point of the boundary. -/
example : ∀ i, Inner [1, 4, 4, 4, 1, 2] i
    → (fun i : List ℕ => if i.getD 2 0 = 0 then (1 : ℂ) else 0) i - (fun _ => 0) i
      = (fun _ : List ℕ => (0 : ℂ)) i - (fun _ => 0) i := by
  intro i hi
  have : i.getD 2 0 ≠ 0 := by
    have := hi.2.2.1
    omega
  simp only [if_neg this]

private theorem prod_pos {n0 n1 n2 n3 n4 n5 : ℕ} (h0 : 1 ≤ n0) (h1 : 2 ≤ n1) (h2 : 3 ≤ n2) (h3 : 2 ≤ n3)
    (h4 : 1 ≤ n4) (h5 : 1 ≤ n5) :
    0 < (List.zipWith (fun n (c : ℕ × ℕ) => n - c.1 - c.2) [n0, n1, n2, n3, n4, n5] cutsL1).prod := by
  simp only [cutsL1, List.zipWith, List.prod_cons, List.prod_nil]
  have e0 : 0 < n0 - 0 - 0 := by omega
  have e1 : 0 < n1 - 0 - 1 := by omega
  have e2 : 0 < n2 - 1 - 1 := by omega
  have e3 : 0 < n3 - 0 - 1 := by omega
  have e4 : 0 < n4 - 0 - 0 := by omega
  have e5 : 0 < n5 - 0 - 0 := by omega
  positivity

/-- **C131 (average for GENE).** If the values at all inner points deviate by `e`, the average L1 error for GENE is
`|e|`, whatever the values at the other points are. -/
theorem C131_gene_average {n0 n1 n2 n3 n4 n5 : ℕ} (h0 : 1 ≤ n0) (h1 : 2 ≤ n1) (h2 : 3 ≤ n2) (h3 : 2 ≤ n3)
    (h4 : 1 ≤ n4) (h5 : 1 ≤ n5) {v w : List ℕ → ℂ} {e : ℂ}
    (h : ∀ i, Inner [n0, n1, n2, n3, n4, n5] i → v i - w i = e) :
    l1AverageErrorGene ⟨[n0, n1, n2, n3, n4, n5], v⟩ ⟨[n0, n1, n2, n3, n4, n5], w⟩ = .ok ‖e‖ := by
  rw [l1Gene_six, l1_const (a := part _ v cutsL1) (r := part _ w cutsL1) (e := e) rfl fun i hi => ?_, ok_bind]
  · have hp := prod_pos h0 h1 h2 h3 h4 h5
    unfold divide
    rw [if_neg (Nat.cast_ne_zero.mpr hp.ne')]
    exact congrArg _ (mul_div_cancel_left₀ _ (Nat.cast_ne_zero.mpr hp.ne'))
  · obtain ⟨i0, i1, i2, i3, i4, i5, rfl, g0, g1, g2, g3, g4, g5⟩ := within_six hi
    dsimp only at g0 g1 g2 g3 g4 g5
    refine h _ ⟨six_within ?_ ?_ ?_ ?_ ?_ ?_, ?_, ?_, ?_, ?_⟩ <;> simp [cutsL1] <;> omega

example : ∀ i, Inner [1, 4, 4, 4, 1, 2] i
    → (fun i : List ℕ => if i.getD 2 0 = 0 then (1 : ℂ) else 5) i - (fun _ => 3) i = 2 := by
  intro i hi
  have : i.getD 2 0 ≠ 0 := by
    have := hi.2.2.1
    omega
  simp only [if_neg this]
  norm_num

/-- **C131 (all inner points).** The average L1 error for GENE is 0 exactly if the values at all inner points
agree. -/
theorem C131_gene_zero {n0 n1 n2 n3 n4 n5 : ℕ} (h0 : 1 ≤ n0) (h1 : 2 ≤ n1) (h2 : 3 ≤ n2) (h3 : 2 ≤ n3)
    (h4 : 1 ≤ n4) (h5 : 1 ≤ n5) (v w : List ℕ → ℂ) :
    ∃ x, l1AverageErrorGene ⟨[n0, n1, n2, n3, n4, n5], v⟩ ⟨[n0, n1, n2, n3, n4, n5], w⟩ = .ok x
      ∧ (x = 0 ↔ ∀ i, Inner [n0, n1, n2, n3, n4, n5] i → v i = w i) := by
  obtain ⟨⟨y, hy, hz⟩, -, -⟩ := C131_zero (a := part [n0, n1, n2, n3, n4, n5] v cutsL1)
    (r := part [n0, n1, n2, n3, n4, n5] w cutsL1) rfl
  have hp := prod_pos h0 h1 h2 h3 h4 h5
  refine ⟨y / ((List.zipWith (fun n (c : ℕ × ℕ) => n - c.1 - c.2) [n0, n1, n2, n3, n4, n5] cutsL1).prod : ℕ),
    ?_, ?_⟩
  · rw [l1Gene_six, hy, ok_bind]
    exact if_neg (Nat.cast_ne_zero.mpr hp.ne')
  · rw [div_eq_zero_iff, or_iff_left (Nat.cast_ne_zero.mpr hp.ne'), hz]
    constructor
    · rintro h i ⟨hi, g⟩
      obtain ⟨i0, i1, i2, i3, i4, i5, rfl, k0, k1, k2, k3, k4, k5⟩ := within_six hi
      simp at g
      have := h [i0, i1, i2 - 1, i3, i4, i5] (six_within (by dsimp only; omega) (by dsimp only; omega)
        (by dsimp only; omega) (by dsimp only; omega) (by dsimp only; omega) (by dsimp only; omega))
      have e : i2 - 1 + 1 = i2 := by omega
      simpa [part, cutsL1, e] using this
    · intro h i hi
      obtain ⟨i0, i1, i2, i3, i4, i5, rfl, g0, g1, g2, g3, g4, g5⟩ := within_six hi
      dsimp only at g0 g1 g2 g3 g4 g5
      refine h _ ⟨six_within ?_ ?_ ?_ ?_ ?_ ?_, ?_, ?_, ?_, ?_⟩ <;> simp [cutsL1] <;> omega

example : Inner [1, 2, 3, 2, 1, 1] [0, 0, 1, 0, 0, 0] :=
  ⟨six_within (by decide) (by decide) (by decide) (by decide) (by decide) (by decide), by decide⟩

/-- **C131 (L2 for GENE).** The L2 error for GENE is 0 exactly if the values agree at all inner points without the
ends of axis 4. If they all deviate by `e`, it is `|e|` times the root of the number of modes that are used: it is
an average over the first four axes and a sum over the last two. -/
theorem C131_l2_gene_partial {n0 n1 n2 n3 n4 n5 : ℕ} (h0 : 1 ≤ n0) (h1 : 2 ≤ n1) (h2 : 3 ≤ n2) (h3 : 2 ≤ n3)
    (h4 : 3 ≤ n4) (h5 : 1 ≤ n5) (v w : List ℕ → ℂ) :
    ∃ x, l2AverageErrorGene ⟨[n0, n1, n2, n3, n4, n5], v⟩ ⟨[n0, n1, n2, n3, n4, n5], w⟩ = .ok x
      ∧ (x = 0 ↔ ∀ i, Inner [n0, n1, n2, n3, n4, n5] i → 1 ≤ i.getD 4 0 → i.getD 4 0 + 1 < n4 → v i = w i)
      ∧ ∀ e, (∀ i, Inner [n0, n1, n2, n3, n4, n5] i → 1 ≤ i.getD 4 0 → i.getD 4 0 + 1 < n4 → v i - w i = e) →
        x = Real.sqrt ((n4 - 2) * n5 : ℕ) * ‖e‖ := by
  obtain ⟨-, ⟨y, hy, hz⟩, -⟩ := C131_zero (a := part [n0, n1, n2, n3, n4, n5] v cutsL2)
    (r := part [n0, n1, n2, n3, n4, n5] w cutsL2) rfl
  have hp : 0 < [n0 - 0 - 0, n1 - 0 - 1, n2 - 1 - 1, n3 - 0 - 1].prod := by
    simp only [List.prod_cons, List.prod_nil]
    have e0 : 0 < n0 - 0 - 0 := by omega
    have e1 : 0 < n1 - 0 - 1 := by omega
    have e2 : 0 < n2 - 1 - 1 := by omega
    have e3 : 0 < n3 - 0 - 1 := by omega
    positivity
  have hq : Real.sqrt ([n0 - 0 - 0, n1 - 0 - 1, n2 - 1 - 1, n3 - 0 - 1].prod : ℕ) ≠ 0 := by
    rw [Real.sqrt_ne_zero (by positivity)]
    exact Nat.cast_ne_zero.mpr hp.ne'
  have hi : ∀ i, Within i (part [n0, n1, n2, n3, n4, n5] w cutsL2).shape →
      Inner [n0, n1, n2, n3, n4, n5] (List.zipWith (fun i c => i + c.1) i cutsL2)
        ∧ 1 ≤ (List.zipWith (fun i c => i + c.1) i cutsL2).getD 4 0
        ∧ (List.zipWith (fun i c => i + c.1) i cutsL2).getD 4 0 + 1 < n4 := by
    intro i hi
    obtain ⟨i0, i1, i2, i3, i4, i5, rfl, g0, g1, g2, g3, g4, g5⟩ := within_six hi
    dsimp only at g0 g1 g2 g3 g4 g5
    refine ⟨⟨six_within ?_ ?_ ?_ ?_ ?_ ?_, ?_, ?_, ?_, ?_⟩, ?_, ?_⟩ <;> simp [cutsL2] <;> omega
  refine ⟨y / Real.sqrt ([n0 - 0 - 0, n1 - 0 - 1, n2 - 1 - 1, n3 - 0 - 1].prod : ℕ), ?_, ?_, ?_⟩
  · rw [l2Gene_six, hy, ok_bind, if_neg (by simp; omega)]
    exact if_neg hq
  · rw [div_eq_zero_iff, or_iff_left hq, hz]
    constructor
    · rintro h i ⟨hi, g⟩ k6 k7
      obtain ⟨i0, i1, i2, i3, i4, i5, rfl, k0, k1, k2, k3, k4, k5⟩ := within_six hi
      simp at g k6 k7
      have := h [i0, i1, i2 - 1, i3, i4 - 1, i5] (six_within (by dsimp only; omega) (by dsimp only; omega)
        (by dsimp only; omega) (by dsimp only; omega) (by dsimp only; omega) (by dsimp only; omega))
      have e : i2 - 1 + 1 = i2 := by omega
      have e' : i4 - 1 + 1 = i4 := by omega
      simpa [part, cutsL2, e, e'] using this
    · intro h i hw
      exact h _ (hi i hw).1 (hi i hw).2.1 (hi i hw).2.2
  · intro e he
    have h := l2_const (a := part [n0, n1, n2, n3, n4, n5] v cutsL2)
      (r := part [n0, n1, n2, n3, n4, n5] w cutsL2) (e := e) rfl
      fun i hw => he _ (hi i hw).1 (hi i hw).2.1 (hi i hw).2.2
    rw [hy, Outcome.ok.injEq] at h
    have hs : (part [n0, n1, n2, n3, n4, n5] w cutsL2).shape.prod
        = [n0 - 0 - 0, n1 - 0 - 1, n2 - 1 - 1, n3 - 0 - 1].prod * ((n4 - 2) * n5) := by
      simp only [part, cutsL2, List.zipWith, List.prod_cons, List.prod_nil, Nat.sub_sub, Nat.add_zero, Nat.sub_zero]
      ring
    rw [h, hs, Nat.cast_mul, Real.sqrt_mul (by positivity), mul_assoc, mul_div_cancel_left₀ _ hq]

example : ∀ i, Inner [1, 2, 3, 2, 4, 1] i → 1 ≤ i.getD 4 0 → i.getD 4 0 + 1 < 4
    → (fun i : List ℕ => if i.getD 4 0 = 0 then (1 : ℂ) else 5) i - (fun _ => 3) i = 2 := by
  intro i _ h _
  simp only [if_neg (show i.getD 4 0 ≠ 0 by omega)]
  norm_num

/-- **C131 is violated by the code (L2 for GENE, few modes).** The first and the last entry of axis 4 are left out
as well. With one or two entries there, as in linear runs with one mode, there is an exception. -/
theorem C131_l2_gene_violated {n0 n1 n2 n3 n4 n5 : ℕ} (h4 : n4 ≤ 2) (v w : List ℕ → ℂ) :
    l2AverageErrorGene ⟨[n0, n1, n2, n3, n4, n5], v⟩ ⟨[n0, n1, n2, n3, n4, n5], w⟩ = .error := by
  rw [l2Gene_six]
  have e : n4 - 1 - 1 = 0 := by omega
  obtain ⟨-, ⟨y, hy, -⟩, -⟩ := C131_zero (a := part [n0, n1, n2, n3, n4, n5] v cutsL2)
    (r := part [n0, n1, n2, n3, n4, n5] w cutsL2) rfl
  rw [hy, ok_bind, if_pos (by rw [e]; simp)]

/-- The number of entries in a run with one mode. -/
example : (1 : ℕ) ≤ 2 := by decide

/-- **C131 is violated by the code (L2 for GENE, ends of axis 4).** Arrays that differ in the first and the last
entry of axis 4 have the error 0, although they have a positive L1 error. -/
theorem C131_l2_modes_violated :
    let s := [1, 2, 3, 2, 3, 1]
    let v : List ℕ → ℂ := fun i => if i.getD 4 0 = 1 then 0 else 1
    l2AverageErrorGene ⟨s, v⟩ ⟨s, fun _ => 0⟩ = .ok 0
      ∧ ∃ x, l1AverageErrorGene ⟨s, v⟩ ⟨s, fun _ => 0⟩ = .ok x ∧ x ≠ 0 := by
  constructor
  · rw [l2Gene_six]
    rw [l2_const (a := part _ (fun i => if i.getD 4 0 = 1 then 0 else 1) cutsL2)
      (r := part _ (fun _ => 0) cutsL2) (e := 0) rfl fun i hi => ?_, ok_bind]
    · rw [if_neg (by decide), norm_zero, mul_zero]
      unfold divide
      rw [if_neg (by simp), zero_div]
    · obtain ⟨i0, i1, i2, i3, i4, i5, rfl, g0, g1, g2, g3, g4, g5⟩ := within_six hi
      dsimp only at g4
      have : i4 = 0 := by omega
      simp [part, cutsL2, this]
  · obtain ⟨x, hx, h⟩ := C131_gene_zero (n0 := 1) (n1 := 2) (n2 := 3) (n3 := 2) (n4 := 3) (n5 := 1) (by decide)
      (by decide) (by decide) (by decide) (by decide) (by decide)
      (fun i => if i.getD 4 0 = 1 then 0 else 1) (fun _ => 0)
    refine ⟨x, hx, fun e => ?_⟩
    have := h.mp e [0, 0, 1, 0, 0, 0]
      ⟨six_within (by decide) (by decide) (by decide) (by decide) (by decide) (by decide), by decide⟩
    simp at this

end Verif.ErrorNorms

import Verif.Model.GeneError
import Mathlib.Algebra.Order.BigOperators.Group.List
import Mathlib.Tactic.Linarith
import Mathlib.Tactic.NormNum
import Mathlib.Tactic.FieldSimp
import Mathlib.Tactic.Positivity

/-!
# Property C123: the error between two files of GENE
-/

namespace Verif.GeneError

/-- The values of a function on an array, in the order of the memory. -/
def values (shape : List ℕ) (g : List ℕ → ℂ) : List ℂ := (indices shape).map g

theorem length_indices (shape : List ℕ) : (indices shape).length = shape.prod := by
  induction shape with
  | nil => rfl
  | cons s ss ih => simp [indices, ih]

theorem length_values (shape : List ℕ) (g : List ℕ → ℂ) : (values shape g).length = shape.prod := by
  rw [values, List.length_map, length_indices]

theorem foldl_row (l : List (ℕ × ℕ)) (c : ℕ) :
    l.foldl (fun acc sq => acc * sq.1 + sq.2) c =
      c * (l.map Prod.fst).prod + l.foldl (fun acc sq => acc * sq.1 + sq.2) 0 := by
  induction l generalizing c with
  | nil => simp
  | cons p l ih =>
    rw [List.foldl_cons, ih, List.foldl_cons, ih (0 * p.1 + p.2)]
    simp only [List.map_cons, List.prod_cons]
    ring

theorem rowIndex_cons (s i : ℕ) (ss q : List ℕ) (h : ss.length = q.length) :
    rowIndex (s :: ss) (i :: q) = i * ss.prod + rowIndex ss q := by
  unfold rowIndex
  rw [List.zip_cons_cons, List.foldl_cons, foldl_row, List.map_fst_zip (by omega)]
  simp

theorem flatMap_block {β : Type} (f : ℕ → List β) (m : ℕ) (hf : ∀ i, (f i).length = m) (n k i t : ℕ)
    (hi : i < n) (ht : t < m) : ((List.range' k n).flatMap f)[i * m + t]? = (f (k + i))[t]? := by
  induction n generalizing k i with
  | zero => omega
  | succ n ih =>
    rw [List.range'_succ, List.flatMap_cons]
    match i, hi with
    | 0, _ => rw [List.getElem?_append_left (by rw [hf]; omega)]; simp
    | i + 1, hi =>
      have h1 : (i + 1) * m + t = m + (i * m + t) := by ring
      rw [h1, List.getElem?_append_right (by rw [hf]; omega), hf, Nat.add_sub_cancel_left,
        ih (k + 1) i (by omega)]
      congr 2
      omega

theorem indices_get (shape q : List ℕ) (h : List.Forall₂ (· < ·) q shape) :
    rowIndex shape q < shape.prod ∧ (indices shape)[rowIndex shape q]? = some q := by
  induction h with
  | nil => exact ⟨by simp [rowIndex], rfl⟩
  | cons h1 h2 ih =>
    rename_i i s q ss
    obtain ⟨h3, h4⟩ := ih
    have hr := rowIndex_cons s i ss q h2.length_eq.symm
    have hlt : i * ss.prod + rowIndex ss q < s * ss.prod := by
      calc i * ss.prod + rowIndex ss q < i * ss.prod + ss.prod := by omega
        _ = (i + 1) * ss.prod := by ring
        _ ≤ s * ss.prod := Nat.mul_le_mul_right _ h1
    refine ⟨by rw [hr, List.prod_cons]; exact hlt, ?_⟩
    rw [hr, indices, List.range_eq_range', flatMap_block _ ss.prod
      (fun i => by rw [List.length_map, length_indices]) s 0 i _ h1 h3, List.getElem?_map, h4]
    simp

theorem mem_indices (shape q : List ℕ) : q ∈ indices shape ↔ List.Forall₂ (· < ·) q shape := by
  induction shape generalizing q with
  | nil => simp [indices]
  | cons s ss ih =>
    simp only [indices, List.mem_flatMap, List.mem_range, List.mem_map, List.forall₂_cons_right_iff]
    constructor
    · rintro ⟨i, hi, q, hq, rfl⟩
      exact ⟨i, q, hi, (ih q).1 hq, rfl⟩
    · rintro ⟨i, q, hi, hq, rfl⟩
      exact ⟨i, hi, q, (ih q).2 hq, rfl⟩

theorem mapM_some {α β : Type} (l : List α) (f : α → Option β) (g : α → β) (h : ∀ x ∈ l, f x = some (g x)) :
    l.mapM f = some (l.map g) := by
  induction l with
  | nil => rfl
  | cons x l ih =>
    rw [List.mapM_cons, h x (by simp), ih fun y hy => h y (by simp [hy])]
    rfl

/-- the value at an index -/
theorem values_get (shape q : List ℕ) (h : List.Forall₂ (· < ·) q shape) (g : List ℕ → ℂ) :
    (values shape g)[rowIndex shape q]? = some (g q) := by
  rw [values, List.getElem?_map, (indices_get shape q h).2]
  rfl

theorem forall₂_lt_le {q small shape : List ℕ} (h : List.Forall₂ (· < ·) q small)
    (h' : List.Forall₂ (· ≤ ·) small shape) : List.Forall₂ (· < ·) q shape := by
  induction h generalizing shape with
  | nil => cases h'; exact .nil
  | cons h1 _ ih => cases h' with
    | cons h2 h3 => exact .cons (lt_of_lt_of_le h1 h2) (ih h3)

theorem crop_values (shape small : List ℕ) (h : List.Forall₂ (· ≤ ·) small shape) (g : List ℕ → ℂ) :
    crop shape small (values shape g) = some (values small g) :=
  mapM_some _ _ _ fun q hq => values_get shape q (forall₂_lt_le ((mem_indices small q).1 hq) h) g

theorem readValues_self (n : ℕ) (d : List ℂ) (h : d.length = n) : readValues n d = d := by
  subst h
  simp [readValues]

/-- C123: a checkpoint that is written from a grid and read again has the values of the grid, without the last
points in x, z, v and w, and the right resolution (if the number of values is an `int`). -/
theorem C123_save (lx lz lv lw : ℕ) (g : List ℕ → ℂ) (h : 2 ^ lx * 2 ^ lz * 2 ^ lv * 2 ^ lw < 2 ^ 31) :
    ∃ f, saveCheckpoint [lx, 1, lz, lv, lw, 1]
        (values [1, 2 ^ lw + 1, 2 ^ lv + 1, 2 ^ lz + 1, 1, 2 ^ lx + 1] g) = .ok f ∧
      readCheckpoint f = .ok (values [1, 2 ^ lw, 2 ^ lv, 2 ^ lz, 1, 2 ^ lx] g,
        [2 ^ lx, 1, 2 ^ lz, 2 ^ lv, 2 ^ lw, 1]) := by
  have hp : [2 ^ lx, 1, 2 ^ lz, 2 ^ lv, 2 ^ lw, 1].prod = [1, 2 ^ lw, 2 ^ lv, 2 ^ lz, 1, 2 ^ lx].prod := by
    simp only [List.prod_cons, List.prod_nil]
    ring
  refine ⟨⟨0, 0, [2 ^ lx, 1, 2 ^ lz, 2 ^ lv, 2 ^ lw, 1], values [1, 2 ^ lw, 2 ^ lv, 2 ^ lz, 1, 2 ^ lx] g⟩,
    ?_, ?_⟩
  · rw [saveCheckpoint, if_pos ⟨rfl, rfl⟩, crop_values _ _ (by simp)]
  · rw [readCheckpoint, if_pos]
    · simp only
      rw [readValues_self _ _ (by rw [length_values, hp])]
    · refine ⟨rfl, rfl, ?_⟩
      calc _ = 2 ^ lx * 2 ^ lz * 2 ^ lv * 2 ^ lw := by simp only [List.prod_cons, List.prod_nil]; ring
        _ < 2 ^ 31 := h

example : 2 ^ 3 * 2 ^ 4 * 2 ^ 5 * 2 ^ 3 < 2 ^ 31 := by norm_num

/-- C123: reading a plot file removes the last points in z, v and w, and in y if there are several. -/
theorem C123_plot (x y z v w s : ℕ) (hz : 0 < z) (hv : 0 < v) (hw : 0 < w) (g : List ℕ → ℂ) :
    readPlotFile ⟨6, [x, y, z, v, w, s], values [s, w, v, z, y, x] g⟩ =
      .ok (values [s, w - 1, v - 1, z - 1, if 1 < y then y - 1 else y, x] g,
        [x, if 1 < y then y - 1 else y, z - 1, v - 1, w - 1, s]) := by
  have hy : (y - if 1 < y then 1 else 0) = if 1 < y then y - 1 else y := by split_ifs <;> omega
  have hy2 : (if 1 < y then y - 1 else y) ≤ y := by split_ifs <;> omega
  have hp : [x, y, z, v, w, s].prod = [s, w, v, z, y, x].prod := by
    simp only [List.prod_cons, List.prod_nil]
    ring
  unfold readPlotFile
  dsimp only
  rw [if_pos ⟨rfl, hw, hv, hz⟩, readValues_self _ _ (by rw [length_values, hp]), hy,
    crop_values _ _ (by simp [hy2])]

example : 0 < 9 ∧ 0 < 5 ∧ 0 < 3 := by decide

/-- C123: two plot files with the same resolution are compared at all points except for the last ones in z, v
and w (and y, if there are several). -/
theorem C123_compare (x y z v w s : ℕ) (hz : 0 < z) (hv : 0 < v) (hw : 0 < w) (g g' : List ℕ → ℂ) :
    main 'f' 'f' (.plot ⟨6, [x, y, z, v, w, s], values [s, w, v, z, y, x] g⟩)
        (.plot ⟨6, [x, y, z, v, w, s], values [s, w, v, z, y, x] g'⟩) =
      errorOf (values [s, w - 1, v - 1, z - 1, if 1 < y then y - 1 else y, x] g)
        (values [s, w - 1, v - 1, z - 1, if 1 < y then y - 1 else y, x] g') := by
  unfold main readFile
  rw [if_neg (by decide), if_pos rfl, if_neg (by decide), if_pos rfl]
  simp only
  rw [C123_plot _ _ _ _ _ _ hz hv hw, C123_plot _ _ _ _ _ _ hz hv hw]
  simp only [Outcome.bind]
  rw [if_pos ⟨by rw [length_values, length_values], trivial⟩]

/-- C123 is violated: the plot file of a grid and the checkpoint converted from the same grid can not be
compared, since the checkpoint lacks the last point in x, which is kept of the plot file. -/
theorem C123_convert_violated (lx lz lv lw : ℕ) (g : List ℕ → ℂ)
    (h : 2 ^ lx * 2 ^ lz * 2 ^ lv * 2 ^ lw < 2 ^ 31) :
    ∃ f, saveCheckpoint [lx, 1, lz, lv, lw, 1]
        (values [1, 2 ^ lw + 1, 2 ^ lv + 1, 2 ^ lz + 1, 1, 2 ^ lx + 1] g) = .ok f ∧
      main 'f' 'g' (.plot ⟨6, [2 ^ lx + 1, 1, 2 ^ lz + 1, 2 ^ lv + 1, 2 ^ lw + 1, 1],
        values [1, 2 ^ lw + 1, 2 ^ lv + 1, 2 ^ lz + 1, 1, 2 ^ lx + 1] g⟩) (.checkpoint f) = .stuck := by
  obtain ⟨f, h1, h2⟩ := C123_save lx lz lv lw g h
  refine ⟨f, h1, ?_⟩
  unfold main readFile
  rw [if_neg (by decide), if_pos rfl, if_pos rfl]
  simp only
  rw [C123_plot _ _ _ _ _ _ (Nat.succ_pos _) (Nat.succ_pos _) (Nat.succ_pos _), h2]
  simp [Outcome.bind]

/-- C123 is violated: the mode with the letter `c` for checkpoints, as in the comment (l.35-37), is refused. -/
theorem C123_mode_violated (c : Char) (left right : File) : main 'c' c left right = .stuck := by
  unfold main readFile
  rw [if_neg (by decide), if_neg (by decide)]
  rfl

/-! ### The error -/

theorem l2Norm_nonneg (d : List ℂ) : 0 ≤ l2Norm d := Real.sqrt_nonneg _

theorem l2Norm_sq (d : List ℂ) : l2Norm d ^ 2 = (d.map fun x => ‖x‖ * ‖x‖).sum := by
  rw [l2Norm, Real.sq_sqrt]
  exact List.sum_nonneg (by simp only [List.mem_map]; rintro _ ⟨x, -, rfl⟩; positivity)

theorem errorOf_eq {a b : List ℂ} {e : ℝ} (h : errorOf a b = .ok e) :
    0 < l2Norm a ∧ 0 < l2Norm b ∧ e = √(List.zipWith (fun x y : ℂ =>
      (‖x‖ / l2Norm a - ‖y‖ / l2Norm b) ^ 2) a b).sum := by
  unfold errorOf at h
  split at h
  · cases h
  · rename_i hn
    rw [not_or] at hn
    have ha := lt_of_le_of_ne (l2Norm_nonneg a) (Ne.symm hn.1)
    have hb := lt_of_le_of_ne (l2Norm_nonneg b) (Ne.symm hn.2)
    refine ⟨ha, hb, ?_⟩
    simp only [Outcome.ok.injEq] at h
    rw [← h, List.zipWith_map_left, List.zipWith_map_right]
    congr 2
    congr 1
    funext x y
    rw [Complex.norm_mul, Complex.norm_mul, Complex.norm_real, Complex.norm_real, Real.norm_of_nonneg (by positivity),
      Real.norm_of_nonneg (by positivity)]
    ring

theorem zip_sum_le (a b : List ℂ) (h : a.length = b.length) (p q : ℝ) (hp : 0 < p) (hq : 0 < q) :
    (List.zipWith (fun x y : ℂ => (‖x‖ / p - ‖y‖ / q) ^ 2) a b).sum ≤
      (a.map fun x => ‖x‖ * ‖x‖).sum / p ^ 2 + (b.map fun x => ‖x‖ * ‖x‖).sum / q ^ 2 := by
  induction a generalizing b with
  | nil =>
    cases b with
    | nil => simp
    | cons => simp at h
  | cons x a ih =>
    cases b with
    | nil => simp at h
    | cons y b =>
      have := ih b (by simpa using h)
      simp only [List.zipWith_cons_cons, List.sum_cons, List.map_cons, add_div]
      have h1 : (‖x‖ / p - ‖y‖ / q) ^ 2 ≤ ‖x‖ * ‖x‖ / p ^ 2 + ‖y‖ * ‖y‖ / q ^ 2 := by
        have h2 : 0 ≤ ‖x‖ / p * (‖y‖ / q) := by positivity
        have h3 : ‖x‖ * ‖x‖ / p ^ 2 = (‖x‖ / p) ^ 2 := by ring
        have h4 : ‖y‖ * ‖y‖ / q ^ 2 = (‖y‖ / q) ^ 2 := by ring
        rw [h3, h4]
        nlinarith
      linarith

/-- C123: the error is between 0 and the square root of 2. -/
theorem C123_range (a b : List ℂ) (h : a.length = b.length) (e : ℝ) (he : errorOf a b = .ok e) :
    0 ≤ e ∧ e ≤ √2 := by
  obtain ⟨ha, hb, rfl⟩ := errorOf_eq he
  refine ⟨Real.sqrt_nonneg _, Real.sqrt_le_sqrt ?_⟩
  have := zip_sum_le a b h _ _ ha hb
  rw [← l2Norm_sq, ← l2Norm_sq, div_self (by positivity), div_self (by positivity)] at this
  linarith

theorem zip_sum_zero (a b : List ℂ) (h : a.length = b.length) (p q : ℝ) :
    (List.zipWith (fun x y : ℂ => (‖x‖ / p - ‖y‖ / q) ^ 2) a b).sum = 0 ↔
      List.Forall₂ (fun x y : ℂ => ‖x‖ / p = ‖y‖ / q) a b := by
  induction a generalizing b with
  | nil =>
    cases b with
    | nil => simp
    | cons => simp at h
  | cons x a ih =>
    cases b with
    | nil => simp at h
    | cons y b =>
      have hs : 0 ≤ (List.zipWith (fun x y : ℂ => (‖x‖ / p - ‖y‖ / q) ^ 2) a b).sum := by
        apply List.sum_nonneg
        intro z hz
        rw [← List.map_uncurry_zip_eq_zipWith, List.mem_map] at hz
        obtain ⟨w, -, rfl⟩ := hz
        exact sq_nonneg _
      rw [List.zipWith_cons_cons, List.sum_cons, List.forall₂_cons, ← ih b (by simpa using h)]
      rw [add_eq_zero_iff_of_nonneg (sq_nonneg _) hs, sq_eq_zero_iff, sub_eq_zero]

/-- C123: the error is zero exactly if the absolute values of the two files are the same up to one positive
factor. -/
theorem C123_zero (a b : List ℂ) (h : a.length = b.length) (e : ℝ) (he : errorOf a b = .ok e) :
    e = 0 ↔ ∃ c : ℝ, 0 < c ∧ List.Forall₂ (fun x y : ℂ => ‖x‖ = c * ‖y‖) a b := by
  obtain ⟨ha, hb, rfl⟩ := errorOf_eq he
  have hnn : 0 ≤ (List.zipWith (fun x y : ℂ => (‖x‖ / l2Norm a - ‖y‖ / l2Norm b) ^ 2) a b).sum := by
    apply List.sum_nonneg
    intro z hz
    rw [← List.map_uncurry_zip_eq_zipWith, List.mem_map] at hz
    obtain ⟨w, -, rfl⟩ := hz
    exact sq_nonneg _
  rw [Real.sqrt_eq_zero hnn, zip_sum_zero a b h]
  constructor
  · intro hf
    refine ⟨l2Norm a / l2Norm b, by positivity, hf.imp fun x y hxy => ?_⟩
    rw [div_eq_iff ha.ne'] at hxy
    rw [hxy]
    ring
  · rintro ⟨c, hc, hf⟩
    have hn : l2Norm a = c * l2Norm b := by
      have h2 : (a.map fun x => ‖x‖ * ‖x‖).sum = c ^ 2 * (b.map fun x => ‖x‖ * ‖x‖).sum := by
        clear * - hf
        induction hf with
        | nil => simp
        | cons h1 _ ih =>
          simp only [List.map_cons, List.sum_cons, ih, h1]
          ring
      rw [← l2Norm_sq, ← l2Norm_sq, ← mul_pow] at h2
      exact (sq_eq_sq₀ ha.le (by positivity)).1 h2
    refine hf.imp fun x y hxy => ?_
    rw [hxy, hn]
    field_simp

/-- the hypotheses hold for two values -/
example : ∃ e, errorOf [3, 4] [4, 3] = .ok e := by
  have h1 : l2Norm [3, 4] ≠ 0 := by
    intro h
    have := l2Norm_sq [3, 4]
    rw [h] at this
    norm_num at this
  have h2 : l2Norm [4, 3] ≠ 0 := by
    intro h
    have := l2Norm_sq [4, 3]
    rw [h] at this
    norm_num at this
  exact ⟨_, by rw [errorOf, if_neg (by tauto)]⟩

/-- C123 is violated: the error is zero for different values, since phases are not compared. -/
theorem C123_phase_violated : errorOf [1, 1] [1, -1] = .ok 0 := by
  have h1 : l2Norm [1, -1] = l2Norm [1, 1] := by simp [l2Norm]
  have h2 : l2Norm [1, 1] ≠ 0 := by
    intro h
    have := l2Norm_sq [1, 1]
    rw [h] at this
    simp [Complex.norm_def, Complex.normSq] at this
    norm_num at this
  rw [errorOf, if_neg (by rw [h1]; tauto), h1]
  simp

/-- C123 is violated: the error of a solution that is zero everywhere is not a number. -/
theorem C123_zero_violated (b : List ℂ) (n : ℕ) : errorOf (List.replicate n 0) b = .error := by
  have h1 : l2Norm (List.replicate n 0) = 0 := by simp [l2Norm]
  rw [errorOf, if_pos (.inl h1)]

end Verif.GeneError

import Verif.Model.PlotAdvection
import Verif.Lemmas.Evaluation

/-!
# C128: The plot of the error of the advection example shows the error

Every entry of the array that `plot_error_advection.py` plots is the difference of the exact solution and
the value in the file at one point of the grid, and the number it reports is the largest error.
-/

namespace Verif.PlotAdvection

open Verif.Evaluation

/-- The exact solution at time 1 in two dimensions: a bump around the middle of the unit square that has
moved once around. -/
noncomputable def exact (x y : ℝ) : ℝ :=
  Real.exp (-9 * ((Int.fract (x - 1) - 1 / 2) ^ 2 + (Int.fract (y - 1) - 1 / 2) ^ 2))

theorem analyticSln_one (x y : ℝ) : analyticSln x y 1 = exact x y := by
  unfold analyticSln exact shiftVelocity
  rw [shifted_eq, shifted_eq]
  congr 1
  norm_num
  ring

theorem exact_comm (x y : ℝ) : exact x y = exact y x := by
  unfold exact
  rw [add_comm]

/-- **C128**, solution: what the script takes as solution is that of the C++ code, at all times. -/
theorem C128_solution (x y t : ℝ) : testFn [x, y] t = .ok (analyticSln x y t) := by
  rw [testFn_eq]
  unfold bump analyticSln shiftVelocity
  rw [shifted_eq, shifted_eq]
  congr 2
  simp only [List.map_cons, List.map_nil, List.sum_cons, List.sum_nil]
  norm_num
  ring

example : testFn [1 / 2, 1 / 2] 1 = .ok 1 := by
  rw [C128_solution, analyticSln_one]
  unfold exact
  have : Int.fract ((1 : ℝ) / 2 - 1) = 1 / 2 := by
    rw [Int.fract_sub_one]
    exact Int.fract_eq_self.mpr ⟨by norm_num, by norm_num⟩
  rw [this]
  norm_num

private theorem chunk {α : Type} (n : ℕ) : ∀ (rows : List (List α)), (∀ r ∈ rows, r.length = n) →
    ∀ (k : ℕ) (r : List α), rows[k]? = some r → (rows.flatten.drop (k * n)).take n = r := by
  intro rows
  induction rows with
  | nil => intro _ k r h; simp at h
  | cons a rows ih =>
    intro hl k r h
    have ha : a.length = n := hl a (by simp)
    cases k with
    | zero =>
      simp only [List.getElem?_cons_zero, Option.some.injEq] at h
      subst h
      rw [Nat.zero_mul, List.drop_zero, List.flatten_cons, ← ha, List.take_left']
      rfl
    | succ k =>
      rw [List.getElem?_cons_succ] at h
      have e : (k + 1) * n = a.length + k * n := by rw [ha]; ring
      rw [List.flatten_cons, e, List.drop_append, List.drop_of_length_le (by omega), List.nil_append,
        Nat.add_sub_cancel_left]
      exact ih (fun r hr => hl r (by simp [hr])) k r h

/-- The rows that the script makes of a file of a square grid: row `k` has the points with second index
`k`. -/
private theorem reshape_square {n : ℕ} {u : ℕ → ℕ → ℝ} {k : ℕ} (hk : k < n) :
    ((writeFile n n u).data.drop (k * n)).take n = (List.range n).map fun i => u i k := by
  have h : (writeFile n n u).data
      = ((List.range n).map fun j => (List.range n).map fun i => u i j).flatten := by
    simp only [writeFile, List.flatMap_def]
  rw [h]
  refine chunk n _ ?_ k _ ?_
  · intro r hr
    simp only [List.mem_map] at hr
    obtain ⟨j, -, rfl⟩ := hr
    simp
  · rw [List.getElem?_map, List.getElem?_range hk]
    rfl

private theorem length_writeFile (n0 n1 : ℕ) (u : ℕ → ℕ → ℝ) :
    (writeFile n0 n1 u).data.length = n0 * n1 := by
  simp only [writeFile, List.length_flatMap, List.length_map, List.length_range, List.map_const',
    List.sum_replicate, smul_eq_mul]
  rw [Nat.mul_comm]

private theorem readArray_write (n0 n1 : ℕ) (u : ℕ → ℕ → ℝ) :
    readArray (writeFile n0 n1 u) = .ok (n0, n1, reshape n0 n1 (writeFile n0 n1 u).data) := by
  have hl := length_writeFile n0 n1 u
  unfold readArray
  rw [if_neg (by simp [writeFile]), if_neg (by simp [writeFile]),
    if_neg (by rw [hl]; simp [writeFile])]
  simp only [writeFile]

/-- **C128**, grids with the same number of points in both dimensions: the plot has the error of the
point with indices `i` and `j` at row `j`, column `i`. (The points of a periodic grid with `n` points
have the coordinates `i / n`.) Full statement: for all grids (`C128_shape_violated`), for all times
(`C128_time_violated`). -/
theorem C128_square_partial {n : ℕ} (u : ℝ → ℝ → ℝ) :
    ∃ d, plotError (writeFile n n fun i j => u ((i : ℝ) / n) ((j : ℝ) / n)) none = .ok d ∧
      d.length = n ∧ (∀ row ∈ d, row.length = n) ∧
      ∀ i j, i < n → j < n → ∃ row, d[j]? = some row ∧
        row[i]? = some (exact ((i : ℝ) / n) ((j : ℝ) / n) - u ((i : ℝ) / n) ((j : ℝ) / n)) := by
  set f := writeFile n n fun i j => u ((i : ℝ) / n) ((j : ℝ) / n) with hf
  refine ⟨arrayDiff (analyticData n n 1) (reshape n n f.data), ?_, ?_, ?_, ?_⟩
  · unfold plotError
    rw [hf, readArray_write]
  · simp [arrayDiff, analyticData, reshape]
  · intro row hrow
    obtain ⟨k, hk⟩ := List.mem_iff_getElem?.mp hrow
    have hkn : k < n := by
      have := List.getElem?_eq_some_iff.mp hk |>.1
      simpa [arrayDiff, analyticData, reshape] using this
    simp only [arrayDiff, analyticData, reshape, List.getElem?_zipWith, List.getElem?_map,
      List.getElem?_range hkn, Option.map_some, Option.some.injEq] at hk
    rw [hf, reshape_square hkn] at hk
    rw [← hk]
    simp
  · intro i j hi hj
    refine ⟨List.zipWith (· - ·)
      ((List.range n).map fun a : ℕ => analyticSln ((j : ℝ) / n) ((a : ℝ) / n) 1)
      ((List.range n).map fun a : ℕ => u ((a : ℝ) / n) ((j : ℝ) / n)), ?_, ?_⟩
    · simp only [arrayDiff, analyticData, reshape, List.getElem?_zipWith, List.getElem?_map,
        List.getElem?_range hj, Option.map_some]
      rw [hf, reshape_square hj]
    · simp only [List.getElem?_zipWith, List.getElem?_map, List.getElem?_range hi, Option.map_some]
      rw [analyticSln_one, exact_comm]

/-- If the values in the file are the solution the plot is zero everywhere. -/
example : ∃ d, plotError (writeFile 4 4 fun i j => exact ((i : ℝ) / (4 : ℕ)) ((j : ℝ) / (4 : ℕ))) none
    = .ok d ∧ ∃ row, d[1]? = some row ∧ row[3]? = some 0 := by
  obtain ⟨d, hd, -, -, h⟩ := C128_square_partial (n := 4) exact
  obtain ⟨row, hr, he⟩ := h 3 1 (by norm_num) (by norm_num)
  exact ⟨d, hd, row, hr, by rw [he, sub_self]⟩

private theorem foldl_max_spec : ∀ (xs : List ℝ) (x : ℝ),
    xs.foldl max x ∈ x :: xs ∧ ∀ y ∈ x :: xs, y ≤ xs.foldl max x := by
  intro xs
  induction xs with
  | nil => intro x; simp
  | cons a xs ih =>
    intro x
    obtain ⟨h1, h2⟩ := ih (max x a)
    rw [List.foldl_cons]
    refine ⟨?_, ?_⟩
    · rcases List.mem_cons.mp h1 with h1 | h1
      · rw [h1]
        rcases max_choice x a with h | h <;> rw [h] <;> simp
      · simp [h1]
    · intro y hy
      have hm := h2 (max x a) (by simp)
      rcases List.mem_cons.mp hy with rfl | hy
      · exact le_trans (le_max_left _ _) hm
      · rcases List.mem_cons.mp hy with rfl | hy
        · exact le_trans (le_max_right _ _) hm
        · exact h2 y (by simp [hy])

/-- **C128**, number: what is reported is the largest of the differences *with sign* over all points of a
square grid. Full statement: the largest absolute value (`C128_sign_violated`). -/
theorem C128_max_partial {n : ℕ} (hn : 0 < n) (u : ℝ → ℝ → ℝ) :
    ∃ d m, plotError (writeFile n n fun i j => u ((i : ℝ) / n) ((j : ℝ) / n)) none = .ok d ∧
      reportedMax d = .ok m ∧
      IsGreatest {e | ∃ i j, i < n ∧ j < n ∧
        e = exact ((i : ℝ) / n) ((j : ℝ) / n) - u ((i : ℝ) / n) ((j : ℝ) / n)} m := by
  obtain ⟨d, hd, hl, hrow, h⟩ := C128_square_partial (n := n) u
  have hmem : ∀ e, e ∈ d.flatten ↔ ∃ i j, i < n ∧ j < n ∧
      e = exact ((i : ℝ) / n) ((j : ℝ) / n) - u ((i : ℝ) / n) ((j : ℝ) / n) := by
    intro e
    constructor
    · intro he
      obtain ⟨row, hr, he⟩ := List.mem_flatten.mp he
      obtain ⟨j, hj⟩ := List.mem_iff_getElem?.mp hr
      obtain ⟨i, hi⟩ := List.mem_iff_getElem?.mp he
      have hjn : j < n := hl ▸ (List.getElem?_eq_some_iff.mp hj).1
      have hin : i < n := hrow row hr ▸ (List.getElem?_eq_some_iff.mp hi).1
      obtain ⟨row', h1, h2⟩ := h i j hin hjn
      rw [hj] at h1
      cases h1
      rw [hi] at h2
      cases h2
      exact ⟨i, j, hin, hjn, rfl⟩
    · rintro ⟨i, j, hi, hj, rfl⟩
      obtain ⟨row, h1, h2⟩ := h i j hi hj
      exact List.mem_flatten.mpr ⟨row, List.mem_of_getElem? h1, List.mem_of_getElem? h2⟩
  cases hf : d.flatten with
  | nil =>
    have := (hmem _).mpr ⟨0, 0, hn, hn, rfl⟩
    rw [hf] at this
    simp at this
  | cons x xs =>
    obtain ⟨h1, h2⟩ := foldl_max_spec xs x
    rw [← hf] at h1 h2
    refine ⟨d, xs.foldl max x, hd, ?_, (hmem _).mp h1, fun e he => h2 e ((hmem e).mpr he)⟩
    unfold reportedMax
    rw [hf]

/-- **C128** fails for the number: if all values in the file are too large by one, minus one is
reported. -/
theorem C128_sign_violated {n : ℕ} (hn : 0 < n) :
    ∃ d, plotError (writeFile n n fun i j => exact ((i : ℝ) / n) ((j : ℝ) / n) + 1) none = .ok d ∧
      reportedMax d = .ok (-1) := by
  obtain ⟨d, m, hd, hm, ⟨⟨i, j, -, -, he⟩, -⟩⟩ := C128_max_partial hn fun x y => exact x y + 1
  refine ⟨d, hd, ?_⟩
  rw [hm, he]
  congr 1
  ring

/-- **C128** fails for every time given on the command line, since it is not converted to a number. -/
theorem C128_time_violated (n0 n1 : ℕ) (u : ℕ → ℕ → ℝ) (t : String) :
    plotError (writeFile n0 n1 u) (some t) = .error := by
  unfold plotError
  rw [readArray_write]

/-- **C128** fails for grids with different numbers of points: `reshape` takes the last index as the
fastest one, but the first one is. For the exact solution on four times two points the plot is not zero. -/
theorem C128_shape_violated :
    ∃ d row e, plotError (writeFile 4 2 fun i j => exact ((i : ℝ) / 4) ((j : ℝ) / 2)) none = .ok d ∧
      d[0]? = some row ∧ row[1]? = some e ∧ 0 < e := by
  refine ⟨_, List.zipWith (· - ·) [analyticSln 0 0 1, analyticSln 0 (1 / 2) 1]
    [exact 0 0, exact (1 / 4) 0], exact 0 (1 / 2) - exact (1 / 4) 0,
    by unfold plotError; rw [readArray_write], ?_, ?_, ?_⟩
  · simp [arrayDiff, analyticData, reshape, writeFile, List.range_succ]
  · simp [analyticSln_one]
  · have h0 : Int.fract ((0 : ℝ) - 1) = 0 := by rw [Int.fract_sub_one, Int.fract_zero]
    have h1 : Int.fract ((1 : ℝ) / 2 - 1) = 1 / 2 := by
      rw [Int.fract_sub_one]; exact Int.fract_eq_self.mpr ⟨by norm_num, by norm_num⟩
    have h2 : Int.fract ((1 : ℝ) / 4 - 1) = 1 / 4 := by
      rw [Int.fract_sub_one]; exact Int.fract_eq_self.mpr ⟨by norm_num, by norm_num⟩
    unfold exact
    rw [h0, h1, h2, sub_pos, Real.exp_lt_exp]
    norm_num

end Verif.PlotAdvection

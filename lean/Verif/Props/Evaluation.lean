import Verif.Lemmas.Evaluation
import Verif.Props.InterpolationOutput

/-!
# C117: the printed errors and the scripts for the HDF5 files

`bump xs t` is the reference solution `exp(-9 Σ (frac(x - t) - 1/2)²)`, `IsMax v m` says that `m` is the
greatest absolute value in `v`, `mean v` is the mean of the absolute values and `rms v` the root of the mean
square: the norms of the maximum, of order 1 and of order 2 on the sample. `Contains f values time` says that
the file `f` has one group with one data set with these values and this time.
-/

namespace Verif.Evaluation

open Verif Interpolation

/-! ### The reference solutions -/

/-- The reference solution of the example and of the script is the same, its assertions never fail, it is
constant along the lines of the transport and periodic, and its values are in `(0, 1]`. -/
theorem C117_reference (xs : List ℝ) (t : ℝ) :
    testFn xs t = .ok (bump xs t) ∧ gaussianFunction xs t = .ok (bump xs t) ∧
      (∀ s, bump (xs.map (· + s)) (t + s) = bump xs t) ∧ bump xs (t + 1) = bump xs t ∧
      0 < bump xs t ∧ bump xs t ≤ 1 := by
  refine ⟨testFn_eq xs t, gaussianFunction_eq xs t, fun s => ?_, ?_, bump_pos xs t, bump_le xs t⟩
  · unfold bump
    rw [List.map_map]
    congr 3
    apply List.map_congr_left
    intro x _
    simp only [Function.comp_apply, add_sub_add_right_eq_sub]
  · unfold bump
    congr 3
    apply List.map_congr_left
    intro x _
    rw [← sub_sub, Int.fract_sub_one]

/-- The greatest value is taken in the middle of the unit cube at the beginning. -/
example : bump [1 / 2, 1 / 2] 0 = 1 := by
  unfold bump
  have : Int.fract ((1 : ℝ) / 2 - 0) = 1 / 2 := by
    rw [sub_zero, Int.fract_eq_self]
    norm_num
  simp only [List.map_cons, List.map_nil, this]
  norm_num

/-- The paraboloid of the script is `-Π x (1 - x)` for every dimension, the hyperplane `t Σ 10^d x_d`. -/
theorem C117_solutions {K : Type} [Field K] (xs : List K) (t : K) :
    paraboloidFunction xs = -(xs.map fun x => x * (1 - x)).prod ∧
      hyperplaneFunction xs t = t * (xs.zipIdx.map fun a => 10 ^ a.2 * a.1).sum := by
  constructor
  · have h : ∀ (xs : List K) (c : K), xs.foldl (fun result x => result * (x * (x - 1))) c =
        c * (-1) ^ xs.length * (xs.map fun x => x * (1 - x)).prod := by
      intro xs
      induction xs with
      | nil => simp
      | cons x xs ih =>
        intro c
        rw [List.foldl_cons, ih, List.map_cons, List.prod_cons, List.length_cons, pow_succ]
        ring
    unfold paraboloidFunction
    rw [h]
    rcases Nat.even_or_odd xs.length with he | ho
    · rw [if_neg (by rw [Nat.even_iff.1 he]; decide), he.neg_one_pow]
      ring
    · rw [if_pos (Nat.odd_iff.1 ho), ho.neg_one_pow]
      ring
  · have h : ∀ (l : List (K × ℕ)) (c : K), l.foldl (fun result a => result + a.1 * 10 ^ a.2) c =
        c + (l.map fun a => 10 ^ a.2 * a.1).sum := by
      intro l
      induction l with
      | nil => simp
      | cons a l ih =>
        intro c
        rw [List.foldl_cons, ih, List.map_cons, List.sum_cons]
        ring
    unfold hyperplaneFunction
    rw [h, zero_add, mul_comm]

example : paraboloidFunction [(1 : ℚ) / 2, 1 / 2, 1 / 4] = -3 / 256 ∧
    hyperplaneFunction [(1 : ℚ), 2, 3] 2 = 642 := by
  constructor <;> norm_num [paraboloidFunction, hyperplaneFunction, List.zipIdx]

/-- The script compares with the solution that its argument names. -/
theorem C117_choice (t : ℝ) (xs : List ℝ) :
    Solution.advection.value t xs = .ok (bump xs t) ∧
      Solution.paraboloid.value t xs = .ok (-(xs.map fun x => x * (1 - x)).prod) ∧
      Solution.hyperplane.value t xs = .ok (t * (xs.zipIdx.map fun a => 10 ^ a.2 * a.1).sum) :=
  ⟨(C117_reference xs t).2.1, congrArg Outcome.ok (C117_solutions xs t).1,
    congrArg Outcome.ok (C117_solutions xs t).2⟩

/-! ### What the example prints -/

/-- The example prints the errors of the interpolated values in the three norms relative to those of the
reference solution; before that the absolute errors, the last of them as the mean square, without a root. -/
theorem C117_example {coords : List (List ℝ)} {values : List ℝ} (hc : coords ≠ [])
    (hl : values.length = coords.length) (time : ℝ) :
    ∃ m M, IsMax (List.zipWith (· - ·) values (coords.map (bump · time))) m ∧
      IsMax (coords.map (bump · time)) M ∧ 0 < M ∧
      managerErrors coords values time =
        .ok (⟨some m, some (mean (List.zipWith (· - ·) values (coords.map (bump · time)))),
            some (rms (List.zipWith (· - ·) values (coords.map (bump · time))) ^ 2)⟩,
          ⟨some (m / M), some (mean (List.zipWith (· - ·) values (coords.map (bump · time))) /
              mean (coords.map (bump · time))),
            some (rms (List.zipWith (· - ·) values (coords.map (bump · time))) /
              rms (coords.map (bump · time)))⟩) := by
  have hr : coords.map (bump · time) ≠ [] := by simpa using hc
  have he : List.zipWith (· - ·) values (coords.map (bump · time)) ≠ [] := by
    rw [← List.length_pos_iff, List.length_zipWith, List.length_map, hl, Nat.min_self]
    exact List.length_pos_iff.2 hc
  refine ⟨_, _, isMax_foldl he, isMax_foldl hr, ?_, managerErrors_eq hc hl time rfl rfl (isMax_foldl he)
    (isMax_foldl hr)⟩
  obtain ⟨x, hx⟩ := List.exists_mem_of_ne_nil coords hc
  have := (isMax_foldl hr).2 ⟨_, List.mem_map.2 ⟨x, hx, rfl⟩, rfl⟩
  exact lt_of_lt_of_le (abs_pos.2 (bump_pos x time).ne') this

/-- Values that are too large by 2 everywhere: the root is missing. -/
theorem C117_square_violated : ∃ (coords : List (List ℝ)) (values : List ℝ) (time : ℝ) (r : Printed × Printed),
    managerErrors coords values time = .ok r ∧ values = coords.map (fun x => bump x time + 2) ∧
      r.1.order0 = some 2 ∧ r.1.order1 = some 2 ∧ r.1.order2 = some 4 := by
  refine ⟨[[0], [1 / 2]], [bump [0] 0 + 2, bump [1 / 2] 0 + 2], 0, _,
    managerErrors_eq (by simp) rfl 0 rfl rfl (m := 2) ?_ (isMax_foldl (by simp)), rfl, rfl, ?_, ?_⟩
  · refine ⟨⟨2, by simp, by norm_num⟩, ?_⟩
    rintro x ⟨a, ha, rfl⟩
    simp at ha
    subst ha
    norm_num
  · norm_num [mean]
  · norm_num [rms]

/-- Too few values are undefined behaviour. -/
theorem C117_fewValues (time : ℝ) : ∀ (coords : List (List ℝ)) (values : List ℝ),
    values.length < coords.length → managerErrors coords values time = .stuck := by
  have h : ∀ (coords : List (List ℝ)) (values : List ℝ) (s : Sums), values.length < coords.length →
      sumsLoop time s coords values = .stuck := by
    intro coords
    induction coords with
    | nil => simp
    | cons x xs ih =>
      intro values s hl
      cases values with
      | nil => simp [sumsLoop, testFn_eq, Outcome.bind]
      | cons v vs =>
        simp only [sumsLoop, testFn_eq, Outcome.bind]
        exact ih vs _ (by simpa using hl)
  intro coords values hl
  unfold managerErrors
  rw [h coords values _ hl]
  rfl

/-- The estimate of the variance is the mean of the squared distances from the mean. -/
theorem C117_variance {K : Type} [Field K] [CharZero K] {vs : List K} (hv : vs ≠ []) :
    varianceOf vs = (vs.map fun v => (v - vs.sum / vs.length) ^ 2).sum / vs.length := by
  have hn : (vs.length : K) ≠ 0 := by
    rw [Nat.cast_ne_zero]
    exact (List.length_pos_iff.2 hv).ne'
  have h : ∀ (l : List K) (c : K), (l.map fun v => (v - c) ^ 2).sum =
      (List.zipWith (· * ·) l l).sum - 2 * c * l.sum + l.length * c ^ 2 := by
    intro l c
    induction l with
    | nil => simp
    | cons a l ih =>
      rw [List.map_cons, List.sum_cons, ih, List.zipWith_cons_cons, List.sum_cons, List.sum_cons,
        List.length_cons]
      push_cast
      ring
  unfold varianceOf
  rw [h]
  field_simp
  ring

example : varianceOf [(1 : ℚ), 3, 5, 7] = 5 := by
  norm_num [varianceOf]

/-! ### The script for norms -/

/-- The norms of the values in a file: the maximum and the mean are right, the norm of order 2 is divided by
the root of the number of samples once more. -/
theorem C117_norms {files : H5Files ℝ} (coordFiles : H5Files (List ℝ)) {name : String} {f : H5File ℝ}
    {values : List ℝ} {t : ℝ} (hf : files name = some f) (hc : Contains f values (some t)) (hv : values ≠ [])
    (coordinates : Option String) (relative : Bool) :
    ∃ m, IsMax values m ∧ interpolationNorms files coordFiles ⟨name, none, coordinates, relative⟩ =
      .ok (false, ⟨some m, some (mean values), some (rms values / Real.sqrt values.length)⟩) := by
  refine ⟨_, isMax_foldl hv, ?_⟩
  obtain ⟨d, hd, rfl, ht⟩ := hc.only
  unfold interpolationNorms
  simp only [hf, hd, Outcome.bind, ht]
  rw [threeOrders_norm hv (isMax_foldl hv)]

/-- The errors of the values in a file, for a solution with the values `g`. -/
theorem C117_errors {files : H5Files ℝ} {coordFiles : H5Files (List ℝ)} {name coordName : String}
    {f : H5File ℝ} {values : List ℝ} {t : ℝ} (hf : files name = some f) (hc : Contains f values (some t))
    {cf : H5File (List ℝ)} {coords : List (List ℝ)} {ct : Option (List ℝ)}
    (hcf : coordFiles coordName = some cf) (hcc : Contains cf coords ct) (hv : coords ≠ [])
    (hl : values.length = coords.length) {s : Solution} {g : List ℝ → ℝ}
    (hs : ∀ x ∈ coords, s.value t x = .ok (g x)) :
    ∃ m M, IsMax (List.zipWith (· - ·) values (coords.map g)) m ∧ IsMax (coords.map g) M ∧
      interpolationNorms files coordFiles ⟨name, some s, some coordName, false⟩ =
        .ok (true, ⟨some m, some (mean (List.zipWith (· - ·) values (coords.map g))),
          some (rms (List.zipWith (· - ·) values (coords.map g)) / Real.sqrt coords.length)⟩) ∧
      ((∃ x ∈ coords, g x ≠ 0) →
        interpolationNorms files coordFiles ⟨name, some s, some coordName, true⟩ =
          .ok (true, ⟨some (m / M),
            some (mean (List.zipWith (· - ·) values (coords.map g)) / mean (coords.map g)),
            some (rms (List.zipWith (· - ·) values (coords.map g)) / rms (coords.map g))⟩)) ∧
      ((∀ x ∈ coords, g x = 0) →
        interpolationNorms files coordFiles ⟨name, some s, some coordName, true⟩ =
          .ok (true, ⟨none, none, none⟩)) := by
  have hel : (List.zipWith (· - ·) values (coords.map g)).length = coords.length := by
    rw [List.length_zipWith, List.length_map, hl, Nat.min_self]
  have he : List.zipWith (· - ·) values (coords.map g) ≠ [] := by
    rw [← List.length_pos_iff, hel]
    exact List.length_pos_iff.2 hv
  have hr : coords.map g ≠ [] := by simpa using hv
  obtain ⟨d, hd, hdv, ht⟩ := hc.only
  obtain ⟨cd, hcd, hcv, -⟩ := hcc.only
  have hrun : ∀ relative, interpolationNorms files coordFiles ⟨name, some s, some coordName, relative⟩ =
      (threeOrders (errorOf relative (List.zipWith (· - ·) values (coords.map g)) (coords.map g)
        values.length)).bind fun r => .ok (true, r) := by
    intro relative
    unfold interpolationNorms
    simp only [hf, hd, Outcome.bind, ht, hcf, hcd, hcv, hdv]
    rw [if_pos hl, solution_values hs]
  refine ⟨_, _, isMax_foldl he, isMax_foldl hr, ?_, fun ⟨x, hx, h0⟩ => ?_, fun h0 => ?_⟩
  · rw [hrun, threeOrders_absolute (by rw [hel, hl]) he (isMax_foldl he), hel]
    rfl
  · rw [hrun, threeOrders_relative (by rw [hel, List.length_map]) he (isMax_foldl he) (isMax_foldl hr)
      (List.mem_map.2 ⟨x, hx, rfl⟩) h0]
    rfl
  · rw [hrun, threeOrders_zero he hr (by
      intro a ha
      obtain ⟨x, hx, rfl⟩ := List.mem_map.1 ha
      exact h0 x hx)]
    rfl

/-- Without the time of the simulation, without coordinates for a solution, with another number of
coordinates than values, for a file that does not exist, and for a file with several groups or data sets, the
script ends with an exception. -/
theorem C117_missing (files : H5Files ℝ) (coordFiles : H5Files (List ℝ)) (a : Arguments) :
    (files a.valuesFile = none → interpolationNorms files coordFiles a = .error) ∧
    (∀ f values, files a.valuesFile = some f → Contains f values none →
      interpolationNorms files coordFiles a = .error) ∧
    (∀ f values t, files a.valuesFile = some f → Contains f values (some t) → a.solution ≠ none →
      a.coordinates = none → interpolationNorms files coordFiles a = .error) ∧
    (∀ f values t c cf coords ct, files a.valuesFile = some f → Contains f values (some t) →
      a.solution ≠ none → a.coordinates = some c → coordFiles c = some cf → Contains cf coords ct →
      values.length ≠ coords.length → interpolationNorms files coordFiles a = .error) ∧
    (∀ f, files a.valuesFile = some f → (∀ values t, ¬ Contains f values t) →
      interpolationNorms files coordFiles a = .error) := by
  refine ⟨fun h => ?_, fun f values h hc => ?_, fun f values t h hc hs hn => ?_,
    fun f values t c cf coords ct h hc hs hn hcf hcc hl => ?_, fun f h hc => ?_⟩
  · unfold interpolationNorms
    rw [h]
  · obtain ⟨d, hd, -, ht⟩ := hc.only
    unfold interpolationNorms
    simp only [h, hd, Outcome.bind, ht]
  · obtain ⟨d, hd, -, ht⟩ := hc.only
    obtain ⟨s, hs⟩ := Option.ne_none_iff_exists'.1 hs
    unfold interpolationNorms
    simp only [h, hd, Outcome.bind, ht, hs, hn]
  · obtain ⟨d, hd, hdv, ht⟩ := hc.only
    obtain ⟨cd, hcd, hcv, -⟩ := hcc.only
    obtain ⟨s, hs⟩ := Option.ne_none_iff_exists'.1 hs
    unfold interpolationNorms
    simp only [h, hd, Outcome.bind, ht, hs, hn, hcf, hcd, hcv, hdv]
    rw [if_neg hl]
  · unfold interpolationNorms
    rw [h]
    unfold onlyDataset
    simp only
    split
    next g d => exact absurd ⟨g, d.name, rfl⟩ (hc d.values d.time)
    · rfl

/-- A file with the two values 3 and -4. -/
example : ∃ files : H5Files ℝ, ∃ f, files "v.h5" = some f ∧ Contains f [3, -4] (some (1 / 2)) ∧
    ∃ r, interpolationNorms files (fun _ => none) ⟨"v.h5", none, none, false⟩ = .ok (false, r) ∧
      r.order0 = some 4 ∧ r.order1 = some (7 / 2) ∧ r.order2 = some (5 / 2) := by
  refine ⟨fun _ => some (h5Content "g" "d" [3, -4] (some (1 / 2))), _, rfl, ⟨_, _, rfl⟩, ?_⟩
  obtain ⟨m, hm, h⟩ := C117_norms (files := fun _ => some (h5Content "g" "d" [3, -4] (some (1 / 2))))
    (fun _ => none) (name := "v.h5") rfl ⟨_, _, rfl⟩ (by simp) none false
  have h4 : IsMax [3, -4] 4 := by
    refine ⟨⟨-4, by simp, by norm_num⟩, ?_⟩
    rintro x ⟨a, ha, rfl⟩
    simp only [List.mem_cons, List.not_mem_nil, or_false] at ha
    rcases ha with rfl | rfl <;> norm_num
  refine ⟨_, h, ?_, ?_, ?_⟩
  · rw [isMax_unique hm h4]
  · norm_num [mean]
  · have : rms [3, -4] * Real.sqrt ([3, -4] : List ℝ).length = 5 := by
      rw [rms_mul, show (([3, -4] : List ℝ).map fun a => a ^ 2).sum = 5 ^ 2 by norm_num]
      exact Real.sqrt_sq (by norm_num)
    have h2 : Real.sqrt ([3, -4] : List ℝ).length * Real.sqrt ([3, -4] : List ℝ).length = 2 := by
      rw [Real.mul_self_sqrt (by positivity)]
      norm_num
    have h0 : Real.sqrt ([3, -4] : List ℝ).length ≠ 0 := by
      intro h0
      rw [h0] at h2
      norm_num at h2
    simp only [Option.some.injEq]
    rw [div_eq_div_iff h0 (by norm_num), ← this, mul_assoc, h2]

/-- The norm of order 2 is wrong for all values that are not zero, unless there is only one, and with more
and more samples of the constant 1 the script prints smaller and smaller numbers. -/
theorem C117_order2_violated :
    (∀ values : List ℝ, 2 ≤ values.length → (∃ a ∈ values, a ≠ 0) →
      rms values / Real.sqrt values.length < rms values) ∧
    ∀ ε : ℝ, 0 < ε → ∃ N : ℕ, 0 < N ∧ ∀ (files : H5Files ℝ) coordFiles name f t, files name = some f →
      Contains f (List.replicate N 1) (some t) → rms (List.replicate N 1) = 1 ∧
        ∃ r, interpolationNorms files coordFiles ⟨name, none, none, false⟩ = .ok (false, r) ∧
          ∃ q, r.order2 = some q ∧ q < ε := by
  constructor
  · rintro values hl ⟨a, ha, h0⟩
    have hpos : 0 < rms values := by
      unfold rms
      rw [Real.sqrt_pos]
      have : (0 : ℝ) < values.length := by
        have : 0 < values.length := by omega
        exact_mod_cast this
      exact div_pos (sumSq_pos ha h0) this
    refine div_lt_self hpos ?_
    rw [Real.lt_sqrt (by norm_num), one_pow]
    exact_mod_cast hl
  · intro ε hε
    obtain ⟨N, hN⟩ := exists_nat_gt (1 / ε ^ 2)
    have hNpos : (0 : ℝ) < N := lt_trans (by positivity) hN
    have hN0 : 0 < N := by exact_mod_cast hNpos
    refine ⟨N, hN0, fun files coordFiles name f t hf hc => ?_⟩
    have hrms : rms (List.replicate N 1) = 1 := by
      unfold rms
      rw [List.map_replicate, List.sum_replicate, List.length_replicate, one_pow, nsmul_one,
        div_self hNpos.ne', Real.sqrt_one]
    obtain ⟨m, -, h⟩ := C117_norms coordFiles hf hc (by simp; omega) none false
    refine ⟨hrms, _, h, _, rfl, ?_⟩
    rw [hrms, List.length_replicate, div_lt_iff₀ (Real.sqrt_pos.2 hNpos), ← div_lt_iff₀' hε]
    rw [Real.lt_sqrt (by positivity), div_pow, one_pow]
    exact hN

/-- `--relative` without a solution is accepted and has no effect. -/
theorem C117_relative_violated {files : H5Files ℝ} (coordFiles : H5Files (List ℝ)) {name : String}
    {f : H5File ℝ} {values : List ℝ} {t : ℝ} (hf : files name = some f) (hc : Contains f values (some t))
    (hv : values ≠ []) : ∃ r,
    interpolationNorms files coordFiles ⟨name, none, none, true⟩ = .ok r ∧
      interpolationNorms files coordFiles ⟨name, none, none, false⟩ = .ok r := by
  obtain ⟨m, hm, h⟩ := C117_norms coordFiles hf hc hv none true
  obtain ⟨m', hm', h'⟩ := C117_norms coordFiles hf hc hv none false
  rw [isMax_unique hm' hm] at h'
  exact ⟨_, h, h'⟩

/-! ### The example and the script -/

/-- For the same values, coordinates and time, the script prints the same relative errors as the example, the
same absolute errors of the orders ∞ and 1, and the root of the absolute error of order 2 divided by the root
of the number of samples. -/
theorem C117_same {files : H5Files ℝ} {coordFiles : H5Files (List ℝ)} {name coordName : String}
    {f : H5File ℝ} {values : List ℝ} {t : ℝ} (hf : files name = some f) (hc : Contains f values (some t))
    {cf : H5File (List ℝ)} {coords : List (List ℝ)} {ct : Option (List ℝ)}
    (hcf : coordFiles coordName = some cf) (hcc : Contains cf coords ct) (hv : coords ≠ [])
    (hl : values.length = coords.length) : ∃ a b c rel,
    managerErrors coords values t = .ok (⟨some a, some b, some c⟩, rel) ∧ 0 ≤ c ∧
      interpolationNorms files coordFiles ⟨name, some .advection, some coordName, true⟩ = .ok (true, rel) ∧
      interpolationNorms files coordFiles ⟨name, some .advection, some coordName, false⟩ =
        .ok (true, ⟨some a, some b, some (Real.sqrt c / Real.sqrt coords.length)⟩) := by
  obtain ⟨m, M, hm, hM, hM0, h⟩ := C117_example hv hl t
  obtain ⟨m', M', hm', hM', h1, h2, -⟩ := C117_errors hf hc hcf hcc hv hl (s := .advection)
    (g := (bump · t)) fun x _ => gaussianFunction_eq x t
  rw [isMax_unique hm' hm] at h1 h2
  rw [isMax_unique hM' hM] at h2
  obtain ⟨x, hx⟩ := List.exists_mem_of_ne_nil coords hv
  refine ⟨_, _, _, _, h, sq_nonneg _, h2 ⟨x, hx, (bump_pos x t).ne'⟩, ?_⟩
  rw [h1, Real.sqrt_sq]
  exact Real.sqrt_nonneg _

/-- Two points in two dimensions. -/
example : ∃ (files : H5Files ℝ) (coordFiles : H5Files (List ℝ)) (f : H5File ℝ) (cf : H5File (List ℝ)),
    files "a_values_3.h5" = some f ∧ Contains f [1, 1 / 2] (some (1 / 4)) ∧
    coordFiles "a_coords.h5" = some cf ∧ Contains cf [[3 / 4, 3 / 4], [0, 1]] none :=
  ⟨fun _ => some (h5Content "all_grids" "interpolated_3" [1, 1 / 2] (some (1 / 4))),
    fun _ => some (h5Content "manager" "coordinates" [[3 / 4, 3 / 4], [0, 1]] none), _, _, rfl, ⟨_, _, rfl⟩, rfl,
    ⟨_, _, rfl⟩⟩

/-- The absolute errors of order 2 that the example and the script print for the same values are different,
unless the sum of the squares of the errors is 0 or 1. -/
theorem C117_absolute_violated {files : H5Files ℝ} {coordFiles : H5Files (List ℝ)} {name coordName : String}
    {f : H5File ℝ} {values : List ℝ} {t : ℝ} (hf : files name = some f) (hc : Contains f values (some t))
    {cf : H5File (List ℝ)} {coords : List (List ℝ)} {ct : Option (List ℝ)}
    (hcf : coordFiles coordName = some cf) (hcc : Contains cf coords ct) (hv : coords ≠ [])
    (hl : values.length = coords.length) : ∃ r r' x y, managerErrors coords values t = .ok r ∧
      interpolationNorms files coordFiles ⟨name, some .advection, some coordName, false⟩ = .ok r' ∧
      r.1.order2 = some x ∧ r'.2.order2 = some y ∧
      (x = y → x * coords.length = 0 ∨ x * coords.length = 1) := by
  obtain ⟨a, b, c, rel, h1, hc0, -, h3⟩ := C117_same hf hc hcf hcc hv hl
  refine ⟨_, _, _, _, h1, h3, rfl, rfl, fun h => ?_⟩
  have hN' : (0 : ℝ) < coords.length := by exact_mod_cast List.length_pos_iff.2 hv
  have h2 : c ^ 2 * coords.length = c := by
    have := congrArg (· ^ 2) h
    simp only [div_pow] at this
    rw [Real.sq_sqrt hc0, Real.sq_sqrt hN'.le, eq_div_iff hN'.ne'] at this
    exact this
  by_cases h0 : c = 0
  · exact .inl (by rw [h0, zero_mul])
  · right
    have : c * (c * coords.length) = c * 1 := by rw [mul_one, ← mul_assoc, ← sq, h2]
    exact mul_left_cancel₀ h0 this

/-! ### The script for sums -/

section

variable {K : Type} [Field K] [DecidableEq K]

/-- The sum of files with the same number of values and the same time: every value is the sum of the values
at its place, for every number of files from two on, in every order; no file is overwritten. -/
theorem C117_reduce {fs : H5Files K} {first : String} {rest : List String} (h1 : stem first.toList ≠ [])
    (h2 : rest ≠ []) {values : String → List K} {m : ℕ} {t : K}
    (h : ∀ name ∈ first :: rest, (values name).length = m ∧
      ∃ f, fs name = some f ∧ Contains f (values name) (some t)) :
    ∃ result f sums, reduceDatasets fs (first :: rest) = .ok (result, f) ∧ Contains f sums (some t) ∧
      sums.length = m ∧ (∀ i < m, sums[i]? = some (((first :: rest).map fun name => (values name).getD i 0).sum)) ∧
      ∀ name ∈ first :: rest, result ≠ name ∧ lastPart name.toList ≠ result.toList := by
  have hloop := reduceLoop_eq (fs := fs) (base := List.range m) (t := t) (name := fun a : String => a)
    (F := fun name i => (values name).getD i 0) (items := first :: rest) (by simp) (by
      intro name hn
      obtain ⟨hl, f, hf, hc⟩ := h name hn
      refine ⟨f, hf, ?_⟩
      have : (List.range m).map (fun i => (values name).getD i 0) = values name := by
        apply List.ext_getElem
        · simp [hl]
        · intro i h1 h2
          simp [List.getD_eq_getElem?_getD, h2]
      rw [this]
      exact hc)
  rw [List.map_id'] at hloop
  have hne : (first :: rest).getLast? ≠ some (resultName (first :: rest)) := by
    intro he
    exact resultName_ne_of_mem h1 h2 (List.mem_of_getLast? he) rfl
  refine ⟨resultName (first :: rest), h5Content "summed_values" "values" _ (some t),
    (List.range m).map (fun i => ((first :: rest).map fun name => (values name).getD i 0).sum), ?_,
    ⟨_, _, rfl⟩, ?_, ?_, fun name hn => ⟨(resultName_ne_of_mem h1 h2 hn).symm, resultName_ne h1 h2 name hn⟩⟩
  · unfold reduceDatasets
    rw [hloop]
    simp only [Outcome.bind]
    rw [if_neg hne]
  · simp
  · intro i hi
    simp [hi]

/-- The order of the files does not matter for the sums. -/
theorem C117_reduce_order {fs : H5Files K} {first first' : String} {rest rest' : List String}
    (hp : (first' :: rest').Perm (first :: rest)) (h1 : stem first.toList ≠ [])
    (h1' : stem first'.toList ≠ []) (h2 : rest ≠ []) {values : String → List K} {m : ℕ} {t : K}
    (h : ∀ name ∈ first :: rest, (values name).length = m ∧
      ∃ f, fs name = some f ∧ Contains f (values name) (some t)) :
    ∃ result result' f f' sums, reduceDatasets fs (first :: rest) = .ok (result, f) ∧
      reduceDatasets fs (first' :: rest') = .ok (result', f') ∧ Contains f sums (some t) ∧
      Contains f' sums (some t) := by
  have h2' : rest' ≠ [] := by
    have := hp.length_eq
    have := List.length_pos_iff.2 h2
    rw [← List.length_pos_iff]
    simp at *
    omega
  obtain ⟨r, f, sums, e, c, l, s, -⟩ := C117_reduce h1 h2 h
  obtain ⟨r', f', sums', e', c', l', s', -⟩ := C117_reduce h1' h2' fun name hn => h name (hp.mem_iff.1 hn)
  have : sums' = sums := by
    apply List.ext_getElem?
    intro i
    by_cases hi : i < m
    · rw [s i hi, s' i hi, (hp.map _).sum_eq]
    · rw [List.getElem?_eq_none (by omega), List.getElem?_eq_none (by omega)]
  exact ⟨r, r', f, f', sums, e, e', c, this ▸ c'⟩

/-- If the script does not end with an exception, all files have the same time and the same number of
values. -/
theorem C117_reduce_checked {fs : H5Files K} {names : List String} {r : String × H5File K}
    (h : reduceDatasets fs names = .ok r) : names ≠ [] ∧ ∃ m t, ∀ name ∈ names,
      ∃ f values, fs name = some f ∧ Contains f values (some t) ∧ values.length = m := by
  unfold reduceDatasets at h
  cases hl : reduceLoop fs none names with
  | error => rw [hl] at h; simp [Outcome.bind] at h
  | stuck => rw [hl] at h; simp [Outcome.bind] at h
  | ok acc =>
    rw [hl] at h
    simp only [Outcome.bind] at h
    cases acc with
    | none => split at h <;> simp at h
    | some a =>
      obtain ⟨vs, t⟩ := a
      refine ⟨?_, vs.length, t, (reduceLoop_ok hl).2⟩
      rintro rfl
      simp [reduceLoop] at hl

/-- One file that is named without a directory and with the ending `h5` cannot be processed: the result would
have the same name. -/
theorem C117_single_violated {fs : H5Files K} {base : List Char} (hd : '.' ∉ base) (hs : '/' ∉ base)
    {values : List K} {t : K} {f : H5File K} (hf : fs (String.ofList (base ++ ".h5".toList)) = some f)
    (hc : Contains f values (some t)) :
    reduceDatasets fs [String.ofList (base ++ ".h5".toList)] = .error := by
  have hname : resultName [String.ofList (base ++ ".h5".toList)] = String.ofList (base ++ ".h5".toList) := by
    unfold resultName
    congr 2
    simp only [List.map_cons, List.map_nil, String.toList_ofList, nameLoop, if_true]
    unfold stem
    rw [lastPart_eq_self (by
      simp only [List.mem_append, not_or]
      exact ⟨hs, by decide⟩)]
    exact takeWhile_dot hd
  obtain ⟨d, hd', hv, ht⟩ := hc.only
  unfold reduceDatasets
  simp only [reduceLoop, hf, reduceStep, hd', ht, Outcome.bind]
  rw [hname]
  simp

end

/-- Two files from different directories. -/
example : ∃ f sums, reduceDatasets (fun name => if name = "a/v_1.h5" then some (h5Content "all_grids" "d" [(1 : ℚ), 2] (some 3))
      else if name = "b/v_1.h5" then some (h5Content "all_grids" "d" [10, 20] (some 3)) else none)
      ["a/v_1.h5", "b/v_1.h5"] = .ok ("v_1_and_v_1.h5", f) ∧ Contains f sums (some 3) ∧ sums = [11, 22] := by
  refine ⟨h5Content "summed_values" "values" [11, 22] (some 3), _, ?_, ⟨_, _, rfl⟩, rfl⟩
  have hr : resultName ["a/v_1.h5", "b/v_1.h5"] = "v_1_and_v_1.h5" := by decide
  have h1 : ¬ "b/v_1.h5" = "a/v_1.h5" := by decide
  have h2 : ¬ "b/v_1.h5" = "v_1_and_v_1.h5" := by decide
  unfold reduceDatasets
  rw [hr]
  norm_num [h1, h2, reduceLoop, reduceStep, onlyDataset, h5Content, Outcome.bind]

example : stem "a/v_1.h5".toList ≠ [] ∧ reduceDatasets (fun name => if name = "v.h5" then
    some (h5Content "all_grids" "d" [(1 : ℚ), 2] (some 3)) else none) ["v.h5"] = .error :=
  ⟨by decide, C117_single_violated (base := ['v']) (by decide) (by decide) (if_pos (by decide)) ⟨_, _, rfl⟩⟩

/-! ### Several systems -/

section

variable {K : Type} [Field K] [LinearOrder K] [FloorRing K] [IsStrictOrderedRing K]

/-- One of the systems of a widely distributed run: its groups, its processes, its component grids and the
prefix of its files. -/
structure SystemRun (K : Type) where
  n : ℕ
  p : ℕ
  cart : ℕ → List ℕ
  T : ℕ → List (K × List ℕ × (ℕ → K))
  O : ℕ → List (OutputTask K)
  filenamePrefix : String

/-- The hypotheses of `C100_singleFile_partial` and the time of the first task of the last group. -/
structure SystemRun.Ok (refs : List RefDim) (t : K) (s : SystemRun K) : Prop where
  groups : 0 < s.n
  procs : 0 < s.p
  comp : ∀ g < s.n, ∀ a ∈ s.T g, ValidComponent refs a.2.1
  parts : NonEmptyParts refs s.n s.T
  holds : ∀ g < s.n, List.Forall₂ (fun a o => HoldsParts refs a o.task) (s.T g) (s.O g)
  grid : ProcGrid s.p s.cart (refs.map fun r => r.dec.length)
  named : s.filenamePrefix ≠ ""
  last : ∃ o os, s.O (s.n - 1) = o :: os ∧ o.time = some t

omit [LinearOrder K] [FloorRing K] [IsStrictOrderedRing K] in
theorem sum_flatMap' {α : Type} (f : α → List K) : ∀ l : List α,
    (l.flatMap f).sum = (l.map fun a => (f a).sum).sum
  | [] => rfl
  | a :: l => by
      rw [List.flatMap_cons, List.sum_append, sum_flatMap' f l, List.map_cons, List.sum_cons]

omit [LinearOrder K] [FloorRing K] [IsStrictOrderedRing K] in
theorem combinedAt_flat [LinearOrder K] [FloorRing K] (refs : List RefDim) (n : ℕ)
    (T : ℕ → List (K × List ℕ × (ℕ → K))) (xs : List K) :
    combinedAt refs n T xs = (((List.range n).flatMap T).map fun t => t.1 * componentAt refs t xs).sum := by
  unfold combinedAt componentAt
  rw [List.map_flatMap, sum_flatMap']

/-- The file a system writes. -/
theorem system_file {refs : List RefDim} (hr : ∀ r ∈ refs, ValidRef r) {coords : List (List K)}
    (hx : CoordsOk refs coords) {t : K} {s : SystemRun K} (h : s.Ok refs t) (step : ℕ) :
    ∃ f, managerWriteSingleFile s.n s.p s.cart s.O refs.length coords s.filenamePrefix step =
        .ok [(singleFileName s.filenamePrefix step, f)] ∧
      Contains f (coords.map (combinedAt refs s.n s.T)) (some t) := by
  obtain ⟨o, os, ho, ht⟩ := h.last
  obtain ⟨w, h1, -, h3, h4⟩ := C100_singleFile_partial hr h.groups h.comp h.parts h.holds h.procs h.grid hx
    h.named step ho
  obtain ⟨h5, -⟩ := h4 fun _ => none
  have hname : w.1 = singleFileName s.filenamePrefix step := by
    by_contra hne
    have : h5WriteAll (fun _ => none) [w] (singleFileName s.filenamePrefix step) = none :=
      h5WriteAll_notMem _ _ _ (by simpa using fun e => hne e.symm)
    simp [h5Read, this] at h5
  obtain ⟨name, f⟩ := w
  simp only at hname h3
  subst hname
  refine ⟨f, h1, ?_⟩
  have hf : h5WriteAll (fun _ => none) [(singleFileName s.filenamePrefix step, f)]
      (singleFileName s.filenamePrefix step) = some f :=
    h5WriteAll_mem _ _ (by simp) (w := (singleFileName s.filenamePrefix step, f)) (by simp)
  unfold h5Read at h5
  rw [hf] at h5
  obtain ⟨g, d, rfl⟩ : ∃ g d, f = [(g, [d])] := by
    have hl := congrArg List.length h3
    rw [List.length_map] at hl
    obtain ⟨⟨g, ds⟩, rfl⟩ := List.length_eq_one_iff.1 hl
    simp only [List.map_cons, List.map_nil, List.cons.injEq, and_true] at h3
    have hl' := congrArg List.length h3
    rw [List.length_map] at hl'
    obtain ⟨d, rfl⟩ := List.length_eq_one_iff.1 hl'
    exact ⟨g, d, rfl⟩
  simp only [Outcome.ok.injEq] at h5
  simp only [List.map_cons, List.map_nil, List.cons.injEq, and_true] at h3
  refine ⟨g, d.name, ?_⟩
  rw [← h5, ← ht, ← h3]

/-- C117, several systems: if the component grids of a scheme are spread over at least two systems in any
way, the sum of the files of all systems contains the values of the whole combination. -/
theorem C117_systems_partial {refs : List RefDim} (hr : ∀ r ∈ refs, ValidRef r) {coords : List (List K)}
    (hx : CoordsOk refs coords) {t : K} {first : SystemRun K} {rest : List (SystemRun K)} (h2 : rest ≠ [])
    (h : ∀ s ∈ first :: rest, s.Ok refs t) {step : ℕ}
    (hnames : ((first :: rest).map fun s => singleFileName s.filenamePrefix step).Nodup)
    (hstem : stem (singleFileName first.filenamePrefix step).toList ≠ [])
    {N : ℕ} {U : ℕ → List (K × List ℕ × (ℕ → K))}
    (hU : ((List.range N).flatMap U).Perm
      ((first :: rest).flatMap fun s => (List.range s.n).flatMap s.T)) :
    ∃ files : List (String × H5File K),
      List.Forall₂ (fun s w => managerWriteSingleFile s.n s.p s.cart s.O refs.length coords
        s.filenamePrefix step = .ok [w]) (first :: rest) files ∧
      ∀ fs : H5Files K, ∃ result f,
        reduceDatasets (h5WriteAll fs files) (files.map (·.1)) = .ok (result, f) ∧
        Contains f (coords.map (combinedAt refs N U)) (some t) := by
  classical
  let F : SystemRun K → H5File K := fun s => if hs : s.Ok refs t then (system_file hr hx hs step).choose else []
  have hF : ∀ s ∈ first :: rest, managerWriteSingleFile s.n s.p s.cart s.O refs.length coords
      s.filenamePrefix step = .ok [(singleFileName s.filenamePrefix step, F s)] ∧
      Contains (F s) (coords.map (combinedAt refs s.n s.T)) (some t) := by
    intro s hs
    have := (system_file hr hx (h s hs) step).choose_spec
    simpa only [F, dif_pos (h s hs)] using this
  refine ⟨(first :: rest).map fun s => (singleFileName s.filenamePrefix step, F s), ?_, fun fs => ?_⟩
  · rw [List.forall₂_map_right_iff, List.forall₂_same]
    exact fun s hs => (hF s hs).1
  have hmap : ((first :: rest).map fun s => (singleFileName s.filenamePrefix step, F s)).map (·.1) =
      (first :: rest).map fun s => singleFileName s.filenamePrefix step := by
    rw [List.map_map]
    rfl
  rw [hmap]
  have hloop := reduceLoop_eq
    (fs := h5WriteAll fs ((first :: rest).map fun s => (singleFileName s.filenamePrefix step, F s)))
    (base := coords) (t := t) (name := fun s : SystemRun K => singleFileName s.filenamePrefix step)
    (F := fun s => combinedAt refs s.n s.T) (items := first :: rest) (by simp) (by
      intro s hs
      exact ⟨F s, h5WriteAll_mem _ _ (by rw [hmap]; exact hnames)
        (w := (singleFileName s.filenamePrefix step, F s)) (List.mem_map.2 ⟨s, hs, rfl⟩), (hF s hs).2⟩)
  have hne : ((first :: rest).map fun s => singleFileName s.filenamePrefix step).getLast? ≠
      some (resultName ((first :: rest).map fun s => singleFileName s.filenamePrefix step)) := by
    intro he
    have hm := List.mem_of_getLast? he
    rw [List.map_cons] at hm
    exact resultName_ne_of_mem hstem (by simpa using h2) hm rfl
  refine ⟨resultName ((first :: rest).map fun s => singleFileName s.filenamePrefix step),
    h5Content "summed_values" "values" (coords.map (combinedAt refs N U)) (some t), ?_, _, _, rfl⟩
  · unfold reduceDatasets
    rw [hloop]
    simp only [Outcome.bind]
    rw [if_neg hne]
    have hsum : (fun i => ((first :: rest).map fun s => combinedAt refs s.n s.T i).sum) =
        combinedAt refs N U := by
      funext i
      rw [combinedAt_flat refs N U, (hU.map _).sum_eq, List.map_flatMap, sum_flatMap']
      congr 1
      apply List.map_congr_left
      intro s _
      exact combinedAt_flat refs s.n s.T i
    rw [hsum]

end

/-- C117, the whole way of one system: the manager gets the values of the combination and prints their relative
errors, and the script prints the same numbers from the files that are written. -/
theorem C117_run_partial {refs : List RefDim} (hr : ∀ r ∈ refs, ValidRef r) {coords : List (List ℝ)}
    (hx : CoordsOk refs coords) {t : ℝ} {s : SystemRun ℝ} (h : s.Ok refs t) (step : ℕ) (nan : ℝ) :
    ∃ w values abs rel,
      managerInterpolateValues nan s.n s.p s.cart (plainTasks s.O) refs.length coords = .ok values ∧
      values = coords.map (combinedAt refs s.n s.T) ∧
      managerWriteSingleFile s.n s.p s.cart s.O refs.length coords s.filenamePrefix step = .ok [w] ∧
      managerErrors coords values t = .ok (abs, rel) ∧
      ∀ (files : H5Files ℝ) (coordFiles : H5Files (List ℝ)) (coordName : String),
        coordFiles coordName = some (h5Content "manager" "coordinates" coords none) →
        interpolationNorms (h5WriteAll files [w]) coordFiles
          ⟨w.1, some .advection, some coordName, true⟩ = .ok (true, rel) := by
  obtain ⟨f, hw, hc⟩ := system_file hr hx h step
  have hS : ∀ g < s.n, List.Forall₂ (HoldsParts refs) (s.T g) (plainTasks s.O g) := by
    intro g hgn
    unfold plainTasks
    rw [List.forall₂_map_right_iff]
    exact h.holds g hgn
  have hm := C100_manager_partial hr h.groups h.comp h.parts hS h.grid hx nan
  obtain ⟨m, M, -, -, -, he⟩ := C117_example (values := coords.map (combinedAt refs s.n s.T)) hx.nonempty
    (by simp) t
  refine ⟨_, _, _, _, hm, rfl, hw, he, fun files coordFiles coordName hcf => ?_⟩
  obtain ⟨a, b, c, rel, h1, -, h3, -⟩ := C117_same
    (files := h5WriteAll files [(singleFileName s.filenamePrefix step, f)])
    (h5WriteAll_mem _ _ (by simp) (w := (singleFileName s.filenamePrefix step, f)) (by simp)) hc hcf
    ⟨_, _, rfl⟩ hx.nonempty (by simp)
  rw [he] at h1
  injection h1 with h1
  injection h1 with h1 h4
  rw [h3, ← h4]

/-- One component grid on two processes. -/
noncomputable def oneRun : SystemRun ℝ where
  n := 1
  p := 2
  cart := fun r => [r, 0]
  T := fun _ => [(1, [1, 2], fun q => q)]
  O := fun _ => [⟨0, some (1 / 2), ⟨1, compGrid layoutRefs [1, 2], fun c =>
    ⟨numLocal (atProcess layoutRefs c) [1, 2], fun q => (globalOf layoutRefs c [1, 2] q : ℝ)⟩⟩⟩]
  filenamePrefix := "advection"

example : oneRun.Ok layoutRefs (1 / 2) ∧ CoordsOk layoutRefs [[(1 : ℝ) / 3, 3 / 8], [1, 0]] := by
  have hmem : ((1 : ℚ), [1, 2], fun q => (fun _ : List ℕ => (0 : ℚ)) (spatialOf serialRefs [1, 2] q)) ∈
      serialSystem (fun _ => 0) 0 := List.mem_cons_self
  refine ⟨⟨Nat.one_pos, Nat.two_pos, fun _ _ a ha => ?_, fun _ _ a ha => ?_, fun _ _ => ?_, procGrid_two,
    by decide, ⟨_, _, rfl, rfl⟩⟩, ⟨by simp, by decide, by decide, ?_, by decide⟩⟩
  · obtain rfl := List.mem_singleton.1 ha
    exact (layoutRefs_valid fun _ => 0).comp 0 (by decide) _ hmem
  · obtain rfl := List.mem_singleton.1 ha
    exact layoutRefs_nonEmpty (fun _ => 0) 0 (by decide) _ hmem
  · exact .cons ⟨rfl, rfl, fun c _ => ⟨rfl, fun _ _ => rfl⟩⟩ .nil
  · intro xs hxs
    simp only [List.mem_cons, List.not_mem_nil, or_false] at hxs
    rcases hxs with rfl | rfl
    · exact .cons (by norm_num) (.cons (by norm_num) .nil)
    · exact .cons ⟨by norm_num, by norm_num, by decide⟩ (.cons (by norm_num) .nil)

/-- The two groups of `serialSystem` as two systems with one group each. -/
def twoSystems (v : List ℕ → ℚ) (s : ℕ) : SystemRun ℚ where
  n := 1
  p := 2
  cart := fun r => [r, 0]
  T := fun _ => serialSystem v s
  O := fun _ => layoutOutput v s
  filenamePrefix := if s = 0 then "hawk/out" else "ng/out"

theorem twoSystems_ok (v : List ℕ → ℚ) {s : ℕ} (hs : s < 2) : (twoSystems v s).Ok layoutRefs (1 / 2) where
  groups := Nat.one_pos
  procs := Nat.two_pos
  comp := fun _ _ a ha => (layoutRefs_valid v).comp s hs a ha
  parts := fun _ _ a ha => layoutRefs_nonEmpty v s hs a ha
  holds := fun _ _ => layoutOutput_holds v s
  grid := procGrid_two
  named := by
    unfold twoSystems
    simp only
    split <;> decide
  last := by
    obtain rfl | rfl : s = 0 ∨ s = 1 := by omega
    · exact ⟨_, _, rfl, rfl⟩
    · exact ⟨_, _, rfl, rfl⟩

example (v : List ℕ → ℚ) : ∃ files : List (String × H5File ℚ),
    files.map (·.1) = ["hawk/out_values_3.h5", "ng/out_values_3.h5"] ∧
    ∀ fs : H5Files ℚ, ∃ result f, reduceDatasets (h5WriteAll fs files) (files.map (·.1)) = .ok (result, f) ∧
      Contains f ([[(1 : ℚ) / 3, 3 / 8], [1, 0]].map (combinedAt layoutRefs 2 (serialSystem v)))
        (some (1 / 2)) := by
  have hn0 : singleFileName (twoSystems v 0).filenamePrefix 3 = "hawk/out_values_3.h5" := by
    show singleFileName "hawk/out" 3 = _
    decide
  have hn1 : singleFileName (twoSystems v 1).filenamePrefix 3 = "ng/out_values_3.h5" := by
    show singleFileName "ng/out" 3 = _
    decide
  obtain ⟨files, h1, h2⟩ := C117_systems_partial (layoutRefs_valid v).ref layoutOutput_coords (t := 1 / 2)
    (first := twoSystems v 0) (rest := [twoSystems v 1]) (by simp) (by
      intro s hs
      simp only [List.mem_cons, List.not_mem_nil, or_false] at hs
      rcases hs with rfl | rfl
      · exact twoSystems_ok v (by decide)
      · exact twoSystems_ok v (by decide)) (step := 3) (by
      simp only [List.map_cons, List.map_nil, hn0, hn1]
      decide) (by
      rw [hn0]
      decide) (N := 2) (U := serialSystem v) (List.Perm.of_eq rfl)
  refine ⟨files, ?_, h2⟩
  have hfile := fun s (hs : s < 2) => system_file (layoutRefs_valid v).ref layoutOutput_coords
    (twoSystems_ok v hs) 3
  obtain ⟨f0, e0, -⟩ := hfile 0 (by decide)
  obtain ⟨f1, e1, -⟩ := hfile 1 (by decide)
  cases h1 with
  | cons a b =>
    cases b with
    | cons c d =>
      cases d
      rw [e0] at a
      rw [e1] at c
      injection a with a
      injection c with c
      injection a with a
      injection c with c
      rw [List.map_cons, List.map_cons, List.map_nil, ← a, ← c, hn0, hn1]

end Verif.Evaluation

import Verif.Model.Evaluation
import Mathlib.Algebra.Order.Floor.Ring
import Mathlib.Algebra.BigOperators.Group.List.Basic
import Mathlib.Algebra.Order.BigOperators.Group.List
import Mathlib.Data.List.TakeWhile
import Mathlib.Tactic.Linarith
import Mathlib.Tactic.Ring
import Mathlib.Tactic.FieldSimp
import Mathlib.Tactic.Positivity
import Mathlib.Tactic.NormNum

/-!
# Lemmas for the errors and norms of interpolated values
-/

namespace Verif.Evaluation

open Verif

/-! ### The reference function -/

/-- The bump in the middle of the unit cube, moved by `t` in every direction and repeated periodically. -/
noncomputable def bump (xs : List ℝ) (t : ℝ) : ℝ :=
  Real.exp (-9 * (xs.map fun x => (Int.fract (x - t) - 1 / 2) ^ 2).sum)

theorem shifted_eq (x t : ℝ) : shifted x t = Int.fract (x - t) := by
  unfold shifted fmodOne
  by_cases h : 0 ≤ x - t
  · rw [if_pos h, if_pos (by have := Int.fract_nonneg (x - t); linarith), add_comm, Int.fract_add_one,
      Int.fract_fract]
  · rw [if_neg h]
    have h1 := Int.fract_lt_one (-(x - t))
    rw [if_pos (by linarith), add_comm, Int.fract_add_one]
    have : -Int.fract (-(x - t)) = (x - t) + (⌊-(x - t)⌋ : ℤ) := by
      unfold Int.fract
      ring
    rw [this, Int.fract_add_intCast]

theorem gaussLoop_eq (bad : Outcome ℝ) (t : ℝ) : ∀ (e : ℝ) (xs : List ℝ), gaussLoop bad t e xs =
    .ok (e - (xs.map fun x => (Int.fract (x - t) - 1 / 2) ^ 2).sum)
  | e, [] => by simp [gaussLoop]
  | e, x :: xs => by
      unfold gaussLoop
      rw [shifted_eq, if_pos ⟨Int.fract_nonneg _, (Int.fract_lt_one _).le⟩, gaussLoop_eq bad t _ xs,
        List.map_cons, List.sum_cons]
      congr 1
      norm_num
      ring

theorem testFn_eq (xs : List ℝ) (t : ℝ) : testFn xs t = .ok (bump xs t) := by
  unfold testFn bump
  rw [gaussLoop_eq]
  simp only [Outcome.bind]
  congr 2
  norm_num
  ring

theorem gaussianFunction_eq (xs : List ℝ) (t : ℝ) : gaussianFunction xs t = .ok (bump xs t) := by
  unfold gaussianFunction bump
  rw [gaussLoop_eq]
  simp only [Outcome.bind]
  congr 2
  norm_num
  ring

theorem bump_pos (xs : List ℝ) (t : ℝ) : 0 < bump xs t := Real.exp_pos _

theorem bump_le (xs : List ℝ) (t : ℝ) : bump xs t ≤ 1 := by
  unfold bump
  rw [Real.exp_le_one_iff]
  have : 0 ≤ (xs.map fun x => (Int.fract (x - t) - 1 / 2) ^ 2).sum := by
    apply List.sum_nonneg
    intro a ha
    obtain ⟨x, -, rfl⟩ := List.mem_map.1 ha
    positivity
  linarith

/-! ### The sums of the example -/

theorem sumsLoop_eq (time : ℝ) : ∀ (s : Sums) (xs : List (List ℝ)) (vs : List ℝ), xs.length ≤ vs.length →
    sumsLoop time s xs vs =
      .ok ((List.zip (xs.map (bump · time)) vs).foldl (fun s p => s.add p.1 p.2) s)
  | s, [], vs, _ => by simp [sumsLoop]
  | s, x :: xs, [], h => by simp at h
  | s, x :: xs, v :: vs, h => by
      simp only [sumsLoop, testFn_eq, Outcome.bind]
      rw [sumsLoop_eq time _ xs vs (by simpa using h)]
      simp

theorem sums_l1Error : ∀ (ps : List (ℝ × ℝ)) (s : Sums),
    (ps.foldl (fun s p => s.add p.1 p.2) s).l1Error = s.l1Error + (ps.map fun p => |p.1 - p.2|).sum
  | [], s => by simp
  | p :: ps, s => by
      rw [List.foldl_cons, sums_l1Error ps, List.map_cons, List.sum_cons]
      simp only [Sums.add]
      ring

theorem sums_l2Error : ∀ (ps : List (ℝ × ℝ)) (s : Sums),
    (ps.foldl (fun s p => s.add p.1 p.2) s).l2Error = s.l2Error + (ps.map fun p => |p.1 - p.2| ^ 2).sum
  | [], s => by simp
  | p :: ps, s => by
      rw [List.foldl_cons, sums_l2Error ps, List.map_cons, List.sum_cons]
      simp only [Sums.add]
      ring

theorem sums_l1Reference : ∀ (ps : List (ℝ × ℝ)) (s : Sums),
    (ps.foldl (fun s p => s.add p.1 p.2) s).l1Reference = s.l1Reference + (ps.map fun p => p.1).sum
  | [], s => by simp
  | p :: ps, s => by
      rw [List.foldl_cons, sums_l1Reference ps, List.map_cons, List.sum_cons]
      simp only [Sums.add]
      ring

theorem sums_l2Reference : ∀ (ps : List (ℝ × ℝ)) (s : Sums),
    (ps.foldl (fun s p => s.add p.1 p.2) s).l2Reference = s.l2Reference + (ps.map fun p => p.1 ^ 2).sum
  | [], s => by simp
  | p :: ps, s => by
      rw [List.foldl_cons, sums_l2Reference ps, List.map_cons, List.sum_cons]
      simp only [Sums.add]
      ring

theorem sums_l0Error : ∀ (ps : List (ℝ × ℝ)) (s : Sums),
    (ps.foldl (fun s p => s.add p.1 p.2) s).l0Error =
      (ps.map fun p => |p.1 - p.2|).foldl (fun m b => max m |b|) s.l0Error
  | [], s => by simp
  | p :: ps, s => by
      rw [List.foldl_cons, sums_l0Error ps, List.map_cons, List.foldl_cons]
      simp only [Sums.add, abs_abs]
      rw [max_comm]

theorem sums_l0Reference : ∀ (ps : List (ℝ × ℝ)) (s : Sums), (∀ p ∈ ps, 0 ≤ p.1) →
    (ps.foldl (fun s p => s.add p.1 p.2) s).l0Reference =
      (ps.map fun p => p.1).foldl (fun m b => max m |b|) s.l0Reference
  | [], s, _ => by simp
  | p :: ps, s, h => by
      rw [List.foldl_cons, sums_l0Reference ps _ fun q hq => h q (List.mem_cons_of_mem _ hq), List.map_cons,
        List.foldl_cons]
      simp only [Sums.add]
      rw [max_comm, abs_of_nonneg (h p List.mem_cons_self)]

/-! ### Norms -/

/-- `m` is the greatest absolute value in the list. -/
def IsMax (v : List ℝ) (m : ℝ) : Prop := IsGreatest {x | ∃ a ∈ v, x = |a|} m

/-- The mean of the absolute values. -/
noncomputable def mean (v : List ℝ) : ℝ := (v.map fun a => |a|).sum / v.length

/-- The root of the mean of the squares. -/
noncomputable def rms (v : List ℝ) : ℝ := Real.sqrt ((v.map fun a => a ^ 2).sum / v.length)

theorem foldl_max (v : List ℝ) : ∀ m : ℝ, m ≤ v.foldl (fun m b => max m |b|) m ∧
    (∀ a ∈ v, |a| ≤ v.foldl (fun m b => max m |b|) m) ∧
    (v.foldl (fun m b => max m |b|) m = m ∨ ∃ a ∈ v, v.foldl (fun m b => max m |b|) m = |a|) := by
  induction v with
  | nil => exact fun m => ⟨le_rfl, by simp, .inl rfl⟩
  | cons b v ih =>
    intro m
    obtain ⟨h1, h2, h3⟩ := ih (max m |b|)
    rw [List.foldl_cons]
    refine ⟨(le_max_left _ _).trans h1, fun a ha => ?_, ?_⟩
    · rcases List.mem_cons.1 ha with rfl | ha
      · exact (le_max_right _ _).trans h1
      · exact h2 a ha
    · rcases h3 with h3 | ⟨a, ha, h3⟩
      · rcases max_choice m |b| with h | h
        · exact .inl (h3.trans h)
        · exact .inr ⟨b, List.mem_cons_self, h3.trans h⟩
      · exact .inr ⟨a, List.mem_cons_of_mem _ ha, h3⟩

theorem isMax_foldl {v : List ℝ} (hv : v ≠ []) : IsMax v (v.foldl (fun m b => max m |b|) 0) := by
  obtain ⟨h1, h2, h3⟩ := foldl_max v 0
  refine ⟨?_, ?_⟩
  · rcases h3 with h3 | ⟨a, ha, h3⟩
    · obtain ⟨a, ha⟩ := List.exists_mem_of_ne_nil v hv
      refine ⟨a, ha, le_antisymm ?_ (h2 a ha)⟩
      rw [h3]
      exact abs_nonneg a
    · exact ⟨a, ha, h3⟩
  · rintro x ⟨a, ha, rfl⟩
    exact h2 a ha

theorem isMax_unique {v : List ℝ} {m m' : ℝ} (h : IsMax v m) (h' : IsMax v m') : m = m' :=
  IsGreatest.unique h h'

theorem npNorm_inf {v : List ℝ} (hv : v ≠ []) {m : ℝ} (h : IsMax v m) : npNorm v .inf = .ok m := by
  obtain ⟨a, as, rfl⟩ := List.exists_cons_of_ne_nil hv
  have := isMax_unique h (isMax_foldl (v := a :: as) (by simp))
  rw [this]
  simp [npNorm]

theorem isMax_neg {v w : List ℝ} (h : v.map (fun a => |a|) = w.map fun a => |a|) {m : ℝ} (hm : IsMax v m) :
    IsMax w m := by
  have : {x | ∃ a ∈ v, x = |a|} = {x | ∃ a ∈ w, x = |a|} := by
    ext x
    have h1 : x ∈ v.map (fun a => |a|) ↔ x ∈ w.map fun a => |a| := by rw [h]
    simp only [List.mem_map] at h1
    constructor
    · rintro ⟨a, ha, rfl⟩
      obtain ⟨b, hb, e⟩ := h1.1 ⟨a, ha, rfl⟩
      exact ⟨b, hb, e.symm⟩
    · rintro ⟨a, ha, rfl⟩
      obtain ⟨b, hb, e⟩ := h1.2 ⟨a, ha, rfl⟩
      exact ⟨b, hb, e.symm⟩
  unfold IsMax at *
  rwa [← this]

theorem sumSq_nonneg (v : List ℝ) : 0 ≤ (v.map fun a => a ^ 2).sum := by
  apply List.sum_nonneg
  intro a ha
  obtain ⟨x, -, rfl⟩ := List.mem_map.1 ha
  positivity

theorem sumAbs_nonneg (v : List ℝ) : 0 ≤ (v.map fun a => |a|).sum := by
  apply List.sum_nonneg
  intro a ha
  obtain ⟨x, -, rfl⟩ := List.mem_map.1 ha
  positivity

theorem sumSq_pos {v : List ℝ} {a : ℝ} (ha : a ∈ v) (h0 : a ≠ 0) : 0 < (v.map fun a => a ^ 2).sum := by
  have hm : a ^ 2 ∈ v.map fun a => a ^ 2 := List.mem_map.2 ⟨a, ha, rfl⟩
  have := List.single_le_sum (l := v.map fun a => a ^ 2) (by
    intro b hb
    obtain ⟨x, -, rfl⟩ := List.mem_map.1 hb
    positivity) _ hm
  have : 0 < a ^ 2 := by positivity
  linarith

theorem sumAbs_pos {v : List ℝ} {a : ℝ} (ha : a ∈ v) (h0 : a ≠ 0) : 0 < (v.map fun a => |a|).sum := by
  have hm : |a| ∈ v.map fun a => |a| := List.mem_map.2 ⟨a, ha, rfl⟩
  have := List.single_le_sum (l := v.map fun a => |a|) (by
    intro b hb
    obtain ⟨x, -, rfl⟩ := List.mem_map.1 hb
    positivity) _ hm
  have : 0 < |a| := by positivity
  linarith

theorem quot_pos {a b : ℝ} (h : b ≠ 0) : quot a b = some (a / b) := if_neg h

theorem rms_mul {v : List ℝ} : rms v * Real.sqrt v.length = Real.sqrt (v.map fun a => a ^ 2).sum := by
  by_cases hv : v = []
  · subst hv
    simp
  have : (0 : ℝ) < v.length := by exact_mod_cast List.length_pos_iff.2 hv
  unfold rms
  rw [← Real.sqrt_mul (div_nonneg (sumSq_nonneg v) this.le), div_mul_cancel₀ _ this.ne']

theorem mean_mul {v : List ℝ} : mean v * v.length = (v.map fun a => |a|).sum := by
  by_cases hv : v = []
  · subst hv
    simp
  have : (0 : ℝ) < v.length := by exact_mod_cast List.length_pos_iff.2 hv
  unfold mean
  rw [div_mul_cancel₀ _ this.ne']

theorem ratio_mean {e r : List ℝ} (hl : e.length = r.length) (hr : r ≠ []) :
    (e.map fun a => |a|).sum / (r.map fun a => |a|).sum = mean e / mean r := by
  have h : (0 : ℝ) < r.length := by exact_mod_cast List.length_pos_iff.2 hr
  rw [← mean_mul, ← mean_mul, hl, mul_div_mul_right _ _ h.ne']

theorem ratio_rms {e r : List ℝ} (hl : e.length = r.length) (hr : r ≠ []) :
    Real.sqrt (e.map fun a => a ^ 2).sum / Real.sqrt (r.map fun a => a ^ 2).sum = rms e / rms r := by
  have h : (0 : ℝ) < Real.sqrt r.length :=
    Real.sqrt_pos.2 (by exact_mod_cast List.length_pos_iff.2 hr)
  rw [← rms_mul, ← rms_mul, hl, mul_div_mul_right _ _ h.ne']

/-- What the example computes from the reference values and the interpolated values. -/
theorem managerErrors_eq {coords : List (List ℝ)} {values : List ℝ} (hc : coords ≠ [])
    (hl : values.length = coords.length) (time : ℝ) {e r : List ℝ}
    (hr : r = coords.map (bump · time)) (he : e = List.zipWith (· - ·) values r) {m M : ℝ}
    (hm : IsMax e m) (hM : IsMax r M) : managerErrors coords values time =
      .ok (⟨some m, some (mean e), some (rms e ^ 2)⟩,
        ⟨some (m / M), some (mean e / mean r), some (rms e / rms r)⟩) := by
  have hrl : r.length = coords.length := by rw [hr, List.length_map]
  have hel : e.length = coords.length := by rw [he, List.length_zipWith, hrl, hl, Nat.min_self]
  have hpos : (0 : ℝ) < coords.length := by exact_mod_cast List.length_pos_iff.2 hc
  have hrne : r ≠ [] := by
    rw [hr]
    simpa using hc
  have hene : e ≠ [] := by
    rw [← List.length_pos_iff, hel]
    exact List.length_pos_iff.2 hc
  have hrpos : ∀ a ∈ r, 0 < a := by
    rw [hr]
    intro a ha
    obtain ⟨x, -, rfl⟩ := List.mem_map.1 ha
    exact bump_pos x time
  have hzip : ((List.zip r values).map fun p => p.1) = r := by
    rw [List.map_fst_zip]
    omega
  have habs : ((List.zip r values).map fun p => |p.1 - p.2|) = e.map fun a => |a| := by
    rw [he, List.map_zipWith, List.zip, List.map_zipWith, List.zipWith_comm]
    congr 1
    funext a b
    exact abs_sub_comm b a
  have hsq : ((List.zip r values).map fun p => |p.1 - p.2| ^ 2) = e.map fun a => a ^ 2 := by
    have := congrArg (List.map fun a : ℝ => a ^ 2) habs
    rw [List.map_map, List.map_map] at this
    rw [show (fun p : ℝ × ℝ => |p.1 - p.2| ^ 2) = (fun a : ℝ => a ^ 2) ∘ fun p => |p.1 - p.2| from rfl, this]
    congr 1
    funext a
    simp
  have hrabs : (r.map fun a => |a|) = r := by
    conv_rhs => rw [← List.map_id r]
    apply List.map_congr_left
    intro a ha
    exact abs_of_pos (hrpos a ha)
  have hrsq : ((List.zip r values).map fun p => p.1 ^ 2) = r.map fun a => a ^ 2 := by
    rw [show (fun p : ℝ × ℝ => p.1 ^ 2) = (fun a : ℝ => a ^ 2) ∘ fun p => p.1 from rfl, ← List.map_map, hzip]
  obtain ⟨a0, ha0⟩ := List.exists_mem_of_ne_nil r hrne
  have hMpos : 0 < M := by
    have := hM.2 ⟨a0, ha0, rfl⟩
    exact lt_of_lt_of_le (abs_pos.2 (hrpos a0 ha0).ne') this
  have hl0 : ((List.zip r values).map fun p => |p.1 - p.2|).foldl (fun m b => max m |b|) 0 = m := by
    refine isMax_unique (isMax_foldl ?_) ?_
    · rw [habs]
      simpa using hene
    · refine isMax_neg ?_ hm
      rw [habs, List.map_map]
      congr 1
      funext a
      simp
  have hl0r : ((List.zip r values).map fun p => p.1).foldl (fun m b => max m |b|) 0 = M := by
    rw [hzip]
    exact isMax_unique (isMax_foldl hrne) hM
  unfold managerErrors
  rw [sumsLoop_eq time _ coords values hl.ge, ← hr]
  simp only [Outcome.bind]
  rw [sums_l0Error, sums_l1Error, sums_l2Error, sums_l1Reference, sums_l2Reference, sums_l0Reference _ _ (by
    intro p hp
    exact (hrpos p.1 (List.of_mem_zip hp).1).le), hl0, hl0r, habs, hsq, hzip, hrsq]
  simp only [zero_add]
  have h1 : r.sum = (r.map fun a => |a|).sum := by rw [hrabs]
  have h2 : 0 < (r.map fun a => a ^ 2).sum := sumSq_pos ha0 (hrpos a0 ha0).ne'
  have h3 : 0 < (r.map fun a => |a|).sum := sumAbs_pos ha0 (hrpos a0 ha0).ne'
  rw [h1, quot_pos hpos.ne', quot_pos hpos.ne', quot_pos hMpos.ne', quot_pos h3.ne',
    quot_pos (Real.sqrt_pos.2 h2).ne', ratio_mean (hel.trans hrl.symm) hrne,
    ratio_rms (hel.trans hrl.symm) hrne]
  have h4 : rms e ^ 2 = (e.map fun a => a ^ 2).sum / coords.length := by
    unfold rms
    rw [Real.sq_sqrt (div_nonneg (sumSq_nonneg e) (by positivity)), hel]
  have h5 : mean e = (e.map fun a => |a|).sum / coords.length := by
    unfold mean
    rw [hel]
  rw [h4, h5]

/-! ### The script for norms -/

theorem solution_values {s : Solution} {t : ℝ} {f : List ℝ → ℝ} : ∀ {xs : List (List ℝ)},
    (∀ x ∈ xs, s.value t x = .ok (f x)) → s.values t xs = .ok (xs.map f)
  | [], _ => rfl
  | x :: xs, h => by
      unfold Solution.values
      rw [h x List.mem_cons_self, solution_values fun y hy => h y (List.mem_cons_of_mem _ hy)]
      rfl

theorem threeOrders_norm {v : List ℝ} (hv : v ≠ []) {m : ℝ} (hm : IsMax v m) :
    threeOrders (normOf v v.length) = .ok ⟨some m, some (mean v), some (rms v / Real.sqrt v.length)⟩ := by
  have hpos : (0 : ℝ) < v.length := by exact_mod_cast List.length_pos_iff.2 hv
  have hs : Real.sqrt (v.map fun a => a ^ 2).sum / v.length = rms v / Real.sqrt v.length := by
    rw [← rms_mul, div_eq_div_iff hpos.ne' (Real.sqrt_pos.2 hpos).ne', mul_assoc,
      Real.mul_self_sqrt hpos.le]
  unfold threeOrders normOf
  rw [npNorm_inf hv hm]
  simp only [npNorm, Outcome.bind, quot_pos hpos.ne', hs, mean]

theorem threeOrders_absolute {e r : List ℝ} {n : ℕ} (hn : n = e.length) (he : e ≠ []) {m : ℝ}
    (hm : IsMax e m) : threeOrders (errorOf false e r n) =
      .ok ⟨some m, some (mean e), some (rms e / Real.sqrt e.length)⟩ := by
  rw [← threeOrders_norm he hm, hn]
  rfl

theorem threeOrders_relative {e r : List ℝ} {n : ℕ} (hl : e.length = r.length) (he : e ≠ []) {m M : ℝ}
    (hm : IsMax e m) (hM : IsMax r M) {a : ℝ} (ha : a ∈ r) (h0 : a ≠ 0) :
    threeOrders (errorOf true e r n) =
      .ok ⟨some (m / M), some (mean e / mean r), some (rms e / rms r)⟩ := by
  have hr : r ≠ [] := List.ne_nil_of_mem ha
  have hMpos : 0 < M := lt_of_lt_of_le (abs_pos.2 h0) (hM.2 ⟨a, ha, rfl⟩)
  unfold threeOrders errorOf
  rw [npNorm_inf he hm, npNorm_inf hr hM]
  simp only [npNorm, Outcome.bind, if_true]
  rw [quot_pos hMpos.ne', quot_pos (sumAbs_pos ha h0).ne', quot_pos (Real.sqrt_pos.2 (sumSq_pos ha h0)).ne',
    ratio_mean hl hr, ratio_rms hl hr]

theorem sum_map_zero {α : Type} {f : α → ℝ} : ∀ {l : List α}, (∀ a ∈ l, f a = 0) → (l.map f).sum = 0
  | [], _ => rfl
  | a :: l, h => by
      rw [List.map_cons, List.sum_cons, h a List.mem_cons_self,
        sum_map_zero fun b hb => h b (List.mem_cons_of_mem _ hb), add_zero]

theorem threeOrders_zero {e r : List ℝ} {n : ℕ} (he : e ≠ []) (hr : r ≠ []) (h : ∀ a ∈ r, a = 0) :
    threeOrders (errorOf true e r n) = .ok ⟨none, none, none⟩ := by
  have hM : IsMax r 0 := by
    obtain ⟨a, ha⟩ := List.exists_mem_of_ne_nil r hr
    refine ⟨⟨a, ha, by rw [h a ha, abs_zero]⟩, ?_⟩
    rintro x ⟨b, hb, rfl⟩
    rw [h b hb, abs_zero]
  unfold threeOrders errorOf
  rw [npNorm_inf he (isMax_foldl he), npNorm_inf hr hM]
  simp only [npNorm, Outcome.bind, if_true]
  have h1 : (r.map fun a => |a|).sum = 0 := sum_map_zero fun a ha => by rw [h a ha, abs_zero]
  have h2 : (r.map fun a => a ^ 2).sum = 0 := sum_map_zero fun a ha => by rw [h a ha]; norm_num
  rw [h1, h2, Real.sqrt_zero]
  simp [quot]

/-! ### The script for sums -/

section

variable {K : Type} [Field K] [DecidableEq K]

/-- The file contains one group with one data set, with these values and this time. -/
def Contains (f : H5File K) (values : List K) (time : Option K) : Prop :=
  ∃ g ds, f = [(g, [⟨ds, values, time⟩])]

omit [Field K] [DecidableEq K] in
theorem Contains.only {f : H5File K} {values : List K} {time : Option K} (h : Contains f values time) :
    ∃ d, onlyDataset f = .ok d ∧ d.values = values ∧ d.time = time := by
  obtain ⟨g, ds, rfl⟩ := h
  exact ⟨_, rfl, rfl, rfl⟩

omit [DecidableEq K] in
theorem zipWith_add_map {ι : Type} (base : List ι) (F G : ι → K) :
    List.zipWith (· + ·) (base.map F) (base.map G) = base.map fun i => F i + G i := by
  rw [List.zipWith_map, List.zipWith_self]

theorem reduceLoop_some {ι α : Type} {fs : H5Files K} {base : List ι} {t : K} {name : α → String}
    {F : α → ι → K} : ∀ {items : List α} {G : ι → K},
      (∀ a ∈ items, ∃ f, fs (name a) = some f ∧ Contains f (base.map (F a)) (some t)) →
      reduceLoop fs (some (base.map G, t)) (items.map name) =
        .ok (some (base.map (fun i => G i + (items.map fun a => F a i).sum), t))
  | [], G, _ => by simp [reduceLoop]
  | a :: items, G, h => by
      obtain ⟨f, hf, hc⟩ := h a List.mem_cons_self
      obtain ⟨d, hd, hv, ht⟩ := hc.only
      rw [List.map_cons]
      unfold reduceLoop
      rw [hf]
      simp only [reduceStep, hd, Outcome.bind, hv, ht]
      rw [if_pos ⟨by simp, trivial⟩]
      simp only
      rw [zipWith_add_map, reduceLoop_some fun b hb => h b (List.mem_cons_of_mem _ hb)]
      simp only [List.map_cons, List.sum_cons, add_assoc]

theorem reduceLoop_eq {ι α : Type} {fs : H5Files K} {base : List ι} {t : K} {name : α → String}
    {F : α → ι → K} {items : List α} (hn : items ≠ [])
    (h : ∀ a ∈ items, ∃ f, fs (name a) = some f ∧ Contains f (base.map (F a)) (some t)) :
    reduceLoop fs none (items.map name) =
      .ok (some (base.map (fun i => (items.map fun a => F a i).sum), t)) := by
  obtain ⟨a, items, rfl⟩ := List.exists_cons_of_ne_nil hn
  obtain ⟨f, hf, hc⟩ := h a List.mem_cons_self
  obtain ⟨d, hd, hv, ht⟩ := hc.only
  rw [List.map_cons]
  unfold reduceLoop
  rw [hf]
  simp only [reduceStep, hd, Outcome.bind, hv, ht]
  rw [reduceLoop_some fun b hb => h b (List.mem_cons_of_mem _ hb)]
  simp only [List.map_cons, List.sum_cons]

/-- If the loop ends without an exception, every file contains values with the same time and of the same
number. -/
theorem reduceLoop_ok {fs : H5Files K} : ∀ {names : List String} {acc : Option (List K × K)}
    {vs : List K} {t : K}, reduceLoop fs acc names = .ok (some (vs, t)) →
    (∀ a, acc = some a → a.1.length = vs.length ∧ a.2 = t) ∧
      ∀ name ∈ names, ∃ f values, fs name = some f ∧ Contains f values (some t) ∧ values.length = vs.length
  | [], acc, vs, t, h => by
      unfold reduceLoop at h
      injection h with h
      subst h
      exact ⟨by rintro a ⟨⟩; exact ⟨rfl, rfl⟩, by simp⟩
  | name :: names, acc, vs, t, h => by
      unfold reduceLoop at h
      split at h
      · simp at h
      next f hf =>
      unfold reduceStep onlyDataset at h
      split at h
      next g d =>
        simp only [Outcome.bind] at h
        obtain ⟨ds, values, time⟩ := d
        cases time with
        | none => cases acc <;> simp at h
        | some t' =>
          cases acc with
          | none =>
            simp only at h
            obtain ⟨h1, h2⟩ := reduceLoop_ok h
            obtain ⟨h3, h4⟩ := h1 _ rfl
            refine ⟨by simp, fun n hn => ?_⟩
            rcases List.mem_cons.1 hn with rfl | hn
            · exact ⟨_, values, hf, ⟨g, ds, by rw [← h4]⟩, h3⟩
            · exact h2 n hn
          | some a =>
            obtain ⟨ws, t0⟩ := a
            by_cases hc : values.length = ws.length ∧ t' = t0
            · simp only [if_pos hc] at h
              obtain ⟨h1, h2⟩ := reduceLoop_ok h
              obtain ⟨h3, h4⟩ := h1 _ rfl
              simp only at h3 h4 hc
              rw [List.length_zipWith, hc.1, Nat.min_self] at h3
              refine ⟨by rintro a ⟨⟩; exact ⟨h3, h4⟩, fun n hn => ?_⟩
              rcases List.mem_cons.1 hn with rfl | hn
              · exact ⟨_, values, hf, ⟨g, ds, by rw [← h4, hc.2]⟩, hc.1.trans h3⟩
              · exact h2 n hn
            · simp [if_neg hc] at h
      · simp [Outcome.bind] at h

end

/-! ### Names -/

theorem stem_dot (path : List Char) : '.' ∉ stem path := by
  intro h
  have := List.mem_takeWhile_imp h
  simp at this

theorem lastPart_slash (path : List Char) : '/' ∉ lastPart path := by
  intro h
  unfold lastPart at h
  have := List.mem_takeWhile_imp (List.mem_reverse.1 h)
  simp at this

theorem takeWhile_dot {a b : List Char} (h : '.' ∉ a) : (a ++ '.' :: b).takeWhile (· ≠ '.') = a := by
  rw [List.takeWhile_append_of_pos]
  · simp
  · intro x hx
    simp only [ne_eq, decide_not, Bool.not_eq_eq_eq_not, Bool.not_true, decide_eq_false_iff_not]
    rintro rfl
    exact h hx

theorem nameLoop_spec : ∀ (paths : List (List Char)) (acc : List Char), '.' ∉ acc →
    '.' ∉ nameLoop acc paths ∧ acc.length ≤ (nameLoop acc paths).length ∧
      (∀ p ∈ paths, (stem p).length ≤ (nameLoop acc paths).length) ∧
      (acc ≠ [] → ∀ p ∈ paths, (stem p).length < (nameLoop acc paths).length) ∧
      (acc ≠ [] → paths ≠ [] → acc.length < (nameLoop acc paths).length)
  | [], acc, h => by simp [nameLoop, h]
  | path :: paths, acc, h => by
      have hd := stem_dot path
      by_cases ha : acc = []
      · subst ha
        unfold nameLoop
        rw [if_pos rfl]
        obtain ⟨h1, h2, h3, -, -⟩ := nameLoop_spec paths (stem path) hd
        refine ⟨h1, by simp, fun p hp => ?_, by simp, by simp⟩
        rcases List.mem_cons.1 hp with rfl | hp
        · exact h2
        · exact h3 p hp
      · unfold nameLoop
        rw [if_neg ha]
        obtain ⟨h1, h2, h3, h4, -⟩ := nameLoop_spec paths (acc ++ "_and_".toList ++ stem path) (by
          simp only [List.mem_append, not_or]
          exact ⟨⟨h, by decide⟩, hd⟩)
        have hne : acc ++ "_and_".toList ++ stem path ≠ [] := by simp [ha]
        have hl : 0 < acc.length := List.length_pos_iff.2 ha
        have hlen : (acc ++ "_and_".toList ++ stem path).length = acc.length + 5 + (stem path).length := by
          rw [List.length_append, List.length_append]
          rfl
        rw [hlen] at h2
        refine ⟨h1, by omega, fun p hp => ?_, fun _ p hp => ?_, fun _ _ => by omega⟩
        · rcases List.mem_cons.1 hp with rfl | hp
          · omega
          · exact h3 p hp
        · rcases List.mem_cons.1 hp with rfl | hp
          · omega
          · exact h4 hne p hp

theorem toList_resultName (names : List String) :
    (resultName names).toList = nameLoop [] (names.map String.toList) ++ '.' :: "h5".toList := by
  unfold resultName
  rw [String.toList_ofList]
  rfl

theorem lastPart_append_slash (a b : List Char) (h : '/' ∉ b) : lastPart (a ++ '/' :: b) = b := by
  unfold lastPart
  rw [List.reverse_append, List.reverse_cons, List.append_assoc, List.takeWhile_append_of_pos]
  · simp
  · intro x hx
    simp only [ne_eq, decide_not, Bool.not_eq_eq_eq_not, Bool.not_true, decide_eq_false_iff_not]
    rintro rfl
    exact h (List.mem_reverse.1 hx)

theorem lastPart_eq_self {b : List Char} (h : '/' ∉ b) : lastPart b = b := by
  unfold lastPart
  have := List.takeWhile_append_of_pos (p := fun x : Char => decide (x ≠ '/')) (l₁ := b.reverse) (l₂ := []) (by
    intro x hx
    simp only [ne_eq, decide_not, Bool.not_eq_eq_eq_not, Bool.not_true, decide_eq_false_iff_not]
    rintro rfl
    exact h (List.mem_reverse.1 hx))
  rw [List.append_nil] at this
  rw [this]
  simp

theorem nameLoop_slash : ∀ (paths : List (List Char)) (acc : List Char), '/' ∉ acc → '/' ∉ nameLoop acc paths
  | [], acc, h => h
  | path :: paths, acc, h => by
      have hs : '/' ∉ stem path := fun hm => lastPart_slash path ((List.takeWhile_sublist _).subset hm)
      unfold nameLoop
      apply nameLoop_slash
      split
      · exact hs
      · simp only [List.mem_append, not_or]
        exact ⟨⟨h, by decide⟩, hs⟩

/-- The name of the result is the last part of no path, if there are at least two files with names. -/
theorem resultName_ne {first : String} {rest : List String} (h1 : stem first.toList ≠ []) (h2 : rest ≠ []) :
    ∀ name ∈ first :: rest, lastPart name.toList ≠ (resultName (first :: rest)).toList := by
  intro name hname he
  have hspec := nameLoop_spec (rest.map String.toList) (stem first.toList) (stem_dot _)
  have hl : nameLoop [] ((first :: rest).map String.toList) =
      nameLoop (stem first.toList) (rest.map String.toList) := by
    rw [List.map_cons]
    conv_lhs => unfold nameLoop
    rw [if_pos rfl]
  rw [toList_resultName, hl] at he
  have hst : stem name.toList = nameLoop (stem first.toList) (rest.map String.toList) := by
    unfold stem
    rw [he]
    exact takeWhile_dot hspec.1
  have hlt : (stem name.toList).length <
      (nameLoop (stem first.toList) (rest.map String.toList)).length := by
    rcases List.mem_cons.1 hname with rfl | hm
    · exact hspec.2.2.2.2 h1 (by simpa using h2)
    · exact hspec.2.2.2.1 h1 _ (List.mem_map.2 ⟨name, hm, rfl⟩)
  rw [hst] at hlt
  exact lt_irrefl _ hlt

theorem resultName_ne_of_mem {first : String} {rest : List String} (h1 : stem first.toList ≠ [])
    (h2 : rest ≠ []) {name : String} (h : name ∈ first :: rest) : name ≠ resultName (first :: rest) := by
  intro he
  have hs : '/' ∉ (resultName (first :: rest)).toList := by
    rw [toList_resultName]
    simp only [List.mem_append, not_or]
    exact ⟨nameLoop_slash _ _ (by simp), by decide⟩
  apply resultName_ne h1 h2 name h
  rw [he]
  exact lastPart_eq_self hs

end Verif.Evaluation

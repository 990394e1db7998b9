import Verif.Lemmas.Interpolation
import Mathlib.Algebra.Module.BigOperators
import Mathlib.Data.Rat.Floor

/-!
# Interpolation on distributed grids (C56)

`C56_interpolation_partial`: for every grid, decomposition (with points on the first process of each
dimension), coordinate in the domain and data, no process fails, and the sum of the results of all
processes is the multilinear interpolant of the whole grid. The domain is `[0, 1]`, and `[0, 1)` in periodic
dimensions (one-sided boundary). `C56_grid_point`: at a grid point, the sum is the value there.
`C56_constant`: constant functions are reproduced if all dimensions have boundary points.

What is missing for the full statement: `C56_violated`: at the right end of a periodic dimension, which
passes the assertions, all results are zero. Rounding is not modelled.
-/

namespace Verif.Interpolation

variable {K : Type} [Field K] [LinearOrder K] [FloorRing K] [IsStrictOrderedRing K]
  {V : Type} [AddCommMonoid V] [Module K V]

/-- Specification: the local data of the process with the coordinates `cs`, in the order of the linear
index; `f` is the function of the global indices. -/
def IsLocalData (as : List (Axis K)) (cs : List ℕ) (f : List ℕ → V) (data : List V) : Prop :=
  data.length = ((dimsOf as cs).map fun p => p.1.size).prod ∧
    ∀ is, List.Forall₂ (· < ·) is ((dimsOf as cs).map fun p => p.1.size) →
      data[sequentialIndex ((dimsOf as cs).map fun p => p.1.size) is]? =
        some (f (List.zipWith (· + ·) (lowers as cs) is))

omit [FloorRing K] [IsStrictOrderedRing K] [Field K] [LinearOrder K] in
lemma dimsOf_fst (as : List (Axis K)) (cs : List ℕ) (h : cs.length = as.length) :
    (dimsOf as cs).map (·.1) = List.zipWith (fun a c => a.dim c) as cs ∧
      (dimsOf as cs).map (·.2) = as.map (·.x) := by
  induction as generalizing cs with
  | nil =>
    cases cs with
    | nil => exact ⟨rfl, rfl⟩
    | cons c cs => simp at h
  | cons a as ih =>
    cases cs with
    | nil => simp at h
    | cons c cs =>
      obtain ⟨h1, h2⟩ := ih cs (by simpa using h)
      simp [dimsOf, h1, h2]

/-- C56, sum over all processes. `cart` are the coordinates of all ranks, `data` their values. -/
theorem C56_interpolation_partial (as : List (Axis K)) (h : ∀ a ∈ as, AxisOk a) (cart : List (List ℕ))
    (hnd : cart.Nodup)
    (hcart : ∀ c, c ∈ cart ↔ List.Forall₂ (· < ·) c (as.map fun a => a.dec.length))
    (f : List ℕ → V) (data : List ℕ → List V) (hdata : ∀ c ∈ cart, IsLocalData as c f (data c)) :
    ∃ v : List ℕ → V,
      (∀ c ∈ cart, evalLocal (List.zipWith (fun a c => a.dim c) as c) (as.map (·.x)) (data c) = .ok (v c)) ∧
      (cart.map v).sum = interp as f := by
  refine ⟨fun c => localInterp (dimsOf as c) fun is => f (List.zipWith (· + ·) (lowers as c) is), ?_, ?_⟩
  · intro c hc
    have hc1 := (hcart c).1 hc
    obtain ⟨h1, h2⟩ := dimsOf_fst as c (by simpa using hc1.length_eq)
    obtain ⟨h3, h4⟩ := hdata c hc
    rw [← h1, ← h2, evalLocal_eq (dimsOf as c) (data c) (allOk_dimsOf as c h hc1) h3]
    congr 1
    refine localInterp_congr _ _ _ fun is his => ?_
    rw [h4 is his]
    rfl
  · have hperm : cart.Perm (allCoords (as.map fun a => a.dec.length)) :=
      (List.perm_ext_iff_of_nodup hnd (nodup_allCoords _)).2 fun c => by
        rw [hcart, mem_allCoords]
    rw [(hperm.map _).sum_eq]
    exact sum_localInterp as (fun a ha => (h a ha).valid) f

/-- C56, the interpolant at a grid point is the value there. -/
theorem C56_interp_grid_point (as : List (Axis K)) (h : ∀ a ∈ as, a.boundary ≤ 2) (js : List ℕ)
    (hj : List.Forall₂ (fun j a => j < nodal a.level a.boundary ∧
      a.x = ((pos a.boundary j : ℕ) : K) / 2 ^ a.level) js as) (f : List ℕ → V) :
    interp as f = f js := by
  induction hj generalizing f with
  | nil => rfl
  | @cons j a js as h1 _ ih =>
    rw [interp, Finset.sum_eq_single j]
    · rw [h1.2, hat_grid _ _ _ _ (h a (List.mem_cons_self ..)) h1.1, if_pos rfl, one_smul,
        ih fun a ha => h a (List.mem_cons_of_mem _ ha)]
    · intro i _ hne
      rw [h1.2, hat_grid _ _ _ _ (h a (List.mem_cons_self ..)) h1.1, if_neg hne, zero_smul]
    · intro hne
      exact absurd (Finset.mem_range.2 h1.1) hne

/-- C56, constants are reproduced on grids with boundary. -/
theorem C56_interp_constant (as : List (Axis K)) (h : ∀ a ∈ as, AxisOk a)
    (hb : ∀ a ∈ as, a.boundary ≠ 0) (v : V) : interp as (fun _ => v) = v := by
  induction as with
  | nil => rfl
  | cons a as ih =>
    have ha := h a (List.mem_cons_self ..)
    rw [interp, ih (fun a ha => h a (List.mem_cons_of_mem _ ha))
      fun a ha => hb a (List.mem_cons_of_mem _ ha), ← Finset.sum_smul, sum_hat, one_smul]
    · have := ha.boundary
      have := hb a (List.mem_cons_self ..)
      omega
    · exact ha.lo
    · exact ha.hi
    · exact ha.periodic

/-- C56, at a grid point the results of all processes add up to the value. -/
theorem C56_grid_point (as : List (Axis K)) (h : ∀ a ∈ as, AxisOk a) (cart : List (List ℕ))
    (hnd : cart.Nodup)
    (hcart : ∀ c, c ∈ cart ↔ List.Forall₂ (· < ·) c (as.map fun a => a.dec.length))
    (f : List ℕ → V) (data : List ℕ → List V) (hdata : ∀ c ∈ cart, IsLocalData as c f (data c))
    (js : List ℕ)
    (hj : List.Forall₂ (fun j a => j < nodal a.level a.boundary ∧
      a.x = ((pos a.boundary j : ℕ) : K) / 2 ^ a.level) js as) :
    ∃ v : List ℕ → V,
      (∀ c ∈ cart, evalLocal (List.zipWith (fun a c => a.dim c) as c) (as.map (·.x)) (data c) = .ok (v c)) ∧
      (cart.map v).sum = f js := by
  obtain ⟨v, h1, h2⟩ := C56_interpolation_partial as h cart hnd hcart f data hdata
  exact ⟨v, h1, h2.trans (C56_interp_grid_point as (fun a ha => (h a ha).boundary) js hj f)⟩

/-- C56, the results of all processes for a constant function add up to the constant. -/
theorem C56_constant (as : List (Axis K)) (h : ∀ a ∈ as, AxisOk a) (hb : ∀ a ∈ as, a.boundary ≠ 0)
    (cart : List (List ℕ)) (hnd : cart.Nodup)
    (hcart : ∀ c, c ∈ cart ↔ List.Forall₂ (· < ·) c (as.map fun a => a.dec.length))
    (u : V) (data : List ℕ → List V) (hdata : ∀ c ∈ cart, IsLocalData as c (fun _ => u) (data c)) :
    ∃ v : List ℕ → V,
      (∀ c ∈ cart, evalLocal (List.zipWith (fun a c => a.dim c) as c) (as.map (·.x)) (data c) = .ok (v c)) ∧
      (cart.map v).sum = u := by
  obtain ⟨v, h1, h2⟩ := C56_interpolation_partial as h cart hnd hcart (fun _ => u) data hdata
  exact ⟨v, h1, h2.trans (C56_interp_constant as h hb u)⟩

/-- C56 is violated at the right end of a periodic dimension: a constant function on a periodic grid of any
level on one process evaluates to zero there, although the coordinate passes the assertions. -/
theorem C56_violated (L : ℕ) (u : V) :
    evalLocal [(⟨L, 1, [0], 1⟩ : Axis K).dim 0] [(1 : K)] (List.replicate (2 ^ L) u) = .ok 0 := by
  have hp : (0 : K) < 2 ^ L := by positivity
  have hdim : (⟨L, 1, [0], 1⟩ : Axis K).dim 0 = ⟨L, 1, 2 ^ L, 0, 2 ^ L, 0⟩ := by
    simp [Axis.dim, Axis.points, Axis.lower, lowerBound1d, upperBound1d, nodal]
  rw [hdim]
  have hli : (⌊((1 : K) - ((0 + EvalDim.shift ⟨L, 1, 2 ^ L, 0, 2 ^ L, 0⟩ : ℕ) : K) *
      EvalDim.h ⟨L, 1, 2 ^ L, 0, 2 ^ L, 0⟩) * 2 ^ L⌋) = (2 ^ L : ℤ) := by
    have : EvalDim.shift ⟨L, 1, 2 ^ L, 0, 2 ^ L, 0⟩ = 0 := rfl
    rw [this]
    have h2 : (2 : K) ^ L = ((2 ^ L : ℤ) : K) := by push_cast; rfl
    simp only [Nat.add_zero, Nat.cast_zero, zero_mul, sub_zero, one_mul]
    rw [h2, Int.floor_intCast]
  have hcond : (1 : K) - EvalDim.h ⟨L, 1, 2 ^ L, 0, 2 ^ L, 0⟩ ≤ 1 := by
    unfold EvalDim.h
    have : (0 : K) < 1 / 2 ^ L := by positivity
    linarith
  have hpi : (0 : ℤ) < 2 ^ L := by positivity
  have hlow : lowerIndices [(⟨L, 1, 2 ^ L, 0, 2 ^ L, 0⟩ : EvalDim)] [(1 : K)] =
      .ok (some [(2 ^ L : ℤ)]) := by
    simp only [lowerIndices, hli]
    rw [if_neg (by simp), if_neg (by omega), if_neg]
    · rfl
    · rintro ⟨h, -⟩
      exact h ⟨hcond, by simp⟩
  unfold evalLocal
  rw [hlow]
  have hstep : ∀ up : Bool, step (⟨L, 1, 2 ^ L, 0, 2 ^ L, 0⟩ : EvalDim) (2 ^ L) (1 : K) up = .ok none := by
    intro up
    unfold step
    simp only
    cases up with
    | false =>
      rw [if_neg (by simp), if_neg (by simp), if_pos (by simp)]
    | true =>
      rw [if_neg (by simp; omega), if_neg (by simp), if_pos (by simp; omega)]
  simp [Outcome.bind, tensorOffsets, offsetsLoop, zipDims, List.range_succ, iterLoop, neighborLoop, hstep]

/-! ### Examples -/

/-- A grid with two dimensions, the second one periodic, on 2 × 2 processes. -/
def exampleAxes : List (Axis ℚ) := [⟨1, 2, [0, 1], 3 / 4⟩, ⟨2, 1, [0, 3], 7 / 8⟩]

def exampleCart : List (List ℕ) := [[0, 0], [1, 0], [0, 1], [1, 1]]

/-- The values are 10 times the first index plus the second one. -/
def exampleF (is : List ℕ) : ℚ := 10 * (is.getD 0 0 : ℕ) + (is.getD 1 0 : ℕ)

def exampleData : List ℕ → List ℚ
  | [0, 0] => [0, 1, 2]
  | [1, 0] => [10, 20, 11, 21, 12, 22]
  | [0, 1] => [3]
  | [1, 1] => [13, 23]
  | _ => []

lemma exampleAxes_ok : ∀ a ∈ exampleAxes, AxisOk a := by
  intro a ha
  simp only [exampleAxes, List.mem_cons, List.not_mem_nil, or_false] at ha
  rcases ha with rfl | rfl
  · exact ⟨by decide, ⟨by decide, by decide, by decide⟩, by decide, by decide, by norm_num, by norm_num,
      by norm_num⟩
  · exact ⟨by decide, ⟨by decide, by decide, by decide⟩, by decide, by decide, by norm_num, by norm_num,
      by norm_num⟩

lemma exampleCart_mem (c : List ℕ) :
    c ∈ exampleCart ↔ List.Forall₂ (· < ·) c (exampleAxes.map fun a => a.dec.length) := by
  have : allCoords (exampleAxes.map fun a => a.dec.length) = [[0, 0], [0, 1], [1, 0], [1, 1]] := by decide
  rw [← mem_allCoords, this]
  simp only [exampleCart, List.mem_cons, List.not_mem_nil, or_false]
  tauto

lemma exampleData_ok : ∀ c ∈ exampleCart, IsLocalData exampleAxes c exampleF (exampleData c) := by
  have key : ∀ c ∈ exampleCart, (exampleData c).length = ((dimsOf exampleAxes c).map fun p => p.1.size).prod ∧
      ∀ is ∈ allCoords ((dimsOf exampleAxes c).map fun p => p.1.size),
        (exampleData c)[sequentialIndex ((dimsOf exampleAxes c).map fun p => p.1.size) is]? =
          some (exampleF (List.zipWith (· + ·) (lowers exampleAxes c) is)) := by
    decide +kernel
  intro c hc
  exact ⟨(key c hc).1, fun is his => (key c hc).2 is ((mem_allCoords _ _).2 his)⟩

/-- The hypotheses of C56 hold for the example. -/
example : ∃ v : List ℕ → ℚ,
    (∀ c ∈ exampleCart, evalLocal (List.zipWith (fun a c => a.dim c) exampleAxes c) (exampleAxes.map (·.x))
      (exampleData c) = .ok (v c)) ∧ (exampleCart.map v).sum = interp exampleAxes exampleF :=
  C56_interpolation_partial exampleAxes exampleAxes_ok exampleCart (by decide) exampleCart_mem exampleF
    exampleData exampleData_ok

/-- The value there: between the rows 1 and 2, and between the last column 3 and the first one. -/
example : interp exampleAxes exampleF = 15 + 3 / 2 := by decide +kernel

/-- A grid point. -/
example : List.Forall₂ (fun j (a : Axis ℚ) => j < nodal a.level a.boundary ∧
    a.x = ((pos a.boundary j : ℕ) : ℚ) / 2 ^ a.level) [1, 3]
    [⟨1, 2, [0, 1], 1 / 2⟩, ⟨2, 1, [0, 3], 3 / 4⟩] :=
  .cons ⟨by decide, by decide +kernel⟩ (.cons ⟨by decide, by decide +kernel⟩ .nil)

end Verif.Interpolation

import Verif.Model.BoundaryCheck
import Verif.Lemmas.GeneTask
import Mathlib.Tactic.Linarith

/-!
# C132: the check of the boundary in z names the points that violate the boundary condition

The boundary condition is the one that `GeneTask` sets before the combination.
-/

namespace Verif.BoundaryCheck

open Verif.GeneTask (Vec Arr Config Proc points getOffsetAndFactor kernel mem_points)

/-- **C132 (messages).** A point is named exactly if it is a point of the grid, not the last one in x, where the
values at the two ends in z differ by more than the tolerance, with the neighbour in x at the first end. -/
theorem C132_messages_partial {nspec : ℕ} {s : Vec} {fg : ℕ → Arr ℂ} (hx : 0 < s.x) (hz : 0 < s.z) :
    ∃ ms, testBoundaryZ nspec s fg = .ok ms ∧ ∀ n q, (n, q) ∈ ms ↔
      n < nspec ∧ q.w < s.w ∧ q.v < s.v ∧ q.z = 0 ∧ q.y < s.y ∧ q.x + 1 < s.x
        ∧ 1 / 1000000000000000
          < ‖fg n ⟨q.w, q.v, s.z - 1, q.y, q.x⟩ - fg n ⟨q.w, q.v, 0, q.y, (q.x + 1) % (s.x - 1)⟩‖ := by
  unfold testBoundaryZ
  rw [if_neg (by omega)]
  refine ⟨_, rfl, fun n q => ?_⟩
  simp only [List.mem_flatMap, List.mem_range, List.mem_map, List.mem_filter, mem_points, Prod.mk.injEq,
    differs, GeneTask.Inside, tol]
  constructor
  · rintro ⟨m, hm, p, ⟨⟨h1, h2, h3, h4, h5⟩, hd⟩, rfl, rfl⟩
    exact ⟨hm, h1, h2, by omega, h4, by omega, of_decide_eq_true hd⟩
  · rintro ⟨hn, h1, h2, h3, h4, h5, hd⟩
    exact ⟨n, hn, q, ⟨⟨h1, h2, by omega, h4, by omega⟩, decide_eq_true hd⟩, rfl, rfl⟩

example : 0 < (⟨1, 1, 3, 1, 3⟩ : Vec).x ∧ 0 < (⟨1, 1, 3, 1, 3⟩ : Vec).z := by decide

/-- The boundary condition of `GeneTask` for a grid of shape `s`: offset and factor as it computes them; the mode
in the middle is left out. -/
def Adapted (c : Config ℂ) (s : Vec) (a : Arr ℂ) : Prop :=
  ∀ q : Vec, q.w < s.w → q.v < s.v → q.y < s.y → q.x + 1 < s.x → q.x ≠ (s.x - 1) / 2 →
    ∃ o f, getOffsetAndFactor c (q.y + 1) 0 = .ok (o, f)
      ∧ a ⟨q.w, q.v, s.z - 1, q.y, q.x⟩ = a ⟨q.w, q.v, 0, q.y, (q.x + o) % (s.x - 1)⟩ * f

/-- A local run with one mode in y, as `GeneTask` requires. -/
def Local (c : Config ℂ) : Prop := c.isGlobal = false ∧ c.modes = 1 ∧ c.levelY = 1 ∧ c.boundaryY = false

/-- The offset is 1 and the factor is -1. -/
private theorem offset_local {c : Config ℂ} (hc : Local c) : getOffsetAndFactor c 1 0 = .ok (1, -1) := by
  obtain ⟨h1, h2, h3, h4⟩ := hc
  unfold getOffsetAndFactor
  rw [if_pos h1, if_pos h2, if_pos ⟨h3, h4⟩, h2]
  simp

/-- **C132 is violated by the code (sign).** The check compares without the factor -1. So in grids that satisfy
the boundary condition of `GeneTask` it names every point (apart from the mode in the middle) where the value is
not tiny. -/
theorem C132_sign_violated {c : Config ℂ} (hc : Local c) {s : Vec} (hz : 0 < s.z) (hy : s.y = 1) {nspec : ℕ}
    {fg : ℕ → Arr ℂ} {n : ℕ} (hn : n < nspec) (h : Adapted c s (fg n)) {q : Vec} (hw : q.w < s.w) (hv : q.v < s.v)
    (hq : q.z = 0 ∧ q.y = 0) (hx : q.x + 1 < s.x) (hm : q.x ≠ (s.x - 1) / 2)
    (hb : 1 / 1000000000000000 < ‖fg n ⟨q.w, q.v, s.z - 1, 0, q.x⟩‖) :
    ∃ ms, testBoundaryZ nspec s fg = .ok ms ∧ (n, q) ∈ ms := by
  obtain ⟨ms, h1, h2⟩ := C132_messages_partial (nspec := nspec) (fg := fg) (s := s) (by omega) hz
  refine ⟨ms, h1, (h2 n q).mpr ⟨hn, hw, hv, hq.1, by omega, hx, ?_⟩⟩
  obtain ⟨o, f, e1, e2⟩ := h q hw hv (by omega) hx hm
  rw [hq.2, Nat.zero_add, offset_local hc, Outcome.ok.injEq, Prod.mk.injEq] at e1
  obtain ⟨rfl, rfl⟩ := e1
  rw [hq.2] at e2 ⊢
  have e3 : fg n ⟨q.w, q.v, 0, 0, (q.x + 1) % (s.x - 1)⟩ = -fg n ⟨q.w, q.v, s.z - 1, 0, q.x⟩ := by
    rw [e2]
    ring
  rw [e3, sub_neg_eq_add, ← two_mul, Complex.norm_mul, Complex.norm_two]
  have := norm_nonneg (fg n ⟨q.w, q.v, s.z - 1, 0, q.x⟩)
  linarith

/-- **C132 is violated by the code (no message).** Vice versa, a grid without messages does not satisfy the
boundary condition of `GeneTask` wherever its value is not tiny. -/
theorem C132_silent_violated {c : Config ℂ} (hc : Local c) {s : Vec} (hz : 0 < s.z) (hy : s.y = 1) {nspec : ℕ}
    {fg : ℕ → Arr ℂ} {n : ℕ} (hn : n < nspec) (h : testBoundaryZ nspec s fg = .ok []) {w v x : ℕ} (hw : w < s.w)
    (hv : v < s.v) (hx : x + 1 < s.x) (hm : x ≠ (s.x - 1) / 2)
    (hb : 1 / 1000000000000000 < ‖fg n ⟨w, v, s.z - 1, 0, x⟩‖) : ¬ Adapted c s (fg n) := by
  intro ha
  obtain ⟨ms, h1, h2⟩ := C132_sign_violated hc hz hy hn ha (q := ⟨w, v, 0, 0, x⟩) hw hv ⟨rfl, rfl⟩ hx hm hb
  rw [h, Outcome.ok.injEq] at h1
  rw [← h1] at h2
  simp at h2

/-! ### An example -/

/-- A local run. -/
def sampleConfig : Config ℂ := ⟨false, true, false, 1, 1, false, fun _ _ => none⟩

/-- One process with three points in z and x. -/
def sampleProc : Proc :=
  ⟨⟨1, 1, 1, 1, 1⟩, ⟨0, 0, 0, 0, 0⟩, ⟨1, 1, 3, 1, 3⟩, ⟨1, 1, 2, 1, 2⟩, ⟨0, 0, 0, 0, 0⟩, ⟨1, 1, 3, 1, 3⟩, 1, 1, 1⟩

/-- The grid that the kernel of `GeneTask` makes of the values 1: at the end in z the value is -1. -/
noncomputable def sampleGrid : Arr ℂ := Function.update (fun _ => 1) ⟨0, 0, 2, 0, 0⟩ (-1)

example : kernel sampleConfig sampleProc none (fun _ => 1) = .ok sampleGrid := by
  have hp : points ⟨1, 1, 1, 1, 2⟩ = [⟨0, 0, 0, 0, 0⟩, ⟨0, 0, 0, 0, 1⟩] := by decide
  unfold kernel
  rw [offset_local ⟨rfl, rfl, rfl, rfl⟩]
  simp [Outcome.bind, sampleProc, sampleConfig, hp, GeneTask.loop, GeneTask.kernelStep, getOffsetAndFactor,
    sampleGrid]

/-- It meets the hypotheses of both theorems. -/
example : Local sampleConfig ∧ Adapted sampleConfig ⟨1, 1, 3, 1, 3⟩ sampleGrid
    ∧ (0 : ℕ) ≠ ((⟨1, 1, 3, 1, 3⟩ : Vec).x - 1) / 2 ∧ 1 / 1000000000000000 < ‖sampleGrid ⟨0, 0, 2, 0, 0⟩‖ := by
  refine ⟨⟨rfl, rfl, rfl, rfl⟩, ?_, by decide, ?_⟩
  · rintro ⟨w, v, z, y, x⟩ hw hv hy hx hm
    simp only at hw hv hy hx hm
    obtain rfl : w = 0 := by omega
    obtain rfl : v = 0 := by omega
    obtain rfl : y = 0 := by omega
    obtain rfl : x = 0 := by omega
    refine ⟨1, -1, offset_local ⟨rfl, rfl, rfl, rfl⟩, ?_⟩
    simp [sampleGrid, Function.update]
  · have : ‖sampleGrid ⟨0, 0, 2, 0, 0⟩‖ = 1 := by
      rw [sampleGrid, Function.update_self, norm_neg]
      simpa using Complex.norm_natCast 1
    rw [this]
    norm_num

/-- A grid with the value 1 everywhere has no messages. -/
example : testBoundaryZ 1 ⟨1, 1, 3, 1, 3⟩ (fun _ _ => 1) = .ok [] := by
  obtain ⟨ms, h1, h2⟩ := C132_messages_partial (nspec := 1) (s := ⟨1, 1, 3, 1, 3⟩) (fg := fun _ _ => 1) (by decide)
    (by decide)
  rw [h1]
  refine congrArg _ (List.eq_nil_iff_forall_not_mem.mpr fun ⟨n, q⟩ hq => ?_)
  have := ((h2 n q).mp hq).2.2.2.2.2.2
  rw [sub_self, norm_zero] at this
  norm_num at this

end Verif.BoundaryCheck

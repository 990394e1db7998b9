import Verif.Props.Transfer
import Verif.Props.InterpolateValues

/-!
# C84: the rounding error of the combination does not grow with the number of grids

The operations of the machine have a relative error of at most `u` (no overflow, no underflow). The sums over
component grids have an error of about `8 u` times the sum of the absolute values of the summands, up to terms
with `u ^ 2`.
-/

namespace Verif

variable {K : Type}

/-- Kahan's summation, over any list of numbers. -/
theorem C84_summation [Field K] [LinearOrder K] [IsStrictOrderedRing K] {u : K} (u0 : 0 ≤ u) (u1 : 16 * u ≤ 1)
    {A : Adder K} (hA : Rounds u A) (xs : List K) (hn : 8 * (xs.length * u) ≤ 1) :
    |(xs.foldl (kahanStep A) (0, 0)).1 - xs.sum| ≤
      (6 * u + 16 * xs.length * u ^ 2) * (xs.map fun x => |x|).sum :=
  kahan_error u0 u1 hA xs hn

/-- An addition that rounds. -/
def roundUp (u : ℚ) : Adder ℚ := ⟨fun a b => (a + b) * (1 + u), fun a b => (a - b) * (1 - u)⟩

lemma rounds_roundUp (u : ℚ) (hu : 0 ≤ u) : Rounds u (roundUp u) := by
  constructor
  · intro a b
    show |(a + b) * (1 + u) - (a + b)| ≤ _
    rw [show (a + b) * (1 + u) - (a + b) = u * (a + b) by ring, abs_mul, abs_of_nonneg hu]
  · intro a b
    show |(a - b) * (1 - u) - (a - b)| ≤ _
    rw [show (a - b) * (1 - u) - (a - b) = -(u * (a - b)) by ring, abs_neg, abs_mul, abs_of_nonneg hu]

/-- The hypotheses hold for sums of 30 numbers with this addition; plain summation has a larger error than the
bound. -/
example : Rounds (1 / 1024) (roundUp (1 / 1024)) ∧
    8 * (((List.replicate 30 (1 : ℚ)).length : ℚ) * (1 / 1024)) ≤ 1 ∧
    (6 * (1 / 1024) + 16 * ((List.replicate 30 (1 : ℚ)).length : ℚ) * (1 / 1024) ^ 2) *
      ((List.replicate 30 (1 : ℚ)).map fun x => |x|).sum <
    |(List.replicate 30 (1 : ℚ)).foldl (roundUp (1 / 1024)).add 0 - (List.replicate 30 (1 : ℚ)).sum| := by
  refine ⟨rounds_roundUp _ (by norm_num), by rw [List.length_replicate]; norm_num, ?_⟩
  rw [List.length_replicate]
  decide +kernel

/-- Registering component grids, allocating, adding all of them with their coefficients and extracting: at
every point of an allocated subspace the value differs from the combination of the values at this place by at
most the bound. The other points keep their values. The hypotheses on levels and sizes are those of
`C18_combine_partial`. -/
theorem C84_combine [Field K] [LinearOrder K] [IsStrictOrderedRing K] {u : K} (u0 : 0 ≤ u) (u1 : 16 * u ≤ 1)
    {A : Adder K} (hA : Rounds u A) (mul : K → K → K) (hmul : ∀ a b, |mul a b - a * b| ≤ u * |a * b|)
    (refs : List RefDim) (hr : ∀ r ∈ refs, ValidRef r)
    (levels : List (List ℕ)) (hs : levels.Pairwise (· < ·))
    (gs : List (K × List ℕ × (ℕ → K))) (hgs : ∀ g ∈ gs, ValidComponent refs g.2.1)
    (hn : 8 * (gs.length * u) ≤ 1)
    (hlow : List.replicate refs.length 1 ∈ levels)
    (htotal : (levels.map (subspaceCount refs)).sum < 2 ^ 32)
    (sel : List ℕ) (hsel : sel.Pairwise (· < ·)) (hselr : ∀ i ∈ sel, i < levels.length)
    (fully : Bool) (hfully : fully = true → sel = [])
    (Lh : List ℕ) (hLh : ValidComponent refs Lh)
    (xh : ℕ → K) :
    ∃ d1 d2 d3 h,
      registerAll (Dsg.empty levels) (gs.map fun g => gridOf refs g.2.1 g.2.2) = some d1 ∧
      d1.allocateDifferentSubspaces sel = some d2 ∧
      addAllWith A mul fully d2 (gs.map fun g => (g.1, gridOf refs g.2.1 g.2.2)) = some d3 ∧
      extractFromUniformSG fully (gridOf refs Lh xh) d3 = some h ∧
      (∀ i (hi : i < levels.length), levels[i] ∈ getDownSet Lh →
        ∀ p ∈ getFGPointsOfSubspace (gridOf refs Lh xh).dims levels[i],
          if i ∈ selected sel levels.length ∧ ∃ g ∈ gs, levels[i] ∈ getDownSet g.2.1 then
            |h.data.val p - (gs.map fun g => g.1 * ∑ q ∈ Finset.range (numLocal refs g.2.1) with
              spatialOf refs g.2.1 q = spatialOf refs Lh p, g.2.2 q).sum| ≤
            (8 * u + 17 * gs.length * u ^ 2) *
              (gs.map fun g => |g.1 * ∑ q ∈ Finset.range (numLocal refs g.2.1) with
                spatialOf refs g.2.1 q = spatialOf refs Lh p, g.2.2 q|).sum
          else h.data.val p = xh p) ∧
      ∀ l ∈ getDownSet Lh, l ∉ levels →
        ∀ p ∈ getFGPointsOfSubspace (gridOf refs Lh xh).dims l, h.data.val p = xh p := by
  obtain ⟨d1, d2, d3, h, h1, h2, h3, h4, h5, hmiss⟩ := combineWith_eq A mul refs hr levels
    hs gs hgs (fun g hg => reachable_component hs hlow (hgs g hg)) htotal sel hsel hselr fully hfully Lh hLh
    (reachable_component hs hlow hLh) xh
  refine ⟨d1, d2, d3, h, h1, h2, h3, h4, ?_, hmiss⟩
  intro i hi hl p hp
  have h6 := h5 i hi hl p hp
  by_cases hc : i ∈ selected sel levels.length ∧ ∃ g ∈ gs, levels[i] ∈ getDownSet g.2.1
  · rw [if_pos hc] at h6 ⊢
    rw [h6]
    clear h5 h6
    set val : K × List ℕ × (ℕ → K) → K := fun g => ∑ q ∈ Finset.range (numLocal refs g.2.1) with
      spatialOf refs g.2.1 q = spatialOf refs Lh p, g.2.2 q with hval
    set fs := gs.filter fun g => decide (levels[i] ∈ getDownSet g.2.1) with hfs
    have hz : ∀ g ∈ gs, levels[i] ∉ getDownSet g.2.1 → val g = 0 := by
      intro g hg hng
      exact same_place_zero hr (hgs g hg) hLh hl hp hng _
    have hsum : ∀ f : K → K, f 0 = 0 → (gs.map fun g => f (g.1 * val g)).sum = (fs.map fun g => f (g.1 * val g)).sum := by
      intro f f0
      rw [hfs]
      clear hfs hn h1 h3 hgs hc
      clear fs
      induction gs with
      | nil => rfl
      | cons g gs ih =>
        have ih' := ih fun g' hg' => hz g' (List.mem_cons_of_mem _ hg')
        rw [List.filter_cons, List.map_cons, List.sum_cons]
        by_cases hg : levels[i] ∈ getDownSet g.2.1
        · rw [if_pos (by simpa using hg), List.map_cons, List.sum_cons, ih']
        · rw [if_neg (by simpa using hg), hz g List.mem_cons_self hg, mul_zero, f0, zero_add, ih']
    have hle : fs.length ≤ gs.length := List.length_filter_le _ _
    have hle' : (fs.length : K) ≤ gs.length := Nat.cast_le.2 hle
    have key := kahan_mul_error u0 u1 hA mul hmul (fs.map fun g => (g.1, val g)) (by
      rw [List.length_map]
      have := mul_le_mul_of_nonneg_right hle' u0
      linarith)
    rw [List.map_map, List.map_map, List.map_map, List.length_map] at key
    simp only [Function.comp_def] at key
    have e1 := hsum id rfl
    simp only [id] at e1
    have e2 := hsum (fun x => |x|) abs_zero
    rw [e1, e2]
    refine key.trans (mul_le_mul_of_nonneg_right ?_ ?_)
    · have := mul_le_mul_of_nonneg_right hle' (sq_nonneg u)
      linarith
    · apply List.sum_nonneg
      intro z hz
      obtain ⟨g, _, rfl⟩ := List.mem_map.1 hz
      exact abs_nonneg _
  · rw [if_neg hc] at h6 ⊢
    exact h6

/-- Hypotheses of `C84_combine` about numbers, for three grids; those about grids are those of `C18`. -/
example : Rounds (1 / 1024) (roundUp (1 / 1024)) ∧ (16 : ℚ) * (1 / 1024) ≤ 1 ∧
    8 * (((3 : ℕ) : ℚ) * (1 / 1024)) ≤ 1 ∧
    ∀ a b : ℚ, |a * b * (1 + 1 / 1024) - a * b| ≤ 1 / 1024 * |a * b| := by
  refine ⟨rounds_roundUp _ (by norm_num), by norm_num, by norm_num, fun a b => ?_⟩
  rw [show a * b * (1 + 1 / 1024) - a * b = 1 / 1024 * (a * b) by ring, abs_mul]
  norm_num

/-- The combined norm. -/
theorem C84_norm [Field K] [LinearOrder K] [IsStrictOrderedRing K] {u : K} (u0 : 0 ≤ u) (u1 : 16 * u ≤ 1)
    {A : Adder K} (hA : Rounds u A) (mul : K → K → K) (hmul : ∀ a b, |mul a b - a * b| ≤ u * |a * b|)
    (norms : List (K × K)) (hn : 8 * (norms.length * u) ≤ 1) :
    |getLpNorm A mul norms - (norms.map fun p => p.2 * p.1).sum| ≤
      (8 * u + 17 * norms.length * u ^ 2) * (norms.map fun p => |p.2 * p.1|).sum := by
  have := kahan_mul_error u0 u1 hA mul hmul (norms.map fun p => (p.2, p.1)) (by rwa [List.length_map])
  rw [List.map_map, List.map_map, List.map_map, List.length_map, List.foldl_map] at this
  exact this

/-- The interpolated values of one process: if the local interpolants at `coords` are `F`, the values differ
from their combination by at most the bound. -/
theorem C84_interpolation [Field K] [LinearOrder K] [IsStrictOrderedRing K] [FloorRing K] {u : K} (u0 : 0 ≤ u)
    (u1 : 16 * u ≤ 1) {A : Adder K} (hA : Rounds u A) (tasks : List (Interpolation.EvalTask K K))
    (coords : List (List K)) (F : Interpolation.EvalTask K K → List K → K)
    (hF : ∀ t ∈ tasks, ∀ xs ∈ coords, Interpolation.evalLocal t.dims xs t.data = .ok (F t xs))
    (hn : 8 * (tasks.length * u) ≤ 1) :
    ∃ v : List K → K, Interpolation.localValuesWith A tasks coords = .ok (coords.map v) ∧
      ∀ xs, |v xs - (tasks.map fun t => t.coeff * F t xs).sum| ≤
        (6 * u + 16 * tasks.length * u ^ 2) * (tasks.map fun t => |t.coeff * F t xs|).sum := by
  have hcoord : ∀ t ∈ tasks, ∀ S : List K → K × K,
      Interpolation.coordLoopWith A t coords (coords.map S) =
        .ok (coords.map fun xs => kahanStep A (S xs) (t.coeff * F t xs)) := by
    intro t ht S
    have h := hF t ht
    clear hF
    induction coords with
    | nil => rfl
    | cons x coords ih =>
      rw [List.map_cons, Interpolation.coordLoopWith, h x (by simp), ih fun xs hxs => h xs (by simp [hxs])]
      rfl
  have htask : ∀ S : List K → K × K, Interpolation.taskLoopWith A coords tasks (coords.map S) =
      .ok (coords.map fun xs => (tasks.map fun t => t.coeff * F t xs).foldl (kahanStep A) (S xs)) := by
    clear hn hF
    induction tasks with
    | nil => intro S; rfl
    | cons t tasks ih =>
      intro S
      rw [Interpolation.taskLoopWith, hcoord t (by simp) S]
      simp only [Outcome.bind]
      rw [ih fun t ht => hcoord t (by simp [ht])]
      rfl
  refine ⟨fun xs => ((tasks.map fun t => t.coeff * F t xs).foldl (kahanStep A) (0, 0)).1, ?_, ?_⟩
  · unfold Interpolation.localValuesWith
    rw [htask]
    simp [Outcome.bind, Function.comp_def]
  · intro xs
    have := kahan_error u0 u1 hA (tasks.map fun t => t.coeff * F t xs) (by rwa [List.length_map])
    rw [List.length_map, List.map_map] at this
    exact this

/-- Two grids of one dimension and level 1 with boundary, evaluated at one quarter. -/
example : ∀ t ∈ ([⟨1, [⟨1, 2, 3, 0, 3, 0⟩], [0, 4, 8]⟩, ⟨-1, [⟨1, 2, 3, 0, 3, 0⟩], [2, 2, 2]⟩] :
      List (Interpolation.EvalTask ℚ ℚ)),
    ∀ xs ∈ [[(1 / 4 : ℚ)]], Interpolation.evalLocal t.dims xs t.data = .ok 2 := by
  decide +kernel

end Verif

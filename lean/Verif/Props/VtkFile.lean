import Verif.Lemmas.VtkFile
import Verif.Lemmas.Levels1d
import Verif.Lemmas.Combine
import Verif.Props.GroupGrid
import Mathlib.Algebra.Order.Field.Basic
import Mathlib.Tactic.FieldSimp
import Mathlib.Tactic.NormNum

/-!
# Property C110: VTK plot files show the grids

* `C110_values`: in one to three dimensions the files of a group are valid images, and together show the value
  of every grid point at the indices of the point, in exactly one of the files, and nothing else.
* `C110_coords_partial`, `C110_coords_iff`: the coordinates of the points are right if and only if there are two
  boundary points in every dimension. `C110_coords_violated`: a grid of the advection example.
* `C110_files`: no file of a task, grid or process is overwritten by another one.
* `C110_dimensions_violated`: nothing is written with four dimensions, or if the values are not of type `double`.
-/

namespace Verif.VtkFile

open GroupGrid

variable {K : Type}

/-- The indices of a point in an image, which always has three dimensions. -/
def imageIndex (x : List ℕ) : List ℕ := x ++ List.replicate (3 - x.length) 0

/-- Coordinates of a point in a grid with these levels and numbers of boundary points; 0 in the dimensions that
the grid does not have. -/
def imageCoords [Field K] (dims : List (ℕ × ℕ)) (x : List ℕ) : List K :=
  List.zipWith (fun s j => ((pos s.2 j : ℕ) : K) / 2 ^ s.1) dims x ++ List.replicate (3 - x.length) 0

lemma imageIndex_eq (x : List ℕ) (h : x.length < 4) : resize3 0 x = imageIndex x := by
  unfold resize3 imageIndex
  rw [List.take_of_length_le]
  simp
  omega

lemma full_sizes_pos {g : List Dim1} (hg : FullParts g) {c : List ℕ} (hc : ValidCoords g c) :
    ∀ s ∈ localSizes g c, 0 < s := by
  intro s hs
  obtain ⟨hl, hb⟩ := (validCoords_iff g c).1 hc
  obtain ⟨i, hi, rfl⟩ := List.getElem_of_mem hs
  have hi' : i < g.length := by rwa [length_localSizes g c hl] at hi
  have h1 := (bounds_full hg i hi' _ (hb i hi')).1
  have h2 := getD_localSizes g c hl i hi'
  rw [List.getD_eq_getElem _ _ hi] at h2
  omega

lemma writePieceFile_eq [Field K] [DecidableEq K] (g : List Dim1) (hg : FullParts g) (h0 : g ≠ [])
    (h3 : g.length < 4) (c : List ℕ) (hc : ValidCoords g c) (u : List K)
    (hu : u.length = (localSizes g c).prod) :
    writePieceFile true g c u =
      some ⟨box (lowerBounds g c) (localSizes g c), [0, 0, 0], spacing (globalSizes g), u⟩ := by
  obtain ⟨hl, -⟩ := (validCoords_iff g c).1 hc
  have lS := length_localSizes g c hl
  have hS0 : localSizes g c ≠ [] := by
    intro h
    rw [h] at lS
    exact h0 (List.eq_nil_of_length_eq_zero lS.symm)
  unfold writePieceFile
  rw [if_pos ⟨rfl, h3⟩, localExtent_eq g hg.validGrid h0 c hc (full_sizes_pos hg hc),
    readOrder_eq _ hS0 (by omega)]
  simp only [Option.bind_eq_bind, Option.bind_some]
  rw [← hu, mapM_range]
  rfl

/-- C110: the files together show every point of the grid with its value, in one file each, and nothing
else. -/
theorem C110_values [Field K] [DecidableEq K] (g : List Dim1) (hg : FullParts g) (h0 : g ≠ []) (h3 : g.length < 4)
    (data : List ℕ → List K) (V : List ℕ → K) (hV : Represents g data V) :
    ∃ file : List ℕ → VtkPiece K, (∀ c, ValidCoords g c →
        writePieceFile true g c (data c) = some (file c) ∧ (file c).valid = true ∧
        ∀ z v, (file c).valueAt z = some v →
          ∃ x, IsPoint g x ∧ isGlobalIndexHere g c x = true ∧ z = imageIndex x ∧ v = V x) ∧
      ∀ x, IsPoint g x → ∃! c, ValidCoords g c ∧ (file c).valueAt (imageIndex x) = some (V x) := by
  let file : List ℕ → VtkPiece K := fun c =>
    ⟨box (lowerBounds g c) (localSizes g c), [0, 0, 0], spacing (globalSizes g), data c⟩
  have key : ∀ c, ValidCoords g c → (file c).valid = true ∧
      (∀ z v, (file c).valueAt z = some v →
        ∃ x, IsPoint g x ∧ isGlobalIndexHere g c x = true ∧ z = imageIndex x ∧ v = V x) ∧
      ∀ x, IsPoint g x → isGlobalIndexHere g c x = true →
        (file c).valueAt (imageIndex x) = some (V x) := by
    intro c hc
    obtain ⟨hl, -⟩ := (validCoords_iff g c).1 hc
    have lS := length_localSizes g c hl
    have lL := length_lowerBounds g c hl
    have hS0 : localSizes g c ≠ [] := by
      intro h
      rw [h] at lS
      exact h0 (List.eq_nil_of_length_eq_zero lS.symm)
    have hpos := full_sizes_pos hg hc
    have hv : (file c).valid = true := by
      unfold VtkPiece.valid
      rw [shape_box (file c) _ _ (by rw [lL, lS]) hS0 (by omega) hpos rfl, beq_iff_eq]
      exact (hV c hc).1
    have hcov := covers_box (file c) _ _ (by rw [lL, lS]) hS0 (by omega) hpos rfl
    have hval : ∀ y, List.Forall₂ (· < ·) y (localSizes g c) →
        (file c).valueAt (resize3 0 (List.zipWith (· + ·) (lowerBounds g c) y)) =
          some (V (List.zipWith (· + ·) (lowerBounds g c) y)) := by
      intro y hy
      unfold VtkPiece.valueAt
      rw [hv, (hcov _).2 ⟨y, hy, rfl⟩]
      simp only [Bool.and_self, if_true]
      show (data c)[VtkPiece.position (box (lowerBounds g c) (localSizes g c)) _]? = _
      rw [position_box _ _ (by rw [lL, lS]) hS0 (by omega) y hy]
      exact (hV c hc).2 y hy
    have hpad : ∀ y, List.Forall₂ (· < ·) y (localSizes g c) →
        resize3 0 (List.zipWith (· + ·) (lowerBounds g c) y) =
          imageIndex (List.zipWith (· + ·) (lowerBounds g c) y) := by
      intro y hy
      refine imageIndex_eq _ ?_
      rw [List.length_zipWith, lL]
      omega
    refine ⟨hv, fun z v h => ?_, fun x hx hh => ?_⟩
    · have hz : (file c).covers z = true := by
        unfold VtkPiece.valueAt at h
        by_contra hn
        rw [Bool.not_eq_true] at hn
        simp [hn] at h
      obtain ⟨y, hy, rfl⟩ := (hcov z).1 hz
      rw [hval y hy] at h
      obtain ⟨-, b2, b3⟩ := here_of_local g hg.validGrid c hc y hy
      exact ⟨_, b3, b2, hpad y hy, (Option.some.inj h).symm⟩
    · obtain ⟨y, hy, rfl⟩ := (here_iff hg.validGrid hc hx).1 hh
      rw [← hpad y hy]
      exact hval y hy
  refine ⟨file, fun c hc => ⟨writePieceFile_eq g hg h0 h3 c hc _ (hV c hc).1, (key c hc).1, (key c hc).2.1⟩,
    fun x hx => ?_⟩
  obtain ⟨c, ⟨c1, c2⟩, c3⟩ := C12_unique_owner g hg.validGrid x hx
  refine ⟨c, ⟨c1, (key c c1).2.2 x hx c2⟩, ?_⟩
  rintro c' ⟨d1, d2⟩
  obtain ⟨x', e1, e2, e3, -⟩ := (key c' d1).2.1 _ _ d2
  refine c3 c' ⟨d1, ?_⟩
  have : x = x' := (List.append_inj e3 (by rw [hx.length_eq, e1.length_eq])).1
  rw [this]
  exact e2

/-- 5 x 3 points on 2 x 2 processes. -/
def exGrid : List Dim1 := [⟨[0, 3], 5⟩, ⟨[0, 1], 3⟩]

/-- The values of `exGrid` on process `c`: the linear indices of the points. -/
def exData (c : List ℕ) : List ℚ :=
  (List.range (tensorSize (localSizes exGrid c))).map fun i => (getGlobalLinearIndex exGrid c i : ℚ)

example : (writePieceFile true exGrid [1, 1] (exData [1, 1])).map
      (fun p => (p.extent, p.values)) = some ([(3, 4), (1, 2), (0, 0)], [8, 9, 13, 14]) ∧
    (writePieceFile true exGrid [1, 1] (exData [1, 1])).map
      (fun p => [p.valueAt [4, 2, 0], p.valueAt [3, 2, 0], p.valueAt [2, 2, 0]]) =
        some [some 14, some 13, none] ∧
    (writePieceFile true exGrid [1, 1] (exData [1, 1])).map (fun p => p.coordsAt [3, 2, 0]) =
      some (some [3 / 4, 1, 0]) := by
  decide +kernel

/-- The hypotheses of `C110_values` and `C110_coords_iff` are met. -/
example : FullParts exGrid ∧ exGrid ≠ [] ∧ exGrid.length < 4 ∧ ValidCoords exGrid [1, 1] ∧
    globalSizes exGrid = [(2, 2), (2, 0)].map (fun s : ℕ × ℕ => nodal s.1 s.2) ∧
    ∃ V, Represents exGrid exData V := by
  refine ⟨by simp [FullParts, exGrid], by simp [exGrid], by simp [exGrid],
    by simp [ValidCoords, exGrid], by decide, ?_⟩
  refine represents_exists exGrid (by simp [FullParts, exGrid]) exData fun c hc => ?_
  have hl := ((validCoords_iff exGrid c).1 hc).1
  have lS := length_localSizes exGrid c hl
  rw [exData, List.length_map, List.length_range, tensorSize, if_neg, foldl_mul_eq, Nat.one_mul]
  intro h
  rw [h] at lS
  simp [exGrid] at lS

/-! ### Coordinates -/

/-- In one dimension. -/
lemma spacing_iff [Field K] [LinearOrder K] [IsStrictOrderedRing K] (l b : ℕ) (hb : b ≤ 2)
    (hn : 1 ≤ nodal l b) :
    (∀ i < nodal l b, (spacing1 (K := K) (nodal l b)).map (fun h => 0 + (i : K) * h) =
      some (((pos b i : ℕ) : K) / 2 ^ l)) ↔ b = 2 := by
  have h2 : (0 : K) < 2 ^ l := by positivity
  have hpow : 1 ≤ 2 ^ l := Nat.one_le_two_pow
  constructor
  · intro h
    have hs := h 0 (by omega)
    unfold spacing1 at hs h
    split_ifs at hs h with h0
    · simp at hs
    obtain rfl | rfl | rfl : b = 0 ∨ b = 1 ∨ b = 2 := by omega
    · simp [pos] at hs
      exact absurd hs.symm (ne_of_gt h2)
    · exfalso
      have hnn : nodal l 1 = 2 ^ l := by simp [nodal]
      rw [hnn] at h h0
      have h1 : ¬ (2 ^ l = 1) := by
        intro h1
        apply h0
        rw [h1]
        simp
      have := h (2 ^ l - 1) (by omega)
      simp only [Option.map_some, Option.some.injEq, pos] at this
      rw [if_neg (by omega), Nat.cast_sub hpow, Nat.cast_pow, Nat.cast_ofNat, Nat.cast_one, zero_add, mul_one_div,
        div_eq_div_iff (by simpa using h0) (ne_of_gt h2)] at this
      have h0' : (2 : K) ^ l - 1 ≠ 0 := by simpa using h0
      have h3 := mul_left_cancel₀ h0' this
      have h4 : (1 : K) = 0 := by linarith
      exact one_ne_zero h4
    · rfl
  · rintro rfl i hi
    have hnn : nodal l 2 = 2 ^ l + 1 := by simp [nodal]
    unfold spacing1
    rw [hnn]
    push_cast
    rw [add_sub_cancel_right, if_neg (ne_of_gt h2)]
    simp [pos, div_eq_mul_inv]

lemma coordsAt_iff [Field K] [DecidableEq K] (dims : List (ℕ × ℕ)) (h0 : dims ≠ []) (h3 : dims.length < 4)
    (p : VtkPiece K) (hp : p.origin = [0, 0, 0])
    (hs : p.spacing = spacing (dims.map fun s => nodal s.1 s.2)) (x : List ℕ) (hx : x.length = dims.length) :
    p.coordsAt (imageIndex x) = some (imageCoords dims x) ↔
      List.Forall₂ (fun (s : ℕ × ℕ) (j : ℕ) => (spacing1 (K := K) (nodal s.1 s.2)).map (fun h => 0 + (j : K) * h) =
        some (((pos s.2 j : ℕ) : K) / 2 ^ s.1)) dims x := by
  have h00 : dims.length ≠ 0 := fun h => h0 (List.eq_nil_of_length_eq_zero h)
  unfold VtkPiece.coordsAt
  rw [hp, hs]
  obtain h | h | h : dims.length = 1 ∨ dims.length = 2 ∨ dims.length = 3 := by omega
  · obtain ⟨a, rfl⟩ := List.length_eq_one_iff.1 h
    obtain ⟨x, rfl⟩ := List.length_eq_one_iff.1 hx
    rcases e : spacing1 (K := K) (nodal a.1 a.2) with _ | q
    · simp [spacing, resize3, imageIndex, e]
    · simp [spacing, resize3, imageIndex, imageCoords, e]
  · obtain ⟨a, b, rfl⟩ := List.length_eq_two.1 h
    obtain ⟨x, y, rfl⟩ := List.length_eq_two.1 hx
    rcases e : spacing1 (K := K) (nodal a.1 a.2) with _ | q <;>
      rcases e' : spacing1 (K := K) (nodal b.1 b.2) with _ | q' <;>
      simp [spacing, resize3, imageIndex, imageCoords, e, e']
  · obtain ⟨a, b, d, rfl⟩ := List.length_eq_three.1 h
    obtain ⟨x, y, w, rfl⟩ := List.length_eq_three.1 hx
    rcases e : spacing1 (K := K) (nodal a.1 a.2) with _ | q <;>
      rcases e' : spacing1 (K := K) (nodal b.1 b.2) with _ | q' <;>
      rcases e'' : spacing1 (K := K) (nodal d.1 d.2) with _ | q'' <;>
      simp [spacing, resize3, imageIndex, imageCoords, e, e', e'']

lemma forall_points (dims : List (ℕ × ℕ)) (hpos : ∀ s ∈ dims, 1 ≤ nodal s.1 s.2)
    (R : ℕ × ℕ → ℕ → Prop) :
    (∀ x, List.Forall₂ (· < ·) x (dims.map fun s => nodal s.1 s.2) → List.Forall₂ R dims x) ↔
      ∀ s ∈ dims, ∀ i < nodal s.1 s.2, R s i := by
  constructor
  · intro h
    induction dims with
    | nil => simp
    | cons s dims ih =>
      have hz : List.Forall₂ (· < ·) (dims.map fun _ => 0) (dims.map fun s => nodal s.1 s.2) := by
        rw [List.forall₂_map_left_iff, List.forall₂_map_right_iff, List.forall₂_same]
        exact fun t ht => hpos t (by simp [ht])
      intro t ht i hi
      rcases List.mem_cons.1 ht with rfl | ht
      · have := h (i :: dims.map fun _ => 0) (by
          rw [List.map_cons]
          exact .cons hi hz)
        exact (List.forall₂_cons.1 this).1
      · refine ih (fun t ht => hpos t (by simp [ht])) (fun x hx => ?_) t ht i hi
        have := h (0 :: x) (by
          rw [List.map_cons]
          exact .cons (hpos s (by simp)) hx)
        exact (List.forall₂_cons.1 this).2
  · intro h x hx
    rw [List.forall₂_map_right_iff] at hx
    induction dims generalizing x with
    | nil =>
      rw [List.forall₂_nil_right_iff] at hx
      subst hx
      exact .nil
    | cons s dims ih =>
      obtain ⟨i, x', hi, hx', rfl⟩ := List.forall₂_cons_right_iff.1 hx
      exact .cons (h s (by simp) i hi) (ih (fun t ht => hpos t (by simp [ht])) (fun t ht => h t (by simp [ht])) x' hx')

/-- C110: the coordinates of all points are right if and only if there are two boundary points in every
dimension. `dims` has the levels and numbers of boundary points of the grid. -/
theorem C110_coords_iff [Field K] [LinearOrder K] [IsStrictOrderedRing K] (dims : List (ℕ × ℕ))
    (hd : ∀ s ∈ dims, s.2 ≤ 2 ∧ 1 ≤ nodal s.1 s.2) (g : List Dim1)
    (hgd : globalSizes g = dims.map fun s => nodal s.1 s.2) (hg : FullParts g) (h0 : g ≠ []) (h3 : g.length < 4)
    (c : List ℕ) (hc : ValidCoords g c) (u : List K) (hu : u.length = (localSizes g c).prod) :
    ∃ p, writePieceFile true g c u = some p ∧
      ((∀ x, IsPoint g x → p.coordsAt (imageIndex x) = some (imageCoords dims x)) ↔ ∀ s ∈ dims, s.2 = 2) := by
  refine ⟨_, writePieceFile_eq g hg h0 h3 c hc u hu, ?_⟩
  have hlen : g.length = dims.length := by
    have := congrArg List.length hgd
    simpa [globalSizes] using this
  have hd0 : dims ≠ [] := by
    rintro rfl
    exact h0 (List.eq_nil_of_length_eq_zero hlen)
  rw [show (∀ s ∈ dims, s.2 = 2) ↔ ∀ s ∈ dims, ∀ i < nodal s.1 s.2,
      (spacing1 (K := K) (nodal s.1 s.2)).map (fun h => 0 + (i : K) * h) =
        some (((pos s.2 i : ℕ) : K) / 2 ^ s.1) from
      forall₂_congr fun s hs => (spacing_iff s.1 s.2 (hd s hs).1 (hd s hs).2).symm,
    ← forall_points dims (fun s hs => (hd s hs).2)]
  unfold IsPoint
  rw [hgd]
  refine forall₂_congr fun x hx => ?_
  exact coordsAt_iff dims hd0 (by omega) _ (by rfl) (by rfl) x (by rw [hx.length_eq, List.length_map])

/-- C110, coordinates, as far as they are right. Missing: zero or one boundary points. -/
theorem C110_coords_partial [Field K] [LinearOrder K] [IsStrictOrderedRing K] (levels : List ℕ) (g : List Dim1)
    (hgd : globalSizes g = levels.map fun l => 2 ^ l + 1) (hg : FullParts g) (h0 : g ≠ []) (h3 : g.length < 4)
    (c : List ℕ) (hc : ValidCoords g c) (u : List K) (hu : u.length = (localSizes g c).prod)
    (x : List ℕ) (hx : IsPoint g x) :
    ∃ p, writePieceFile true g c u = some p ∧ p.coordsAt (imageIndex x) =
      some (List.zipWith (fun l j : ℕ => (j : K) / 2 ^ l) levels x ++ List.replicate (3 - x.length) 0) := by
  have hgd' : globalSizes g = (levels.map fun l => (l, 2)).map fun s : ℕ × ℕ => nodal s.1 s.2 := by
    rw [hgd, List.map_map]
    exact List.map_congr_left fun l _ => by simp [nodal]
  obtain ⟨p, h1, h2⟩ := C110_coords_iff (K := K) (levels.map fun l => (l, 2))
    (by
      intro s hs
      obtain ⟨l, -, rfl⟩ := List.mem_map.1 hs
      exact ⟨Nat.le_refl _, by simp [nodal]⟩) g hgd' hg h0 h3 c hc u hu
  refine ⟨p, h1, ?_⟩
  rw [h2.2 (by simp) x hx]
  congr 1
  unfold imageCoords
  rw [List.zipWith_map_left]
  simp [pos]

/-- C110 is violated for one boundary point: with 4 points, the last one is shown at 1 and not at 3/4. -/
theorem C110_coords_violated :
    (writePieceFile true [⟨[0, 2], 4⟩] [1] [5, (7 : ℚ)]).map (fun p => (p.valueAt [3, 0, 0], p.coordsAt [3, 0, 0])) =
      some (some 7, some [1, 0, 0]) ∧
    imageCoords (K := ℚ) [(2, 1)] [3] = [3 / 4, 0, 0] := by
  decide +kernel

/-- C110: with four dimensions, or values of another type than `double`, an assertion fails. -/
theorem C110_dimensions_violated [Field K] [DecidableEq K] (g : List Dim1) (c : List ℕ) (u : List K) :
    (4 ≤ g.length → ∀ isReal, writePieceFile isReal g c u = none) ∧ writePieceFile false g c u = none := by
  constructor
  · intro h isReal
    unfold writePieceFile
    rw [if_neg (by omega)]
  · unfold writePieceFile
    rw [if_neg (by simp)]

/-! ### The files of all groups -/

/-- C110: if the tasks of all groups have different levels, every process writes one file for every task and grid, and
no two of the files have the same name. -/
theorem C110_files [Field K] [DecidableEq K] (dim : ℕ) (hdim : 0 < dim) (hdim3 : dim < 4) (numGrids : ℕ)
    (cart : List (List ℕ)) (groups : List (List (VtkTask K)))
    (ht : ∀ t ∈ groups.flatten, t.levels.length = dim ∧ t.grid.length = dim ∧ FullParts t.grid ∧
      ∀ c ∈ cart, ValidCoords t.grid c ∧ ∀ s < numGrids, (t.data s c).length = (localSizes t.grid c).prod)
    (hdist : (groups.flatten.map (·.levels)).Nodup) :
    ∃ files, writeAll true numGrids cart groups = some files ∧ (files.map (·.1)).Nodup ∧
      ∀ name p, (name, p) ∈ files ↔ ∃ t ∈ groups.flatten, ∃ s < numGrids, ∃ r c, cart[r]? = some c ∧
        name = pieceName t.levels s r ∧ writePieceFile true t.grid c (t.data s c) = some p := by
  let piece : VtkTask K → ℕ → List ℕ → VtkPiece K := fun t s c =>
    ⟨box (lowerBounds t.grid c) (localSizes t.grid c), [0, 0, 0], spacing (globalSizes t.grid), t.data s c⟩
  have hpiece : ∀ t ∈ groups.flatten, ∀ c ∈ cart, ∀ s < numGrids,
      writePieceFile true t.grid c (t.data s c) = some (piece t s c) := by
    intro t htm c hcm s hs
    obtain ⟨h1, h2, h3, h4⟩ := ht t htm
    refine writePieceFile_eq t.grid h3 ?_ (by omega) c (h4 c hcm).1 _ ((h4 c hcm).2 s hs)
    intro h
    rw [h] at h2
    simp at h2
    omega
  let ofTask : VtkTask K → List (List Char × VtkPiece K) := fun t =>
    (List.range numGrids).flatMap fun s => cart.zipIdx.map fun cr => (pieceName t.levels s cr.2, piece t s cr.1)
  have hgroup : ∀ ts ∈ groups, writeGroup true numGrids cart ts = some (ts.flatMap ofTask) := by
    intro ts hts
    unfold writeGroup
    rw [mapM_some_map ts _ (fun t => (List.range numGrids).map fun s =>
      cart.zipIdx.map fun cr => (pieceName t.levels s cr.2, piece t s cr.1))]
    · simp [ofTask, List.flatMap, List.flatten_flatten, Function.comp_def]
    · intro t htm
      refine mapM_some_map _ _ _ fun s hs => mapM_some_map _ _ _ fun cr hcr => ?_
      rw [hpiece t (List.mem_flatten.2 ⟨ts, hts, htm⟩) cr.1 (List.fst_mem_of_mem_zipIdx hcr) s (List.mem_range.1 hs)]
      rfl
  refine ⟨groups.flatten.flatMap ofTask, ?_, ?_, fun name p => ?_⟩
  · unfold writeAll
    rw [mapM_some_map groups _ (fun ts => ts.flatMap ofTask) hgroup]
    simp [List.flatMap, List.map_flatten, List.flatten_flatten, Function.comp_def]
  · rw [List.map_flatMap, List.nodup_flatMap]
    constructor
    · intro t htm
      simp only [ofTask, List.map_flatMap, List.map_map, Function.comp_def]
      rw [List.nodup_flatMap]
      constructor
      · intro s hs
        rw [show cart.zipIdx.map (fun cr => pieceName t.levels s cr.2) =
            (List.range cart.length).map (pieceName t.levels s) by
          rw [List.range_eq_range', ← List.zipIdx_map_snd 0 cart, List.map_map]
          rfl]
        exact List.Nodup.map (fun a b h => (pieceName_inj rfl h).2.2) List.nodup_range
      · refine List.nodup_range.pairwise_of_forall_ne fun s hs s' hs' hne => ?_
        intro name h1 h2
        obtain ⟨cr, -, rfl⟩ := List.mem_map.1 h1
        obtain ⟨cr', -, h⟩ := List.mem_map.1 h2
        exact hne (pieceName_inj rfl h).2.1.symm
    · have hp : groups.flatten.Pairwise fun t t' => t.levels ≠ t'.levels := List.pairwise_map.1 hdist
      refine hp.imp_of_mem fun {t t'} htm htm' hne name h1 h2 => ?_
      simp only [ofTask, List.map_flatMap, List.mem_flatMap, List.mem_map] at h1 h2
      obtain ⟨s, -, q, ⟨cr, -, rfl⟩, rfl⟩ := h1
      obtain ⟨s', -, q', ⟨cr', -, rfl⟩, h⟩ := h2
      exact hne (pieceName_inj (by rw [(ht t htm).1, (ht t' htm').1]) h.symm).1
  · simp only [List.mem_flatMap, List.mem_range, List.mem_map, Prod.mk.injEq, ofTask]
    constructor
    · rintro ⟨t, htm, s, hs, ⟨c, r⟩, hcr, rfl, rfl⟩
      refine ⟨t, htm, s, hs, r, c, ?_, rfl, hpiece t htm c (List.fst_mem_of_mem_zipIdx hcr) s hs⟩
      exact List.mem_zipIdx_iff_getElem?.1 hcr
    · rintro ⟨t, htm, s, hs, r, c, hcr, rfl, hp⟩
      refine ⟨t, htm, s, hs, (c, r), List.mem_zipIdx_iff_getElem?.2 hcr, rfl, ?_⟩
      rw [hpiece t htm c (List.mem_of_getElem? hcr) s hs] at hp
      exact Option.some.inj hp

/-- A grid with 2 x 1 points in each of two parts. -/
def exTask (levels : List ℕ) : VtkTask ℚ := ⟨levels, [⟨[0, 2], 4⟩, ⟨[0], 1⟩], fun s c => [(s : ℚ), (c.getD 0 0 : ℚ)]⟩

/-- The hypotheses of `C110_files` are met: two groups of two processes, two grids per task. -/
example : (∀ t ∈ [[exTask [2, 0]], [exTask [3, 1], exTask [0, 2]]].flatten, t.levels.length = 2 ∧ t.grid.length = 2 ∧
      FullParts t.grid ∧ ∀ c ∈ [[0, 0], [1, 0]], ValidCoords t.grid c ∧ ∀ s < 2,
        (t.data s c).length = (localSizes t.grid c).prod) ∧
    ([[exTask [2, 0]], [exTask [3, 1], exTask [0, 2]]].flatten.map (·.levels)).Nodup := by
  refine ⟨?_, by simp [exTask]⟩
  simp [exTask, FullParts, ValidCoords, localSizes, upperBounds, lowerBounds, lowerBound1d, upperBound1d]

example : pieceName [3, 12] 1 10 = "./vtk/dfg_l3_12_s1_10.vti".toList := by decide +kernel

end Verif.VtkFile

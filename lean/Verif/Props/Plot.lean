import Verif.Lemmas.PlotInterp
import Verif.Props.DistributedCombine
import Verif.Props.History
import Std.Data.String.ToNat

/-!
# C94: plotting the combined solution on a level shows the combination of the component interpolants

`refs` gives the reference grid and the decomposition in every dimension, `T` the component grids of all
groups with the values of the whole grids, `leval` the level of the plotted grid. `interpAt refs L u z` is
the multilinear interpolant of the values `u` on the grid of level `L`, at the point of the reference grid
with index `z`.
-/

namespace Verif

variable {K : Type}

/-- C94 (partial: with the variant `sparseGridReduce`, hat functions, the values of one grid per task; the
first subspace is the coarsest one, and the sparse grid has all subspaces of the tasks; the minimum level does not exceed the levels of the tasks; dimensions
which are not hierarchized are not finer than in any task). After a complete combination, the plotted values
on every process of every group are, at every point of the plotted grid, the sum over all component grids of
coefficient times interpolated value before the combination. -/
theorem C94_plot_partial [Field K] [LinearOrder K] [IsStrictOrderedRing K] [FloorRing K]
    (refs : List RefDim) (P : CombineParams) (levels : List (List ℕ)) (n : ℕ)
    (T : ℕ → List (K × List ℕ × (ℕ → K))) (h : ValidSystem refs levels n T)
    (hfull : FullLevels levels n T)
    (hhead : levels.head? = some (List.replicate refs.length 1)) (hP : ParamsOk refs P)
    (hhat : ∀ β ∈ P.bases, β = .hat) (hne : NonEmptyParts refs n T)
    (htotal : ∀ c, InGroup refs c → (levels.map (subspaceCount (atProcess refs c))).sum < 2 ^ 32)
    (maxChunk : ℕ) (hpos : 0 < maxChunk) (hmax : maxChunk < 2 ^ 31)
    (leval : List ℕ) (hleval : ValidComponent refs leval)
    (hneL : ∀ c, InGroup refs c → ∀ d ∈ List.zipWith localOf (atProcess refs c) leval, 0 < d.size)
    (hT : ∀ g < n, ∀ t ∈ T g,
      List.Forall₂ (· ≤ ·) (effectiveLMin P.boundary P.lmin) t.2.1 ∧
      ∀ k < refs.length, P.sel.getD k false = false → leval.getD k 0 ≤ t.2.1.getD k 0)
    (S : ℕ → List (GroupTask K)) (hS : ∀ g < n, List.Forall₂ (HoldsParts refs) (T g) (S g))
    (junk : ℕ → ℕ → List ℕ → ℕ → ℕ → ℕ → K) (junk' : ℕ → List ℕ → ℕ → ℕ → ℕ → K)
    (g : ℕ) (hg : g < n) :
    ∃ X : List ℕ → Buf K,
      combineAndPlot (refs.map fun r => r.dec.length) P .sparseGridReduce maxChunk levels n junk junk'
        S g (refGrid refs) leval = some [X] ∧
      ∀ c, InGroup refs c → (X c).len = numLocal (atProcess refs c) leval ∧
        ∀ q < numLocal (atProcess refs c) leval, (X c).val q =
          ((List.range n).map fun m => ((T m).map fun t =>
            t.1 * interpAt refs t.2.1 t.2.2 (spatialOf (atProcess refs c) leval q)).sum).sum := by
  obtain ⟨H, D, hm⟩ := compMaps (K := K) (validRef_oneProcess h.ref) (serial_oneProcess refs)
    (paramsOk_oneProcess hP)
  have hm' := fun L (hL : ValidComponent refs L) => hm L (validComponent_oneProcess.2 hL)
  obtain ⟨X, x1, x2⟩ := plot_formula h hfull hhead hP hne htotal hpos hmax hm' junk junk' hS hg hleval hneL
  refine ⟨X, x1, fun c hc => ⟨(x2 c hc).1, fun q hq => ?_⟩⟩
  obtain ⟨g1, g2⟩ := globalOf_spec h.ref hleval hc hq
  rw [(x2 c hc).2 q hq, plot_interp h.ref hP hhat hm' hleval
    (fun g hg t ht => ⟨h.comp g hg t ht, hT g hg t ht⟩) g1, g2]

/-- C94, for all bases: plotted on the level of one of the tasks, the values are those which the task has
after the combination. -/
theorem C94_like_task_partial [Field K] [CharZero K]
    (refs : List RefDim) (P : CombineParams) (levels : List (List ℕ)) (n : ℕ) (hn : n ≤ 256)
    (T : ℕ → List (K × List ℕ × (ℕ → K))) (h : ValidSystem refs levels n T)
    (hfull : FullLevels levels n T)
    (hhead : levels.head? = some (List.replicate refs.length 1)) (hP : ParamsOk refs P)
    (hne : NonEmptyParts refs n T)
    (htotal : ∀ c, InGroup refs c → (levels.map (subspaceCount (atProcess refs c))).sum < 2 ^ 31)
    (maxChunk : ℕ) (hu : ∀ c, InGroup refs c → Usable (atProcess refs c) n T .sparseGridReduce maxChunk)
    (S : ℕ → List (GroupTask K)) (hS : ∀ g < n, List.Forall₂ (HoldsParts refs) (T g) (S g))
    (junk1 junk2 junk3 : ℕ → ℕ → List ℕ → ℕ → ℕ → ℕ → K) (junk' : ℕ → List ℕ → ℕ → ℕ → ℕ → K) :
    ∃ R, distributedCombineAtOnce (refs.map fun r => r.dec.length) P .sparseGridReduce maxChunk levels n
        junk1 junk2 S = some R ∧ (∀ g < n, (R g).length = (T g).length) ∧
      ∀ g < n, ∀ m < n, ∀ i (hi : i < (T m).length),
        ∃ X : List ℕ → Buf K,
          combineAndPlot (refs.map fun r => r.dec.length) P .sparseGridReduce maxChunk levels n junk3
            junk' S g (refGrid refs) (T m)[i].2.1 = some [X] ∧
          ∃ hi' : i < (R m).length, ∀ c, InGroup refs c → (X c).len = ((R m)[i].data c).len ∧
            ∀ q < (X c).len, (X c).val q = ((R m)[i].data c).val q := by
  obtain ⟨H, D, hm⟩ := compMaps (K := K) (validRef_oneProcess h.ref) (serial_oneProcess refs)
    (paramsOk_oneProcess hP)
  have hm' := fun L (hL : ValidComponent refs L) => hm L (validComponent_oneProcess.2 hL)
  obtain ⟨R, r1, r2⟩ := distributed_formula hn h hP hne htotal hu hm' junk1 junk2 hS
  have hlen : ∀ g < n, (R g).length = (T g).length := by
    intro g hg
    have := (r2 g hg).length_eq
    rw [List.length_map] at this
    exact this.symm
  refine ⟨R, r1, hlen, fun g hg m hmn i hi => ?_⟩
  have hmem := List.getElem_mem hi
  by_cases hgrp : ∃ c, InGroup refs c
  swap
  · exfalso
    refine hgrp ⟨refs.map (·.c), ?_⟩
    unfold InGroup
    rw [List.forall₂_map_left_iff]
    exact List.forall₂_same.2 fun r hr => (h.ref r hr).coord
  obtain ⟨c0, hc0⟩ := hgrp
  obtain ⟨X, x1, x2⟩ := plot_formula h hfull hhead hP hne
    (fun c hc => lt_trans (htotal c hc) (by norm_num)) (hu c0 hc0).pos (hu c0 hc0).max hm' junk3 junk' hS
    hg (h.comp m hmn _ hmem) (hne m hmn _ hmem)
  have hi' : i < (R m).length := by rw [hlen m hmn]; exact hi
  refine ⟨X, x1, hi', fun c hc => ?_⟩
  have hh := (List.forall₂_iff_get.1 (r2 m hmn)).2 i (by rw [List.length_map]; exact hi) hi'
  simp only [List.get_eq_getElem, List.getElem_map] at hh
  obtain ⟨-, -, h3⟩ := hh
  obtain ⟨h4, h5⟩ := h3 c hc
  obtain ⟨x3, x4⟩ := x2 c hc
  refine ⟨x3.trans h4.symm, fun q hq => ?_⟩
  rw [x3] at hq
  rw [x4 q hq, h5 q hq]

/-- C94, the files of different grids have different names if the name has a dot and does not end in
".vtk". -/
theorem C94_file_names_partial (filename : List Char) (hdot : '.' ∈ filename)
    (hvtk : ¬ ".vtk".toList <:+ filename) (g g' : ℕ)
    (h : plotFileName filename g = plotFileName filename g') : g = g' := by
  unfold plotFileName at h
  rw [if_neg hvtk, if_neg hvtk, if_pos hdot, if_pos hdot] at h
  have h1 := List.append_cancel_right h
  have h2 := List.append_cancel_left h1
  exact Nat.repr_injective (String.toList_inj.1 (List.cons.inj h2).2)

/-! ### Example -/

/-- the hypotheses hold on two processes per group for a level which is finer than the combination -/
example (v : List ℕ → ℚ) :
    let P : CombineParams := ⟨[2, 0], [true, true], [.hat, .hat], [1, 1]⟩
    FullLevels [[1, 1], [1, 2], [2, 1]] 2 (serialSystem v) ∧
    [[1, 1], [1, 2], [2, 1]].head? = some (List.replicate layoutRefs.length 1) ∧
    (∀ β ∈ P.bases, β = .hat) ∧ ValidComponent layoutRefs [2, 2] ∧
    (∀ c, InGroup layoutRefs c →
      ∀ d ∈ List.zipWith localOf (atProcess layoutRefs c) [2, 2], 0 < d.size) ∧
    (∀ g < 2, ∀ t ∈ serialSystem v g,
      List.Forall₂ (· ≤ ·) (effectiveLMin P.boundary P.lmin) t.2.1 ∧
      ∀ k < layoutRefs.length, P.sel.getD k false = false → [2, 2].getD k 0 ≤ t.2.1.getD k 0) := by
  refine ⟨fun g _ t ht => ?_, rfl, by simp, ⟨by decide, by simp [layoutRefs]⟩, fun c hc => ?_,
    fun g _ t ht => ?_⟩
  · have := (serialSystem_mem ht).1
    simp only [List.mem_cons, List.not_mem_nil, or_false] at this
    rcases this with h | h | h <;> rw [h] <;> decide +kernel
  · rcases layoutRefs_group hc with rfl | rfl <;> decide +kernel
  · have := (serialSystem_mem ht).1
    simp only [List.mem_cons, List.not_mem_nil, or_false] at this
    rcases this with h | h | h <;> rw [h] <;> decide +kernel

/-! ### Violations -/

/-- A fine grid on the first group and a coarse one on the second. -/
def plotSystem (g : ℕ) : List (ℚ × List ℕ × (ℕ → ℚ)) :=
  if g = 0 then [(1, [2], fun q => if q = 0 then 8 else if q = 1 then 2 else 4)]
  else [(1, [1], fun _ => 5)]

/-- The grids of `plotSystem` on one process per group. -/
def plotTasks (g : ℕ) : List (GroupTask ℚ) :=
  (plotSystem g).map fun t => ⟨t.1, compGrid moveRefs t.2.1, fun c =>
    ⟨numLocal (atProcess moveRefs c) t.2.1, fun q => t.2.2 (globalOf moveRefs c t.2.1 q)⟩⟩

/-- What is plotted by group `g` on the finest level. -/
def plotted (variant : CombinationVariant) (g : ℕ) : Option (List (List ℚ)) :=
  (combineAndPlot [1] ⟨[0], [true], [.hat], [0]⟩ variant 5 [[1], [2]] 2 (fun _ _ _ _ _ _ => 0)
    (fun _ _ _ _ _ => 0) plotTasks g (refGrid moveRefs) [2]).map fun r =>
      r.map fun x => (List.range (x [0]).len).map (x [0]).val

theorem plotSystem_valid : ValidSystem moveRefs [[1], [2]] 2 plotSystem := by
  have hl : ∀ g < 2, (plotSystem g).map (fun t => (t.1, t.2.1)) =
      (moveSystem g).map fun t => (t.1, t.2.1) := by
    intro g _
    unfold plotSystem moveSystem
    split <;> rfl
  exact retask_valid moveSystem_valid hl

/-- C94 is violated by the other variants. A group only has the subspaces of its own tasks, so that what it
plots lacks the others. Groups delete the values with the chunked variant, and reading them is undefined. -/
theorem C94_variant_violated :
    ValidSystem moveRefs [[1], [2]] 2 plotSystem ∧
    (∀ g < 2, List.Forall₂ (HoldsParts moveRefs) (plotSystem g) (plotTasks g)) ∧
    ((List.range 3).map fun q => ((List.range 2).map fun m => ((plotSystem m).map fun t =>
      t.1 * interpAt moveRefs t.2.1 t.2.2 (spatialOf (atProcess moveRefs [0]) [2] q)).sum).sum) =
        [21 / 2, 7, 13 / 2] ∧
    (∀ g < 2, plotted .sparseGridReduce g = some [[21 / 2, 7, 13 / 2]]) ∧
    plotted .subspaceReduce 1 = some [[7 / 2, 7, 7 / 2]] ∧
    plotted .outgroupSparseGridReduce 1 = some [[7 / 2, 7, 7 / 2]] ∧
    plotted .chunkedOutgroupSparseGridReduce 1 = none := by
  refine ⟨plotSystem_valid, ?_, by decide +kernel, by decide +kernel, by decide +kernel,
    by decide +kernel, by decide +kernel⟩
  intro g _
  unfold plotTasks
  rw [List.forall₂_map_right_iff]
  exact List.forall₂_same.2 fun t _ => ⟨rfl, rfl, fun c _ => ⟨rfl, fun _ _ => rfl⟩⟩

/-- A sparse grid with one subspace and one value. -/
def oneValueDsg (s : ℚ) (_ : List ℕ) : Dsg ℚ :=
  ⟨[[1]], [1], [0], ⟨1, fun _ => s⟩, [0], ⟨0, fun _ => 0⟩, []⟩

/-- What is plotted for the given sparse grids on level 2. -/
def plottedGrids (dsgs : List (List ℕ → Dsg ℚ)) : Option (List (List ℚ)) :=
  (interpolateAndPlotOnLevel [1] ⟨[0], [true], [.hat], [0]⟩ (levalGrid (refGrid moveRefs) [2])
    (fun _ _ _ _ _ => 0) dsgs).map fun r => r.map fun x => (List.range (x [0]).len).map (x [0]).val

/-- C94 is violated for tasks with several grids: the plotted grid is reused, and where the sparse grid has
no subspace the values of the previous grid are taken as surpluses. -/
theorem C94_grids_violated :
    plottedGrids [oneValueDsg 4] = some [[2, 4, 2]] ∧
    plottedGrids [oneValueDsg 0] = some [[0, 0, 0]] ∧
    plottedGrids [oneValueDsg 4, oneValueDsg 0] = some [[2, 4, 2], [2, 0, 2]] :=
  ⟨by decide +kernel, by decide +kernel, by decide +kernel⟩

/-- C94 is violated for tasks with several grids: the names of the files of all grids are the same if the
name ends in ".vtk" or has no dot, so that only the last grid remains; and the number goes to the first dot,
which may be in the name of a directory. -/
theorem C94_file_names_violated :
    (∀ g, plotFileName "plot.vtk".toList g = "plot.vtk".toList) ∧
    (∀ g, plotFileName "plot".toList g = "plot".toList) ∧
    plotFileName "./plot.raw".toList 1 = "_1./plot.raw".toList := by
  refine ⟨fun g => ?_, fun g => ?_, ?_⟩
  · unfold plotFileName
    rw [if_pos (by decide)]
  · unfold plotFileName
    rw [if_neg (by decide), if_neg (by decide)]
  · decide +kernel

/-- C94, a formal point: on a grid finer than the sparse grid a search starts one before the begin of the
levels, which is undefined behaviour by the standard. With iterators as positions it finds the right subspace. -/
theorem C94_search_after_miss :
    getIndexInRange [[1, 1], [2, 1]] [2, 1] (-1) = none ∧
      ∀ (levels : List (List ℕ)) (_ : levels.Pairwise (· < ·)) (l : List ℕ) (i : ℕ),
        levels[i]? = some l → levels.head? ≠ some l → getIndexFlat levels l (-1) = some (i : ℤ) := by
  refine ⟨by decide, fun levels hs l i hi hne => ?_⟩
  obtain ⟨hlt, he⟩ := List.getElem?_eq_some_iff.1 hi
  have h0 : i ≠ 0 := by
    rintro rfl
    exact hne (by rw [List.head?_eq_getElem?]; exact hi)
  refine getIndexFlat_hit levels hs l i hlt he (-1) (by omega) (by omega) fun _ => ⟨by omega, ?_⟩
  rw [← he]
  exact List.pairwise_iff_getElem.1 hs 0 i (by omega) hlt (by omega)

end Verif

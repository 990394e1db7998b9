import Verif.Lemmas.GroupGrid
import Verif.Lemmas.Interpolation
import Mathlib.Data.List.Perm.Lattice
import Mathlib.Algebra.BigOperators.Group.List.Lemmas
import Mathlib.Algebra.Order.Field.Rat

/-!
# Lemmas for the norms of distributed grids
-/

namespace Verif.GroupGrid

/-- The local indices as vectors. -/
lemma range_perm (ns : List ℕ) :
    ((List.range ns.prod).map (getVectorIndex ns)).Perm (Interpolation.allCoords ns) := by
  refine (List.perm_ext_iff_of_nodup ?_ (Interpolation.nodup_allCoords ns)).2 fun x => ?_
  · refine (List.nodup_map_iff_inj_on List.nodup_range).2 fun a ha b hb h => ?_
    rw [List.mem_range] at ha hb
    rw [← (getVectorIndex_spec _ _ ha).2, ← (getVectorIndex_spec _ _ hb).2, h]
  · rw [Interpolation.mem_allCoords, List.mem_map]
    constructor
    · rintro ⟨k, hk, rfl⟩
      exact (getVectorIndex_spec _ _ (List.mem_range.1 hk)).1
    · intro hx
      exact ⟨_, List.mem_range.2 (sequentialIndex_lt _ _ hx), getVectorIndex_sequentialIndex _ _ hx⟩

/-- The points of all processes are the points of the grid, each once. -/
lemma parts_perm (g : List Dim1) (hg : ValidGrid g) (cs : List (List ℕ)) (hn : cs.Nodup)
    (hcs : ∀ c, c ∈ cs ↔ ValidCoords g c) :
    (cs.flatMap fun c => (Interpolation.allCoords (localSizes g c)).map fun y =>
      List.zipWith (· + ·) (lowerBounds g c) y).Perm (Interpolation.allCoords (globalSizes g)) := by
  have hinj : ∀ c, ValidCoords g c → ∀ y, List.Forall₂ (· < ·) y (localSizes g c) →
      List.zipWith (· - ·) (List.zipWith (· + ·) (lowerBounds g c) y) (lowerBounds g c) = y := by
    intro c hc y hy
    obtain ⟨h1, -⟩ := here_of_local g hg c hc y hy
    refine ext_getD (by simp [h1]) fun i _ => ?_
    rw [getD_sub _ _ (by simp [h1]), getD_add _ _ h1.symm]
    omega
  refine (List.perm_ext_iff_of_nodup ?_ (Interpolation.nodup_allCoords _)).2 fun x => ?_
  · rw [List.nodup_flatMap]
    constructor
    · intro c hc
      refine (List.nodup_map_iff_inj_on (Interpolation.nodup_allCoords _)).2 fun a ha b hb h => ?_
      rw [Interpolation.mem_allCoords] at ha hb
      rw [← hinj c ((hcs c).1 hc) a ha, h, hinj c ((hcs c).1 hc) b hb]
    · refine List.Pairwise.imp_of_mem ?_ (List.nodup_iff_pairwise_ne.1 hn)
      intro c c' hc hc' hne x hx hx'
      simp only [List.mem_map, Interpolation.mem_allCoords] at hx hx'
      obtain ⟨y, hy, rfl⟩ := hx
      obtain ⟨y', hy', he⟩ := hx'
      obtain ⟨-, h2, h3⟩ := here_of_local g hg c ((hcs c).1 hc) y hy
      obtain ⟨-, h2', h3'⟩ := here_of_local g hg c' ((hcs c').1 hc') y' hy'
      rw [he] at h2'
      obtain ⟨o, -, ho⟩ := C12_unique_owner g hg _ h3
      exact hne ((ho c ⟨(hcs c).1 hc, h2⟩).trans (ho c' ⟨(hcs c').1 hc', h2'⟩).symm)
  · rw [Interpolation.mem_allCoords, List.mem_flatMap]
    constructor
    · rintro ⟨c, hc, hx⟩
      simp only [List.mem_map, Interpolation.mem_allCoords] at hx
      obtain ⟨y, hy, rfl⟩ := hx
      exact (here_of_local g hg c ((hcs c).1 hc) y hy).2.2
    · intro hx
      obtain ⟨c, ⟨hc, hh⟩, -⟩ := C12_unique_owner g hg x hx
      refine ⟨c, (hcs c).2 hc, ?_⟩
      simp only [List.mem_map, Interpolation.mem_allCoords]
      obtain ⟨y, hy, rfl⟩ := (here_iff hg hc hx).1 hh
      exact ⟨y, hy, rfl⟩

end Verif.GroupGrid

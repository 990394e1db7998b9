import Verif.Lemmas.Restrict
import Verif.Lemmas.Combine
import Verif.Model.CombineAtOnce
import Mathlib.LinearAlgebra.Matrix.NonsingularInverse

/-!
# Lemmas on the transforms of all grids of all groups
-/

namespace Verif

variable {K : Type}

theorem mapTasks_some {f : ℕ → Dfg K → Option (Buf K)} {Q : K × Dfg K → Buf K → Prop} (i : ℕ)
    (tasks : List (K × Dfg K)) (h : ∀ i, ∀ t ∈ tasks, ∃ d, f i t.2 = some d ∧ Q t d) :
    ∃ r, mapTasks f i tasks = some r ∧ List.Forall₂ (fun t (t' : K × Dfg K) =>
      t'.1 = t.1 ∧ t'.2.dims = t.2.dims ∧ Q t t'.2.data) tasks r := by
  induction tasks generalizing i with
  | nil => exact ⟨[], rfl, .nil⟩
  | cons t ts ih =>
    obtain ⟨d, e1, e2⟩ := h i t (by simp)
    obtain ⟨r, f1, f2⟩ := ih (i + 1) fun i t ht => h i t (by simp [ht])
    refine ⟨(t.1, ⟨t.2.dims, d⟩) :: r, ?_, .cons ⟨rfl, rfl, e2⟩ f2⟩
    rw [mapTasks, e1, Option.bind_some, f1]
    rfl

theorem onGroups_some {n : ℕ} {f : ℕ → Option (List (K × Dfg K))}
    {Q : ℕ → List (K × Dfg K) → Prop} (h : ∀ g < n, ∃ r, f g = some r ∧ Q g r) :
    ∃ R, onGroups n f = some R ∧ (∀ g < n, Q g (R g)) ∧ ∀ g, n ≤ g → R g = [] := by
  have : ∀ g, ∃ r, g < n → f g = some r ∧ Q g r := by
    intro g
    by_cases hg : g < n
    · obtain ⟨r, hr⟩ := h g hg
      exact ⟨r, fun _ => hr⟩
    · exact ⟨[], fun h => absurd h hg⟩
  choose r hr using this
  refine ⟨fun g => ((List.range n).map r).getD g [], ?_, ?_, ?_⟩
  · unfold onGroups
    rw [mapM_some_map _ _ r fun g hg => (hr g (List.mem_range.1 hg)).1]
    rfl
  · intro g hg
    simp only
    rw [List.getD_eq_getElem _ _ (by simpa using hg), List.getElem_map, List.getElem_range]
    exact (hr g hg).2
  · intro g hg
    simp only
    rw [List.getD_eq_default _ _ (by simpa using hg)]

variable [Field K]

theorem inverseOn_swap {n : ℕ} {A B : ℕ → ℕ → K} (h : InverseOn n B A) : InverseOn n A B := by
  have h1 : (Matrix.of fun i j : Fin n => B i j) * (Matrix.of fun i j : Fin n => A i j) = 1 := by
    ext i l
    rw [Matrix.mul_apply, Matrix.one_apply]
    simp only [Matrix.of_apply]
    have := h i i.2 l l.2
    rw [← Fin.sum_univ_eq_sum_range (fun j => B i j * A j l)] at this
    rw [this]
    simp only [Fin.ext_iff]
  have h2 := mul_eq_one_comm.1 h1
  intro i hi l hl
  have := congrFun (congrFun h2 ⟨i, hi⟩) ⟨l, hl⟩
  rw [Matrix.mul_apply, Matrix.one_apply] at this
  simp only [Matrix.of_apply, Fin.mk.injEq] at this
  rw [← Fin.sum_univ_eq_sum_range (fun j => A i j * B j l)]
  exact this

/-- The transforms of a grid as functions of its values. -/
structure GridMaps (g : List GridDim) (order : List ℕ) (H D : (ℕ → K) → ℕ → K) : Prop where
  hier : ∀ junk (d : Buf K), d.len = (g.map fun s => nodal s.lmax s.b).prod →
    ∃ m, hierarchizeGrid g junk order d = some m ∧ m.len = d.len ∧
      ∀ i < d.len, m.val i = H d.val i
  dehier : ∀ junk (d : Buf K), d.len = (g.map fun s => nodal s.lmax s.b).prod →
    ∃ m, dehierarchizeGrid g junk order d = some m ∧ m.len = d.len ∧
      ∀ i < d.len, m.val i = D d.val i
  congr : ∀ u v, (∀ i < (g.map fun s => nodal s.lmax s.b).prod, u i = v i) →
    ∀ i < (g.map fun s => nodal s.lmax s.b).prod, H u i = H v i ∧ D u i = D v i
  inv : ∀ u, ∀ i < (g.map fun s => nodal s.lmax s.b).prod, D (H u) i = u i ∧ H (D u) i = u i

theorem gridMaps_exist [CharZero K] (g : List GridDim) (hg : ∀ s ∈ g, s.Invertible)
    (hl : ∀ s ∈ g, s.b = 0 → 0 < s.lmax) (order : List ℕ) (hd : ∀ k ∈ order, k < g.length) :
    ∃ (H D : (ℕ → K) → ℕ → K), GridMaps g order H D := by
  obtain ⟨A, B, h⟩ := grid_linPoles (K := K) g fun s hs => (hg s hs).1
  have hI : ∀ k ∈ order, InverseOn ((g.map fun s => poleLength s.lmax s.b).getD k 0) (B k) (A k) := by
    intro k hk
    refine inverseOn_of (h k (hd k hk) fun _ _ _ => 0).1 (h k (hd k hk) fun _ _ _ => 0).2 ?_
    intro loc hloc
    obtain ⟨m, r, a1, a2, a3⟩ := grid_pole_inverse g hg (fun _ _ _ => 0) (fun _ _ _ => 0) k (hd k hk)
      loc hloc
    exact ⟨m, r, a1, a2, by rwa [hloc] at a3⟩
  have hpos := grid_pos g hl
  have hd' : ∀ k ∈ order, k < (g.map fun s => poleLength s.lmax s.b).length := by simpa using hd
  have hbox : ∀ i < (g.map fun s => nodal s.lmax s.b).prod,
      InBox (g.map fun s => poleLength s.lmax s.b)
        (getVectorIndex (g.map fun s => poleLength s.lmax s.b) i) ∧
      sequentialIndex (g.map fun s => poleLength s.lmax s.b)
        (getVectorIndex (g.map fun s => poleLength s.lmax s.b) i) = i :=
    fun i hi => getVectorIndex_spec _ i hi
  have hround : ∀ (C E : ℕ → ℕ → ℕ → K),
      (∀ k ∈ order, InverseOn ((g.map fun s => poleLength s.lmax s.b).getD k 0) (E k) (C k)) →
      ∀ (u : ℕ → K), ∀ i < (g.map fun s => nodal s.lmax s.b).prod,
        actAll (g.map fun s => poleLength s.lmax s.b) E order
          (fun x => actAll (g.map fun s => poleLength s.lmax s.b) C order
            (fun x => u (sequentialIndex (g.map fun s => poleLength s.lmax s.b) x))
            (getVectorIndex (g.map fun s => poleLength s.lmax s.b)
              (sequentialIndex (g.map fun s => poleLength s.lmax s.b) x)))
          (getVectorIndex (g.map fun s => poleLength s.lmax s.b) i) = u i := by
    intro C E hCE u i hi
    obtain ⟨b1, b2⟩ := hbox i hi
    have e1 : AgreeBox (g.map fun s => poleLength s.lmax s.b)
        (fun x => actAll (g.map fun s => poleLength s.lmax s.b) C order
            (fun x => u (sequentialIndex (g.map fun s => poleLength s.lmax s.b) x))
            (getVectorIndex (g.map fun s => poleLength s.lmax s.b)
              (sequentialIndex (g.map fun s => poleLength s.lmax s.b) x)))
        (actAll (g.map fun s => poleLength s.lmax s.b) C order
            (fun x => u (sequentialIndex (g.map fun s => poleLength s.lmax s.b) x))) := by
      intro x hx
      simp only
      rw [getVectorIndex_sequentialIndex _ _ hx]
    rw [actAll_congr hd' E e1 _ b1, actAll_inverse hd' hCE _ _ b1]
    simp only [b2]
  refine ⟨fun u i => actAll (g.map fun s => poleLength s.lmax s.b) A order
      (fun x => u (sequentialIndex (g.map fun s => poleLength s.lmax s.b) x))
      (getVectorIndex (g.map fun s => poleLength s.lmax s.b) i),
    fun u i => actAll (g.map fun s => poleLength s.lmax s.b) B order
      (fun x => u (sequentialIndex (g.map fun s => poleLength s.lmax s.b) x))
      (getVectorIndex (g.map fun s => poleLength s.lmax s.b) i), ⟨?_, ?_, ?_, ?_⟩⟩
  · intro junk d hlen
    obtain ⟨m, e1, e2, e3⟩ := transformGrid_eq hpos hd' (fun k hk => (h k (hd k hk) junk).1) d hlen
    refine ⟨m, e1, e2, fun i hi => ?_⟩
    obtain ⟨b1, b2⟩ := hbox i (by rw [← hlen]; exact hi)
    have := e3 _ b1
    simp only [b2] at this
    exact this
  · intro junk d hlen
    obtain ⟨m, e1, e2, e3⟩ := transformGrid_eq hpos hd' (fun k hk => (h k (hd k hk) junk).2) d hlen
    refine ⟨m, e1, e2, fun i hi => ?_⟩
    obtain ⟨b1, b2⟩ := hbox i (by rw [← hlen]; exact hi)
    have := e3 _ b1
    simp only [b2] at this
    exact this
  · intro u v huv i hi
    obtain ⟨b1, b2⟩ := hbox i hi
    have e1 : AgreeBox (g.map fun s => poleLength s.lmax s.b)
        (fun x => u (sequentialIndex (g.map fun s => poleLength s.lmax s.b) x))
        (fun x => v (sequentialIndex (g.map fun s => poleLength s.lmax s.b) x)) :=
      fun x hx => huv _ (sequentialIndex_lt _ _ hx)
    exact ⟨actAll_congr hd' A e1 _ b1, actAll_congr hd' B e1 _ b1⟩
  · intro u i hi
    exact ⟨hround A B hI u i hi, hround B A (fun k hk => inverseOn_swap (hI k hk)) u i hi⟩

end Verif

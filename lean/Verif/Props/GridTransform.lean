import Verif.Lemmas.GridTransform
import Verif.Props.Hierarchization

/-!
# C30: transforms of grids dimension by dimension
-/

namespace Verif

variable {K : Type} [Field K]

/-- C30 for arbitrary transforms of the poles of every dimension that are linear, that is, have a
matrix `A k`: the result does not depend on the order of the dimensions. Poles may be transformed
differently (`T`, `T'`, for example with different contents of a scratch buffer) as long as the matrix
is the same. -/
theorem C30_order_independent (sizes : List ℕ) (hpos : ∀ n ∈ sizes, 0 < n)
    (T T' : ℕ → ℕ → Buf K → Option (Buf K)) (A : ℕ → ℕ → ℕ → K) (order order' : List ℕ)
    (hp : order.Perm order') (hd : ∀ k ∈ order, k < sizes.length)
    (hT : ∀ k ∈ order, LinPole (sizes.getD k 0) (T k) (A k))
    (hT' : ∀ k ∈ order, LinPole (sizes.getD k 0) (T' k) (A k))
    (d : Buf K) (hlen : d.len = sizes.prod) :
    ∃ m m', transformGrid sizes T order d = some m ∧ transformGrid sizes T' order' d = some m' ∧
      m.len = d.len ∧ m'.len = d.len ∧ ∀ i < d.len, m.val i = m'.val i := by
  obtain ⟨m, e1, e2, e3⟩ := transformGrid_eq hpos hd hT d hlen
  obtain ⟨m', f1, f2, f3⟩ := transformGrid_eq hpos (fun k hk => hd k (hp.mem_iff.2 hk))
    (fun k hk => hT' k (hp.mem_iff.2 hk)) d hlen
  refine ⟨m, m', e1, f1, e2, f2, ?_⟩
  intro i hi
  obtain ⟨g1, g2⟩ := getVectorIndex_spec sizes i (by omega)
  have h1 := e3 _ g1
  have h2 := f3 _ g1
  simp only [g2] at h1 h2
  rw [h1, h2, actAll_perm sizes A hp]

/-- C30 for arbitrary linear transforms: transforms of the poles that are inverse to each other give
transforms of the grid that are inverse to each other, in the same order of dimensions. -/
theorem C30_same_order_restores (sizes : List ℕ) (hpos : ∀ n ∈ sizes, 0 < n)
    (T T' : ℕ → ℕ → Buf K → Option (Buf K)) (A B : ℕ → ℕ → ℕ → K) (order : List ℕ)
    (hd : ∀ k ∈ order, k < sizes.length)
    (hT : ∀ k ∈ order, LinPole (sizes.getD k 0) (T k) (A k))
    (hT' : ∀ k ∈ order, LinPole (sizes.getD k 0) (T' k) (B k))
    (hinv : ∀ k ∈ order, ∀ loc : Buf K, loc.len = sizes.getD k 0 →
      ∃ m r, T k 0 loc = some m ∧ T' k 0 m = some r ∧ ∀ i < loc.len, r.val i = loc.val i)
    (d : Buf K) (hlen : d.len = sizes.prod) :
    ∃ m r, transformGrid sizes T order d = some m ∧ transformGrid sizes T' order m = some r ∧
      r.len = d.len ∧ ∀ i < d.len, r.val i = d.val i := by
  obtain ⟨m, e1, e2, e3⟩ := transformGrid_eq hpos hd hT d hlen
  obtain ⟨r, f1, f2, f3⟩ := transformGrid_eq hpos hd hT' m (by omega)
  refine ⟨m, r, e1, f1, by omega, ?_⟩
  intro i hi
  obtain ⟨g1, g2⟩ := getVectorIndex_spec sizes i (by omega)
  have h2 := f3 _ g1
  have hI : ∀ k ∈ order, InverseOn (sizes.getD k 0) (B k) (A k) := by
    intro k hk
    refine inverseOn_of (hT k hk) (hT' k hk) ?_
    intro loc hl
    obtain ⟨m, r, a1, a2, a3⟩ := hinv k hk loc hl
    exact ⟨m, r, a1, a2, by rwa [hl] at a3⟩
  rw [actAll_congr hd B e3 _ g1, actAll_inverse hd hI _ _ g1] at h2
  simpa only [g2] using h2

/-! ### The transforms of the code -/

/-- Dimensions for which the modelled kernels are defined: hat functions up to level 29 with any
boundary, the other bases up to level 28 with boundary. -/
def GridDim.Ok (s : GridDim) : Prop :=
  (s.basis = .hat ∧ s.b ≤ 2 ∧ s.lmax ≤ 29) ∨
    (s.basis.massConserving = true ∧ (s.b = 1 ∨ s.b = 2) ∧ s.lmax ≤ 28)

/-- Dimensions in which hierarchization can be undone (C23, C25): hat functions, periodic bases with
one-sided boundary, the other bases with both boundary points. -/
def GridDim.Invertible (s : GridDim) : Prop :=
  s.Ok ∧ (s.basis = .hat ∨ (s.b = 1 ↔ s.basis.periodic = true))

theorem gridDim_linPole (s : GridDim) (h : s.Ok) : ∃ A B : ℕ → ℕ → K, ∀ junk : ℕ → ℕ → K,
    LinPole (poleLength s.lmax s.b)
      (fun p loc => hierPole s.basis s.b s.lmax s.lmin 0 [] (junk p) loc) A ∧
    LinPole (poleLength s.lmax s.b)
      (fun p loc => dehierPole s.basis s.b s.lmax s.lmin 0 [] (junk p) loc) B := by
  rcases h with ⟨h1, h2, h3⟩ | ⟨h1, h2, h3⟩
  · rw [h1]
    exact hat_linPole h2 h3
  · exact mass_linPole h1 h2 h3

theorem grid_linPoles (g : List GridDim) (hg : ∀ s ∈ g, s.Ok) :
    ∃ A B : ℕ → ℕ → ℕ → K, ∀ k < g.length, ∀ junk : ℕ → ℕ → ℕ → K,
      LinPole ((g.map fun s => poleLength s.lmax s.b).getD k 0) (fun p loc => (g[k]?).bind fun s =>
        hierPole s.basis s.b s.lmax s.lmin 0 [] (junk k p) loc) (A k) ∧
      LinPole ((g.map fun s => poleLength s.lmax s.b).getD k 0) (fun p loc => (g[k]?).bind fun s =>
        dehierPole s.basis s.b s.lmax s.lmin 0 [] (junk k p) loc) (B k) := by
  have : ∀ k, ∃ A B : ℕ → ℕ → K, ∀ hk : k < g.length, ∀ junk : ℕ → ℕ → K,
      LinPole (poleLength g[k].lmax g[k].b)
        (fun p loc => hierPole g[k].basis g[k].b g[k].lmax g[k].lmin 0 [] (junk p) loc) A ∧
      LinPole (poleLength g[k].lmax g[k].b)
        (fun p loc => dehierPole g[k].basis g[k].b g[k].lmax g[k].lmin 0 [] (junk p) loc) B := by
    intro k
    by_cases hk : k < g.length
    · obtain ⟨A, B, h⟩ := gridDim_linPole (K := K) g[k] (hg _ (List.getElem_mem hk))
      exact ⟨A, B, fun _ => h⟩
    · exact ⟨fun _ _ => 0, fun _ _ => 0, fun h => absurd h hk⟩
  choose A B h using this
  refine ⟨A, B, fun k hk junk => ?_⟩
  have e1 : (g.map fun s => poleLength s.lmax s.b).getD k 0 = poleLength g[k].lmax g[k].b := by
    rw [List.getD_eq_getElem _ _ (by simpa using hk)]; simp
  have e2 : g[k]? = some g[k] := by simp [hk]
  rw [e1]
  simp only [e2, Option.bind_some]
  exact h k hk (junk k)

theorem grid_pos (g : List GridDim) (hl : ∀ s ∈ g, s.b = 0 → 0 < s.lmax) :
    ∀ n ∈ g.map (fun s => poleLength s.lmax s.b), 0 < n := by
  intro n hn
  obtain ⟨s, hs, rfl⟩ := List.mem_map.1 hn
  have h2 := hl s hs
  unfold poleLength
  rcases Nat.eq_zero_or_pos s.b with h | h
  · have := Nat.one_lt_two_pow (h2 h).ne'
    omega
  · have : 0 < 2 ^ s.lmax := by positivity
    omega

/-- C30: hierarchizing (and dehierarchizing) the dimensions of a grid in two different orders, with
arbitrary contents of the scratch buffers, gives the same values. -/
theorem C30_hierarchize_any_order (g : List GridDim) (hg : ∀ s ∈ g, s.Ok)
    (hl : ∀ s ∈ g, s.b = 0 → 0 < s.lmax) (order order' : List ℕ) (hp : order.Perm order')
    (hd : ∀ k ∈ order, k < g.length) (junk junk' : ℕ → ℕ → ℕ → K) (d : Buf K)
    (hlen : d.len = (g.map fun s => nodal s.lmax s.b).prod) :
    (∃ m m', hierarchizeGrid g junk order d = some m ∧ hierarchizeGrid g junk' order' d = some m' ∧
      m.len = d.len ∧ m'.len = d.len ∧ ∀ i < d.len, m.val i = m'.val i) ∧
    (∃ m m', dehierarchizeGrid g junk order d = some m ∧
      dehierarchizeGrid g junk' order' d = some m' ∧
      m.len = d.len ∧ m'.len = d.len ∧ ∀ i < d.len, m.val i = m'.val i) := by
  obtain ⟨A, B, h⟩ := grid_linPoles (K := K) g hg
  exact ⟨C30_order_independent _ (grid_pos g hl) _ _ A order order' hp (by simpa using hd)
    (fun k hk => (h k (hd k hk) junk).1) (fun k hk => (h k (hd k hk) junk').1) d hlen,
    C30_order_independent _ (grid_pos g hl) _ _ B order order' hp (by simpa using hd)
    (fun k hk => (h k (hd k hk) junk).2) (fun k hk => (h k (hd k hk) junk').2) d hlen⟩

/-- hierarchizing and dehierarchizing one pole -/
theorem grid_pole_inverse [CharZero K] (g : List GridDim) (hg : ∀ s ∈ g, s.Invertible)
    (junk junk' : ℕ → ℕ → ℕ → K) (k : ℕ) (hk' : k < g.length) (loc : Buf K)
    (hloc : loc.len = (g.map fun s => poleLength s.lmax s.b).getD k 0) :
    ∃ m r, ((g[k]?).bind fun s => hierPole s.basis s.b s.lmax s.lmin 0 [] (junk k 0) loc) = some m ∧
      ((g[k]?).bind fun s => dehierPole s.basis s.b s.lmax s.lmin 0 [] (junk' k 0) m) = some r ∧
      ∀ i < loc.len, r.val i = loc.val i := by
  have e1 : (g.map fun s => poleLength s.lmax s.b).getD k 0 = poleLength g[k].lmax g[k].b := by
    rw [List.getD_eq_getElem _ _ (by simpa using hk')]; simp
  have e2 : g[k]? = some g[k] := by simp [hk']
  rw [e1] at hloc
  simp only [e2, Option.bind_some]
  obtain ⟨h1, h2⟩ := hg _ (List.getElem_mem hk')
  by_cases hh : g[k].basis = .hat
  · rw [hh]
    have h3 : g[k].b ≤ 2 ∧ g[k].lmax ≤ 29 := by
      rcases h1 with h1 | h1
      · exact h1.2
      · omega
    obtain ⟨⟨m, r, a1, a2, _, a4⟩, -⟩ := C23_hat_invertible g[k].b g[k].lmax g[k].lmin h3.1 h3.2 loc hloc
      (junk k 0) (junk' k 0)
    exact ⟨m, r, a1, a2, a4⟩
  · rcases h1 with h1 | ⟨h1, h3, h4⟩
    · exact absurd h1.1 hh
    · have h5 := h2.resolve_left hh
      obtain ⟨m, r, a1, a2, _, a4⟩ := C25_mass_invertible_partial g[k].basis h1 g[k].b g[k].lmax
        g[k].lmin h3 h5.1 h4 loc (junk k 0) (junk' k 0) hloc
        (fun p b2 => by have := h5.2 p; omega)
      exact ⟨m, r, a1, a2, a4⟩

/-- C30: dehierarchizing the dimensions in the same order as hierarchizing restores the data. -/
theorem C30_roundtrip [CharZero K] (g : List GridDim) (hg : ∀ s ∈ g, s.Invertible)
    (hl : ∀ s ∈ g, s.b = 0 → 0 < s.lmax) (order : List ℕ) (hd : ∀ k ∈ order, k < g.length)
    (junk junk' : ℕ → ℕ → ℕ → K) (d : Buf K)
    (hlen : d.len = (g.map fun s => nodal s.lmax s.b).prod) :
    ∃ m r, hierarchizeGrid g junk order d = some m ∧ dehierarchizeGrid g junk' order m = some r ∧
      r.len = d.len ∧ ∀ i < d.len, r.val i = d.val i := by
  have hok : ∀ s ∈ g, s.Ok := fun s hs => (hg s hs).1
  obtain ⟨A, B, h⟩ := grid_linPoles (K := K) g hok
  refine C30_same_order_restores _ (grid_pos g hl) _ _ A B order (by simpa using hd)
    (fun k hk => (h k (hd k hk) junk).1) (fun k hk => (h k (hd k hk) junk').2) ?_ d hlen
  exact fun k hk loc hloc => grid_pole_inverse g hg junk junk' k (hd k hk) loc hloc

/-- The hypotheses of the C30 theorems for a grid with three dimensions and mixed bases, and a
transform that changes the data. -/
example :
    let g : List GridDim := [⟨.hat, 0, 2, 0⟩, ⟨.biorthogonalPeriodic, 1, 1, 0⟩, ⟨.hat, 2, 1, 0⟩]
    (∀ s ∈ g, s.Invertible) ∧ (∀ s ∈ g, s.b = 0 → 0 < s.lmax) ∧ [0, 1, 2].Perm [2, 0, 1] ∧
    (∀ k ∈ [0, 1, 2], k < g.length) ∧ 18 = (g.map fun s => nodal s.lmax s.b).prod ∧
    (hierarchizeGrid g (fun _ _ _ => 99) [0, 1, 2] (⟨18, fun i => (i ^ 2 : ℚ)⟩ : Buf ℚ)).map
      (fun d => (List.range d.len).map d.val) ≠ some ((List.range 18).map fun i => (i ^ 2 : ℚ)) := by
  refine ⟨?_, by decide, by decide, by decide, by decide, by decide +kernel⟩
  intro s hs
  simp only [List.mem_cons, List.not_mem_nil, or_false] at hs
  rcases hs with rfl | rfl | rfl
  · exact ⟨Or.inl ⟨rfl, by decide, by decide⟩, Or.inl rfl⟩
  · exact ⟨Or.inr ⟨rfl, by decide, by decide⟩, Or.inr (by decide)⟩
  · exact ⟨Or.inl ⟨rfl, by decide, by decide⟩, Or.inl rfl⟩

end Verif

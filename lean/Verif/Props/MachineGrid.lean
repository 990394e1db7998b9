import Verif.Lemmas.MachineKernels
import Verif.Props.RoundedGrid

/-!
# C113: the distribution of a grid does not change the rounding of the hierarchization
-/

namespace Verif

variable {K : Type} [Field K]

/-- C113: the grid is distributed over a process group by arbitrary valid decompositions without empty
parts, and the expressions of the kernels are evaluated by arbitrary functions `ar`. After `hierarchize`
every process stores its part of the values `W` which one process computes with the same arithmetic from
the whole grid. -/
theorem C113_hierarchize (ar : Arith K) (g : List DistDim) (hg : ∀ s ∈ g, s.Ok)
    (hne : ∀ c, IsProcess g c → ∀ n ∈ partSizes g c, 0 < n)
    (hl : ∀ s ∈ g, s.dim.b = 0 → 0 < s.dim.lmax) (dims : List ℕ) (hd : ∀ k ∈ dims, k < g.length)
    (V : Buf K) (hV : V.len = (g.map fun s => nodal s.dim.lmax s.dim.b).prod) (S : List ℕ → Buf K)
    (hS : ∀ c, IsProcess g c → IsPart g V c (S c)) (junk : List ℕ → ℕ → ℕ → ℕ → K)
    (junk' : ℕ → ℕ → ℕ → K) :
    ∃ W S', hierarchizeGridWith ar (g.map (·.dim)) junk' dims V = some W ∧ W.len = V.len ∧
      distributedHierarchizeWith ar g junk dims S = some S' ∧
      ∀ c, IsProcess g c → IsPart g W c (S' c) := by
  have hpos : ∀ n ∈ gridSizes g, 0 < n := by
    have := grid_pos (g.map (·.dim)) (by
      intro s hs
      obtain ⟨s', hs', rfl⟩ := List.mem_map.1 hs
      exact hl s' hs')
    rw [List.map_map] at this
    exact this
  obtain ⟨F, G, hFG⟩ := distGrid_polesWith ar g hg
  have e : ∀ k (hk : k < g.length), (g.map (·.dim))[k]? = some g[k].dim := by
    intro k hk
    simp [hk]
  have hmap : (g.map (·.dim)).map (fun s => poleLength s.lmax s.b) = gridSizes g := by
    rw [List.map_map]; rfl
  unfold hierarchizeGridWith distributedHierarchizeWith
  rw [hmap]
  refine distributedTransform_spec (fun s hs => (hg s hs).1) hne hpos hd (F := F)
    (fun k hk _ => (hFG k hk).2.1) ?_ (fun k hk _ hlt => ((hFG k hk).2.2.2 hlt).1) ?_ V hV S hS junk
  · intro k hk _
    simp only [e k hk, Option.bind_some]
    exact ((hFG k hk).1 (junk' k)).1
  · intro k hk _ hle p loc
    simp only [e k hk, Option.bind_some]
    unfold hierPoleWith
    exact if_pos hle

/-- C113, dehierarchization. -/
theorem C113_dehierarchize (ar : Arith K) (g : List DistDim) (hg : ∀ s ∈ g, s.Ok)
    (hne : ∀ c, IsProcess g c → ∀ n ∈ partSizes g c, 0 < n)
    (hl : ∀ s ∈ g, s.dim.b = 0 → 0 < s.dim.lmax) (dims : List ℕ) (hd : ∀ k ∈ dims, k < g.length)
    (V : Buf K) (hV : V.len = (g.map fun s => nodal s.dim.lmax s.dim.b).prod) (S : List ℕ → Buf K)
    (hS : ∀ c, IsProcess g c → IsPart g V c (S c)) (junk : List ℕ → ℕ → ℕ → ℕ → K)
    (junk' : ℕ → ℕ → ℕ → K) :
    ∃ W S', dehierarchizeGridWith ar (g.map (·.dim)) junk' dims V = some W ∧ W.len = V.len ∧
      distributedDehierarchizeWith ar g junk dims S = some S' ∧
      ∀ c, IsProcess g c → IsPart g W c (S' c) := by
  have hpos : ∀ n ∈ gridSizes g, 0 < n := by
    have := grid_pos (g.map (·.dim)) (by
      intro s hs
      obtain ⟨s', hs', rfl⟩ := List.mem_map.1 hs
      exact hl s' hs')
    rw [List.map_map] at this
    exact this
  obtain ⟨F, G, hFG⟩ := distGrid_polesWith ar g hg
  have e : ∀ k (hk : k < g.length), (g.map (·.dim))[k]? = some g[k].dim := by
    intro k hk
    simp [hk]
  have hmap : (g.map (·.dim)).map (fun s => poleLength s.lmax s.b) = gridSizes g := by
    rw [List.map_map]; rfl
  unfold dehierarchizeGridWith distributedDehierarchizeWith
  rw [hmap]
  refine distributedTransform_spec (fun s hs => (hg s hs).1) hne hpos hd (F := G)
    (fun k hk _ => (hFG k hk).2.2.1) ?_ (fun k hk _ hlt => ((hFG k hk).2.2.2 hlt).2) ?_ V hV S hS junk
  · intro k hk _
    simp only [e k hk, Option.bind_some]
    exact ((hFG k hk).1 (junk' k)).2
  · intro k hk _ hle p loc
    simp only [e k hk, Option.bind_some]
    unfold dehierPoleWith
    exact if_pos hle

/-- C113, two distributions of the same grid: hierarchizing and then dehierarchizing on
either group gives the same numbers `W`, `U` at all points in every arithmetic. -/
theorem C113_same_on_all_distributions (ar : Arith K) (g h : List DistDim)
    (hgh : g.map (·.dim) = h.map (·.dim)) (hg : ∀ s ∈ g, s.Ok) (hh : ∀ s ∈ h, s.Ok)
    (hne : ∀ c, IsProcess g c → ∀ n ∈ partSizes g c, 0 < n)
    (hne' : ∀ c, IsProcess h c → ∀ n ∈ partSizes h c, 0 < n)
    (hl : ∀ s ∈ g, s.dim.b = 0 → 0 < s.dim.lmax) (dims : List ℕ) (hd : ∀ k ∈ dims, k < g.length)
    (V : Buf K) (hV : V.len = (g.map fun s => nodal s.dim.lmax s.dim.b).prod) (S T : List ℕ → Buf K)
    (hS : ∀ c, IsProcess g c → IsPart g V c (S c)) (hT : ∀ c, IsProcess h c → IsPart h V c (T c))
    (junk junk' junk'' junk''' : List ℕ → ℕ → ℕ → ℕ → K) :
    ∃ W U S' S'' T' T'', distributedHierarchizeWith ar g junk dims S = some S' ∧
      distributedDehierarchizeWith ar g junk' dims S' = some S'' ∧
      distributedHierarchizeWith ar h junk'' dims T = some T' ∧
      distributedDehierarchizeWith ar h junk''' dims T' = some T'' ∧
      (∀ c, IsProcess g c → IsPart g W c (S' c) ∧ IsPart g U c (S'' c)) ∧
      ∀ c, IsProcess h c → IsPart h W c (T' c) ∧ IsPart h U c (T'' c) := by
  have hlen : h.length = g.length := by
    have := congrArg List.length hgh
    simpa using this.symm
  have hl' : ∀ s ∈ h, s.dim.b = 0 → 0 < s.dim.lmax := by
    intro s hs
    have : s.dim ∈ g.map (·.dim) := by rw [hgh]; exact List.mem_map_of_mem hs
    obtain ⟨s', hs', e⟩ := List.mem_map.1 this
    rw [← e]
    exact hl s' hs'
  have hsz : (g.map fun s => nodal s.dim.lmax s.dim.b) = h.map fun s => nodal s.dim.lmax s.dim.b := by
    have := congrArg (List.map fun d : GridDim => nodal d.lmax d.b) hgh
    simp only [List.map_map] at this
    exact this
  obtain ⟨W, S', a1, a2, a3, a4⟩ := C113_hierarchize ar g hg hne hl dims hd V hV S hS junk
    fun _ _ _ => 0
  obtain ⟨U, S'', b1, b2, b3, b4⟩ := C113_dehierarchize ar g hg hne hl dims hd W (by rw [a2, hV]) S' a4
    junk' fun _ _ _ => 0
  obtain ⟨W', T', c1, c2, c3, c4⟩ := C113_hierarchize ar h hh hne' hl' dims (by rw [hlen]; exact hd) V
    (by rw [hV, hsz]) T hT junk'' fun _ _ _ => 0
  rw [← hgh, a1] at c1
  cases c1
  obtain ⟨U', T'', d1, d2, d3, d4⟩ := C113_dehierarchize ar h hh hne' hl' dims (by rw [hlen]; exact hd) W
    (by rw [a2, hV, hsz]) T' c4 junk''' fun _ _ _ => 0
  rw [← hgh, b1] at d1
  cases d1
  exact ⟨W, U, S', S'', T', T'', a3, b3, c3, d3, fun c hc => ⟨a4 c hc, b4 c hc⟩,
    fun c hc => ⟨c4 c hc, d4 c hc⟩⟩

theorem poleWith_exact (β : Basis) (b lmax lmin : ℕ) :
    (hierPoleWith (Arith.exact K) β b lmax lmin : ℕ → List (ℕ × K) → _) = hierPole β b lmax lmin ∧
    (dehierPoleWith (Arith.exact K) β b lmax lmin : ℕ → List (ℕ × K) → _) = dehierPole β b lmax lmin := by
  cases β <;> exact ⟨rfl, rfl⟩

/-- With exact arithmetic the model is the one of C91. -/
theorem C113_exact (g : List DistDim) (junk : List ℕ → ℕ → ℕ → ℕ → K) (dims : List ℕ)
    (S : List ℕ → Buf K) :
    distributedHierarchizeWith (Arith.exact K) g junk dims S = distributedHierarchize g junk dims S ∧
    distributedDehierarchizeWith (Arith.exact K) g junk dims S = distributedDehierarchize g junk dims S := by
  have h1 : (hierPoleWith (Arith.exact K) : Basis → ℕ → ℕ → ℕ → ℕ → List (ℕ × K) → _) = hierPole := by
    funext β b lmax lmin
    exact (poleWith_exact β b lmax lmin).1
  have h2 : (dehierPoleWith (Arith.exact K) : Basis → ℕ → ℕ → ℕ → ℕ → List (ℕ × K) → _) =
      dehierPole := by
    funext β b lmax lmin
    exact (poleWith_exact β b lmax lmin).2
  unfold distributedHierarchizeWith distributedDehierarchizeWith
  rw [h1, h2]
  exact ⟨rfl, rfl⟩

/-- What C112 is told about a dimension. -/
def DistDim.toHat (s : DistDim) : HatDim := ⟨s.dim.b, s.dim.lmax, s.dim.lmin⟩

theorem machine_grid (A : Adder K) (g : List DistDim)
    (hh : ∀ s ∈ g, s.dim.basis.isHat = true ∧ (s.dim.b = 0 → s.dim.basis = .hat))
    (junk : ℕ → ℕ → ℕ → K) (dims : List ℕ) (d : Buf K) :
    hierarchizeGridWith (Arith.machine A) (g.map (·.dim)) junk dims d =
      hierarchizeHat A (g.map (·.toHat)) junk dims d ∧
    dehierarchizeGridWith (Arith.machine A) (g.map (·.dim)) junk dims d =
      dehierarchizeHat A (g.map (·.toHat)) junk dims d := by
  have hs : ∀ s ∈ g, (hierPoleWith (Arith.machine A) s.dim.basis s.dim.b s.dim.lmax s.dim.lmin :
      ℕ → List (ℕ × K) → _) = hierPoleHat A s.dim.b s.dim.lmax s.dim.lmin ∧
      (dehierPoleWith (Arith.machine A) s.dim.basis s.dim.b s.dim.lmax s.dim.lmin :
      ℕ → List (ℕ × K) → _) = dehierPoleHat A s.dim.b s.dim.lmax s.dim.lmin := by
    intro s hs
    obtain ⟨h1, h2⟩ := hh s hs
    have hker : hierKernelWith (Arith.machine A) s.dim.basis = hierHatWith (Arith.machine A).hat ∧
        dehierKernelWith (Arith.machine A) s.dim.basis = dehierHatWith (Arith.machine A).unhat := by
      revert h1
      cases s.dim.basis <;> simp only [Basis.isHat, Bool.false_eq_true, false_imp_iff] <;>
        exact fun _ => ⟨rfl, rfl⟩
    constructor <;> funext gstart remote junk loc
    · unfold hierPoleWith hierPoleHat
      simp only [hker.1]
      split_ifs with a1 a2 a3
      · rfl
      · rfl
      · exact absurd (h2 (by omega)) a3
      · rfl
    · unfold dehierPoleWith dehierPoleHat
      simp only [hker.2]
      split_ifs with a1 a2 a3
      · rfl
      · rfl
      · exact absurd (h2 (by omega)) a3
      · rfl
  have e1 : ((g.map (·.dim)).map fun s => poleLength s.lmax s.b) =
      (g.map (·.toHat)).map fun s => poleLength s.lmax s.b := by
    simp only [List.map_map]; rfl
  unfold hierarchizeGridWith dehierarchizeGridWith hierarchizeHat dehierarchizeHat
  rw [e1]
  constructor <;> congr 1 <;> funext k p loc <;> simp only [List.getElem?_map]
  · cases hk : g[k]? with
    | none => rfl
    | some s =>
      simp only [Option.map_some, Option.bind_some]
      rw [(hs s (List.mem_of_getElem? hk)).1]
      rfl
  · cases hk : g[k]? with
    | none => rfl
    | some s =>
      simp only [Option.map_some, Option.bind_some]
      rw [(hs s (List.mem_of_getElem? hk)).2]
      rfl

theorem exact_grid (g : List DistDim)
    (hh : ∀ s ∈ g, s.dim.basis.isHat = true ∧ (s.dim.b = 0 → s.dim.basis = .hat))
    (junk : ℕ → ℕ → ℕ → K) (dims : List ℕ) (d : Buf K) :
    hierarchizeGrid ((g.map (·.toHat)).map fun s => ⟨.hat, s.b, s.lmax, s.lmin⟩) junk dims d =
      hierarchizeGrid (g.map (·.dim)) junk dims d := by
  rw [← (C112_exact _ junk dims d).1, ← (machine_grid (Adder.exact K) g hh junk dims d).1]
  have h1 : (hierPoleWith (Arith.machine (Adder.exact K)) : Basis → ℕ → ℕ → ℕ → ℕ → List (ℕ × K) → _) =
      hierPole := by
    funext β b lmax lmin
    exact (poleWith_exact β b lmax lmin).1
  unfold hierarchizeGridWith hierarchizeGrid
  rw [h1]

section Errors

variable [LinearOrder K] [IsStrictOrderedRing K]

omit [LinearOrder K] [IsStrictOrderedRing K] in
theorem hat_ok {g : List DistDim} (hg : ∀ s ∈ g, s.Ok) (hh : ∀ s ∈ g, s.dim.basis.isHat = true) :
    ∀ s ∈ g, s.dim.basis.isHat = true ∧ (s.dim.b = 0 → s.dim.basis = .hat) := by
  intro s hs
  refine ⟨hh s hs, fun h0 => ?_⟩
  rcases (hg s hs).2 with ⟨-, -, -, h⟩ | ⟨-, h, -⟩
  · exact (h h0).1
  · omega

omit [LinearOrder K] [IsStrictOrderedRing K] in
theorem toHat_ok {g : List DistDim} (hg : ∀ s ∈ g, s.Ok) (hl : ∀ s ∈ g, s.dim.b = 0 → 0 < s.dim.lmax) :
    ∀ s ∈ g.map (·.toHat), s.Ok := by
  intro s hs
  obtain ⟨s', hs', rfl⟩ := List.mem_map.1 hs
  refine ⟨?_, ?_, hl s' hs'⟩ <;> simp only [DistDim.toHat] <;>
    rcases (hg s' hs').2 with ⟨-, h1, h2, -⟩ | ⟨-, h1, h2⟩ <;> omega

/-- C113 with C112: hat functions on a distributed grid, with additions of relative error `u`. The
coefficients at the points of every process differ from the exact ones, `W'`, by the bound of C112. -/
theorem C113_rounding_error (g : List DistDim) (hg : ∀ s ∈ g, s.Ok)
    (hh : ∀ s ∈ g, s.dim.basis.isHat = true)
    (hne : ∀ c, IsProcess g c → ∀ n ∈ partSizes g c, 0 < n)
    (hl : ∀ s ∈ g, s.dim.b = 0 → 0 < s.dim.lmax) (dims : List ℕ) (hd : ∀ k ∈ dims, k < g.length)
    (u : K) (u0 : 0 ≤ u) (u1 : 4 * u ≤ 1) (A : Adder K) (hA : Rounds u A)
    (V : Buf K) (hV : V.len = (g.map fun s => nodal s.dim.lmax s.dim.b).prod) (S : List ℕ → Buf K)
    (hS : ∀ c, IsProcess g c → IsPart g V c (S c)) (junk : List ℕ → ℕ → ℕ → ℕ → K)
    (junk' : ℕ → ℕ → ℕ → K) (M : K) (hM : ∀ i < V.len, |V.val i| ≤ M) :
    ∃ S' W', distributedHierarchizeWith (Arith.machine A) g junk dims S = some S' ∧
      hierarchizeGrid (g.map (·.dim)) junk' dims V = some W' ∧ ∀ c, IsProcess g c →
        (S' c).len = (S c).len ∧ ∀ p < (S c).len,
          |(S' c).val p - W'.val (getGlobalLinearIndex (g.map (·.toDim1)) c p)| ≤
            ((2 + 4 * u) ^ dims.length - 2 ^ dims.length) * M := by
  have hh' := hat_ok hg hh
  obtain ⟨W, S', a1, a2, a3, a4⟩ := C113_hierarchize (Arith.machine A) g hg hne hl dims hd V hV S hS junk
    fun _ _ _ => 0
  have hsz : ((g.map (·.toHat)).map fun s => nodal s.lmax s.b) =
      g.map fun s => nodal s.dim.lmax s.dim.b := by
    rw [List.map_map]; rfl
  obtain ⟨m, W', b1, b2, b3, b4, b5⟩ := C112_hierarchize (g.map (·.toHat)) (toHat_ok hg hl) dims
    (by simpa using hd) u u0 u1 A hA (fun _ _ _ => 0) junk' V (by rw [hV, hsz]) M hM
  rw [(machine_grid A g hh' _ _ _).1, b1] at a1
  cases a1
  rw [exact_grid g hh'] at b2
  refine ⟨S', W', a3, b2, fun c hc => ?_⟩
  obtain ⟨p1, p2⟩ := a4 c hc
  obtain ⟨q1, -⟩ := hS c hc
  refine ⟨by rw [p1, q1], fun p hp => ?_⟩
  rw [p2 p (by omega)]
  apply b5
  obtain ⟨x1, x2⟩ := getVectorIndex_spec (partSizes g c) p (by omega)
  rw [← x2, globalLinearIndex_eq hc.length_eq _ x1, hV]
  exact sequentialIndex_lt _ _ (inBox_shift (fun s hs => (hg s hs).1) hc x1)

/-- C113 with C112: the values of every process after hierarchizing and dehierarchizing again. -/
theorem C113_roundtrip_error (g : List DistDim) (hg : ∀ s ∈ g, s.Ok)
    (hh : ∀ s ∈ g, s.dim.basis.isHat = true)
    (hne : ∀ c, IsProcess g c → ∀ n ∈ partSizes g c, 0 < n)
    (hl : ∀ s ∈ g, s.dim.b = 0 → 0 < s.dim.lmax) (dims : List ℕ) (hd : ∀ k ∈ dims, k < g.length)
    (u : K) (u0 : 0 ≤ u) (A : Adder K) (hA : Rounds u A)
    (hu : levelFactor (g.map (·.toHat)) dims * 2 ^ dims.length * (4 * dims.length + 6) * u ≤ 1)
    (V : Buf K) (hV : V.len = (g.map fun s => nodal s.dim.lmax s.dim.b).prod) (S : List ℕ → Buf K)
    (hS : ∀ c, IsProcess g c → IsPart g V c (S c)) (junk junk' : List ℕ → ℕ → ℕ → ℕ → K)
    (M : K) (hM : ∀ i < V.len, |V.val i| ≤ M) :
    ∃ S' S'', distributedHierarchizeWith (Arith.machine A) g junk dims S = some S' ∧
      distributedDehierarchizeWith (Arith.machine A) g junk' dims S' = some S'' ∧ ∀ c, IsProcess g c →
        (S'' c).len = (S c).len ∧ ∀ p < (S c).len, |(S'' c).val p - (S c).val p| ≤
          levelFactor (g.map (·.toHat)) dims * 2 ^ dims.length * (4 * dims.length + 6) * u * M := by
  have hh' := hat_ok hg hh
  obtain ⟨W, S', a1, a2, a3, a4⟩ := C113_hierarchize (Arith.machine A) g hg hne hl dims hd V hV S hS junk
    fun _ _ _ => 0
  obtain ⟨U, S'', c1, c2, c3, c4⟩ := C113_dehierarchize (Arith.machine A) g hg hne hl dims hd W
    (by rw [a2, hV]) S' a4 junk' fun _ _ _ => 0
  have hsz : ((g.map (·.toHat)).map fun s => nodal s.lmax s.b) =
      g.map fun s => nodal s.dim.lmax s.dim.b := by
    rw [List.map_map]; rfl
  obtain ⟨m, r, b1, b2, b3, b4⟩ := C112_roundtrip (g.map (·.toHat)) (toHat_ok hg hl) dims
    (by simpa using hd) u u0 A hA hu (fun _ _ _ => 0) (fun _ _ _ => 0) V (by rw [hV, hsz]) M hM
  rw [(machine_grid A g hh' _ _ _).1, b1] at a1
  cases a1
  rw [(machine_grid A g hh' _ _ _).2, b2] at c1
  cases c1
  refine ⟨S', S'', a3, c3, fun c hc => ?_⟩
  obtain ⟨p1, p2⟩ := (isPart_iff hc.length_eq).1 (c4 c hc)
  obtain ⟨q1, q2⟩ := (isPart_iff hc.length_eq).1 (hS c hc)
  refine ⟨by rw [p1, q1], fun p hp => ?_⟩
  obtain ⟨x1, x2⟩ := getVectorIndex_spec (partSizes g c) p (by omega)
  rw [← x2, p2 _ x1, q2 _ x1]
  apply b4
  rw [hV]
  exact sequentialIndex_lt _ _ (inBox_shift (fun s hs => (hg s hs).1) hc x1)

end Errors

/-- `distExample` on one process. -/
def serialExample : List DistDim := [⟨⟨.hat, 2, 2, 0⟩, [0]⟩, ⟨⟨.biorthogonalPeriodic, 1, 2, 0⟩, [0]⟩]

/-- A distributed grid with hat functions only. -/
def distHatExample : List DistDim := [⟨⟨.hat, 2, 2, 0⟩, [0, 2]⟩, ⟨⟨.hatPeriodic, 1, 2, 0⟩, [0, 3]⟩]

/-- The hypotheses of the C113 theorems hold for `distExample` (see the example of C91) and the same grid on
one process; with rounding the hierarchized values `W` on both groups differ from the exact ones. The
hypotheses of the theorems on rounding errors hold for `distHatExample`. -/
example : distExample.map (·.dim) = serialExample.map (·.dim) ∧ (∀ s ∈ serialExample, s.Ok) ∧
    (∀ c ∈ processes serialExample, ∀ n ∈ partSizes serialExample c, 0 < n) ∧
    (let V : Buf ℚ := ⟨20, fun i => (i % 7 : ℕ)⟩
     (hierarchizeGridWith (Arith.machine (tooLarge (1 / 2 ^ 20))) (distExample.map (·.dim)) (fun _ _ _ => 98)
        [0, 1] V).map (·.val 7) = some (-25387539057447740142256145 / 4835703278458516698824704) ∧
     (hierarchizeGrid (distExample.map (·.dim)) (fun _ _ _ => 98) [0, 1] V).map (·.val 7) =
        some (-21 / 4)) ∧
    (∀ s ∈ distHatExample, s.Ok) ∧ (∀ s ∈ distHatExample, s.dim.basis.isHat = true) ∧
    (∀ c ∈ processes distHatExample, ∀ n ∈ partSizes distHatExample c, 0 < n) ∧
    (levelFactor (distHatExample.map (·.toHat)) [0, 1] : ℚ) * 2 ^ 2 * (4 * 2 + 6) * (1 / 2 ^ 20) ≤ 1 := by
  refine ⟨rfl, ?_, by decide +kernel, ⟨?_, ?_⟩, ?_, by decide, by decide +kernel, by decide +kernel⟩
  · intro s hs
    simp only [serialExample, List.mem_cons, List.not_mem_nil, or_false] at hs
    rcases hs with rfl | rfl
    · exact ⟨⟨rfl, by decide, by decide⟩, .inl (by decide)⟩
    · exact ⟨⟨rfl, by decide, by decide⟩, .inr (by decide)⟩
  · decide +kernel
  · decide +kernel
  · intro s hs
    simp only [distHatExample, List.mem_cons, List.not_mem_nil, or_false] at hs
    rcases hs with rfl | rfl
    · exact ⟨⟨rfl, by decide, by decide⟩, .inl (by decide)⟩
    · exact ⟨⟨rfl, by decide, by decide⟩, .inl (by decide)⟩

end Verif

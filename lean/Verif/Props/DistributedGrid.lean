import Verif.Lemmas.DistributedGrid

/-!
# C91: hierarchization of distributed grids
-/

namespace Verif

variable {K : Type} [Field K]

/-- Dimensions for which the distributed transforms are shown to be those of one process: hat functions
up to level 29 (without boundary points the minimum level is 0, as the code asserts), the other bases
with boundary points up to level 28. The decomposition is valid. -/
def DistDim.Ok (s : DistDim) : Prop :=
  ValidDec s.dec (nodal s.dim.lmax s.dim.b) ∧
    ((s.dim.basis.isHat = true ∧ s.dim.b ≤ 2 ∧ s.dim.lmax ≤ 29 ∧
        (s.dim.b = 0 → s.dim.basis = .hat ∧ s.dim.lmin = 0)) ∨
      (s.dim.basis.massConserving = true ∧ (s.dim.b = 1 ∨ s.dim.b = 2) ∧ s.dim.lmax ≤ 28))

theorem pole_hatPeriodic {β : Basis} (hβ : β.isHat = true) {b lmax lmin : ℕ}
    (h0 : b = 0 → β = .hat) : (hierPole β b lmax lmin : ℕ → List (ℕ × K) → _) =
      hierPole .hat b lmax lmin ∧
    (dehierPole β b lmax lmin : ℕ → List (ℕ × K) → _) = dehierPole .hat b lmax lmin := by
  cases β <;> simp only [Basis.isHat, Bool.false_eq_true] at hβ
  · exact ⟨rfl, rfl⟩
  · have hb : b > 0 := by
      by_contra h
      have := h0 (by omega)
      cases this
    constructor <;> funext gstart remote junk loc
    · unfold hierPole
      simp only [if_pos hb, hierKernel]
    · unfold dehierPole
      simp only [if_pos hb, dehierKernel]

theorem distDim_poles (s : DistDim) (h : s.Ok) : ∃ A B : ℕ → ℕ → K,
    (∀ junk : ℕ → ℕ → K,
      LinPole (poleLength s.dim.lmax s.dim.b)
        (fun p loc => hierPole s.dim.basis s.dim.b s.dim.lmax s.dim.lmin 0 [] (junk p) loc) A ∧
      LinPole (poleLength s.dim.lmax s.dim.b)
        (fun p loc => dehierPole s.dim.basis s.dim.b s.dim.lmax s.dim.lmin 0 [] (junk p) loc) B) ∧
    (s.dim.lmin < s.dim.lmax →
      LocalPole s (hierExchange s.dim.basis)
        (hierPole s.dim.basis s.dim.b s.dim.lmax s.dim.lmin) (linFun (poleLength s.dim.lmax s.dim.b) A) ∧
      LocalPole s (dehierExchange s.dim.basis)
        (dehierPole s.dim.basis s.dim.b s.dim.lmax s.dim.lmin) (linFun (poleLength s.dim.lmax s.dim.b) B)) := by
  obtain ⟨hdec, h⟩ := h
  rcases h with ⟨h1, h2, h3, h4⟩ | ⟨h1, h2, h3⟩
  · obtain ⟨p1, p2⟩ := pole_hatPeriodic (K := K) h1 (b := s.dim.b) (lmax := s.dim.lmax)
      (lmin := s.dim.lmin) fun h => (h4 h).1
    rw [p1, p2]
    obtain ⟨A, B, hAB⟩ := hat_linPole (K := K) (lmin := s.dim.lmin) h2 h3
    refine ⟨A, B, hAB, fun hl => ?_⟩
    have hge : ¬ s.dim.lmin ≥ s.dim.lmax := by omega
    constructor
    · obtain ⟨E, hE, hM⟩ := C29_hierarchization_matched _ _ _ _ h2 hl h3 hdec
      refine localPole_of hdec (E := E) (fun a ha => ?_) hM (fun _ => 0) (hAB fun _ _ => 0).1.funPole
        (fun gstart v r r' loc loc' junk hr hlen hv hin =>
          (pole_congr hr hl hlen hv hin junk).1) ?_
      · unfold hierExchange
        rw [if_pos h1]
        exact hE a ha
      · intro v hv
        have := C28_hierarchize_hat s.dim.b s.dim.lmax s.dim.lmin s.dec h2 h3 (fun h => (h4 h).2)
          hdec v hv
        unfold distHierPole at this
        simp only [if_neg hge, Basis.isHat, if_true] at this
        unfold hierExchange
        simp only [if_pos h1]
        exact this
    · obtain ⟨E, hE, hM⟩ := C29_dehierarchization_matched _ _ _ _ h2 hl h3 hdec
      refine localPole_of hdec (E := E) (fun a ha => ?_) hM (fun _ => 0) (hAB fun _ _ => 0).2.funPole
        (fun gstart v r r' loc loc' junk hr hlen hv hin =>
          (pole_congr hr hl hlen hv hin junk).2) ?_
      · unfold dehierExchange
        rw [if_pos h1]
        exact hE a ha
      · intro v hv
        have := C28_dehierarchize_hat s.dim.b s.dim.lmax s.dim.lmin s.dec h2 h3 (fun h => (h4 h).2)
          hdec v hv
        unfold distDehierPole at this
        simp only [if_neg hge, Basis.isHat, if_true] at this
        unfold dehierExchange
        simp only [if_pos h1]
        exact this
  · obtain ⟨A, B, hAB⟩ := mass_linPole (K := K) (lmin := s.dim.lmin) h1 h2 h3
    refine ⟨A, B, hAB, fun hl => ?_⟩
    have hge : ¬ s.dim.lmin ≥ s.dim.lmax := by omega
    have hat : s.dim.basis.isHat = false := by
      revert h1
      cases s.dim.basis <;> simp [Basis.massConserving, Basis.isHat]
    have hM := C29_all_matched s.dim.lmax s.dim.b s.dim.lmin s.dec (by omega) hl (by omega) hdec
    constructor
    · refine localPole_of hdec (fun a ha => ?_) hM (fun _ => 0) (hAB fun _ _ => 0).1.funPole
        (fun gstart v r r' loc loc' junk hr hlen hv hin =>
          (pole_congr hr hl hlen hv hin junk).1) ?_
      · unfold hierExchange
        rw [hat]
        rfl
      · intro v hv
        have := (C28_mass_conserving s.dim.basis h1 s.dim.b s.dim.lmax s.dim.lmin s.dec h2 h3
          hdec v hv).1
        unfold distHierPole at this
        simp only [if_neg hge, hat, Bool.false_eq_true, if_false] at this
        unfold hierExchange
        simp only [hat, Bool.false_eq_true, if_false]
        exact this
    · refine localPole_of hdec (fun a ha => ?_) hM (fun _ => 0) (hAB fun _ _ => 0).2.funPole
        (fun gstart v r r' loc loc' junk hr hlen hv hin =>
          (pole_congr hr hl hlen hv hin junk).2) ?_
      · unfold dehierExchange
        rw [hat]
        rfl
      · intro v hv
        have := (C28_mass_conserving s.dim.basis h1 s.dim.b s.dim.lmax s.dim.lmin s.dec h2 h3
          hdec v hv).2
        unfold distDehierPole at this
        simp only [if_neg hge, hat, Bool.false_eq_true, if_false] at this
        unfold dehierExchange
        simp only [hat, Bool.false_eq_true, if_false]
        exact this

theorem distGrid_poles (g : List DistDim) (hg : ∀ s ∈ g, s.Ok) : ∃ A B : ℕ → ℕ → ℕ → K,
    ∀ k (hk : k < g.length), (∀ junk : ℕ → ℕ → K,
      LinPole (poleLength g[k].dim.lmax g[k].dim.b) (fun p loc =>
        hierPole g[k].dim.basis g[k].dim.b g[k].dim.lmax g[k].dim.lmin 0 [] (junk p) loc) (A k) ∧
      LinPole (poleLength g[k].dim.lmax g[k].dim.b) (fun p loc =>
        dehierPole g[k].dim.basis g[k].dim.b g[k].dim.lmax g[k].dim.lmin 0 [] (junk p) loc) (B k)) ∧
    (g[k].dim.lmin < g[k].dim.lmax →
      LocalPole g[k] (hierExchange g[k].dim.basis)
        (hierPole g[k].dim.basis g[k].dim.b g[k].dim.lmax g[k].dim.lmin)
        (linFun (poleLength g[k].dim.lmax g[k].dim.b) (A k)) ∧
      LocalPole g[k] (dehierExchange g[k].dim.basis)
        (dehierPole g[k].dim.basis g[k].dim.b g[k].dim.lmax g[k].dim.lmin)
        (linFun (poleLength g[k].dim.lmax g[k].dim.b) (B k))) := by
  refine ⟨fun k => if hk : k < g.length then
      (distDim_poles (K := K) g[k] (hg _ (List.getElem_mem hk))).choose else fun _ _ => 0,
    fun k => if hk : k < g.length then
      (distDim_poles (K := K) g[k] (hg _ (List.getElem_mem hk))).choose_spec.choose
      else fun _ _ => 0, fun k hk => ?_⟩
  simp only [dif_pos hk]
  exact (distDim_poles (K := K) g[k] (hg _ (List.getElem_mem hk))).choose_spec.choose_spec

/-- C91: a grid is distributed over a process group by arbitrary valid decompositions and no process
has an empty part. If every process stores its part of the values `V` and the group hierarchizes the
dimensions `dims` (all of them, or some, in this order), then no process gets stuck, and in the end
every process stores its part of the values `W` which one process computes that stores the whole
grid; whatever is left in the scratch buffers. -/
theorem C91_hierarchize (g : List DistDim) (hg : ∀ s ∈ g, s.Ok)
    (hne : ∀ c, IsProcess g c → ∀ n ∈ partSizes g c, 0 < n)
    (hl : ∀ s ∈ g, s.dim.b = 0 → 0 < s.dim.lmax) (dims : List ℕ) (hd : ∀ k ∈ dims, k < g.length)
    (V : Buf K) (hV : V.len = (g.map fun s => nodal s.dim.lmax s.dim.b).prod) (S : List ℕ → Buf K)
    (hS : ∀ c, IsProcess g c → IsPart g V c (S c)) (junk : List ℕ → ℕ → ℕ → ℕ → K)
    (junk' : ℕ → ℕ → ℕ → K) :
    ∃ W S', hierarchizeGrid (g.map (·.dim)) junk' dims V = some W ∧ W.len = V.len ∧
      distributedHierarchize g junk dims S = some S' ∧ ∀ c, IsProcess g c → IsPart g W c (S' c) := by
  have hpos : ∀ n ∈ gridSizes g, 0 < n := by
    have := grid_pos (g.map (·.dim)) (by
      intro s hs
      obtain ⟨s', hs', rfl⟩ := List.mem_map.1 hs
      exact hl s' hs')
    rw [List.map_map] at this
    exact this
  obtain ⟨A, B, hAB⟩ := distGrid_poles (K := K) g hg
  have e : ∀ k (hk : k < g.length), (g.map (·.dim))[k]? = some g[k].dim := by
    intro k hk
    simp [hk]
  have en : ∀ k (hk : k < g.length), (gridSizes g).getD k 0 = poleLength g[k].dim.lmax g[k].dim.b := by
    intro k hk
    simp [gridSizes, hk]
  have hmap : (g.map (·.dim)).map (fun s => poleLength s.lmax s.b) = gridSizes g := by
    rw [List.map_map]; rfl
  unfold hierarchizeGrid distributedHierarchize
  rw [hmap]
  refine distributedTransform_spec (fun s hs => (hg s hs).1) hne hpos hd
    (F := fun k => linFun ((gridSizes g).getD k 0) (A k)) ?_ ?_ ?_ ?_ V hV S hS junk
  · intro k hk _
    rw [en k hk]
    exact firstOnly_lin _ _
  · intro k hk _
    simp only [e k hk, Option.bind_some]
    rw [en k hk]
    exact ((hAB k hk).1 (junk' k)).1.funPole
  · intro k hk _ hlt
    rw [en k hk]
    exact ((hAB k hk).2 hlt).1
  · intro k hk _ hle p loc
    simp only [e k hk, Option.bind_some]
    unfold hierPole
    exact if_pos hle

/-- C91, dehierarchization. -/
theorem C91_dehierarchize (g : List DistDim) (hg : ∀ s ∈ g, s.Ok)
    (hne : ∀ c, IsProcess g c → ∀ n ∈ partSizes g c, 0 < n)
    (hl : ∀ s ∈ g, s.dim.b = 0 → 0 < s.dim.lmax) (dims : List ℕ) (hd : ∀ k ∈ dims, k < g.length)
    (V : Buf K) (hV : V.len = (g.map fun s => nodal s.dim.lmax s.dim.b).prod) (S : List ℕ → Buf K)
    (hS : ∀ c, IsProcess g c → IsPart g V c (S c)) (junk : List ℕ → ℕ → ℕ → ℕ → K)
    (junk' : ℕ → ℕ → ℕ → K) :
    ∃ W S', dehierarchizeGrid (g.map (·.dim)) junk' dims V = some W ∧ W.len = V.len ∧
      distributedDehierarchize g junk dims S = some S' ∧
      ∀ c, IsProcess g c → IsPart g W c (S' c) := by
  have hpos : ∀ n ∈ gridSizes g, 0 < n := by
    have := grid_pos (g.map (·.dim)) (by
      intro s hs
      obtain ⟨s', hs', rfl⟩ := List.mem_map.1 hs
      exact hl s' hs')
    rw [List.map_map] at this
    exact this
  obtain ⟨A, B, hAB⟩ := distGrid_poles (K := K) g hg
  have e : ∀ k (hk : k < g.length), (g.map (·.dim))[k]? = some g[k].dim := by
    intro k hk
    simp [hk]
  have en : ∀ k (hk : k < g.length), (gridSizes g).getD k 0 = poleLength g[k].dim.lmax g[k].dim.b := by
    intro k hk
    simp [gridSizes, hk]
  have hmap : (g.map (·.dim)).map (fun s => poleLength s.lmax s.b) = gridSizes g := by
    rw [List.map_map]; rfl
  unfold dehierarchizeGrid distributedDehierarchize
  rw [hmap]
  refine distributedTransform_spec (fun s hs => (hg s hs).1) hne hpos hd
    (F := fun k => linFun ((gridSizes g).getD k 0) (B k)) ?_ ?_ ?_ ?_ V hV S hS junk
  · intro k hk _
    rw [en k hk]
    exact firstOnly_lin _ _
  · intro k hk _
    simp only [e k hk, Option.bind_some]
    rw [en k hk]
    exact ((hAB k hk).1 (junk' k)).2.funPole
  · intro k hk _ hlt
    rw [en k hk]
    exact ((hAB k hk).2 hlt).2
  · intro k hk _ hle p loc
    simp only [e k hk, Option.bind_some]
    unfold dehierPole
    exact if_pos hle

/-- C91: hierarchizing and dehierarchizing on the process group restores the data of every process. -/
theorem C91_roundtrip [CharZero K] (g : List DistDim) (hg : ∀ s ∈ g, s.Ok)
    (hi : ∀ s ∈ g, s.dim.Invertible)
    (hne : ∀ c, IsProcess g c → ∀ n ∈ partSizes g c, 0 < n)
    (hl : ∀ s ∈ g, s.dim.b = 0 → 0 < s.dim.lmax) (dims : List ℕ) (hd : ∀ k ∈ dims, k < g.length)
    (V : Buf K) (hV : V.len = (g.map fun s => nodal s.dim.lmax s.dim.b).prod) (S : List ℕ → Buf K)
    (hS : ∀ c, IsProcess g c → IsPart g V c (S c)) (junk junk' : List ℕ → ℕ → ℕ → ℕ → K) :
    ∃ S' S'', distributedHierarchize g junk dims S = some S' ∧
      distributedDehierarchize g junk' dims S' = some S'' ∧ ∀ c, IsProcess g c →
        (S'' c).len = (S c).len ∧ ∀ p < (S c).len, (S'' c).val p = (S c).val p := by
  obtain ⟨W, S', h1, h2, h3, h4⟩ := C91_hierarchize g hg hne hl dims hd V hV S hS junk
    fun _ _ _ => 0
  obtain ⟨U, S'', f1, f2, f3, f4⟩ := C91_dehierarchize g hg hne hl dims hd W (by omega) S' h4
    junk' fun _ _ _ => 0
  refine ⟨S', S'', h3, f3, fun c hc => ?_⟩
  obtain ⟨m, r, m1, r1, r2, r3⟩ := C30_roundtrip (g.map (·.dim)) (by
      intro s hs
      obtain ⟨s', hs', rfl⟩ := List.mem_map.1 hs
      exact hi s' hs') (by
      intro s hs
      obtain ⟨s', hs', rfl⟩ := List.mem_map.1 hs
      exact hl s' hs') dims (by simpa using hd) (fun _ _ _ => 0) (fun _ _ _ => 0) V (by
      rw [hV, List.map_map]; rfl)
  rw [h1] at m1
  cases m1
  rw [f1] at r1
  cases r1
  obtain ⟨p1, p2⟩ := (isPart_iff hc.length_eq).1 (f4 c hc)
  obtain ⟨q1, q2⟩ := (isPart_iff hc.length_eq).1 (hS c hc)
  refine ⟨by rw [p1, q1], fun p hp => ?_⟩
  obtain ⟨x1, x2⟩ := getVectorIndex_spec (partSizes g c) p (by omega)
  rw [← x2, p2 _ x1, q2 _ x1]
  apply r3
  rw [hV]
  exact sequentialIndex_lt _ _ (inBox_shift (fun s hs => (hg s hs).1) hc x1)

/-- A grid of level 2, 2 with 5 × 4 points on 2 × 2 processes. -/
def distExample : List DistDim :=
  [⟨⟨.hat, 2, 2, 0⟩, [0, 2]⟩, ⟨⟨.biorthogonalPeriodic, 1, 2, 0⟩, [0, 3]⟩]

/-- The parts of the values `V` on all processes. -/
def partsOf (g : List DistDim) (V : Buf K) (c : List ℕ) : Buf K :=
  ⟨(partSizes g c).prod, fun p => V.val (getGlobalLinearIndex (g.map (·.toDim1)) c p)⟩

/-- The hypotheses of the C91 theorems hold for `distExample`; one of the processes has 3 × 1 points. -/
example : (∀ s ∈ distExample, s.Ok) ∧ (∀ s ∈ distExample, s.dim.Invertible) ∧
    (∀ c ∈ processes distExample, ∀ n ∈ partSizes distExample c, 0 < n) ∧
    (∀ s ∈ distExample, s.dim.b = 0 → 0 < s.dim.lmax) ∧
    (distExample.map fun s => nodal s.dim.lmax s.dim.b).prod = 20 ∧
    partSizes distExample [1, 1] = [3, 1] ∧
    (∀ V : Buf ℚ, ∀ c, IsPart distExample V c (partsOf distExample V c)) := by
  refine ⟨?_, ?_, by decide +kernel, by decide, by decide, by decide +kernel, fun V c =>
    ⟨rfl, fun p _ => rfl⟩⟩
  · intro s hs
    simp only [distExample, List.mem_cons, List.not_mem_nil, or_false] at hs
    rcases hs with rfl | rfl
    · exact ⟨⟨rfl, by decide, by decide⟩, .inl (by decide)⟩
    · exact ⟨⟨rfl, by decide, by decide⟩, .inr (by decide)⟩
  · intro s hs
    simp only [distExample, List.mem_cons, List.not_mem_nil, or_false] at hs
    rcases hs with rfl | rfl
    · exact ⟨.inl (by decide), .inl rfl⟩
    · exact ⟨.inr (by decide), .inr (by decide)⟩

/-- The hypothesis that no part is empty is needed: the number of poles is computed by a division by the
number of points of the part in the dimension. The assertions in `setDecomposition`
(DistributedFullGrid.hpp l.1773-1784) only find parts that are empty because two lower bounds are
equal. Here, the last process has no points in the second dimension; this decomposition is the one of
level 3 with the lower bounds 0 and 7, downsampled to level 1. -/
theorem C91_empty_part_violated : ∃ g : List DistDim, (∀ s ∈ g, s.Ok) ∧
    (∀ s ∈ g, s.dim.b = 0 → 0 < s.dim.lmax) ∧ ∃ dims : List ℕ, (∀ k ∈ dims, k < g.length) ∧
    ∀ V : Buf ℚ, V.len = (g.map fun s => nodal s.dim.lmax s.dim.b).prod →
      ∀ S : List ℕ → Buf ℚ, (∀ c, IsProcess g c → IsPart g V c (S c)) → ∀ junk,
        distributedHierarchize g junk dims S = none ∧
        distributedDehierarchize g junk dims S = none := by
  refine ⟨[⟨⟨.hat, 2, 1, 0⟩, [0, 1]⟩, ⟨⟨.biorthogonalPeriodic, 1, 1, 0⟩, [0, 2]⟩], ?_, by decide, [1], by decide, ?_⟩
  · intro s hs
    simp only [List.mem_cons, List.not_mem_nil, or_false] at hs
    rcases hs with rfl | rfl
    · exact ⟨⟨rfl, by decide, by decide⟩, .inl (by decide)⟩
    · exact ⟨⟨rfl, by decide, by decide⟩, .inr (by decide)⟩
  · intro V hV S hS junk
    set g : List DistDim := [⟨⟨.hat, 2, 1, 0⟩, [0, 1]⟩, ⟨⟨.biorthogonalPeriodic, 1, 1, 0⟩, [0, 2]⟩] with hg
    have hc : [0, 1] ∈ processes g := by decide +kernel
    have hp : partSizes g [0, 1] = [1, 0] := by decide +kernel
    have hall : ∀ ex (pole : Basis → ℕ → ℕ → ℕ → ℕ → List (ℕ × ℚ) → (ℕ → ℚ) → Buf ℚ →
        Option (Buf ℚ)), distributedTransform ex pole g junk [1] S = none := by
      intro ex pole
      have h1 : distributedDim ex pole g (junk [0, 1] 1) 1 S [0, 1] = none := by
        have hm : ∀ T (B : Buf ℚ), mapPoles [1, 0] T B 1 = none := fun _ _ => rfl
        unfold distributedDim
        rw [hp]
        simp only [hm]
        simp [hg]
      unfold distributedTransform
      rw [List.foldlM_cons]
      unfold onProcesses
      rw [if_neg]
      · rfl
      · intro h
        have := List.all_eq_true.1 h _ hc
        beta_reduce at this
        rw [h1] at this
        cases this
    exact ⟨hall _ _, hall _ _⟩

end Verif

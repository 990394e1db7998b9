import Verif.Lemmas.RoundedSteps

/-!
# Lemmas on the hierarchization of the tasks in the arithmetic of a machine
-/

namespace Verif

variable {K : Type} [Field K] [LinearOrder K] [IsStrictOrderedRing K]

omit [IsStrictOrderedRing K] in
/-- Hierarchization without rounding applies the matrices. -/
theorem hat_actAll {g : List HatDim} (hg : ∀ s ∈ g, s.Ok) {dims : List ℕ} (hd : ∀ k ∈ dims, k < g.length)
    {C : ℕ → ℕ → ℕ → K} (hC : ∀ k (hk : k < g.length), HatPole g[k] (C k)) (junk : ℕ → ℕ → ℕ → K)
    (d : Buf K) (hlen : d.len = (hatSizes g).prod) :
    ∃ m, hierarchizeGrid (g.map fun s => ⟨.hat, s.b, s.lmax, s.lmin⟩) junk dims d = some m ∧
      m.len = d.len ∧ ∀ x, InBox (hatSizes g) x → m.val (sequentialIndex (hatSizes g) x) =
        actAll (hatSizes g) C dims (fun x => d.val (sequentialIndex (hatSizes g) x)) x := by
  have hsz : ((g.map fun s => (⟨.hat, s.b, s.lmax, s.lmin⟩ : GridDim)).map
      fun s => poleLength s.lmax s.b) = hatSizes g := by
    unfold hatSizes
    rw [List.map_map]
    rfl
  obtain ⟨m, f1, f2, f3⟩ := transformGrid_eq (sizes := hatSizes g) (dims := dims) (hatSizes_pos hg)
    (by simpa [hatSizes] using hd) (T := fun k p loc =>
      ((g.map fun s => (⟨.hat, s.b, s.lmax, s.lmin⟩ : GridDim))[k]?).bind fun s =>
        hierPole s.basis s.b s.lmax s.lmin 0 [] (junk k p) loc) (A := C) (by
      intro k hk
      have hk' := hd k hk
      have e : (g.map fun s => (⟨.hat, s.b, s.lmax, s.lmin⟩ : GridDim))[k]? =
          some ⟨.hat, g[k].b, g[k].lmax, g[k].lmin⟩ := by simp [hk']
      simp only [e, Option.bind_some]
      rw [hatSizes_get g hk']
      exact (hC k hk').exact (junk k)) d hlen
  refine ⟨m, ?_, f2, f3⟩
  unfold hierarchizeGrid
  rw [hsz]
  exact f1

section Dist

variable {refs : List RefDim} {P : CombineParams} {n : ℕ}

/-- What C112 is told about the component grid of level `L`. -/
def compHats (refs : List RefDim) (P : CombineParams) (L : List ℕ) : List HatDim :=
  (compDist refs P L).map (·.toHat)

theorem compHats_sizes (hP : ParamsOk refs P) {L : List ℕ} (hL : L.length = refs.length) :
    (hatSizes (compHats refs P L)).prod = numLocal (oneProcess refs) L := by
  unfold numLocal
  rw [← gridSizes_compDist hP hL]
  unfold compHats hatSizes gridSizes
  rw [List.map_map]
  rfl

theorem compDist_hat (hr : ∀ r ∈ refs, ValidRef r) (hP : ParamsOk refs P) (hhat : ∀ β ∈ P.bases, β = .hat)
    {L : List ℕ} (hL : ValidComponent refs L) :
    ∀ s ∈ compDist refs P L, s.dim.basis.isHat = true ∧ (s.dim.b = 0 → s.dim.basis = .hat) := by
  refine hat_ok (compDist_ok hr hP hL).1 fun s hs => ?_
  obtain ⟨k, hk, rfl⟩ := List.mem_iff_getElem.1 hs
  have hl := hL.le.length_eq
  have hk' : k < refs.length := by
    have := length_compDist (L := L) hP hl
    omega
  rw [getElem_compDist hP hl hk']
  have := hhat _ (List.getElem_mem (l := P.bases) (n := k) (by rw [← hP.bases.length_eq]; exact hk'))
  simp only [this]
  rfl

omit [IsStrictOrderedRing K] in
/-- Exact hierarchization in terms of the matrices. -/
theorem maps_actAll (hr : ∀ r ∈ refs, ValidRef r) (hP : ParamsOk refs P) (hhat : ∀ β ∈ P.bases, β = .hat)
    {L : List ℕ} (hL : ValidComponent refs L) {H D : (ℕ → K) → ℕ → K}
    (hm : GridMaps (compDims (oneProcess refs) P L) (selectedDims P.sel) H D)
    {C : ℕ → ℕ → ℕ → K} (hC : ∀ k (hk : k < (compHats refs P L).length), HatPole (compHats refs P L)[k] (C k))
    (V : ℕ → K) (x : List ℕ) (hx : InBox (hatSizes (compHats refs P L)) x) :
    H V (sequentialIndex (hatSizes (compHats refs P L)) x) =
      actAll (hatSizes (compHats refs P L)) C (selectedDims P.sel)
        (fun x => V (sequentialIndex (hatSizes (compHats refs P L)) x)) x := by
  have hl := hL.le.length_eq
  have hlc := length_compDist (L := L) hP hl
  have hsz := compHats_sizes hP hl
  obtain ⟨ok1, ok2⟩ := compDist_ok hr hP hL
  obtain ⟨m, m1, m2, m3⟩ := hat_actAll (toHat_ok ok1 ok2) (dims := selectedDims P.sel) (by
      intro k hk
      have := selectedDims_lt k hk
      have := hP.sel
      simp only [List.length_map]
      omega) hC (fun _ _ _ => 0) ⟨numLocal (oneProcess refs) L, V⟩ hsz.symm
  rw [exact_grid _ (compDist_hat hr hP hhat hL), compDist_dims hP hl] at m1
  obtain ⟨m', e1, e2, e3⟩ := hm.hier (fun _ _ _ => 0) ⟨numLocal (oneProcess refs) L, V⟩ (by
    rw [← compDist_dims hP hl, ← hsz]
    unfold hatSizes compHats
    simp only [List.map_map]
    rfl)
  rw [m1] at e1
  cases e1
  have hlt : sequentialIndex (hatSizes (compHats refs P L)) x < numLocal (oneProcess refs) L := by
    rw [← hsz]
    exact sequentialIndex_lt _ _ hx
  exact (e3 _ hlt).symm.trans (m3 x hx)

variable {u : K} {A : Adder K}

theorem transform_near (hr : ∀ r ∈ refs, ValidRef r) (hP : ParamsOk refs P)
    (hhat : ∀ β ∈ P.bases, β = .hat) (u0 : 0 ≤ u) (u1 : 4 * u ≤ 1) (hA : Rounds u A)
    {H D : List ℕ → (ℕ → K) → ℕ → K}
    (hm : ∀ L, ValidComponent refs L →
      GridMaps (compDims (oneProcess refs) P L) (selectedDims P.sel) (H L) (D L))
    {t : K × List ℕ × (ℕ → K)} (hL : ValidComponent refs t.2.1)
    (hne : ∀ c, InGroup refs c → ∀ d ∈ List.zipWith localOf (atProcess refs c) t.2.1, 0 < d.size)
    {gt : GroupTask K} (h : HoldsParts refs t gt) (junk : List ℕ → ℕ → ℕ → ℕ → K) :
    (P.sel.length = gt.dims.length ∧ P.bases.length = gt.dims.length ∧
      P.lmin.length = gt.dims.length) ∧
    (∃ d, distributedHierarchizeWith (Arith.machine A)
        (distDims gt.dims P.bases (effectiveLMin P.boundary P.lmin)) junk (selectedDims P.sel)
        gt.data = some d ∧
      ∃ W, HoldsParts refs (t.1, t.2.1, W) { gt with data := d } ∧
        ∀ M, (∀ i < numLocal (oneProcess refs) t.2.1, |t.2.2 i| ≤ M) →
          ∀ i < numLocal (oneProcess refs) t.2.1, |H t.2.1 t.2.2 i| ≤ 2 ^ (selectedDims P.sel).length * M ∧
            |W i - H t.2.1 t.2.2 i| ≤
            ((2 + 4 * u) ^ (selectedDims P.sel).length - 2 ^ (selectedDims P.sel).length) * M) ∧
    (∃ d, distributedDehierarchizeWith (Arith.machine A)
        (distDims gt.dims P.bases (effectiveLMin P.boundary P.lmin)) junk (selectedDims P.sel)
        gt.data = some d ∧
      ∃ W, HoldsParts refs (t.1, t.2.1, W) { gt with data := d } ∧
        ∀ (Y : ℕ → K) (M η : K), 0 ≤ M → 0 ≤ η →
          (∀ i < numLocal (oneProcess refs) t.2.1, |Y i| ≤ M) →
          (∀ i < numLocal (oneProcess refs) t.2.1, |t.2.2 i - H t.2.1 Y i| ≤ η) →
          levelFactor (compHats refs P t.2.1) (selectedDims P.sel) *
            (η + 6 * u * (2 ^ (selectedDims P.sel).length - 1) * M) ≤ M →
          ∀ i < numLocal (oneProcess refs) t.2.1, |W i - Y i| ≤
            levelFactor (compHats refs P t.2.1) (selectedDims P.sel) *
              (η + 6 * u * (2 ^ (selectedDims P.sel).length - 1) * M)) := by
  obtain ⟨h1, h2, h3⟩ := h
  have hl := hL.le.length_eq
  have hlc := length_compDist (L := t.2.1) hP hl
  have hsz := compHats_sizes hP hl
  have hsizes : ((compDist refs P t.2.1).map fun s => nodal s.dim.lmax s.dim.b).prod =
      numLocal (oneProcess refs) t.2.1 := by
    unfold numLocal
    rw [← gridSizes_compDist hP hl]
    rfl
  obtain ⟨ok1, ok2⟩ := compDist_ok hr hP hL
  have hpos : ∀ c, IsProcess (compDist refs P t.2.1) c →
      ∀ n ∈ partSizes (compDist refs P t.2.1) c, 0 < n := by
    intro c hc n hn
    have hc' := (isProcess_compDist hP hl c).1 hc
    rw [partSizes_compDist hP hl hc'] at hn
    obtain ⟨d, hd, rfl⟩ := List.mem_map.1 hn
    exact hne c hc' d hd
  have hd : ∀ k ∈ selectedDims P.sel, k < (compDist refs P t.2.1).length := by
    intro k hk
    have := selectedDims_lt k hk
    have := hP.sel
    omega
  have hd' : ∀ k ∈ selectedDims P.sel, k < (compHats refs P t.2.1).length := by
    intro k hk
    unfold compHats
    rw [List.length_map]
    exact hd k hk
  have hparts : ∀ c, IsProcess (compDist refs P t.2.1) c → IsPart (compDist refs P t.2.1)
      ⟨numLocal (oneProcess refs) t.2.1, t.2.2⟩ c (gt.data c) := by
    intro c hc
    have hc' := (isProcess_compDist hP hl c).1 hc
    exact (isPart_compDist hP hl hc').2 (h3 c hc')
  have hdims : distDims gt.dims P.bases (effectiveLMin P.boundary P.lmin) = compDist refs P t.2.1 := by
    rw [h2]; rfl
  have hback : ∀ (W : Buf K) (S' : List ℕ → Buf K),
      (∀ c, IsProcess (compDist refs P t.2.1) c → IsPart (compDist refs P t.2.1) W c (S' c)) →
      HoldsParts refs (t.1, t.2.1, W.val) { gt with data := S' } := by
    intro W S' hS'
    refine ⟨h1, h2, fun c hc => ?_⟩
    exact (isPart_compDist hP hl hc).1 (hS' c ((isProcess_compDist hP hl c).2 hc))
  have hok : ∀ s ∈ compHats refs P t.2.1, s.Ok := toHat_ok ok1 ok2
  obtain ⟨C, hC⟩ := hatPoles (K := K) hok
  have hexact := maps_actAll hr hP hhat hL (hm _ hL) hC
  have hhat' := compDist_hat hr hP hhat hL
  rw [hdims]
  refine ⟨?_, ?_, ?_⟩
  · have e1 := hP.sel
    have e2 := hP.bases.length_eq
    have e3 := hP.lmin
    rw [h2]
    simp only [compGrid, List.length_zipWith]
    omega
  · obtain ⟨W, S', w1, w2, w3, w4⟩ := C113_hierarchize (Arith.machine A) (compDist refs P t.2.1) ok1 hpos ok2
      (selectedDims P.sel) hd ⟨numLocal (oneProcess refs) t.2.1, t.2.2⟩ hsizes.symm gt.data hparts junk
      fun _ _ _ => 0
    refine ⟨S', w3, W.val, hback W S' w4, fun M hM i hi => ?_⟩
    rw [(machine_grid A _ hhat' _ _ _).1] at w1
    obtain ⟨m, e1, e2, e3⟩ := hier_all hok hd' hC u0 u1 hA (fun _ _ _ => 0)
      ⟨numLocal (oneProcess refs) t.2.1, t.2.2⟩ hsz.symm
    have e1' : hierarchizeHat A ((compDist refs P t.2.1).map (·.toHat)) (fun _ _ _ => 0)
      (selectedDims P.sel) ⟨numLocal (oneProcess refs) t.2.1, t.2.2⟩ = some m := e1
    rw [w1] at e1'
    cases e1'
    obtain ⟨g1, g2⟩ := getVectorIndex_spec (hatSizes (compHats refs P t.2.1)) i (by rw [hsz]; exact hi)
    have hb : BoxBound (hatSizes (compHats refs P t.2.1))
        (fun x => t.2.2 (sequentialIndex (hatSizes (compHats refs P t.2.1)) x)) M :=
      fun x hx => hM _ (by rw [← hsz]; exact sequentialIndex_lt _ _ hx)
    have a1 := e3 (fun x => t.2.2 (sequentialIndex (hatSizes (compHats refs P t.2.1)) x)) M 0
      (by simpa using hb) (by intro x _; simp) _ g1
    have a2 := actAll_bound hd' hC hb _ g1
    rw [← hexact t.2.2 _ g1, g2] at a2
    simp only [Nat.zero_add] at a1
    rw [← hexact t.2.2 _ g1, g2] at a1
    exact ⟨a2, a1⟩
  · obtain ⟨W, S', w1, w2, w3, w4⟩ := C113_dehierarchize (Arith.machine A) (compDist refs P t.2.1) ok1 hpos
      ok2 (selectedDims P.sel) hd ⟨numLocal (oneProcess refs) t.2.1, t.2.2⟩ hsizes.symm gt.data hparts junk
      fun _ _ _ => 0
    refine ⟨S', w3, W.val, hback W S' w4, fun Y M η hM hη hY hYη hsmall i hi => ?_⟩
    rw [(machine_grid A _ hhat' _ _ _).2] at w1
    obtain ⟨m, e1, e2, e3⟩ := dehier_all hok hd' hC u0 u1 hA (fun _ _ _ => 0)
      ⟨numLocal (oneProcess refs) t.2.1, t.2.2⟩ hsz.symm
    have e1' : dehierarchizeHat A ((compDist refs P t.2.1).map (·.toHat)) (fun _ _ _ => 0)
      (selectedDims P.sel) ⟨numLocal (oneProcess refs) t.2.1, t.2.2⟩ = some m := e1
    rw [w1] at e1'
    cases e1'
    obtain ⟨g1, g2⟩ := getVectorIndex_spec (hatSizes (compHats refs P t.2.1)) i (by rw [hsz]; exact hi)
    have hlt : ∀ x, InBox (hatSizes (compHats refs P t.2.1)) x →
        sequentialIndex (hatSizes (compHats refs P t.2.1)) x < numLocal (oneProcess refs) t.2.1 :=
      fun x hx => by rw [← hsz]; exact sequentialIndex_lt _ _ hx
    have := e3 (fun x => Y (sequentialIndex (hatSizes (compHats refs P t.2.1)) x)) M η hM hη
      (fun x hx => hY _ (hlt x hx)) (fun x hx => by
        beta_reduce
        rw [← hexact Y x hx]
        exact hYη _ (hlt x hx)) hsmall _ g1
    simp only [g2] at this
    exact this

end Dist

end Verif

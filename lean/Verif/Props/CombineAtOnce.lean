import Verif.Lemmas.CombineAtOnce
import Verif.Props.CombineExact
import Verif.Lemmas.Restrict

/-!
# Property C73 for complete combinations of nodal values

`combineAtOnce` hierarchizes, combines and dehierarchizes. With one process per group: combining
twice yields the same as combining once, and with hat functions, grids that hold the values of one
function are not changed at all.
-/

namespace Verif

variable {K : Type}

/-- One process per group. -/
def Serial (refs : List RefDim) : Prop := ∀ r ∈ refs, r.dec = [0] ∧ r.c = 0

/-- The basis of a dimension can be used on all its levels, up to the reference level. -/
def BasisOk (r : RefDim) (β : Basis) : Prop :=
  (β = .hat ∧ r.level ≤ 29) ∨
    (β.massConserving = true ∧ (r.boundary = 1 ∨ r.boundary = 2) ∧
      (r.boundary = 1 ↔ β.periodic = true) ∧ r.level ≤ 28)

/-- The parameters belong to the grids. -/
structure ParamsOk (refs : List RefDim) (P : CombineParams) : Prop where
  boundary : P.boundary = refs.map (·.boundary)
  sel : P.sel.length = refs.length
  lmin : P.lmin.length = refs.length
  bases : List.Forall₂ BasisOk refs P.bases

/-- The dimensions of the component grid of level `L` as used by `hierarchize`. -/
def compDims (refs : List RefDim) (P : CombineParams) (L : List ℕ) : List GridDim :=
  gridDims (List.zipWith localOf refs L) P.bases (effectiveLMin P.boundary P.lmin)

theorem localOf_serial {r : RefDim} (h : r.dec = [0] ∧ r.c = 0) (L : ℕ) :
    localOf r L = ⟨L, r.boundary, 0, nodal L r.boundary⟩ := by
  have : downsampleDecomposition1d [0] r.level L r.boundary = [0] := by
    unfold downsampleDecomposition1d
    have hp : 0 < 2 ^ (r.level - L) := by positivity
    have hp' : (0 : ℤ) < 2 ^ (r.level - L) := by positivity
    split
    · simp only [List.map_cons, List.map_nil, ceilDiv']
      rw [Nat.div_eq_of_lt (by omega)]
    · simp only [List.map_cons, List.map_nil]
      congr 1
      have : 0 ≤ (-(((0 : ℕ) : ℤ) - (2 ^ (r.level - L) - 1))) / (2 ^ (r.level - L) : ℤ) :=
        Int.ediv_nonneg (by push_cast; omega) (by omega)
      omega
  unfold localOf
  rw [h.1, h.2, this]
  simp [lowerBound1d, upperBound1d]

theorem length_effectiveLMin (b l : List ℕ) : (effectiveLMin b l).length = l.length := by
  unfold effectiveLMin
  split <;> simp

theorem compDims_getElem {refs : List RefDim} (hs : Serial refs) {P : CombineParams}
    (hP : ParamsOk refs P) {L : List ℕ} (hL : L.length = refs.length) :
    ∃ hl : (compDims refs P L).length = refs.length, ∀ k (hk : k < refs.length),
      (compDims refs P L)[k]'(by omega) = ⟨P.bases[k]'(by rw [← hP.bases.length_eq]; exact hk),
        refs[k].boundary, L[k], (effectiveLMin P.boundary P.lmin)[k]'(by
          rw [length_effectiveLMin, hP.lmin]; exact hk)⟩ := by
  have h1 := hP.bases.length_eq
  have h2 := length_effectiveLMin P.boundary P.lmin
  have h3 := hP.lmin
  have hl : (compDims refs P L).length = refs.length := by
    unfold compDims gridDims
    simp only [List.length_map, List.length_zip, List.length_zipWith]
    omega
  refine ⟨hl, fun k hk => ?_⟩
  unfold compDims gridDims
  simp only [List.getElem_map, List.getElem_zip, List.getElem_zipWith,
    localOf_serial (hs _ (List.getElem_mem hk))]

theorem compDims_sizes {refs : List RefDim} (hs : Serial refs) {P : CombineParams}
    (hP : ParamsOk refs P) {L : List ℕ} (hL : L.length = refs.length) :
    ((compDims refs P L).map fun s => nodal s.lmax s.b) =
      (List.zipWith localOf refs L).map (·.size) := by
  obtain ⟨hl, he⟩ := compDims_getElem hs hP hL
  apply List.ext_getElem
  · simp only [List.length_map, List.length_zipWith]
    omega
  · intro k h1 h2
    have hk : k < refs.length := by
      rw [List.length_map] at h1; omega
    simp only [List.getElem_map, List.getElem_zipWith, he k hk,
      localOf_serial (hs _ (List.getElem_mem hk))]

theorem compDims_invertible {refs : List RefDim} (hr : ∀ r ∈ refs, ValidRef r) (hs : Serial refs)
    {P : CombineParams} (hP : ParamsOk refs P) {L : List ℕ} (hL : ValidComponent refs L) :
    (∀ s ∈ compDims refs P L, s.Invertible) ∧ ∀ s ∈ compDims refs P L, s.b = 0 → 0 < s.lmax := by
  obtain ⟨hl, he⟩ := compDims_getElem hs hP hL.le.length_eq
  have hall : ∀ s ∈ compDims refs P L, s.Invertible ∧ 0 < s.lmax := by
    intro s hs'
    obtain ⟨k, hk, rfl⟩ := List.mem_iff_getElem.1 hs'
    have hk' : k < refs.length := by omega
    have hkL : k < L.length := by rw [hL.le.length_eq]; exact hk'
    rw [he k hk']
    have h1 := (List.forall₂_iff_get.1 hL.le).2 k hkL hk'
    have h2 := (List.forall₂_iff_get.1 hP.bases).2 k hk' (by rw [← hP.bases.length_eq]; exact hk')
    have h3 := hL.pos _ (List.getElem_mem hkL)
    have h4 := (hr _ (List.getElem_mem hk')).boundary
    simp only [List.get_eq_getElem] at h1 h2
    refine ⟨?_, h3⟩
    rcases h2 with ⟨h2, h5⟩ | ⟨h2, h5, h6, h7⟩
    · exact ⟨Or.inl ⟨h2, h4, by simp only; omega⟩, Or.inl h2⟩
    · exact ⟨Or.inr ⟨h2, h5, by simp only; omega⟩, Or.inr h6⟩
  exact ⟨fun s hs => (hall s hs).1, fun s hs _ => (hall s hs).2⟩

theorem selectedDims_lt {sel : List Bool} : ∀ k ∈ selectedDims sel, k < sel.length := by
  intro k hk
  unfold selectedDims at hk
  rw [List.mem_filter, List.mem_range] at hk
  exact hk.1

/-- the transforms of the component grids -/
theorem compMaps [Field K] [CharZero K] {refs : List RefDim} (hr : ∀ r ∈ refs, ValidRef r)
    (hs : Serial refs) {P : CombineParams} (hP : ParamsOk refs P) :
    ∃ (H D : List ℕ → (ℕ → K) → ℕ → K), ∀ L, ValidComponent refs L →
      GridMaps (compDims refs P L) (selectedDims P.sel) (H L) (D L) := by
  have : ∀ L, ∃ (H D : (ℕ → K) → ℕ → K), ValidComponent refs L →
      GridMaps (compDims refs P L) (selectedDims P.sel) H D := by
    intro L
    by_cases hL : ValidComponent refs L
    · obtain ⟨a, b⟩ := compDims_invertible hr hs hP hL
      obtain ⟨hl, -⟩ := compDims_getElem hs hP hL.le.length_eq
      obtain ⟨H, D, h⟩ := gridMaps_exist (K := K) _ a b (selectedDims P.sel) (by
        intro k hk
        have := selectedDims_lt k hk
        have := hP.sel
        omega)
      exact ⟨H, D, fun _ => h⟩
    · exact ⟨fun u => u, fun u => u, fun h => absurd h hL⟩
  choose H D h using this
  exact ⟨H, D, h⟩

/-! ### The steps on all groups -/

/-- Tasks with the values of transformed grids. -/
def withValues (cs : List (K × List ℕ × (ℕ → K))) (ts : List (K × Dfg K)) :
    List (K × List ℕ × (ℕ → K)) :=
  List.zipWith (fun t (t' : K × Dfg K) => (t.1, t.2.1, t'.2.data.val)) cs ts

/-- The tasks `cs'` are the tasks `cs` with values `F` of level and old values. -/
def Transformed (refs : List RefDim) (F : List ℕ → (ℕ → K) → ℕ → K)
    (cs cs' : List (K × List ℕ × (ℕ → K))) : Prop :=
  List.Forall₂ (fun t t' => t'.1 = t.1 ∧ t'.2.1 = t.2.1 ∧
    ∀ p < numLocal refs t.2.1, t'.2.2 p = F t.2.1 t.2.2 p) cs cs'

theorem withValues_spec {refs : List RefDim} {F : List ℕ → (ℕ → K) → ℕ → K}
    {cs : List (K × List ℕ × (ℕ → K))} {ts : List (K × Dfg K)}
    (h : List.Forall₂ (fun t (t' : K × Dfg K) => t'.1 = t.1 ∧
      t'.2.dims = (gridOf refs t.2.1 t.2.2).dims ∧ t'.2.data.len = numLocal refs t.2.1 ∧
      ∀ p < numLocal refs t.2.1, t'.2.data.val p = F t.2.1 t.2.2 p) cs ts) :
    tasksOf refs (withValues cs ts) = ts ∧ Transformed refs F cs (withValues cs ts) := by
  induction h with
  | nil => exact ⟨rfl, .nil⟩
  | @cons t t' cs ts h1 _ ih =>
    obtain ⟨e1, e2, e3, e4⟩ := h1
    refine ⟨?_, .cons ⟨rfl, rfl, e4⟩ ih.2⟩
    have : tasksOf refs (withValues (t :: cs) (t' :: ts)) =
        (t.1, gridOf refs t.2.1 t'.2.data.val) :: tasksOf refs (withValues cs ts) := rfl
    rw [this, ih.1]
    congr 1
    obtain ⟨c, ⟨dims, ⟨len, val⟩⟩⟩ := t'
    simp only at e1 e2 e3
    subst e1 e2 e3
    rfl

theorem groups_withValues {refs : List RefDim} {F : List ℕ → (ℕ → K) → ℕ → K} {n : ℕ}
    {T : ℕ → List (K × List ℕ × (ℕ → K))} {R : ℕ → List (K × Dfg K)}
    (h : ∀ g < n, List.Forall₂ (fun t (t' : K × Dfg K) => t'.1 = t.1 ∧
      t'.2.dims = (gridOf refs t.2.1 t.2.2).dims ∧ t'.2.data.len = numLocal refs t.2.1 ∧
      ∀ p < numLocal refs t.2.1, t'.2.data.val p = F t.2.1 t.2.2 p) (T g) (R g))
    (h0 : ∀ g, n ≤ g → R g = []) :
    ∃ T' : ℕ → List (K × List ℕ × (ℕ → K)), R = (fun g => tasksOf refs (T' g)) ∧ ∀ g < n, Transformed refs F (T g) (T' g) := by
  refine ⟨fun g => if g < n then withValues (T g) (R g) else [], ?_, ?_⟩
  · funext g
    simp only
    split
    · rename_i hg
      rw [(withValues_spec (h g hg)).1]
    · rw [h0 g (by omega)]
      rfl
  · intro g hg
    simp only [if_pos hg]
    exact (withValues_spec (h g hg)).2

theorem hierarchize_step [Field K] [CharZero K] {refs : List RefDim} (hs : Serial refs)
    {P : CombineParams} (hP : ParamsOk refs P) {H D : List ℕ → (ℕ → K) → ℕ → K}
    (hm : ∀ L, ValidComponent refs L →
      GridMaps (compDims refs P L) (selectedDims P.sel) (H L) (D L)) {n : ℕ}
    {T : ℕ → List (K × List ℕ × (ℕ → K))} (hc : ∀ g < n, ∀ t ∈ T g, ValidComponent refs t.2.1)
    (junk : ℕ → ℕ → ℕ → ℕ → ℕ → K) :
    (∃ T' : ℕ → List (K × List ℕ × (ℕ → K)),
      onGroups n (fun g => hierarchizeFullGrids P (junk g) (tasksOf refs (T g))) =
      some (fun g => tasksOf refs (T' g)) ∧ ∀ g < n, Transformed refs H (T g) (T' g)) ∧
    (∃ T' : ℕ → List (K × List ℕ × (ℕ → K)),
      onGroups n (fun g => dehierarchizeFullGrids P (junk g) (tasksOf refs (T g))) =
      some (fun g => tasksOf refs (T' g)) ∧ ∀ g < n, Transformed refs D (T g) (T' g)) := by
  have hlen : ∀ g < n, ∀ t ∈ T g, (P.sel.length = (gridOf refs t.2.1 t.2.2).dims.length ∧
      P.bases.length = (gridOf refs t.2.1 t.2.2).dims.length ∧
      P.lmin.length = (gridOf refs t.2.1 t.2.2).dims.length) ∧
      (gridOf refs t.2.1 t.2.2).data.len =
        ((compDims refs P t.2.1).map fun s => nodal s.lmax s.b).prod ∧
      (gridOf refs t.2.1 t.2.2).data.len = numLocal refs t.2.1 := by
    intro g hg t ht
    have h1 := (hc g hg t ht).le.length_eq
    have h2 := hP.sel
    have h3 := hP.bases.length_eq
    have h4 := hP.lmin
    refine ⟨?_, ?_, rfl⟩
    · simp only [gridOf, List.length_zipWith]
      omega
    · rw [compDims_sizes hs hP h1]
      rfl
  have hback : ∀ (F : List ℕ → (ℕ → K) → ℕ → K) (g : ℕ) (r : List (K × Dfg K)),
      List.Forall₂ (fun t (t' : K × Dfg K) => t'.1 = t.1 ∧ t'.2.dims = t.2.dims ∧
        t'.2.data.len = t.2.data.len ∧ ∀ p < t.2.data.len,
          t'.2.data.val p = F t.2.levels t.2.data.val p) (tasksOf refs (T g)) r → g < n →
      List.Forall₂ (fun t (t' : K × Dfg K) => t'.1 = t.1 ∧
        t'.2.dims = (gridOf refs t.2.1 t.2.2).dims ∧ t'.2.data.len = numLocal refs t.2.1 ∧
        ∀ p < numLocal refs t.2.1, t'.2.data.val p = F t.2.1 t.2.2 p) (T g) r := by
    intro F g r h hg
    unfold tasksOf at h
    rw [List.forall₂_map_left_iff] at h
    rw [List.forall₂_iff_get] at h ⊢
    refine ⟨h.1, fun i h1 h2 => ?_⟩
    obtain ⟨e1, e2, e3, e4⟩ := h.2 i h1 h2
    have hlev := gridOf_levels (hc g hg _ (List.get_mem _ ⟨i, h1⟩)).le.length_eq
      ((T g).get ⟨i, h1⟩).2.2
    simp only [hlev] at e4
    exact ⟨e1, e2, e3, e4⟩
  constructor
  · obtain ⟨R, r1, r2, r3⟩ := onGroups_some (n := n)
      (f := fun g => hierarchizeFullGrids P (junk g) (tasksOf refs (T g)))
      (Q := fun g r => List.Forall₂ (fun t (t' : K × Dfg K) => t'.1 = t.1 ∧ t'.2.dims = t.2.dims ∧
        t'.2.data.len = t.2.data.len ∧ ∀ p < t.2.data.len,
          t'.2.data.val p = H t.2.levels t.2.data.val p) (tasksOf refs (T g)) r) (by
      intro g hg
      unfold hierarchizeFullGrids
      refine mapTasks_some (Q := fun t d => d.len = t.2.data.len ∧ ∀ p < t.2.data.len,
          d.val p = H t.2.levels t.2.data.val p) 0 _ ?_
      intro i t' ht'
      obtain ⟨t, ht, rfl⟩ := List.mem_map.1 ht'
      obtain ⟨l1, l2, -⟩ := hlen g hg t ht
      have hL := hc g hg t ht
      obtain ⟨m, m1, m2, m3⟩ := (hm _ hL).hier (junk g i) _ l2
      refine ⟨m, ?_, m2, ?_⟩
      · simp only [if_pos l1]
        exact m1
      · simp only [gridOf_levels hL.le.length_eq]
        exact m3)
    obtain ⟨T', t1, t2⟩ := groups_withValues (refs := refs) (F := H) (T := T)
      (fun g hg => hback H g _ (r2 g hg) hg) r3
    exact ⟨T', by rw [r1, t1], t2⟩
  · obtain ⟨R, r1, r2, r3⟩ := onGroups_some (n := n)
      (f := fun g => dehierarchizeFullGrids P (junk g) (tasksOf refs (T g)))
      (Q := fun g r => List.Forall₂ (fun t (t' : K × Dfg K) => t'.1 = t.1 ∧ t'.2.dims = t.2.dims ∧
        t'.2.data.len = t.2.data.len ∧ ∀ p < t.2.data.len,
          t'.2.data.val p = D t.2.levels t.2.data.val p) (tasksOf refs (T g)) r) (by
      intro g hg
      unfold dehierarchizeFullGrids
      refine mapTasks_some (Q := fun t d => d.len = t.2.data.len ∧ ∀ p < t.2.data.len,
          d.val p = D t.2.levels t.2.data.val p) 0 _ ?_
      intro i t' ht'
      obtain ⟨t, ht, rfl⟩ := List.mem_map.1 ht'
      obtain ⟨l1, l2, -⟩ := hlen g hg t ht
      have hL := hc g hg t ht
      obtain ⟨m, m1, m2, m3⟩ := (hm _ hL).dehier (junk g i) _ l2
      refine ⟨m, ?_, m2, ?_⟩
      · simp only [if_pos l1]
        exact m1
      · simp only [gridOf_levels hL.le.length_eq]
        exact m3)
    obtain ⟨T', t1, t2⟩ := groups_withValues (refs := refs) (F := D) (T := T)
      (fun g hg => hback D g _ (r2 g hg) hg) r3
    exact ⟨T', by rw [r1, t1], t2⟩

theorem mapM_congr_mem {α β : Type} {l : List α} {f f' : α → Option β} (h : ∀ a ∈ l, f a = f' a) :
    l.mapM f = l.mapM f' := by
  induction l with
  | nil => rfl
  | cons a l ih =>
    rw [List.mapM_cons, List.mapM_cons, h a (by simp), ih fun a ha => h a (by simp [ha])]

theorem onGroups_congr {n : ℕ} {f f' : ℕ → Option (List (K × Dfg K))} (h : ∀ g < n, f g = f' g) :
    onGroups n f = onGroups n f' := by
  unfold onGroups
  rw [mapM_congr_mem fun g hg => h g (List.mem_range.1 hg)]

theorem Transformed.levels {refs : List RefDim} {F : List ℕ → (ℕ → K) → ℕ → K}
    {cs cs' : List (K × List ℕ × (ℕ → K))} (h : Transformed refs F cs cs') :
    cs'.map (fun t => (t.1, t.2.1)) = cs.map fun t => (t.1, t.2.1) := by
  induction h with
  | nil => rfl
  | cons h1 _ ih => rw [List.map_cons, List.map_cons, ih, h1.1, h1.2.1]

theorem valueAtPlace_congr [Ring K] {refs : List RefDim} {n : ℕ}
    {T T' : ℕ → List (K × List ℕ × (ℕ → K))} {F : List ℕ → (ℕ → K) → ℕ → K}
    (h : ∀ g < n, Transformed refs F (T g) (T' g)) (z : List ℕ) :
    valueAtPlace refs n T' z =
      valueAtPlace refs n (fun g => (T g).map fun t => (t.1, t.2.1, F t.2.1 t.2.2)) z := by
  unfold valueAtPlace
  congr 1
  apply List.map_congr_left
  intro m hm
  have := h m (List.mem_range.1 hm)
  congr 1
  rw [List.map_map]
  generalize T m = cs, T' m = cs' at this
  induction this with
  | nil => rfl
  | @cons t t' cs cs' h1 _ ih =>
    rw [List.map_cons, List.map_cons, ih]
    congr 1
    simp only [Function.comp]
    rw [h1.1, h1.2.1]
    congr 1
    apply Finset.sum_congr rfl
    intro q hq
    rw [Finset.mem_filter, Finset.mem_range] at hq
    exact h1.2.2 q hq.1

theorem combine_step [Ring K] {refs : List RefDim} {levels : List (List ℕ)} {n : ℕ}
    (hn : n ≤ 256) {T : ℕ → List (K × List ℕ × (ℕ → K))} (h : ValidSystem refs levels n T)
    (htotal : (levels.map (subspaceCount refs)).sum < 2 ^ 31)
    {variant : CombinationVariant} {maxChunk : ℕ} (hu : Usable refs n T variant maxChunk) :
    ∃ (S : ℕ → Group K) (T' : ℕ → List (K × List ℕ × (ℕ → K))),
      combineVariant variant maxChunk levels n (fun g => tasksOf refs (T g)) = some S ∧
      ∀ g < n, (S g).tasks = tasksOf refs (T' g) ∧
        Transformed refs (fun L _ p => valueAtPlace refs n T (spatialOf refs L p)) (T g) (T' g) := by
  obtain ⟨S, e1, e2⟩ := combined_of_usable hn h htotal hu
  refine ⟨S, fun g => withValues (T g) (S g).tasks, e1, fun g hg => ?_⟩
  obtain ⟨a, b⟩ := withValues_spec (F := fun L _ p => valueAtPlace refs n T (spatialOf refs L p))
    (e2 g hg)
  exact ⟨a.symm, b⟩

theorem usable_congr {refs : List RefDim} {n : ℕ} {T T' : ℕ → List (K × List ℕ × (ℕ → K))}
    (hT : ∀ g < n, (T' g).map (fun t => (t.1, t.2.1)) = (T g).map fun t => (t.1, t.2.1))
    {variant : CombinationVariant} {maxChunk : ℕ} (hu : Usable refs n T variant maxChunk) :
    Usable refs n T' variant maxChunk := by
  refine ⟨hu.pos, hu.max, ?_⟩
  rcases hu.share with a | a | a | a
  · exact Or.inl a
  · exact Or.inr (Or.inl a)
  · exact Or.inr (Or.inr (Or.inl fun g hg => (shares_congr hT hg).2 (a g hg)))
  · exact Or.inr (Or.inr (Or.inr fun g hg hc => a g hg ((shares_congr hT hg).1 hc)))

/-- The tasks with hierarchical values. -/
def hierVals (H : List ℕ → (ℕ → K) → ℕ → K) (T : ℕ → List (K × List ℕ × (ℕ → K))) (g : ℕ) :
    List (K × List ℕ × (ℕ → K)) :=
  (T g).map fun t => (t.1, t.2.1, H t.2.1 t.2.2)

theorem transformed_comp {refs : List RefDim} {F F' F'' : List ℕ → (ℕ → K) → ℕ → K}
    {cs cs' cs'' : List (K × List ℕ × (ℕ → K))} (h : Transformed refs F cs cs')
    (h' : Transformed refs F' cs' cs'')
    (he : ∀ t ∈ cs, ∀ u, (∀ p < numLocal refs t.2.1, u p = F t.2.1 t.2.2 p) →
      ∀ p < numLocal refs t.2.1, F' t.2.1 u p = F'' t.2.1 t.2.2 p) :
    Transformed refs F'' cs cs'' := by
  induction h generalizing cs'' with
  | nil => cases h'; exact .nil
  | @cons t t' cs cs' h1 _ ih =>
    cases h' with
    | @cons _ t'' _ cs'' h2 h3 =>
      refine .cons ⟨h2.1.trans h1.1, h2.2.1.trans h1.2.1, ?_⟩
        (ih h3 fun t ht => he t (by simp [ht]))
      intro p hp
      have := h2.2.2 p (by rw [h1.2.1]; exact hp)
      rw [h1.2.1] at this
      rw [this, he t (by simp) t'.2.2 h1.2.2 p hp]

/-- What `combineAtOnce` computes, in terms of the transforms of the grids. -/
theorem atOnce_formula [Field K] [CharZero K] {refs : List RefDim} {levels : List (List ℕ)} {n : ℕ}
    (hn : n ≤ 256) {T : ℕ → List (K × List ℕ × (ℕ → K))} (h : ValidSystem refs levels n T)
    (hs : Serial refs) {P : CombineParams} (hP : ParamsOk refs P)
    (htotal : (levels.map (subspaceCount refs)).sum < 2 ^ 31)
    {variant : CombinationVariant} {maxChunk : ℕ} (hu : Usable refs n T variant maxChunk)
    {H D : List ℕ → (ℕ → K) → ℕ → K}
    (hm : ∀ L, ValidComponent refs L →
      GridMaps (compDims refs P L) (selectedDims P.sel) (H L) (D L))
    (junk junk' : ℕ → ℕ → ℕ → ℕ → ℕ → K) :
    ∃ T' : ℕ → List (K × List ℕ × (ℕ → K)),
      combineAtOnce P variant maxChunk levels n junk junk' (fun g => tasksOf refs (T g)) =
        some (fun g => tasksOf refs (T' g)) ∧
      ∀ g < n, Transformed refs (fun L _ => D L fun q =>
        valueAtPlace refs n (hierVals H T) (spatialOf refs L q)) (T g) (T' g) := by
  obtain ⟨T1, a1, a2⟩ := (hierarchize_step hs hP hm h.comp junk).1
  have hl1 : ∀ g < n, (T1 g).map (fun t => (t.1, t.2.1)) = (T g).map fun t => (t.1, t.2.1) :=
    fun g hg => (a2 g hg).levels
  have h1 := retask_valid h hl1
  obtain ⟨S, T2, b1, b2⟩ := combine_step hn h1 htotal (usable_congr hl1 hu)
  have h2 := retask_valid h1 fun g hg => ((b2 g hg).2).levels
  obtain ⟨T3, c1, c2⟩ := (hierarchize_step hs hP hm h2.comp junk').2
  refine ⟨T3, ?_, fun g hg => ?_⟩
  · unfold combineAtOnce
    rw [a1, Option.bind_some, b1, Option.bind_some, ← c1]
    exact onGroups_congr fun g hg => by rw [(b2 g hg).1]
  · have h12 : Transformed refs (fun L _ p => valueAtPlace refs n T1 (spatialOf refs L p))
        (T g) (T2 g) :=
      transformed_comp (a2 g hg) (b2 g hg).2 fun _ _ _ _ _ _ => rfl
    refine transformed_comp h12 (c2 g hg) fun t ht u hu' p hp => ?_
    have hL := h.comp g hg t ht
    have hnum : ((compDims refs P t.2.1).map fun s => nodal s.lmax s.b).prod =
        numLocal refs t.2.1 := by
      rw [compDims_sizes hs hP hL.le.length_eq]; rfl
    refine ((hm _ hL).congr _ _ ?_ p (by rw [hnum]; exact hp)).2
    intro q hq
    rw [hu' q (by rw [← hnum]; exact hq), valueAtPlace_congr a2]
    rfl

theorem transformed_mem {refs : List RefDim} {F : List ℕ → (ℕ → K) → ℕ → K}
    {cs cs' : List (K × List ℕ × (ℕ → K))} (h : Transformed refs F cs cs')
    {t' : K × List ℕ × (ℕ → K)} (ht : t' ∈ cs') : ∃ t ∈ cs, t.2.1 = t'.2.1 ∧
      ∀ p < numLocal refs t'.2.1, t'.2.2 p = F t'.2.1 t.2.2 p := by
  induction h with
  | nil => simp at ht
  | @cons t t1 cs cs' h1 _ ih =>
    rcases List.mem_cons.1 ht with rfl | ht
    · refine ⟨t, by simp, h1.2.1.symm, fun p hp => ?_⟩
      rw [h1.2.2 p (by rw [← h1.2.1]; exact hp), h1.2.1]
    · obtain ⟨t0, a, b⟩ := ih ht
      exact ⟨t0, by simp [a], b⟩

theorem sameTasks_of_transformed {refs : List RefDim} {F : List ℕ → (ℕ → K) → ℕ → K}
    {cs cs' : List (K × List ℕ × (ℕ → K))} (h : Transformed refs F cs cs')
    (he : ∀ t ∈ cs, ∀ p < numLocal refs t.2.1, F t.2.1 t.2.2 p = t.2.2 p) :
    SameTasks (tasksOf refs cs) (tasksOf refs cs') := by
  induction h with
  | nil => exact .nil
  | @cons t t1 cs cs' h1 _ ih =>
    refine .cons ⟨h1.1, ?_, ?_, ?_⟩ (ih fun t ht => he t (by simp [ht]))
    · simp only [gridOf, h1.2.1]
    · simp only [gridOf, h1.2.1]
    · intro p hp
      exact (h1.2.2 p hp).trans (he t (by simp) p hp)

/-- If the hierarchical values agree and the coefficients are consistent, nothing changes. -/
theorem atOnce_unchanged [Field K] [CharZero K] {refs : List RefDim} {levels : List (List ℕ)}
    {n : ℕ} (hn : n ≤ 256) {T : ℕ → List (K × List ℕ × (ℕ → K))} (h : ValidSystem refs levels n T)
    (hs : Serial refs) {P : CombineParams} (hP : ParamsOk refs P)
    (htotal : (levels.map (subspaceCount refs)).sum < 2 ^ 31) (hc : Consistent n T)
    {variant : CombinationVariant} {maxChunk : ℕ} (hu : Usable refs n T variant maxChunk)
    {H D : List ℕ → (ℕ → K) → ℕ → K}
    (hm : ∀ L, ValidComponent refs L →
      GridMaps (compDims refs P L) (selectedDims P.sel) (H L) (D L))
    {v : List ℕ → K} (hv : Agrees refs n (hierVals H T) v)
    (junk junk' : ℕ → ℕ → ℕ → ℕ → ℕ → K) :
    ∃ R, combineAtOnce P variant maxChunk levels n junk junk' (fun g => tasksOf refs (T g)) =
        some R ∧ ∀ g < n, SameTasks (tasksOf refs (T g)) (R g) := by
  obtain ⟨T', a1, a2⟩ := atOnce_formula hn h hs hP htotal hu hm junk junk'
  refine ⟨_, a1, fun g hg => sameTasks_of_transformed (a2 g hg) fun t ht p hp => ?_⟩
  have hL := h.comp g hg t ht
  have hnum : ((compDims refs P t.2.1).map fun s => nodal s.lmax s.b).prod =
      numLocal refs t.2.1 := by
    rw [compDims_sizes hs hP hL.le.length_eq]; rfl
  have hl : ∀ g < n, (hierVals H T g).map (fun t => (t.1, t.2.1)) =
      (T g).map fun t => (t.1, t.2.1) := by
    intro g _
    unfold hierVals
    rw [List.map_map]
    rfl
  have hh := retask_valid h hl
  have hc' := retask_consistent hc hl
  have ht' : (t.1, t.2.1, H t.2.1 t.2.2) ∈ hierVals H T g := List.mem_map.2 ⟨t, ht, rfl⟩
  have e : ∀ q < numLocal refs t.2.1, valueAtPlace refs n (hierVals H T) (spatialOf refs t.2.1 q) =
      H t.2.1 t.2.2 q := by
    intro q hq
    obtain ⟨l, hl1, hl2⟩ := exists_subspace_of_point h.ref hL hq
    rw [valueAtPlace_agrees hh hv hg ht' hl1 hl2, ← hv g hg _ ht' q hq,
      hc' g hg _ ht' l ((mem_downSet_iff _ _).1 hl1).2, one_mul]
  rw [((hm _ hL).congr _ _ (by rw [hnum]; exact e) p (by rw [hnum]; exact hp)).2,
    ((hm _ hL).inv _ p (by rw [hnum]; exact hp)).1]

/-- C73: with one process per group, a second complete combination (hierarchize, combine,
dehierarchize) changes nothing, whatever the values were before the first one, for all bases in which
hierarchization can be undone. -/
theorem C73_combine_twice [Field K] [CharZero K] (refs : List RefDim) (levels : List (List ℕ))
    (n : ℕ) (hn : n ≤ 256) (T : ℕ → List (K × List ℕ × (ℕ → K))) (h : ValidSystem refs levels n T)
    (hs : Serial refs) (P : CombineParams) (hP : ParamsOk refs P)
    (htotal : (levels.map (subspaceCount refs)).sum < 2 ^ 31) (hc : Consistent n T)
    (variant variant' : CombinationVariant) (maxChunk maxChunk' : ℕ)
    (hu : Usable refs n T variant maxChunk) (hu' : Usable refs n T variant' maxChunk')
    (junk1 junk2 junk3 junk4 : ℕ → ℕ → ℕ → ℕ → ℕ → K) :
    ∃ R R', combineAtOnce P variant maxChunk levels n junk1 junk2 (fun g => tasksOf refs (T g)) =
        some R ∧
      combineAtOnce P variant' maxChunk' levels n junk3 junk4 R = some R' ∧
      ∀ g < n, SameTasks (R g) (R' g) := by
  obtain ⟨H, D, hm⟩ := compMaps (K := K) h.ref hs hP
  obtain ⟨T', a1, a2⟩ := atOnce_formula hn h hs hP htotal hu hm junk1 junk2
  have hl : ∀ g < n, (T' g).map (fun t => (t.1, t.2.1)) = (T g).map fun t => (t.1, t.2.1) :=
    fun g hg => (a2 g hg).levels
  have hv : Agrees refs n (hierVals H T') (valueAtPlace refs n (hierVals H T)) := by
    intro g hg t ht p hp
    obtain ⟨t', ht', rfl⟩ := List.mem_map.1 ht
    obtain ⟨t0, ht0, e, hval⟩ := transformed_mem (a2 g hg) ht'
    have hL : ValidComponent refs t'.2.1 := e ▸ h.comp g hg t0 ht0
    have hnum : ((compDims refs P t'.2.1).map fun s => nodal s.lmax s.b).prod =
        numLocal refs t'.2.1 := by
      rw [compDims_sizes hs hP hL.le.length_eq]; rfl
    simp only at hp ⊢
    rw [((hm _ hL).congr _ _ (by rw [hnum]; exact hval) p (by rw [hnum]; exact hp)).1,
      ((hm _ hL).inv _ p (by rw [hnum]; exact hp)).2]
  obtain ⟨R', b1, b2⟩ := atOnce_unchanged hn (retask_valid h hl) hs hP htotal
    (retask_consistent hc hl) (usable_congr hl hu') hm hv junk3 junk4
  exact ⟨_, R', a1, b1, b2⟩

/-! ### Hat functions -/

theorem effectiveLMin_zero {refs : List RefDim} {P : CombineParams} (hP : ParamsOk refs P) {k : ℕ}
    (hk : k < refs.length) (h0 : refs[k].boundary = 0) :
    (effectiveLMin P.boundary P.lmin)[k]'(by rw [length_effectiveLMin, hP.lmin]; exact hk) = 0 := by
  have : (P.boundary.any fun b => b == 0) = true := by
    rw [hP.boundary, List.any_eq_true]
    exact ⟨0, List.mem_map.2 ⟨refs[k], List.getElem_mem hk, h0⟩, by simp⟩
  simp [effectiveLMin, this]

/-- Hierarchizing samples of a function with hat functions gives samples of another function, the same
for all component grids. -/
theorem hier_samples [Field K] [CharZero K] {refs : List RefDim} (hr : ∀ r ∈ refs, ValidRef r)
    (hs : Serial refs) {P : CombineParams} (hP : ParamsOk refs P) (hhat : ∀ β ∈ P.bases, β = .hat)
    {H D : List ℕ → (ℕ → K) → ℕ → K}
    (hm : ∀ L, ValidComponent refs L →
      GridMaps (compDims refs P L) (selectedDims P.sel) (H L) (D L)) (f : List ℕ → K) :
    ∃ v : List ℕ → K, ∀ L, ValidComponent refs L → ∀ u : ℕ → K,
      (∀ p < numLocal refs L, u p = f (spatialOf refs L p)) →
      ∀ p < numLocal refs L, H L u p = v (spatialOf refs L p) := by
  by_cases hpos : ∀ r ∈ refs, 1 ≤ r.level
  swap
  · refine ⟨fun _ => 0, fun L hL => ?_⟩
    push Not at hpos
    obtain ⟨r, hr', hlt⟩ := hpos
    obtain ⟨k, hk, rfl⟩ := List.mem_iff_getElem.1 hr'
    have hkL : k < L.length := by rw [hL.le.length_eq]; exact hk
    have h1 := (List.forall₂_iff_get.1 hL.le).2 k hkL hk
    have h3 := hL.pos _ (List.getElem_mem hkL)
    simp only [List.get_eq_getElem] at h1
    omega
  have hR : ValidComponent refs (refs.map (·.level)) := by
    refine ⟨?_, ?_⟩
    · intro Li hLi
      obtain ⟨r, hr', rfl⟩ := List.mem_map.1 hLi
      exact hpos r hr'
    · rw [List.forall₂_map_left_iff]
      exact List.forall₂_same.2 fun _ _ => le_refl _
  have hi := fun L hL => compDims_invertible (L := L) hr hs hP hL
  obtain ⟨A', B', hA'⟩ := grid_linPoles (K := K) (compDims refs P (refs.map (·.level)))
    fun s hs => ((hi _ hR).1 s hs).1
  refine ⟨actAll ((compDims refs P (refs.map (·.level))).map fun s => nodal s.lmax s.b) A'
    (selectedDims P.sel) f, fun L hL u hu p hp => ?_⟩
  obtain ⟨A, B, hA⟩ := grid_linPoles (K := K) (compDims refs P L)
    fun s hs => ((hi _ hL).1 s hs).1
  obtain ⟨hlR, heR⟩ := compDims_getElem hs hP hR.le.length_eq
  obtain ⟨hlL, heL⟩ := compDims_getElem hs hP hL.le.length_eq
  have hsz := compDims_sizes hs hP hL.le.length_eq
  have hd : ∀ k ∈ selectedDims P.sel, k < (compDims refs P L).length := by
    intro k hk
    rw [hlL, ← hP.sel]
    exact selectedDims_lt k hk
  have hd' : ∀ k ∈ selectedDims P.sel,
      k < ((compDims refs P L).map fun s => poleLength s.lmax s.b).length := by simpa using hd
  have hnum : ((compDims refs P L).map fun s => nodal s.lmax s.b).prod = numLocal refs L := by
    rw [hsz]; rfl
  obtain ⟨m, a1, a2, a3⟩ := (hm _ hL).hier (fun _ _ _ => 0) ⟨numLocal refs L, u⟩ hnum.symm
  obtain ⟨m', b1, b2, b3⟩ := transformGrid_eq (grid_pos _ (hi _ hL).2) hd'
    (fun k hk => (hA k (hd k hk) fun _ _ _ => 0).1) ⟨numLocal refs L, u⟩ hnum.symm
  obtain rfl := Option.some.inj (a1.symm.trans b1)
  rw [← a3 p hp]
  obtain ⟨c1, c2⟩ := getVectorIndex_spec ((compDims refs P L).map fun s => nodal s.lmax s.b) p
    (by rw [hnum]; exact hp)
  have hb3 := b3 _ c1
  simp only at hb3
  rw [show sequentialIndex ((compDims refs P L).map fun s => poleLength s.lmax s.b) _ = p from c2]
    at hb3
  rw [hb3]
  have hagree := actAll_restrict (K := K)
    (sizes := (compDims refs P L).map fun s => poleLength s.lmax s.b)
    (sizes' := (compDims refs P (refs.map (·.level))).map fun s => poleLength s.lmax s.b)
    (ρ := List.zipWith refOf refs L) (A := A) (A' := A') (dims := selectedDims P.sel)
    (by rw [List.length_zipWith, List.length_map, hL.le.length_eq]; omega) hd' ?_
    (fun x => u (sequentialIndex ((compDims refs P L).map fun s => poleLength s.lmax s.b) x)) f ?_
  · have := hagree _ c1
    rw [this]
    unfold spatialOf
    rw [← hsz]
    rfl
  · intro k hk w i hik
    have hk1 := hd k hk
    have hk2 : k < refs.length := by omega
    have hk3 : k < (compDims refs P (refs.map (·.level))).length := by omega
    have hkL : k < L.length := by rw [hL.le.length_eq]; exact hk2
    have e1 : ((compDims refs P L).map fun s => poleLength s.lmax s.b).getD k 0 =
        nodal L[k] refs[k].boundary := by
      rw [List.getD_eq_getElem _ _ (by simpa using hk1), List.getElem_map, heL k hk2]
      rfl
    have e2 : ((compDims refs P (refs.map (·.level))).map fun s => poleLength s.lmax s.b).getD k 0 =
        nodal refs[k].level refs[k].boundary := by
      rw [List.getD_eq_getElem _ _ (by simpa using hk3), List.getElem_map, heR k hk2]
      simp [poleLength, nodal]
    have hser := hs _ (List.getElem_mem hk2)
    have e3 : (List.zipWith refOf refs L).getD k id =
        fun j => refIndex refs[k].boundary (refs[k].level - L[k]) j := by
      rw [List.getD_eq_getElem _ _ (by rw [List.length_zipWith]; omega), List.getElem_zipWith]
      funext j
      unfold refOf
      rw [localOf_serial hser, zero_add]
    have hb := hhat _ (List.getElem_mem (l := P.bases) (n := k)
      (by rw [← hP.bases.length_eq]; exact hk2))
    have h2 := (List.forall₂_iff_get.1 hP.bases).2 k hk2 (by rw [← hP.bases.length_eq]; exact hk2)
    have h1 := (List.forall₂_iff_get.1 hL.le).2 k hkL hk2
    simp only [List.get_eq_getElem] at h1 h2
    have h29 : refs[k].level ≤ 29 := by
      rcases h2 with h2 | h2 <;> omega
    have hAk := (hA k hk1 fun _ _ _ => 0).1
    have hAk' := (hA' k hk3 fun _ _ _ => 0).1
    rw [e1] at hAk hik ⊢
    rw [e2] at hAk' ⊢
    rw [e3]
    rw [List.getElem?_eq_getElem hk1, heL k hk2] at hAk
    rw [List.getElem?_eq_getElem hk3, heR k hk2] at hAk'
    simp only [Option.bind_some, hb, List.getElem_map] at hAk hAk'
    exact hat_restrict (hr _ (List.getElem_mem hk2)).boundary h29 h1
      (effectiveLMin_zero hP hk2) hAk hAk' w hik
  · intro x hx
    have hq := sequentialIndex_lt _ x hx
    have hx' : InBox ((List.zipWith localOf refs L).map (·.size)) x := hsz ▸ hx
    simp only
    rw [hu _ (by rw [← hnum]; exact hq)]
    unfold spatialOf
    rw [← hsz]
    congr 2
    exact getVectorIndex_sequentialIndex _ _ hx

/-- C73: with hat functions and one process per group, a complete combination of nodal values changes
nothing if all component grids hold the values of one function `f` of the place. -/
theorem C73_samples_unchanged [Field K] [CharZero K] (refs : List RefDim) (levels : List (List ℕ))
    (n : ℕ) (hn : n ≤ 256) (T : ℕ → List (K × List ℕ × (ℕ → K))) (h : ValidSystem refs levels n T)
    (hs : Serial refs) (P : CombineParams) (hP : ParamsOk refs P) (hhat : ∀ β ∈ P.bases, β = .hat)
    (htotal : (levels.map (subspaceCount refs)).sum < 2 ^ 31) (hc : Consistent n T)
    (f : List ℕ → K) (hf : Agrees refs n T f)
    (variant : CombinationVariant) (maxChunk : ℕ) (hu : Usable refs n T variant maxChunk)
    (junk junk' : ℕ → ℕ → ℕ → ℕ → ℕ → K) :
    ∃ R, combineAtOnce P variant maxChunk levels n junk junk' (fun g => tasksOf refs (T g)) =
        some R ∧ ∀ g < n, SameTasks (tasksOf refs (T g)) (R g) := by
  obtain ⟨H, D, hm⟩ := compMaps (K := K) h.ref hs hP
  obtain ⟨v, hv⟩ := hier_samples h.ref hs hP hhat hm f
  refine atOnce_unchanged hn h hs hP htotal hc hu hm (v := v) ?_ junk junk'
  intro g hg t ht p hp
  obtain ⟨t', ht', rfl⟩ := List.mem_map.1 ht
  exact hv _ (h.comp g hg t' ht') _ (fun q hq => hf g hg t' ht' q hq) p hp

/-! ### The hypotheses can be met -/

/-- Two dimensions of level 2 on one process, one with and one without boundary points. -/
def serialRefs : List RefDim := [⟨2, 2, [0], 0⟩, ⟨2, 0, [0], 0⟩]

/-- Three component grids on two groups with values `v` of the place. -/
def serialSystem (v : List ℕ → ℚ) (g : ℕ) : List (ℚ × List ℕ × (ℕ → ℚ)) :=
  if g = 0 then [(1, [1, 2], fun q => v (spatialOf serialRefs [1, 2] q)),
    (-1, [1, 1], fun q => v (spatialOf serialRefs [1, 1] q))]
  else [(1, [2, 1], fun q => v (spatialOf serialRefs [2, 1] q))]

theorem serialSystem_mem {v : List ℕ → ℚ} {g : ℕ} {t : ℚ × List ℕ × (ℕ → ℚ)}
    (ht : t ∈ serialSystem v g) : t.2.1 ∈ [[1, 1], [1, 2], [2, 1]] ∧
      ∀ p, t.2.2 p = v (spatialOf serialRefs t.2.1 p) := by
  unfold serialSystem at ht
  split at ht
  · simp only [List.mem_cons, List.not_mem_nil, or_false] at ht
    rcases ht with rfl | rfl <;> exact ⟨by simp, fun _ => rfl⟩
  · simp only [List.mem_cons, List.not_mem_nil, or_false] at ht
    rcases ht with rfl
    exact ⟨by simp, fun _ => rfl⟩

theorem serialSystem_consistent (v : List ℕ → ℚ) : Consistent 2 (serialSystem v) := by
  have hlev : ∀ g, ∀ t ∈ serialSystem v g, t.2.1 = [1, 1] ∨ t.2.1 = [1, 2] ∨ t.2.1 = [2, 1] := by
    intro g t ht
    simpa using (serialSystem_mem ht).1
  intro g hg t ht l hl
  have hex : l ∈ [[0, 0], [0, 1], [0, 2], [1, 0], [1, 1], [1, 2], [2, 0], [2, 1]] := by
    rcases hlev g t ht with h | h | h <;> rw [h] at hl <;>
    · obtain ⟨a, b, rfl, ha, hb⟩ : ∃ a b, l = [a, b] ∧ a ≤ 2 ∧ b ≤ 2 ∧ a + b ≤ 3 := by
        cases hl with
        | cons h1 h2 =>
          cases h2 with
          | cons h3 h4 =>
            cases h4
            exact ⟨_, _, rfl, by omega, by omega, by omega⟩
      obtain ⟨hb, hab⟩ := hb
      interval_cases a <;> interval_cases b <;> simp_all
  have hc : ∀ l ∈ [[0, 0], [0, 1], [0, 2], [1, 0], [1, 1], [1, 2], [2, 0], [2, 1]],
      coeffAbove 2 (serialSystem v) l = 1 := by
    intro l hl
    simp only [List.mem_cons, List.not_mem_nil, or_false] at hl
    rcases hl with rfl | rfl | rfl | rfl | rfl | rfl | rfl | rfl <;>
      simp [coeffAbove, serialSystem, VecLe, List.range_succ]
  exact hc l hex

example (v : List ℕ → ℚ) : ValidSystem serialRefs [[1, 1], [1, 2], [2, 1]] 2 (serialSystem v) ∧
    Serial serialRefs ∧
    ParamsOk serialRefs ⟨[2, 0], [true, true], [.hat, .hat], [1, 1]⟩ ∧
    Consistent 2 (serialSystem v) ∧ Agrees serialRefs 2 (serialSystem v) v ∧
    Usable serialRefs 2 (serialSystem v) .sparseGridReduce 5 ∧
    ([[1, 1], [1, 2], [2, 1]].map (subspaceCount serialRefs)).sum < 2 ^ 31 ∧
    numLocal serialRefs [1, 2] = 9 := by
  have hlev : ∀ g, ∀ t ∈ serialSystem v g, t.2.1 = [1, 1] ∨ t.2.1 = [1, 2] ∨ t.2.1 = [2, 1] := by
    intro g t ht
    simpa using (serialSystem_mem ht).1
  refine ⟨.of_full ?_ (by decide) ?_ ?_, ?_, ⟨rfl, rfl, rfl, ?_⟩, ?_, ?_,
    ⟨by decide, by decide, Or.inl rfl⟩, by decide +kernel, by decide +kernel⟩
  · intro r hr
    simp only [serialRefs, List.mem_cons, List.not_mem_nil, or_false] at hr
    rcases hr with rfl | rfl <;> exact ⟨by decide, ⟨rfl, by decide, by decide⟩, by decide⟩
  · intro g hg t ht
    rcases hlev g t ht with h | h | h <;> rw [h] <;> exact ⟨by decide, by simp [serialRefs]⟩
  · intro g hg t ht
    rcases hlev g t ht with h | h | h <;> rw [h] <;> decide +kernel
  · intro r hr
    simp only [serialRefs, List.mem_cons, List.not_mem_nil, or_false] at hr
    rcases hr with rfl | rfl <;> exact ⟨rfl, rfl⟩
  · exact .cons (Or.inl ⟨rfl, by decide⟩) (.cons (Or.inl ⟨rfl, by decide⟩) .nil)
  · exact serialSystem_consistent v
  · intro g hg t ht p hp
    exact (serialSystem_mem ht).2 p

end Verif

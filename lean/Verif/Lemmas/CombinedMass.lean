import Verif.Lemmas.CombinedValues

/-!
# The mass of component grids and its combination
-/

namespace Verif

variable {K : Type} [Field K]

/-- The integral over the unit interval of the function which is linear between the nodes of level `l` with
boundary flag `b` and has the values `v` at the nodes (trapezoidal rule; the function is zero at the ends without
boundary points, and has the value of the left end at the right one with one boundary point). -/
def trapOf (b l : ℕ) (v : ℕ → K) : K := trapezoid 1 (2 ^ l) (poleValue b l ⟨nodal l b, v⟩) / 2 ^ l

/-- The mass of a component grid of level `L`: the integral over the unit cube of the function which is linear
between neighbouring grid points in every dimension and has the value `f x` at the grid point with the indices
`x`. -/
def mass : List RefDim → List ℕ → (List ℕ → K) → K
  | r :: refs, l :: L, f => trapOf r.boundary l fun i => mass refs L fun x => f (i :: x)
  | _, _, f => f []

/-- The mass of a component grid with its data. -/
def massOf (refs : List RefDim) (t : K × List ℕ × (ℕ → K)) : K :=
  mass refs t.2.1 fun x => t.2.2 (sequentialIndex (wholeSizes refs t.2.1) x)

/-- The masses of all component grids of all groups, weighted with the coefficients of the grids. -/
def combinedMass (refs : List RefDim) (n : ℕ) (T : ℕ → List (K × List ℕ × (ℕ → K))) : K :=
  ((List.range n).map fun g => ((T g).map fun t => t.1 * massOf refs t).sum).sum

/-! ### Linearity -/

theorem trapOf_congr {b l : ℕ} (hb : b ≤ 2) {v w : ℕ → K} (h : ∀ i < nodal l b, v i = w i) :
    trapOf b l v = trapOf b l w := by
  unfold trapOf
  congr 1
  refine trapezoid_congr _ _ _ _ (2 ^ l) (by rw [one_mul]) fun p hp => ?_
  have hpos : 0 < 2 ^ l := by positivity
  have hn : nodal l b = 2 ^ l + b - 1 := rfl
  unfold poleValue
  simp only
  split_ifs with h0 h1 h2
  · rfl
  · exact h _ (by omega)
  · exact h _ (by omega)
  · exact h _ (by omega)

theorem trapOf_lin (b l : ℕ) (a c : K) (v w : ℕ → K) :
    trapOf b l (fun i => a * v i + c * w i) = a * trapOf b l v + c * trapOf b l w := by
  have e : poleValue b l ⟨nodal l b, fun i => a * v i + c * w i⟩ =
      fun p => a * poleValue b l ⟨nodal l b, v⟩ p + c * poleValue b l ⟨nodal l b, w⟩ p := by
    funext p
    unfold poleValue
    simp only
    split_ifs <;> simp
  unfold trapOf
  rw [e]
  unfold trapezoid
  rw [mul_div_assoc', mul_div_assoc', ← add_div]
  congr 1
  simp only [Finset.mul_sum]
  rw [← Finset.sum_add_distrib]
  exact Finset.sum_congr rfl fun i _ => by ring

theorem mass_congr {refs : List RefDim} (hb : ∀ r ∈ refs, r.boundary ≤ 2) {L : List ℕ}
    (hL : L.length = refs.length) {f g : List ℕ → K} (h : ∀ x, InBox (wholeSizes refs L) x → f x = g x) :
    mass refs L f = mass refs L g := by
  induction refs generalizing L f g with
  | nil =>
    obtain rfl := List.length_eq_zero_iff.1 hL
    exact h [] .nil
  | cons r refs ih =>
    cases L with
    | nil => simp at hL
    | cons l L =>
      unfold mass
      refine trapOf_congr (hb r (by simp)) fun i hi => ?_
      exact ih (fun r h => hb r (by simp [h])) (by simpa using hL) fun x hx => h _ (.cons hi hx)

theorem mass_lin (refs : List RefDim) (L : List ℕ) (a c : K) (f g : List ℕ → K) :
    mass refs L (fun x => a * f x + c * g x) = a * mass refs L f + c * mass refs L g := by
  induction refs generalizing L f g with
  | nil => unfold mass; rfl
  | cons r refs ih =>
    cases L with
    | nil => unfold mass; rfl
    | cons l L =>
      unfold mass
      rw [← trapOf_lin]
      congr 1
      funext i
      exact ih L _ _

theorem mass_zero (refs : List RefDim) (L : List ℕ) : mass refs L (fun _ => (0 : K)) = 0 := by
  have := mass_lin refs L (0 : K) 0 (fun _ => 0) (fun _ => 0)
  simpa using this

theorem mass_listSum {α : Type} (refs : List RefDim) (L : List ℕ) (l : List α) (c : α → K)
    (f : α → List ℕ → K) :
    mass refs L (fun x => (l.map fun a => c a * f a x).sum) = (l.map fun a => c a * mass refs L (f a)).sum := by
  induction l with
  | nil => exact mass_zero refs L
  | cons a l ih =>
    simp only [List.map_cons, List.sum_cons]
    have := mass_lin refs L (c a) 1 (f a) fun x => (l.map fun a => c a * f a x).sum
    simp only [one_mul] at this
    rw [this, ih]

theorem mass_sum (refs : List RefDim) (L : List ℕ) (n : ℕ) (c : ℕ → K) (f : ℕ → List ℕ → K) :
    mass refs L (fun x => ∑ j ∈ Finset.range n, c j * f j x) =
      ∑ j ∈ Finset.range n, c j * mass refs L (f j) := by
  induction n with
  | zero => simpa using mass_zero refs L
  | succ n ih =>
    have := mass_lin refs L 1 (c n) (fun x => ∑ j ∈ Finset.range n, c j * f j x) (f n)
    simp only [one_mul] at this
    simp only [Finset.sum_range_succ]
    rw [this, ih]

/-! ### One dimension -/

/-- The matrix of a hierarchization keeps the mass on the points of level `m`. -/
def MassPole (b m l : ℕ) (A : ℕ → ℕ → K) : Prop :=
  ∀ v : ℕ → K, trapOf b m (fun i => ∑ j ∈ Finset.range (nodal l b), A (refIndex b (l - m) i) j * v j) =
    trapOf b l v

theorem massPole [CharZero K] {β : Basis} (hβ : β.massConserving = true) {b m l : ℕ} (hb : b = 1 ∨ b = 2)
    (hb1 : b = 1 → β.periodic = true) (hl : l ≤ 28) (hm : m ≤ l) {A : ℕ → ℕ → K}
    (hA : LinPole (nodal l b) (fun _ loc => hierPole β b l m 0 [] (fun _ => 0) loc) A) :
    MassPole b m l A := by
  intro v
  obtain ⟨r, h1, h2, h3, -⟩ := C26_mass_conserved_partial β hβ b l m hb hb1 hl hm
    (⟨nodal l b, v⟩ : Buf K) rfl fun _ => 0
  obtain ⟨r', a1, -, a3⟩ := hA 0 ⟨nodal l b, v⟩ rfl
  obtain rfl := Option.some.inj (h1.symm.trans a1)
  simp only at a3
  have hp : (2 : K) ^ l = 2 ^ (l - m) * 2 ^ m := by rw [← pow_add]; congr 1; omega
  have hpn : 2 ^ l = 2 ^ (l - m) * 2 ^ m := by rw [← pow_add]; congr 1; omega
  have hpos : 0 < 2 ^ (l - m) := by positivity
  have hposl : 0 < 2 ^ l := by positivity
  have hnl : nodal l b = 2 ^ l + b - 1 := rfl
  have hb0 : b ≠ 0 := by omega
  unfold trapOf
  rw [← h3]
  have e : trapezoid (2 ^ (l - m)) (2 ^ m) (poleValue b l r) = 2 ^ (l - m) *
      trapezoid 1 (2 ^ m) (poleValue b m (⟨nodal m b, fun i =>
        ∑ j ∈ Finset.range (nodal l b), A (refIndex b (l - m) i) j * v j⟩ : Buf K)) := by
    have key : ∀ i ≤ 2 ^ m, poleValue b l r (i * 2 ^ (l - m)) = poleValue b m (⟨nodal m b, fun i =>
        ∑ j ∈ Finset.range (nodal l b), A (refIndex b (l - m) i) j * v j⟩ : Buf K) i := by
      intro i hi
      have hil : i * 2 ^ (l - m) ≤ 2 ^ l := by
        rw [hpn, mul_comm]; exact Nat.mul_le_mul_left _ hi
      have hiff : i * 2 ^ (l - m) = 2 ^ l ↔ i = 2 ^ m := by
        rw [hpn, mul_comm, Nat.mul_left_cancel_iff hpos]
      unfold poleValue refIndex
      simp only [if_neg hb0, hiff]
      split_ifs with h
      · rw [a3 0 (by rw [hnl]; omega), zero_mul]
      · rw [a3 _ (by
          rcases hb with hb | hb
          · have : i * 2 ^ (l - m) ≠ 2 ^ l := fun h' => h ⟨hb, hiff.1 h'⟩
            omega
          · omega)]
    unfold trapezoid
    push_cast
    rw [one_mul]
    congr 1
    refine Finset.sum_congr rfl fun i hi => ?_
    rw [Finset.mem_range] at hi
    rw [key i (by omega), key (i + 1) (by omega), mul_one, mul_one]
  rw [e, hp, mul_div_mul_left _ _ (pow_ne_zero _ two_ne_zero)]

/-! ### All dimensions -/

/-- The index on the grid of level `L` of the point `x` of the grid of level `M`. -/
def refined (refs : List RefDim) (M L x : List ℕ) : List ℕ :=
  List.zipWith (fun r x => r x) (refineMap refs M L) x

omit [Field K] in
theorem refIndex_self (b l i : ℕ) : refIndex b (l - l) i = i := by
  unfold refIndex
  rw [Nat.sub_self, pow_zero]
  split <;> omega

theorem mass_act {refs : List RefDim} {M L : List ℕ} (hM : M.length = refs.length)
    (hL : L.length = refs.length) {d : ℕ} (hd : d < refs.length) {A : ℕ → ℕ → K}
    (hA : MassPole refs[d].boundary M[d] L[d] A) (g : List ℕ → K) :
    mass refs M (fun x => act (nodal L[d] refs[d].boundary) A d g (refined refs M L x)) =
      mass refs (M.set d L[d]) fun x => g (refined refs (M.set d L[d]) L x) := by
  induction d generalizing refs M L g with
  | zero =>
    cases refs with
    | nil => simp at hd
    | cons r refs =>
      cases M with
      | nil => simp at hM
      | cons m M =>
        cases L with
        | nil => simp at hL
        | cons l L =>
          simp only [List.getElem_cons_zero, List.set_cons_zero] at hA ⊢
          unfold mass
          simp only [refined, refineMap, List.zip_cons_cons, List.zipWith_cons_cons, refIndex_self]
          rw [← hA]
          congr 1
          funext i
          rw [← mass_sum]
          rfl
  | succ d ih =>
    cases refs with
    | nil => simp at hd
    | cons r refs =>
      cases M with
      | nil => simp at hM
      | cons m M =>
        cases L with
        | nil => simp at hL
        | cons l L =>
          simp only [List.getElem_cons_succ, List.set_cons_succ] at hA ⊢
          unfold mass
          congr 1
          funext i
          exact ih (by simpa using hM) (by simpa using hL) (by simpa using hd) hA
            fun x => g (refIndex r.boundary (l - m) i :: x)

omit [Field K] in
theorem refined_self (refs : List RefDim) {L x : List ℕ} (hL : L.length = refs.length)
    (hx : x.length = refs.length) : refined refs L L x = x := by
  refine List.ext_getElem ?_ fun k h1 h2 => ?_
  · simp [refined, refineMap, hL, hx]
  · simp only [refined, refineMap, List.getElem_zipWith, List.getElem_zip, refIndex_self]

theorem mass_actAll {refs : List RefDim} (hb : ∀ r ∈ refs, r.boundary ≤ 2) {L : List ℕ}
    (hL : L.length = refs.length) (A : ℕ → ℕ → ℕ → K) (dims : List ℕ) (hd : ∀ k ∈ dims, k < refs.length)
    (hnd : dims.Nodup) {M : List ℕ} (hM : M.length = refs.length)
    (hA : ∀ k ∈ dims, ∀ (h1 : k < refs.length) (h2 : k < M.length) (h3 : k < L.length),
      MassPole refs[k].boundary M[k] L[k] (A k))
    (hrest : ∀ k, k ∉ dims → M.getD k 0 = L.getD k 0) (f : List ℕ → K) :
    mass refs M (fun x => actAll (wholeSizes refs L) A dims f (refined refs M L x)) = mass refs L f := by
  induction dims using List.reverseRecOn generalizing M with
  | nil =>
    obtain rfl : M = L := by
      refine List.ext_getElem (by omega) fun k h1 h2 => ?_
      have := hrest k (by simp)
      rwa [List.getD_eq_getElem _ _ h1, List.getD_eq_getElem _ _ h2] at this
    refine mass_congr hb hL fun x hx => ?_
    rw [refined_self refs hL (by rw [hx.length_eq]; simp [wholeSizes, hL])]
    rfl
  | append_singleton ds d ih =>
    have hdl : d < refs.length := hd d (by simp)
    have hsz : (wholeSizes refs L).getD d 0 = nodal (L[d]'(by omega)) refs[d].boundary := by
      rw [List.getD_eq_getElem _ _ (by simp [wholeSizes, hL, hdl])]
      simp only [wholeSizes, List.getElem_zipWith]
    have e : actAll (wholeSizes refs L) A (ds ++ [d]) f =
        act (nodal (L[d]'(by omega)) refs[d].boundary) (A d) d (actAll (wholeSizes refs L) A ds f) := by
      unfold actAll
      rw [List.foldl_append, List.foldl_cons, List.foldl_nil, hsz]
    have hnd' := List.nodup_append.1 hnd
    have hdn : d ∉ ds := fun h => hnd'.2.2 d h d (by simp) rfl
    rw [e, mass_act hM hL hdl (hA d (by simp) hdl (by omega) (by omega))]
    refine ih (fun k hk => hd k (by simp [hk])) hnd'.1 (by simpa using hM) (fun k hk h1 h2 h3 => ?_)
      fun k hk => ?_
    · have hne : d ≠ k := fun h => hdn (h ▸ hk)
      rw [List.getElem_set_ne hne]
      exact hA k (by simp [hk]) h1 (by omega) h3
    · by_cases hkd : d = k
      · subst hkd
        rw [List.getD_eq_getElem _ _ (by simp; omega), List.getElem_set_self,
          List.getD_eq_getElem _ _ (by omega)]
      · rw [getD_set_ne _ _ _ _ _ hkd]
        exact hrest k (by
          simp only [List.mem_append, List.mem_singleton, not_or]
          exact ⟨hk, fun h => hkd h.symm⟩)

/-! ### Component grids -/

/-- The level of the points that carry the mass: the minimum level in dimensions that are hierarchized. -/
def massLevel (P : CombineParams) (L : List ℕ) : List ℕ :=
  (List.range L.length).map fun k =>
    if P.sel.getD k false then (effectiveLMin P.boundary P.lmin).getD k 0 else L.getD k 0

omit [Field K] in
theorem length_massLevel (P : CombineParams) (L : List ℕ) : (massLevel P L).length = L.length := by
  simp [massLevel]

omit [Field K] in
theorem massLevel_le {P : CombineParams} {L : List ℕ}
    (h : List.Forall₂ (· ≤ ·) (effectiveLMin P.boundary P.lmin) L) :
    List.Forall₂ (· ≤ ·) (massLevel P L) L := by
  refine List.forall₂_iff_get.2 ⟨length_massLevel P L, fun k h1 h2 => ?_⟩
  have h3 := (List.forall₂_iff_get.1 h).2 k (by rw [h.length_eq]; exact h2) h2
  simp only [List.get_eq_getElem, massLevel, List.getElem_map, List.getElem_range] at h3 ⊢
  have hk : k < (effectiveLMin P.boundary P.lmin).length := by rw [h.length_eq]; exact h2
  rw [List.getD_eq_getElem (effectiveLMin P.boundary P.lmin) _ hk, List.getD_eq_getElem L _ h2]
  split <;> omega

/-- Hierarchization keeps the mass on the points of the level `massLevel`. -/
theorem mass_hier [CharZero K] {refs : List RefDim} (hr : ∀ r ∈ refs, ValidRef r)
    {P : CombineParams} (hP : ParamsOk refs P)
    (hmc : ∀ k, P.sel.getD k false = true → ∀ β, P.bases[k]? = some β → β.massConserving = true)
    {H D : List ℕ → (ℕ → K) → ℕ → K} {L : List ℕ} (hL : ValidComponent refs L)
    (hm : GridMaps (compDims (oneProcess refs) P L) (selectedDims P.sel) (H L) (D L))
    (hmin : List.Forall₂ (· ≤ ·) (effectiveLMin P.boundary P.lmin) L) (u : ℕ → K) :
    mass refs (massLevel P L) (fun x =>
        H L u (sequentialIndex (wholeSizes refs L) (refined refs (massLevel P L) L x))) =
      mass refs L fun x => u (sequentialIndex (wholeSizes refs L) x) := by
  have hb := fun r hr1 => (hr r hr1).boundary
  have hlL := hL.le.length_eq
  have hlM := length_massLevel P L
  have hlO : (oneProcess refs).length = refs.length := by simp [oneProcess]
  obtain ⟨A, a1, a2⟩ := hier_act (validRef_oneProcess hr) (serial_oneProcess refs) (paramsOk_oneProcess hP)
    (validComponent_oneProcess.2 hL) hm
  simp only [sizes_oneProcess] at a1
  have hd : ∀ k ∈ selectedDims P.sel, k < refs.length := by
    intro j hj
    have := selectedDims_lt j hj
    have := hP.sel
    omega
  have hsel : ∀ k, k ∈ selectedDims P.sel ↔ P.sel.getD k false = true := by
    intro k
    unfold selectedDims
    rw [List.mem_filter, List.mem_range]
    refine ⟨fun h => h.2, fun h => ⟨?_, h⟩⟩
    by_contra hk
    rw [List.getD_eq_getElem?_getD, List.getElem?_eq_none (by omega)] at h
    exact absurd h (by decide)
  rw [← mass_actAll hb hlL A (selectedDims P.sel) hd (selectedDims_nodup P.sel)
    (M := massLevel P L) (by omega)]
  · refine mass_congr hb (by omega) fun x hx => ?_
    have hbx := refineMap_box hb (by omega) (massLevel_le hmin) hx
    have hlt := sequentialIndex_lt _ _ hbx
    rw [a1 u _ (by unfold numLocal; rw [sizes_oneProcess]; exact hlt)]
    show actAll _ _ _ _ (getVectorIndex _ (sequentialIndex _ _)) = _
    unfold refined
    rw [getVectorIndex_sequentialIndex _ _ hbx]
  · intro k hk h1 h2 h3
    have hkb : k < P.bases.length := by rw [← hP.bases.length_eq]; exact h1
    have hke : k < (effectiveLMin P.boundary P.lmin).length := by
      rw [length_effectiveLMin, hP.lmin]; exact h1
    have hks := (hsel k).1 hk
    have hβ := hmc k hks _ (List.getElem?_eq_getElem hkb)
    have hbo := (List.forall₂_iff_get.1 hP.bases).2 k h1 hkb
    have hle := (List.forall₂_iff_get.1 hL.le).2 k h3 h1
    have hml := (List.forall₂_iff_get.1 hmin).2 k hke h3
    simp only [List.get_eq_getElem] at hbo hle hml
    have e : (massLevel P L)[k] = (effectiveLMin P.boundary P.lmin)[k] := by
      simp only [massLevel, List.getElem_map, List.getElem_range]
      rw [if_pos hks, List.getD_eq_getElem _ _ hke]
    rw [e]
    have hA := a2 k hk (by omega) h3
    rw [(oneProcess_getElem refs k (by omega) h1).1] at hA
    rcases hbo with hbo | hbo
    · rw [hbo.1] at hβ
      exact absurd hβ (by decide)
    · exact massPole hβ hbo.2.1 hbo.2.2.1.1 (by omega) hml hA
  · intro k hk
    rw [hsel] at hk
    by_cases hkL : k < L.length
    · rw [List.getD_eq_getElem _ _ (by omega)]
      simp only [massLevel, List.getElem_map, List.getElem_range]
      rw [if_neg hk]
    · rw [List.getD_eq_getElem?_getD, List.getD_eq_getElem?_getD, List.getElem?_eq_none (by omega),
        List.getElem?_eq_none (by omega)]

/-- Data of a component grid with the hierarchical values of places have the mass of these values. -/
theorem mass_dehier [CharZero K] {refs : List RefDim} (hr : ∀ r ∈ refs, ValidRef r)
    {P : CombineParams} (hP : ParamsOk refs P)
    (hmc : ∀ k, P.sel.getD k false = true → ∀ β, P.bases[k]? = some β → β.massConserving = true)
    {H D : List ℕ → (ℕ → K) → ℕ → K} {L : List ℕ} (hL : ValidComponent refs L)
    (hm : GridMaps (compDims (oneProcess refs) P L) (selectedDims P.sel) (H L) (D L))
    (hmin : List.Forall₂ (· ≤ ·) (effectiveLMin P.boundary P.lmin) L) (V : List ℕ → K) :
    (mass refs L fun x => D L (fun q => V (spatialOf (oneProcess refs) L q))
        (sequentialIndex (wholeSizes refs L) x)) =
      mass refs (massLevel P L) fun x => V (placeOf refs (massLevel P L) x) := by
  have hb := fun r hr1 => (hr r hr1).boundary
  have hlL := hL.le.length_eq
  have hlM := length_massLevel P L
  rw [← mass_hier hr hP hmc hL hm hmin]
  refine mass_congr hb (by omega) fun x hx => ?_
  have hbx := refineMap_box hb (by omega) (massLevel_le hmin) hx
  have hlt := sequentialIndex_lt _ _ hbx
  have hnum : ((compDims (oneProcess refs) P L).map fun s => nodal s.lmax s.b).prod =
      (wholeSizes refs L).prod := by
    rw [compDims_sizes (serial_oneProcess refs) (paramsOk_oneProcess hP)
      (validComponent_oneProcess.2 hL).le.length_eq, sizes_oneProcess]
  have := (hm.inv (fun q => V (spatialOf (oneProcess refs) L q)) _ (by rw [hnum]; exact hlt)).2
  unfold refined
  rw [this, spatial_oneProcess, getVectorIndex_sequentialIndex _ _ hbx,
    placeOf_refine (massLevel_le hmin) hL.le]

variable {refs : List RefDim} {n : ℕ} {T : ℕ → List (K × List ℕ × (ℕ → K))}
  {P : CombineParams} {H D : List ℕ → (ℕ → K) → ℕ → K}

/-- The combined hierarchical values on the points of a level that all component grids contain. -/
theorem mass_value [CharZero K] (hr : ∀ r ∈ refs, ValidRef r) (hP : ParamsOk refs P)
    (hmc : ∀ k, P.sel.getD k false = true → ∀ β, P.bases[k]? = some β → β.massConserving = true)
    (hT : ∀ g < n, ∀ t ∈ T g, ValidComponent refs t.2.1)
    (hm : ∀ L, ValidComponent refs L →
      GridMaps (compDims (oneProcess refs) P L) (selectedDims P.sel) (H L) (D L))
    (hmin : ∀ g < n, ∀ t ∈ T g, List.Forall₂ (· ≤ ·) (effectiveLMin P.boundary P.lmin) t.2.1)
    {M : List ℕ} (hlM : M.length = refs.length) (hM : ∀ g < n, ∀ t ∈ T g, massLevel P t.2.1 = M) :
    (mass refs M fun x => valueAtPlace (oneProcess refs) n (hierVals H T) (placeOf refs M x)) =
      combinedMass refs n T := by
  have hb := fun r hr1 => (hr r hr1).boundary
  have e : ∀ x, InBox (wholeSizes refs M) x →
      valueAtPlace (oneProcess refs) n (hierVals H T) (placeOf refs M x) =
        ((List.range n).map fun g => 1 * ((T g).map fun t => t.1 *
          H t.2.1 t.2.2 (sequentialIndex (wholeSizes refs t.2.1) (refined refs M t.2.1 x))).sum).sum := by
    intro x hx
    unfold valueAtPlace
    congr 1
    refine List.map_congr_left fun g hg => ?_
    rw [List.mem_range] at hg
    unfold hierVals
    rw [List.map_map, one_mul]
    congr 1
    refine List.map_congr_left fun t ht => ?_
    simp only [Function.comp]
    congr 1
    have hL := hT g hg t ht
    have hle := massLevel_le (hmin g hg t ht)
    rw [hM g hg t ht] at hle
    have hbx := refineMap_box hb hlM hle hx
    have hlt : sequentialIndex (wholeSizes refs t.2.1) (refined refs M t.2.1 x) <
        numLocal (oneProcess refs) t.2.1 := by
      unfold numLocal; rw [sizes_oneProcess]; exact sequentialIndex_lt _ _ hbx
    have hq : spatialOf (oneProcess refs) t.2.1
        (sequentialIndex (wholeSizes refs t.2.1) (refined refs M t.2.1 x)) = placeOf refs M x := by
      unfold refined
      rw [spatial_oneProcess, getVectorIndex_sequentialIndex _ _ hbx, placeOf_refine hle hL.le]
    rw [Finset.sum_eq_single (sequentialIndex (wholeSizes refs t.2.1) (refined refs M t.2.1 x))]
    · intro q hq1 hne
      rw [Finset.mem_filter, Finset.mem_range] at hq1
      exact absurd (spatialOf_injective hq1.1 hlt (hq1.2.trans hq.symm)) hne
    · intro hne
      exact absurd (Finset.mem_filter.2 ⟨Finset.mem_range.2 hlt, hq⟩) hne
  rw [mass_congr hb hlM e, mass_listSum refs M (List.range n) (fun _ => 1)]
  unfold combinedMass
  congr 1
  refine List.map_congr_left fun g hg => ?_
  rw [List.mem_range] at hg
  rw [one_mul, mass_listSum refs M (T g) (fun t => t.1)]
  congr 1
  refine List.map_congr_left fun t ht => ?_
  congr 1
  have := mass_hier hr hP hmc (hT g hg t ht) (hm _ (hT g hg t ht)) (hmin g hg t ht) t.2.2
  rw [hM g hg t ht] at this
  exact this

/-- After a complete combination every component grid has the combined mass. -/
theorem mass_after [CharZero K] (hr : ∀ r ∈ refs, ValidRef r) (hP : ParamsOk refs P)
    (hmc : ∀ k, P.sel.getD k false = true → ∀ β, P.bases[k]? = some β → β.massConserving = true)
    (hT : ∀ g < n, ∀ t ∈ T g, ValidComponent refs t.2.1)
    (hm : ∀ L, ValidComponent refs L →
      GridMaps (compDims (oneProcess refs) P L) (selectedDims P.sel) (H L) (D L))
    (hmin : ∀ g < n, ∀ t ∈ T g, List.Forall₂ (· ≤ ·) (effectiveLMin P.boundary P.lmin) t.2.1)
    (hsel : ∀ g < n, ∀ t ∈ T g, ∀ g' < n, ∀ t' ∈ T g', ∀ k < refs.length,
      P.sel.getD k false = false → t.2.1.getD k 0 = t'.2.1.getD k 0)
    {g : ℕ} (hg : g < n) {t1 : K × List ℕ × (ℕ → K)} (ht1 : t1 ∈ afterCombination refs n H D T g) :
    massOf refs t1 = combinedMass refs n T := by
  obtain ⟨t, ht, rfl⟩ := List.mem_map.1 ht1
  have hL := hT g hg t ht
  have hlL := hL.le.length_eq
  refine (mass_dehier hr hP hmc hL (hm _ hL) (hmin g hg t ht) _).trans ?_
  refine mass_value hr hP hmc hT hm hmin (by rw [length_massLevel]; exact hlL) fun g' hg' t' ht' => ?_
  have hl' := (hT g' hg' t' ht').le.length_eq
  unfold massLevel
  rw [hl', hlL]
  refine List.map_congr_left fun k hk => ?_
  rw [List.mem_range] at hk
  cases hs : P.sel.getD k false
  · simp only [Bool.false_eq_true, if_false]
    exact hsel g' hg' t' ht' g hg t ht k hk hs
  · simp only [if_true]

end Verif

import Verif.Model.DistributedCombine
import Verif.Props.CombineAtOnce
import Verif.Props.DistributedGrid

/-!
# Lemmas on combinations on process groups
-/

namespace Verif

variable {K : Type}

/-- The reference dimensions as seen by the process with coordinates `c`. -/
def atProcess (refs : List RefDim) (c : List ℕ) : List RefDim :=
  List.zipWith (fun r a => { r with c := a }) refs c

/-- The reference dimensions of one process that has the whole grid. -/
def oneProcess (refs : List RefDim) : List RefDim := refs.map fun r => ⟨r.level, r.boundary, [0], 0⟩

/-- The coordinates of a process of a group with the decompositions `refs`. -/
def InGroup (refs : List RefDim) (c : List ℕ) : Prop :=
  List.Forall₂ (fun a (r : RefDim) => a < r.dec.length) c refs

/-- The component grid of level `L`: decompositions as in `downsampleDecomposition`. -/
def compGrid (refs : List RefDim) (L : List ℕ) : List CompDim :=
  List.zipWith (fun r l => ⟨l, r.boundary, downsampleDecomposition1d r.dec r.level l r.boundary⟩) refs L

/-- The component grid of level `L` for the hierarchization. -/
def compDist (refs : List RefDim) (P : CombineParams) (L : List ℕ) : List DistDim :=
  distDims (compGrid refs L) P.bases (effectiveLMin P.boundary P.lmin)

theorem mem_groupProcesses {refs : List RefDim} {c : List ℕ} :
    c ∈ groupProcesses (refs.map fun r => r.dec.length) ↔ InGroup refs c := by
  unfold groupProcesses InGroup
  rw [List.mem_map, ← List.forall₂_map_right_iff (f := fun r : RefDim => r.dec.length)
    (R := fun a b : ℕ => a < b)]
  constructor
  · rintro ⟨p, hp, rfl⟩
    exact (getVectorIndex_spec _ p (List.mem_range.1 hp)).1
  · intro h
    exact ⟨_, List.mem_range.2 (sequentialIndex_lt _ _ h), getVectorIndex_sequentialIndex _ _ h⟩

theorem serial_oneProcess (refs : List RefDim) : Serial (oneProcess refs) := by
  intro r hr
  obtain ⟨r', -, rfl⟩ := List.mem_map.1 hr
  exact ⟨rfl, rfl⟩

theorem paramsOk_oneProcess {refs : List RefDim} {P : CombineParams} (h : ParamsOk refs P) :
    ParamsOk (oneProcess refs) P := by
  refine ⟨?_, ?_, ?_, ?_⟩
  · rw [h.boundary]
    unfold oneProcess
    rw [List.map_map]
    rfl
  · rw [h.sel]; simp [oneProcess]
  · rw [h.lmin]; simp [oneProcess]
  · unfold oneProcess
    rw [List.forall₂_map_left_iff]
    exact h.bases

theorem validComponent_oneProcess {refs : List RefDim} {L : List ℕ} :
    ValidComponent (oneProcess refs) L ↔ ValidComponent refs L := by
  constructor
  · rintro ⟨h1, h2⟩
    refine ⟨h1, ?_⟩
    unfold oneProcess at h2
    rw [List.forall₂_map_right_iff] at h2
    exact h2
  · rintro ⟨h1, h2⟩
    refine ⟨h1, ?_⟩
    unfold oneProcess
    rw [List.forall₂_map_right_iff]
    exact h2

theorem length_atProcess {refs : List RefDim} {c : List ℕ} (hc : InGroup refs c) :
    (atProcess refs c).length = refs.length := by
  unfold atProcess
  rw [List.length_zipWith, hc.length_eq]
  simp

theorem getElem_atProcess {refs : List RefDim} {c : List ℕ} (hc : InGroup refs c) {k : ℕ}
    (hk : k < refs.length) : (atProcess refs c)[k]'(by rw [length_atProcess hc]; exact hk) =
      { refs[k] with c := c[k]'(by rw [hc.length_eq]; exact hk) } := by
  unfold atProcess
  rw [List.getElem_zipWith]

theorem validComponent_atProcess {refs : List RefDim} {c : List ℕ} (hc : InGroup refs c) {L : List ℕ}
    (h : ValidComponent refs L) : ValidComponent (atProcess refs c) L := by
  refine ⟨h.pos, ?_⟩
  have h2 := h.le
  rw [List.forall₂_iff_get] at h2 ⊢
  refine ⟨by rw [length_atProcess hc, h2.1], fun k h3 h4 => ?_⟩
  have hk : k < refs.length := by rw [← h2.1]; exact h3
  have := h2.2 k h3 hk
  simp only [List.get_eq_getElem] at this ⊢
  rw [getElem_atProcess hc hk]
  exact this

theorem validRef_atProcess {refs : List RefDim} (hr : ∀ r ∈ refs, ValidRef r) {c : List ℕ}
    (hc : InGroup refs c) : ∀ r ∈ atProcess refs c, ValidRef r := by
  intro r h
  obtain ⟨k, hk, rfl⟩ := List.mem_iff_getElem.1 h
  have hk' : k < refs.length := by rw [← length_atProcess hc]; exact hk
  rw [getElem_atProcess hc hk']
  have h1 := hr _ (List.getElem_mem hk')
  have h2 := (List.forall₂_iff_get.1 hc).2 k (by rw [hc.length_eq]; exact hk') hk'
  exact ⟨h1.boundary, h1.dec, h2⟩

theorem validRef_oneProcess {refs : List RefDim} (hr : ∀ r ∈ refs, ValidRef r) :
    ∀ r ∈ oneProcess refs, ValidRef r := by
  intro r h
  obtain ⟨r', h', rfl⟩ := List.mem_map.1 h
  exact ⟨(hr r' h').boundary, ⟨rfl, by simp, by simp⟩, by simp⟩

/-! ### Component grids as distributed grids -/

section compDist

variable {refs : List RefDim} {P : CombineParams} {L : List ℕ}

theorem length_compDist (hP : ParamsOk refs P) (hL : L.length = refs.length) :
    (compDist refs P L).length = refs.length := by
  have h1 := hP.bases.length_eq
  have h2 := length_effectiveLMin P.boundary P.lmin
  have h3 := hP.lmin
  unfold compDist distDims compGrid
  simp only [List.length_map, List.length_zip, List.length_zipWith]
  omega

theorem getElem_compDist (hP : ParamsOk refs P) (hL : L.length = refs.length) {k : ℕ}
    (hk : k < refs.length) :
    (compDist refs P L)[k]'(by rw [length_compDist hP hL]; exact hk) =
      ⟨⟨P.bases[k]'(by rw [← hP.bases.length_eq]; exact hk), refs[k].boundary, L[k],
        (effectiveLMin P.boundary P.lmin)[k]'(by rw [length_effectiveLMin, hP.lmin]; exact hk)⟩,
        downsampleDecomposition1d refs[k].dec refs[k].level L[k] refs[k].boundary⟩ := by
  unfold compDist distDims compGrid
  simp only [List.getElem_map, List.getElem_zip, List.getElem_zipWith]

theorem compDist_dims (hP : ParamsOk refs P) (hL : L.length = refs.length) :
    (compDist refs P L).map (·.dim) = compDims (oneProcess refs) P L := by
  have hl0 : (oneProcess refs).length = refs.length := by simp [oneProcess]
  obtain ⟨hl, he⟩ := compDims_getElem (serial_oneProcess refs) (paramsOk_oneProcess hP)
    (L := L) (by rw [hL, hl0])
  apply List.ext_getElem
  · rw [List.length_map, length_compDist hP hL, hl, hl0]
  · intro k h1 h2
    have hk : k < refs.length := by
      rw [List.length_map, length_compDist hP hL] at h1
      exact h1
    rw [List.getElem_map, getElem_compDist hP hL hk, he k (by omega)]
    simp [oneProcess]

theorem length_downsample (dec : List ℕ) (a b c : ℕ) :
    (downsampleDecomposition1d dec a b c).length = dec.length := by
  unfold downsampleDecomposition1d
  simp only
  split <;> simp

theorem isProcess_compDist (hP : ParamsOk refs P) (hL : L.length = refs.length) (c : List ℕ) :
    IsProcess (compDist refs P L) c ↔ InGroup refs c := by
  unfold IsProcess InGroup
  rw [List.forall₂_iff_get, List.forall₂_iff_get]
  have hlc := length_compDist hP hL
  constructor
  · rintro ⟨hl, h⟩
    refine ⟨by omega, fun k h1 h2 => ?_⟩
    have := h k h1 (by omega)
    simp only [List.get_eq_getElem, getElem_compDist hP hL h2, length_downsample] at this
    exact this
  · rintro ⟨hl, h⟩
    refine ⟨by omega, fun k h1 h2 => ?_⟩
    have hk : k < refs.length := by omega
    simp only [List.get_eq_getElem, getElem_compDist hP hL hk, length_downsample]
    exact h k h1 hk

theorem partSizes_eq (g : List DistDim) (c : List ℕ) : partSizes g c = List.zipWith DistDim.size g c := by
  induction g generalizing c with
  | nil => rfl
  | cons s g ih =>
    cases c with
    | nil => rfl
    | cons a c => rw [partSizes_cons, ih, List.zipWith_cons_cons]

theorem partSizes_compDist (hP : ParamsOk refs P) (hL : L.length = refs.length) {c : List ℕ}
    (hc : InGroup refs c) :
    partSizes (compDist refs P L) c = (List.zipWith localOf (atProcess refs c) L).map (·.size) := by
  have hl := hc.length_eq
  have hlc := length_compDist hP hL
  apply List.ext_getElem
  · rw [length_partSizes (by omega), List.length_map, List.length_zipWith, length_atProcess hc]
    omega
  · intro k h1 h2
    have hk : k < refs.length := by
      rw [length_partSizes (by omega)] at h1
      omega
    rw [List.getElem_map, List.getElem_zipWith, getElem_atProcess hc hk]
    simp only [partSizes_eq, List.getElem_zipWith, getElem_compDist hP hL hk]
    rfl

theorem partLower_zipWith (g : List DistDim) (c : List ℕ) :
    partLower g c = List.zipWith DistDim.lower g c := rfl

theorem partLower_compDist (hP : ParamsOk refs P) (hL : L.length = refs.length) {c : List ℕ}
    (hc : InGroup refs c) :
    partLower (compDist refs P L) c = (List.zipWith localOf (atProcess refs c) L).map (·.first) := by
  have hl := hc.length_eq
  have hlc := length_compDist hP hL
  apply List.ext_getElem
  · unfold partLower
    simp only [List.length_map, List.length_zipWith, length_atProcess hc]
    omega
  · intro k h1 h2
    have hk : k < refs.length := by
      unfold partLower at h1
      rw [List.length_zipWith] at h1
      omega
    rw [List.getElem_map, List.getElem_zipWith, getElem_atProcess hc hk]
    simp only [partLower_zipWith, List.getElem_zipWith, getElem_compDist hP hL hk]
    rfl

theorem gridSizes_compDist (hP : ParamsOk refs P) (hL : L.length = refs.length) :
    gridSizes (compDist refs P L) = (List.zipWith localOf (oneProcess refs) L).map (·.size) := by
  rw [← compDims_sizes (serial_oneProcess refs) (paramsOk_oneProcess hP)
    (by simpa [oneProcess] using hL), ← compDist_dims hP hL, List.map_map]
  rfl

theorem compDist_ok (hr : ∀ r ∈ refs, ValidRef r) (hP : ParamsOk refs P)
    (hL : ValidComponent refs L) : (∀ s ∈ compDist refs P L, s.Ok) ∧
      ∀ s ∈ compDist refs P L, s.dim.b = 0 → 0 < s.dim.lmax := by
  have hl := hL.le.length_eq
  have hlc := length_compDist hP hl
  have hall : ∀ s ∈ compDist refs P L, s.Ok ∧ 0 < s.dim.lmax := by
    intro s hs
    obtain ⟨k, hk, rfl⟩ := List.mem_iff_getElem.1 hs
    have hk' : k < refs.length := by omega
    have hkL : k < L.length := by omega
    rw [getElem_compDist hP hl hk']
    have h1 := (List.forall₂_iff_get.1 hL.le).2 k hkL hk'
    have h2 := (List.forall₂_iff_get.1 hP.bases).2 k hk' (by rw [← hP.bases.length_eq]; exact hk')
    have h3 := hL.pos _ (List.getElem_mem hkL)
    have h4 := hr _ (List.getElem_mem hk')
    simp only [List.get_eq_getElem] at h1 h2
    refine ⟨⟨validDec_downsample _ _ _ _ h4.boundary h1 h4.dec, ?_⟩, h3⟩
    rcases h2 with ⟨h2, h5⟩ | ⟨h2, h5, h6, h7⟩
    · refine Or.inl ⟨?_, h4.boundary, ?_, fun h0 => ⟨h2, effectiveLMin_zero hP hk' h0⟩⟩
      · simp only [h2]; rfl
      · simp only; omega
    · exact Or.inr ⟨h2, h5, by simp only; omega⟩
  exact ⟨fun s hs => (hall s hs).1, fun s hs _ => (hall s hs).2⟩

end compDist

/-! ### Places of points -/

section places

variable {refs : List RefDim} {L : List ℕ}

/-- The place of the point with index vector `x` on the component grid of level `L`. -/
def placeOf (refs : List RefDim) (L x : List ℕ) : List ℕ :=
  List.zipWith (fun f x => f x) (List.zipWith (fun r l => refIndex r.boundary (r.level - l)) refs L) x

/-- The sizes of the whole component grid. -/
def wholeSizes (refs : List RefDim) (L : List ℕ) : List ℕ :=
  List.zipWith (fun r l => nodal l r.boundary) refs L

theorem sizes_oneProcess (refs : List RefDim) (L : List ℕ) :
    (List.zipWith localOf (oneProcess refs) L).map (·.size) = wholeSizes refs L := by
  unfold oneProcess wholeSizes
  rw [List.zipWith_map_left, List.map_zipWith]
  congr 1
  funext r l
  rw [localOf_serial ⟨rfl, rfl⟩]

theorem spatial_oneProcess (refs : List RefDim) (L : List ℕ) (q : ℕ) :
    spatialOf (oneProcess refs) L q = placeOf refs L (getVectorIndex (wholeSizes refs L) q) := by
  unfold spatialOf placeOf
  rw [sizes_oneProcess]
  congr 1
  unfold oneProcess
  rw [List.zipWith_map_left]
  congr 1
  funext r l j
  unfold refOf
  rw [localOf_serial ⟨rfl, rfl⟩, zero_add]

/-- Sizes of the part of a process. -/
def partOf (refs : List RefDim) (c L : List ℕ) : List ℕ :=
  (List.zipWith localOf (atProcess refs c) L).map (·.size)

/-- First indices of the part of a process. -/
def firstOf (refs : List RefDim) (c L : List ℕ) : List ℕ :=
  (List.zipWith localOf (atProcess refs c) L).map (·.first)

theorem spatial_atProcess (refs : List RefDim) (c L : List ℕ) (hc : InGroup refs c)
    (hL : L.length = refs.length) (q : ℕ) :
    spatialOf (atProcess refs c) L q =
      placeOf refs L (List.zipWith (· + ·) (firstOf refs c L) (getVectorIndex (partOf refs c L) q)) := by
  unfold spatialOf placeOf
  have hl := length_atProcess hc
  apply List.ext_getElem
  · simp only [List.length_zipWith, firstOf, partOf, List.length_map]
    omega
  · intro k h1 h2
    have hk : k < refs.length := by
      simp only [List.length_zipWith] at h1
      omega
    simp only [List.getElem_zipWith, firstOf, List.getElem_map, getElem_atProcess hc hk]
    unfold refOf
    rfl

/-- The index on the whole grid of local point `q`. -/
def globalOf (refs : List RefDim) (c L : List ℕ) (q : ℕ) : ℕ :=
  sequentialIndex (wholeSizes refs L)
    (List.zipWith (· + ·) (firstOf refs c L) (getVectorIndex (partOf refs c L) q))

theorem forall₂_of_getElem {α β : Type} {R : α → β → Prop} {l : List α} {l' : List β}
    (hl : l.length = l'.length)
    (h : ∀ k (h1 : k < l.length) (h2 : k < l'.length), R l[k] l'[k]) : List.Forall₂ R l l' :=
  List.forall₂_iff_get.2 ⟨hl, h⟩

theorem inBox_global (hr : ∀ r ∈ refs, ValidRef r) (hL : ValidComponent refs L) {c : List ℕ}
    (hc : InGroup refs c) {y : List ℕ} (hy : InBox (partOf refs c L) y) :
    InBox (wholeSizes refs L) (List.zipWith (· + ·) (firstOf refs c L) y) := by
  have hl := length_atProcess hc
  have hl2 := hL.le.length_eq
  have hly : y.length = refs.length := by
    rw [hy.length_eq]
    simp only [partOf, List.length_map, List.length_zipWith]
    omega
  refine forall₂_of_getElem ?_ ?_
  · simp only [wholeSizes, List.length_zipWith, firstOf, List.length_map]
    omega
  · intro k h1 h2
    have hk : k < refs.length := by
      simp only [wholeSizes, List.length_zipWith] at h2
      omega
    have hs := (List.forall₂_iff_get.1 hy).2 k (by omega) (by
      simp only [partOf, List.length_map, List.length_zipWith]; omega)
    have hle := (List.forall₂_iff_get.1 hL.le).2 k (by omega) hk
    simp only [List.get_eq_getElem, partOf, List.getElem_map, List.getElem_zipWith] at hs hle
    simp only [List.getElem_zipWith, firstOf, List.getElem_map, wholeSizes]
    have hv := validRef_atProcess hr hc _ (List.getElem_mem (by rw [hl]; exact hk : k < _))
    have := (localOf_spec _ hv L[k] (by rw [getElem_atProcess hc hk]; exact hle)).1
    have e : (atProcess refs c)[k].boundary = refs[k].boundary := by rw [getElem_atProcess hc hk]
    rw [e] at this
    omega

theorem globalOf_spec (hr : ∀ r ∈ refs, ValidRef r) (hL : ValidComponent refs L) {c : List ℕ}
    (hc : InGroup refs c) {q : ℕ} (hq : q < numLocal (atProcess refs c) L) :
    globalOf refs c L q < numLocal (oneProcess refs) L ∧
      spatialOf (oneProcess refs) L (globalOf refs c L q) = spatialOf (atProcess refs c) L q := by
  obtain ⟨y1, y2⟩ := getVectorIndex_spec (partOf refs c L) q hq
  have hb := inBox_global hr hL hc y1
  constructor
  · unfold numLocal
    rw [sizes_oneProcess]
    exact sequentialIndex_lt _ _ hb
  · rw [spatial_oneProcess, spatial_atProcess _ _ _ hc hL.le.length_eq]
    unfold globalOf
    rw [getVectorIndex_sequentialIndex _ _ hb]

theorem globalOf_inj (hr : ∀ r ∈ refs, ValidRef r) (hL : ValidComponent refs L) {c : List ℕ}
    (hc : InGroup refs c) {q q' : ℕ} (hq : q < numLocal (atProcess refs c) L)
    (hq' : q' < numLocal (atProcess refs c) L) (h : globalOf refs c L q = globalOf refs c L q') :
    q = q' := by
  obtain ⟨y1, y2⟩ := getVectorIndex_spec (partOf refs c L) q hq
  obtain ⟨z1, z2⟩ := getVectorIndex_spec (partOf refs c L) q' hq'
  have hb := inBox_global hr hL hc y1
  have hb' := inBox_global hr hL hc z1
  have e := congrArg (getVectorIndex (wholeSizes refs L)) h
  unfold globalOf at e
  rw [getVectorIndex_sequentialIndex _ _ hb, getVectorIndex_sequentialIndex _ _ hb'] at e
  rw [← y2, ← z2]
  congr 1
  have hf : (firstOf refs c L).length = (partOf refs c L).length := by simp [firstOf, partOf]
  apply List.ext_getElem (by rw [y1.length_eq, z1.length_eq])
  intro k h1 h2
  have h3 := y1.length_eq
  have := List.getElem_of_eq e (i := k) (by rw [List.length_zipWith]; omega)
  simp only [List.getElem_zipWith] at this
  omega

/-- A point of the whole grid at a place that process `c` owns is a point of process `c`. -/
theorem globalOf_surj (hr : ∀ r ∈ refs, ValidRef r) {L' : List ℕ} (hL : ValidComponent refs L)
    (hL' : ValidComponent refs L') {c : List ℕ} (hc : InGroup refs c) {p : ℕ}
    (hp : p < numLocal (atProcess refs c) L) {x : ℕ} (hx : x < numLocal (oneProcess refs) L')
    (h : spatialOf (oneProcess refs) L' x = spatialOf (atProcess refs c) L p) :
    ∃ q < numLocal (atProcess refs c) L', globalOf refs c L' q = x := by
  obtain ⟨y1, y2⟩ := getVectorIndex_spec (partOf refs c L) p hp
  unfold numLocal at hx
  rw [sizes_oneProcess] at hx
  obtain ⟨x1, x2⟩ := getVectorIndex_spec (wholeSizes refs L') x hx
  rw [spatial_oneProcess, spatial_atProcess _ _ _ hc hL.le.length_eq] at h
  generalize getVectorIndex (partOf refs c L) p = y at y1 h
  generalize getVectorIndex (wholeSizes refs L') x = X at x1 x2 h
  have hl := length_atProcess hc
  have hl2 := hL.le.length_eq
  have hl3 := hL'.le.length_eq
  have hlX : X.length = refs.length := by
    rw [x1.length_eq]; simp only [wholeSizes, List.length_zipWith]; omega
  have hly : y.length = refs.length := by
    rw [y1.length_eq]; simp only [partOf, List.length_map, List.length_zipWith]; omega
  have hlf : (firstOf refs c L').length = refs.length := by
    simp only [firstOf, List.length_map, List.length_zipWith]; omega
  have hlf2 : (firstOf refs c L).length = refs.length := by
    simp only [firstOf, List.length_map, List.length_zipWith]; omega
  have key : ∀ k (hk : k < refs.length), ∃ j < (localOf { refs[k] with c := c[k]'(by
      rw [hc.length_eq]; exact hk) } (L'[k])).size, X[k] = (localOf { refs[k] with c := c[k]'(by
      rw [hc.length_eq]; exact hk) } (L'[k])).first + j := by
    intro k hk
    have hv := validRef_atProcess hr hc _ (List.getElem_mem (by rw [hl]; exact hk : k < _))
    rw [getElem_atProcess hc hk] at hv
    have h1 := (List.forall₂_iff_get.1 hL.le).2 k (by omega) hk
    have h2 := (List.forall₂_iff_get.1 hL'.le).2 k (by omega) hk
    have h3 := (List.forall₂_iff_get.1 y1).2 k (by omega) (by
      simp only [partOf, List.length_map, List.length_zipWith]; omega)
    have h4 := (List.forall₂_iff_get.1 x1).2 k (by omega) (by
      simp only [wholeSizes, List.length_zipWith]; omega)
    simp only [List.get_eq_getElem, partOf, List.getElem_map, List.getElem_zipWith, wholeSizes,
      getElem_atProcess hc hk] at h1 h2 h3 h4
    have h5 := List.getElem_of_eq h (i := k) (by
      simp only [placeOf, List.length_zipWith]; omega)
    simp only [placeOf, List.getElem_zipWith, firstOf, List.getElem_map,
      getElem_atProcess hc hk] at h5
    obtain ⟨s1, s2⟩ := localOf_spec _ hv L[k] h1
    obtain ⟨t1, t2⟩ := localOf_spec _ hv L'[k] h2
    obtain ⟨-, d1⟩ := C16_downsample refs[k].dec refs[k].level L[k] refs[k].boundary hv.boundary h1
      hv.dec
    obtain ⟨-, d2⟩ := C16_downsample refs[k].dec refs[k].level L'[k] refs[k].boundary hv.boundary h2
      hv.dec
    simp only at s1
    have o1 := (d1 _ _ (lt_of_lt_of_le (Nat.add_lt_add_left h3 _) s1)).1 ((s2 _).1 h3)
    simp only at o1
    rw [← h5] at o1
    have o2 := (d2 _ _ h4).2 o1
    obtain ⟨lo, hi, b1, b2, b3, b4⟩ := o2
    have hfirst : (localOf { refs[k] with c := c[k]'(by
      rw [hc.length_eq]; exact hk) } (L'[k])).first = lo := by
      unfold localOf
      simp only [b1, Option.getD_some]
    refine ⟨X[k] - lo, ?_, by omega⟩
    rw [t2, hfirst]
    rw [show lo + (X[k] - lo) = X[k] by omega]
    exact ⟨lo, hi, b1, b2, b3, b4⟩
  refine ⟨sequentialIndex (partOf refs c L') (List.zipWith (· - ·) X (firstOf refs c L')), ?_, ?_⟩
  · apply sequentialIndex_lt
    refine forall₂_of_getElem ?_ ?_
    · simp only [partOf, List.length_map, List.length_zipWith]; omega
    · intro k h1 h2
      have hk : k < refs.length := by
        rw [List.length_zipWith] at h1; omega
      obtain ⟨j, j1, j2⟩ := key k hk
      simp only at j1 j2
      simp only [List.getElem_zipWith, firstOf, List.getElem_map, partOf, getElem_atProcess hc hk]
      omega
  · have hb : InBox (partOf refs c L') (List.zipWith (· - ·) X (firstOf refs c L')) := by
      refine forall₂_of_getElem ?_ ?_
      · simp only [partOf, List.length_map, List.length_zipWith]; omega
      · intro k h1 h2
        have hk : k < refs.length := by
          rw [List.length_zipWith] at h1; omega
        obtain ⟨j, j1, j2⟩ := key k hk
        simp only at j1 j2
        simp only [List.getElem_zipWith, firstOf, List.getElem_map, partOf, getElem_atProcess hc hk]
        omega
    unfold globalOf
    rw [getVectorIndex_sequentialIndex _ _ hb]
    rw [← x2]
    congr 1
    apply List.ext_getElem
    · simp only [List.length_zipWith]; omega
    · intro k h1 h2
      have hk : k < refs.length := by omega
      obtain ⟨j, j1, j2⟩ := key k hk
      simp only at j1 j2
      simp only [List.getElem_zipWith, firstOf, List.getElem_map, getElem_atProcess hc hk]
      omega

/-- The combination at a place of process `c` only needs the points of process `c`. -/
theorem valueAtPlace_atProcess [Ring K] (hr : ∀ r ∈ refs, ValidRef r) (hL : ValidComponent refs L)
    {c : List ℕ} (hc : InGroup refs c) {p : ℕ} (hp : p < numLocal (atProcess refs c) L) {n : ℕ}
    {T : ℕ → List (K × List ℕ × (ℕ → K))} (hT : ∀ g < n, ∀ t ∈ T g, ValidComponent refs t.2.1) :
    valueAtPlace (atProcess refs c) n
        (fun g => (T g).map fun t => (t.1, t.2.1, fun q => t.2.2 (globalOf refs c t.2.1 q)))
        (spatialOf (atProcess refs c) L p) =
      valueAtPlace (oneProcess refs) n T (spatialOf (oneProcess refs) L (globalOf refs c L p)) := by
  rw [(globalOf_spec hr hL hc hp).2]
  unfold valueAtPlace
  congr 1
  apply List.map_congr_left
  intro g hg
  rw [List.map_map]
  congr 1
  apply List.map_congr_left
  intro t ht
  simp only [Function.comp]
  congr 1
  have hL' := hT g (List.mem_range.1 hg) t ht
  refine Finset.sum_bij (fun q _ => globalOf refs c t.2.1 q) ?_ ?_ ?_ ?_
  · intro q hq
    rw [Finset.mem_filter, Finset.mem_range] at hq ⊢
    obtain ⟨a, b⟩ := globalOf_spec hr hL' hc hq.1
    exact ⟨a, by rw [b, hq.2]⟩
  · intro q hq q' hq' h
    rw [Finset.mem_filter, Finset.mem_range] at hq hq'
    exact globalOf_inj hr hL' hc hq.1 hq'.1 h
  · intro x hx
    rw [Finset.mem_filter, Finset.mem_range] at hx
    obtain ⟨q, q1, q2⟩ := globalOf_surj hr hL hL' hc hp hx.1 hx.2
    refine ⟨q, ?_, q2⟩
    rw [Finset.mem_filter, Finset.mem_range]
    refine ⟨q1, ?_⟩
    rw [← (globalOf_spec hr hL' hc q1).2, q2, hx.2]
  · intro q _
    rfl

end places

/-! ### The steps on all groups -/

/-- The processes of a group store their parts of the component grid `t`: coefficient, level and values
of the whole grid. -/
def HoldsParts (refs : List RefDim) (t : K × List ℕ × (ℕ → K)) (t' : GroupTask K) : Prop :=
  t'.coeff = t.1 ∧ t'.dims = compGrid refs t.2.1 ∧ ∀ c, InGroup refs c →
    (t'.data c).len = numLocal (atProcess refs c) t.2.1 ∧
    ∀ q < numLocal (atProcess refs c) t.2.1, (t'.data c).val q = t.2.2 (globalOf refs c t.2.1 q)

theorem isPart_compDist {refs : List RefDim} {P : CombineParams} {L : List ℕ} (hP : ParamsOk refs P)
    (hL : L.length = refs.length) {c : List ℕ} (hc : InGroup refs c) {V B : Buf K} :
    IsPart (compDist refs P L) V c B ↔ B.len = numLocal (atProcess refs c) L ∧
      ∀ q < numLocal (atProcess refs c) L, B.val q = V.val (globalOf refs c L q) := by
  rw [isPart_iff (by rw [length_compDist hP hL]; exact hc.length_eq), partSizes_compDist hP hL hc,
    partLower_compDist hP hL hc, gridSizes_compDist hP hL, sizes_oneProcess]
  refine and_congr_right fun hlen => ?_
  constructor
  · intro h q hq
    obtain ⟨y1, y2⟩ := getVectorIndex_spec (partOf refs c L) q hq
    have := h _ y1
    rw [show sequentialIndex ((List.zipWith localOf (atProcess refs c) L).map (·.size))
      (getVectorIndex (partOf refs c L) q) = q from y2] at this
    exact this
  · intro h x hx
    have := h _ (sequentialIndex_lt _ _ hx)
    rw [this]
    unfold globalOf partOf
    rw [getVectorIndex_sequentialIndex _ _ hx]
    rfl

theorem mapGroupTasks_some {f : ℕ → GroupTask K → Option (List ℕ → Buf K)} {α : Type}
    {R Q : α → GroupTask K → Prop} {ts : List α} {gts : List (GroupTask K)}
    (h : List.Forall₂ R ts gts) (i : ℕ)
    (hf : ∀ i, ∀ t ∈ ts, ∀ gt, R t gt → ∃ d, f i gt = some d ∧ Q t { gt with data := d }) :
    ∃ r, mapGroupTasks f i gts = some r ∧ List.Forall₂ Q ts r := by
  induction h generalizing i with
  | nil => exact ⟨[], rfl, .nil⟩
  | @cons t gt ts gts h1 _ ih =>
    obtain ⟨d, e1, e2⟩ := hf i t (by simp) gt h1
    obtain ⟨r, f1, f2⟩ := ih (i + 1) fun i t ht => hf i t (by simp [ht])
    refine ⟨{ gt with data := d } :: r, ?_, .cons e2 f2⟩
    rw [mapGroupTasks, e1, Option.bind_some, f1]
    rfl

theorem onProcessGroups_some {n : ℕ} {f : ℕ → Option (List (GroupTask K))}
    {Q : ℕ → List (GroupTask K) → Prop} (h : ∀ g < n, ∃ r, f g = some r ∧ Q g r) :
    ∃ R, onProcessGroups n f = some R ∧ (∀ g < n, Q g (R g)) ∧ ∀ g, n ≤ g → R g = [] := by
  have : ∀ g, ∃ r, g < n → f g = some r ∧ Q g r := by
    intro g
    by_cases hg : g < n
    · obtain ⟨r, hr⟩ := h g hg
      exact ⟨r, fun _ => hr⟩
    · exact ⟨[], fun h => absurd h hg⟩
  choose r hr using this
  refine ⟨fun g => ((List.range n).map r).getD g [], ?_, ?_, ?_⟩
  · unfold onProcessGroups
    rw [mapM_some_map _ _ r fun g hg => (hr g (List.mem_range.1 hg)).1]
    rfl
  · intro g hg
    simp only
    rw [List.getD_eq_getElem _ _ (by simpa using hg), List.getElem_map, List.getElem_range]
    exact (hr g hg).2
  · intro g hg
    simp only
    rw [List.getD_eq_default _ _ (by simpa using hg)]

/-- No process has an empty part of a component grid. -/
def NonEmptyParts (refs : List RefDim) (n : ℕ) (T : ℕ → List (K × List ℕ × (ℕ → K))) : Prop :=
  ∀ g < n, ∀ t ∈ T g, ∀ c, InGroup refs c → ∀ d ∈ List.zipWith localOf (atProcess refs c) t.2.1,
    0 < d.size

variable {refs : List RefDim} {P : CombineParams} {n : ℕ}

theorem transform_dist [Field K] [CharZero K] (hr : ∀ r ∈ refs, ValidRef r) (hP : ParamsOk refs P)
    {H D : List ℕ → (ℕ → K) → ℕ → K}
    (hm : ∀ L, ValidComponent refs L →
      GridMaps (compDims (oneProcess refs) P L) (selectedDims P.sel) (H L) (D L))
    {t : K × List ℕ × (ℕ → K)} (hL : ValidComponent refs t.2.1)
    (hne : ∀ c, InGroup refs c → ∀ d ∈ List.zipWith localOf (atProcess refs c) t.2.1, 0 < d.size)
    {gt : GroupTask K} (h : HoldsParts refs t gt) (junk : List ℕ → ℕ → ℕ → ℕ → K) :
    (P.sel.length = gt.dims.length ∧ P.bases.length = gt.dims.length ∧
      P.lmin.length = gt.dims.length) ∧
    (∃ d, distributedHierarchize (distDims gt.dims P.bases (effectiveLMin P.boundary P.lmin)) junk
        (selectedDims P.sel) gt.data = some d ∧
      HoldsParts refs (t.1, t.2.1, H t.2.1 t.2.2) { gt with data := d }) ∧
    (∃ d, distributedDehierarchize (distDims gt.dims P.bases (effectiveLMin P.boundary P.lmin)) junk
        (selectedDims P.sel) gt.data = some d ∧
      HoldsParts refs (t.1, t.2.1, D t.2.1 t.2.2) { gt with data := d }) := by
  obtain ⟨h1, h2, h3⟩ := h
  have hl := hL.le.length_eq
  have hlc := length_compDist hP hl
  have hsizes : ((compDist refs P t.2.1).map fun s => nodal s.dim.lmax s.dim.b).prod =
      numLocal (oneProcess refs) t.2.1 := by
    unfold numLocal
    rw [← gridSizes_compDist hP hl]
    rfl
  have hsizes' : ((compDims (oneProcess refs) P t.2.1).map fun s => nodal s.lmax s.b).prod =
      numLocal (oneProcess refs) t.2.1 := by
    rw [← hsizes, ← compDist_dims hP hl, List.map_map]
    rfl
  obtain ⟨ok1, ok2⟩ := compDist_ok hr hP hL
  have hpos : ∀ c, IsProcess (compDist refs P t.2.1) c →
      ∀ n ∈ partSizes (compDist refs P t.2.1) c, 0 < n := by
    intro c hc n hn
    have hc' := (isProcess_compDist hP hl c).1 hc
    rw [partSizes_compDist hP hl hc'] at hn
    obtain ⟨d, hd, rfl⟩ := List.mem_map.1 hn
    exact hne c hc' d hd
  have hd : ∀ k ∈ selectedDims P.sel, k < (compDist refs P t.2.1).length := by
    intro k hk
    have := selectedDims_lt k hk
    have := hP.sel
    omega
  have hparts : ∀ c, IsProcess (compDist refs P t.2.1) c → IsPart (compDist refs P t.2.1)
      ⟨numLocal (oneProcess refs) t.2.1, t.2.2⟩ c (gt.data c) := by
    intro c hc
    have hc' := (isProcess_compDist hP hl c).1 hc
    exact (isPart_compDist hP hl hc').2 (h3 c hc')
  have hdims : distDims gt.dims P.bases (effectiveLMin P.boundary P.lmin) = compDist refs P t.2.1 := by
    rw [h2]; rfl
  have hback : ∀ (W : Buf K) (F : ℕ → K) (S' : List ℕ → Buf K),
      W.len = numLocal (oneProcess refs) t.2.1 →
      (∀ i < numLocal (oneProcess refs) t.2.1, W.val i = F i) →
      (∀ c, IsProcess (compDist refs P t.2.1) c → IsPart (compDist refs P t.2.1) W c (S' c)) →
      HoldsParts refs (t.1, t.2.1, F) { gt with data := S' } := by
    intro W F S' hW hF hS'
    refine ⟨h1, h2, fun c hc => ?_⟩
    obtain ⟨e1, e2⟩ := (isPart_compDist hP hl hc).1 (hS' c ((isProcess_compDist hP hl c).2 hc))
    refine ⟨e1, fun q hq => ?_⟩
    simp only
    rw [e2 q hq, hF _ (globalOf_spec hr hL hc hq).1]
  rw [hdims]
  refine ⟨?_, ?_, ?_⟩
  · have e1 := hP.sel
    have e2 := hP.bases.length_eq
    have e3 := hP.lmin
    rw [h2]
    simp only [compGrid, List.length_zipWith]
    omega
  · obtain ⟨W, S', w1, w2, w3, w4⟩ := C91_hierarchize (compDist refs P t.2.1) ok1 hpos ok2
      (selectedDims P.sel) hd ⟨numLocal (oneProcess refs) t.2.1, t.2.2⟩ hsizes.symm gt.data hparts junk
      fun _ _ _ => 0
    rw [compDist_dims hP hl] at w1
    obtain ⟨m, m1, m2, m3⟩ := (hm _ hL).hier (fun _ _ _ => 0)
      ⟨numLocal (oneProcess refs) t.2.1, t.2.2⟩ hsizes'.symm
    obtain rfl := Option.some.inj (w1.symm.trans m1)
    exact ⟨S', w3, hback W _ S' w2 m3 w4⟩
  · obtain ⟨W, S', w1, w2, w3, w4⟩ := C91_dehierarchize (compDist refs P t.2.1) ok1 hpos ok2
      (selectedDims P.sel) hd ⟨numLocal (oneProcess refs) t.2.1, t.2.2⟩ hsizes.symm gt.data hparts junk
      fun _ _ _ => 0
    rw [compDist_dims hP hl] at w1
    obtain ⟨m, m1, m2, m3⟩ := (hm _ hL).dehier (fun _ _ _ => 0)
      ⟨numLocal (oneProcess refs) t.2.1, t.2.2⟩ hsizes'.symm
    obtain rfl := Option.some.inj (w1.symm.trans m1)
    exact ⟨S', w3, hback W _ S' w2 m3 w4⟩

/-- Hierarchizing and dehierarchizing on all groups. -/
theorem groups_transform [Field K] [CharZero K] (hr : ∀ r ∈ refs, ValidRef r) (hP : ParamsOk refs P)
    {H D : List ℕ → (ℕ → K) → ℕ → K}
    (hm : ∀ L, ValidComponent refs L →
      GridMaps (compDims (oneProcess refs) P L) (selectedDims P.sel) (H L) (D L))
    {T : ℕ → List (K × List ℕ × (ℕ → K))} (hT : ∀ g < n, ∀ t ∈ T g, ValidComponent refs t.2.1)
    (hne : NonEmptyParts refs n T) {S : ℕ → List (GroupTask K)}
    (hS : ∀ g < n, List.Forall₂ (HoldsParts refs) (T g) (S g))
    (junk : ℕ → ℕ → List ℕ → ℕ → ℕ → ℕ → K) :
    (∃ S', onProcessGroups n (fun g => groupHierarchize P (junk g) (S g)) = some S' ∧
      (∀ g < n, List.Forall₂ (HoldsParts refs) (hierVals H T g) (S' g)) ∧ ∀ g, n ≤ g → S' g = []) ∧
    (∃ S', onProcessGroups n (fun g => groupDehierarchize P (junk g) (S g)) = some S' ∧
      (∀ g < n, List.Forall₂ (HoldsParts refs) (hierVals D T g) (S' g)) ∧ ∀ g, n ≤ g → S' g = []) := by
  constructor
  · refine onProcessGroups_some (Q := fun g r => List.Forall₂ (HoldsParts refs) (hierVals H T g) r)
      fun g hg => ?_
    unfold hierVals groupHierarchize
    simp only [List.forall₂_map_left_iff]
    refine mapGroupTasks_some (hS g hg) 0 fun i t ht gt hgt => ?_
    obtain ⟨a, b, -⟩ := transform_dist hr hP hm (hT g hg t ht) (hne g hg t ht) hgt (junk g i)
    rw [if_pos a]
    exact b
  · refine onProcessGroups_some (Q := fun g r => List.Forall₂ (HoldsParts refs) (hierVals D T g) r)
      fun g hg => ?_
    unfold hierVals groupDehierarchize
    simp only [List.forall₂_map_left_iff]
    refine mapGroupTasks_some (hS g hg) 0 fun i t ht gt hgt => ?_
    obtain ⟨a, -, b⟩ := transform_dist hr hP hm (hT g hg t ht) (hne g hg t ht) hgt (junk g i)
    rw [if_pos a]
    exact b

/-- What process `c` has of the tasks of a group. -/
def localTasks (c : List ℕ) (ts : List (K × List ℕ × (ℕ → K))) (gts : List (GroupTask K)) :
    List (K × List ℕ × (ℕ → K)) :=
  List.zipWith (fun t (gt : GroupTask K) => (t.1, t.2.1, (gt.data c).val)) ts gts

theorem onProcess_compGrid {refs : List RefDim} {L : List ℕ} {c : List ℕ} (hc : InGroup refs c)
    (hL : L.length = refs.length) :
    List.zipWith CompDim.onProcess (compGrid refs L) c = List.zipWith localOf (atProcess refs c) L := by
  have hl := hc.length_eq
  have hl2 := length_atProcess hc
  apply List.ext_getElem
  · simp only [compGrid, List.length_zipWith]
    omega
  · intro k h1 h2
    have hk : k < refs.length := by
      simp only [List.length_zipWith] at h2
      omega
    simp only [compGrid, List.getElem_zipWith, getElem_atProcess hc hk]
    rfl

theorem localTasks_spec {refs : List RefDim} {c : List ℕ} (hc : InGroup refs c)
    {ts : List (K × List ℕ × (ℕ → K))} {gts : List (GroupTask K)}
    (h : List.Forall₂ (HoldsParts refs) ts gts) (hT : ∀ t ∈ ts, ValidComponent refs t.2.1) :
    gts.map (fun t => t.onProcess c) = tasksOf (atProcess refs c) (localTasks c ts gts) ∧
      Transformed (atProcess refs c) (fun L V q => V (globalOf refs c L q)) ts
        (localTasks c ts gts) := by
  induction h with
  | nil => exact ⟨rfl, .nil⟩
  | @cons t gt ts gts h1 _ ih =>
    obtain ⟨e1, e2⟩ := ih fun t ht => hT t (by simp [ht])
    obtain ⟨f1, f2, f3⟩ := h1
    obtain ⟨f4, f5⟩ := f3 c hc
    refine ⟨?_, .cons ⟨rfl, rfl, f5⟩ e2⟩
    rw [List.map_cons, e1]
    have : localTasks c (t :: ts) (gt :: gts) = (t.1, t.2.1, (gt.data c).val) :: localTasks c ts gts :=
      rfl
    rw [this]
    unfold tasksOf
    rw [List.map_cons]
    congr 1
    unfold GroupTask.onProcess gridOf
    rw [f1, f2, onProcess_compGrid hc (hT t (by simp)).le.length_eq]
    congr 2
    unfold numLocal at f4
    rw [← f4]

theorem localTasks_levels {refs : List RefDim} {c : List ℕ} (hc : InGroup refs c)
    {ts : List (K × List ℕ × (ℕ → K))} {gts : List (GroupTask K)}
    (h : List.Forall₂ (HoldsParts refs) ts gts) (hT : ∀ t ∈ ts, ValidComponent refs t.2.1) :
    (localTasks c ts gts).map (fun t => (t.1, t.2.1)) = ts.map fun t => (t.1, t.2.1) :=
  (localTasks_spec hc h hT).2.levels

theorem validSystem_atProcess [One K] {refs : List RefDim} {levels : List (List ℕ)} {n : ℕ}
    {T : ℕ → List (K × List ℕ × (ℕ → K))} (h : ValidSystem refs levels n T) {c : List ℕ}
    (hc : InGroup refs c) : ValidSystem (atProcess refs c) levels n T :=
  ⟨validRef_atProcess h.ref hc, h.sorted,
    fun g hg t ht => validComponent_atProcess hc (h.comp g hg t ht),
    fun g hg t ht => by rw [length_atProcess hc]; exact h.low g hg t ht, h.mem⟩

/-- Combining on one position. -/
theorem position_combine [Ring K] {levels : List (List ℕ)} (hn : n ≤ 256)
    {T : ℕ → List (K × List ℕ × (ℕ → K))} (h : ValidSystem refs levels n T)
    {variant : CombinationVariant} {maxChunk : ℕ}
    {S : ℕ → List (GroupTask K)} (hS : ∀ g < n, List.Forall₂ (HoldsParts refs) (T g) (S g))
    (hS0 : ∀ g, n ≤ g → S g = []) {c : List ℕ} (hc : InGroup refs c)
    (htotal : (levels.map (subspaceCount (atProcess refs c))).sum < 2 ^ 31)
    (hu : Usable (atProcess refs c) n T variant maxChunk) :
    ∃ R, combineVariant variant maxChunk levels n
      (fun g => (S g).map fun t => t.onProcess c) = some R ∧ ∀ g < n,
        List.Forall₂ (fun t (t' : K × Dfg K) => t'.2.data.len = numLocal (atProcess refs c) t.2.1 ∧
          ∀ p < numLocal (atProcess refs c) t.2.1, t'.2.data.val p =
            valueAtPlace (oneProcess refs) n T
              (spatialOf (oneProcess refs) t.2.1 (globalOf refs c t.2.1 p))) (T g) (R g).tasks := by
  have htasks : (fun g => (S g).map fun t => t.onProcess c) =
      fun g => tasksOf (atProcess refs c) (localTasks c (T g) (S g)) := by
    funext g
    by_cases hg : g < n
    · exact (localTasks_spec hc (hS g hg) (h.comp g hg)).1
    · rw [hS0 g (by omega)]
      simp [localTasks, tasksOf]
  have hlev : ∀ g < n, (localTasks c (T g) (S g)).map (fun t => (t.1, t.2.1)) =
      (T g).map fun t => (t.1, t.2.1) := fun g hg => localTasks_levels hc (hS g hg) (h.comp g hg)
  have hvalid : ValidSystem (atProcess refs c) levels n T := validSystem_atProcess h hc
  obtain ⟨R, r1, r2⟩ := combined_of_usable hn (retask_valid hvalid hlev) htotal
    (usable_congr hlev hu)
  refine ⟨R, by rw [htasks]; exact r1, fun g hg => ?_⟩
  have hTr := (localTasks_spec hc (hS g hg) (h.comp g hg)).2
  have hr2 := r2 g hg
  unfold Transformed at hTr
  beta_reduce at hr2
  rw [List.forall₂_iff_get] at hTr hr2 ⊢
  refine ⟨by rw [hTr.1, hr2.1], fun i h1 h2 => ?_⟩
  obtain ⟨-, e2, -⟩ := hTr.2 i h1 (by rw [← hTr.1]; exact h1)
  obtain ⟨-, -, e3, e4⟩ := hr2.2 i (by rw [← hTr.1]; exact h1) h2
  rw [e2] at e3 e4
  refine ⟨e3, fun p hp => ?_⟩
  rw [e4 p hp, valueAtPlace_congr (fun g hg => (localTasks_spec hc (hS g hg) (h.comp g hg)).2)]
  exact valueAtPlace_atProcess h.ref (h.comp g hg _ (List.get_mem _ ⟨i, h1⟩)) hc hp h.comp

/-- Combining on all positions. -/
theorem groups_combine [Ring K] {levels : List (List ℕ)} (hn : n ≤ 256)
    {T : ℕ → List (K × List ℕ × (ℕ → K))} (h : ValidSystem refs levels n T)
    (htotal : ∀ c, InGroup refs c → (levels.map (subspaceCount (atProcess refs c))).sum < 2 ^ 31)
    {variant : CombinationVariant} {maxChunk : ℕ}
    (hu : ∀ c, InGroup refs c → Usable (atProcess refs c) n T variant maxChunk)
    {S : ℕ → List (GroupTask K)} (hS : ∀ g < n, List.Forall₂ (HoldsParts refs) (T g) (S g))
    (hS0 : ∀ g, n ≤ g → S g = []) :
    ∃ S', combinePositions (refs.map fun r => r.dec.length) variant maxChunk levels n S = some S' ∧
      ∀ g < n, List.Forall₂ (HoldsParts refs) ((T g).map fun t => (t.1, t.2.1, fun q =>
        valueAtPlace (oneProcess refs) n T (spatialOf (oneProcess refs) t.2.1 q))) (S' g) := by
  have hone := fun c (hc : InGroup refs c) =>
    position_combine hn h hS hS0 hc (htotal c hc) (hu c hc)
  refine ⟨_, if_pos ?_, fun g hg => ?_⟩
  · rw [List.all_eq_true]
    intro c hc
    obtain ⟨R, e, -⟩ := hone c (mem_groupProcesses.1 hc)
    beta_reduce
    rw [e]
    rfl
  · have h1 := hS g hg
    rw [List.forall₂_map_left_iff]
    refine forall₂_of_getElem (by simp [h1.length_eq]) ?_
    intro i h2 h3
    have h4 : i < (S g).length := by rw [← h1.length_eq]; exact h2
    obtain ⟨a1, a2, -⟩ := (List.forall₂_iff_get.1 h1).2 i h2 h4
    simp only [List.get_eq_getElem] at a1 a2
    rw [List.getElem_map, List.getElem_zipIdx]
    refine ⟨a1, a2, fun c hc => ?_⟩
    obtain ⟨R, e1, e2⟩ := hone c hc
    have h5 : i < (R g).tasks.length := by rw [← (e2 g hg).length_eq]; exact h2
    obtain ⟨b1, b2⟩ := (List.forall₂_iff_get.1 (e2 g hg)).2 i h2 h5
    simp only [e1, Option.bind_some, zero_add, List.getElem?_eq_getElem h5, Option.map_some,
      Option.getD_some]
    exact ⟨b1, b2⟩

/-- What a complete combination on process groups computes. -/
theorem distributed_formula [Field K] [CharZero K] {levels : List (List ℕ)} (hn : n ≤ 256)
    {T : ℕ → List (K × List ℕ × (ℕ → K))} (h : ValidSystem refs levels n T) (hP : ParamsOk refs P)
    (hne : NonEmptyParts refs n T)
    (htotal : ∀ c, InGroup refs c → (levels.map (subspaceCount (atProcess refs c))).sum < 2 ^ 31)
    {variant : CombinationVariant} {maxChunk : ℕ}
    (hu : ∀ c, InGroup refs c → Usable (atProcess refs c) n T variant maxChunk)
    {H D : List ℕ → (ℕ → K) → ℕ → K}
    (hm : ∀ L, ValidComponent refs L →
      GridMaps (compDims (oneProcess refs) P L) (selectedDims P.sel) (H L) (D L))
    (junk junk' : ℕ → ℕ → List ℕ → ℕ → ℕ → ℕ → K)
    {S : ℕ → List (GroupTask K)} (hS : ∀ g < n, List.Forall₂ (HoldsParts refs) (T g) (S g)) :
    ∃ S', distributedCombineAtOnce (refs.map fun r => r.dec.length) P variant maxChunk levels n junk
        junk' S = some S' ∧
      ∀ g < n, List.Forall₂ (HoldsParts refs) ((T g).map fun t => (t.1, t.2.1, D t.2.1 fun q =>
        valueAtPlace (oneProcess refs) n (hierVals H T) (spatialOf (oneProcess refs) t.2.1 q)))
          (S' g) := by
  obtain ⟨S1, a1, a2, a3⟩ := (groups_transform h.ref hP hm h.comp hne hS junk).1
  have hl1 : ∀ g < n, (hierVals H T g).map (fun t => (t.1, t.2.1)) =
      (T g).map fun t => (t.1, t.2.1) := by
    intro g _
    unfold hierVals
    rw [List.map_map]
    rfl
  have h1 := retask_valid h hl1
  obtain ⟨S2, b1, b2⟩ := groups_combine hn h1 htotal (fun c hc => usable_congr hl1 (hu c hc)) a2 a3
  have hmem : ∀ g t', t' ∈ (hierVals H T g).map (fun t => (t.1, t.2.1, fun q =>
        valueAtPlace (oneProcess refs) n (hierVals H T) (spatialOf (oneProcess refs) t.2.1 q))) →
      ∃ t ∈ T g, t'.2.1 = t.2.1 := by
    intro g t' ht'
    obtain ⟨t1, ht1, rfl⟩ := List.mem_map.1 ht'
    obtain ⟨t, ht, rfl⟩ := List.mem_map.1 ht1
    exact ⟨t, ht, rfl⟩
  obtain ⟨S3, c1, c2, -⟩ := (groups_transform h.ref hP hm (T := fun g => (hierVals H T g).map
    fun t => (t.1, t.2.1, fun q =>
      valueAtPlace (oneProcess refs) n (hierVals H T) (spatialOf (oneProcess refs) t.2.1 q)))
    (fun g hg t' ht' => by
      obtain ⟨t, ht, e⟩ := hmem g t' ht'
      rw [e]
      exact h.comp g hg t ht) (fun g hg t' ht' => by
      obtain ⟨t, ht, e⟩ := hmem g t' ht'
      rw [e]
      exact hne g hg t ht) b2 junk').2
  refine ⟨S3, ?_, fun g hg => ?_⟩
  · unfold distributedCombineAtOnce
    rw [a1, Option.bind_some, b1, Option.bind_some, c1]
  · have := c2 g hg
    unfold hierVals at this ⊢
    simp only [List.map_map] at this
    exact this

end Verif

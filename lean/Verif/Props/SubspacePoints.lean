import Verif.Lemmas.SubspacePoints

/-!
# Property C19: points of a subspace
-/

namespace Verif

/-- A usable local part of a dimension. -/
structure ValidLocal (d : LocalDim) : Prop where
  boundary : d.boundary ≤ 2
  level : 1 ≤ d.level
  range : d.first + d.size ≤ nodal d.level d.boundary

/-- Specification: the local index vector `x` is a local point in subspace `l` (boundary points
belong to level 1). -/
def InSubspace : (g : List LocalDim) → (x l : List ℕ) → Prop
  | [], [], [] => True
  | d :: g, x :: xs, l :: ls =>
    (x < d.size ∧ (PointLevel d.level (pos d.boundary (d.first + x)) l ∨
      (l = 1 ∧ PointLevel d.level (pos d.boundary (d.first + x)) 0))) ∧ InSubspace g xs ls
  | _, _, _ => False

theorem inSubspace_iff (g : List LocalDim) (hv : ∀ d ∈ g, ValidLocal d) (x l : List ℕ)
    (hl : ∀ li ∈ l, 1 ≤ li) (hlen : l.length = g.length) :
    List.Forall₂ (· ∈ ·) x (oneDLists g l) ↔ InSubspace g x l := by
  induction g generalizing x l with
  | nil =>
    rw [List.length_nil, List.length_eq_zero_iff] at hlen
    subst hlen
    cases x <;> simp [oneDLists, InSubspace]
  | cons d g ih =>
    cases l with
    | nil => simp at hlen
    | cons l0 l =>
      have hd := hv d (by simp)
      cases x with
      | nil => simp [oneDLists, InSubspace]
      | cons x0 x =>
        have := ih (fun d hd => hv d (by simp [hd])) x l (fun li h => hl li (by simp [h]))
          (by simpa using hlen)
        simp only [oneDLists, List.zipWith_cons_cons, List.forall₂_cons, InSubspace] at this ⊢
        rw [this, mem_get1dIndicesLocal hd.boundary (hl l0 (by simp)) hd.level hd.range]

theorem inSubspace_lt {g : List LocalDim} {x l : List ℕ} (h : InSubspace g x l) :
    List.Forall₂ (· < ·) x (g.map (·.size)) := by
  induction g generalizing x l with
  | nil =>
    cases x with
    | nil => simp
    | cons _ _ => simp [InSubspace] at h
  | cons d g ih =>
    cases x with
    | nil => simp [InSubspace] at h
    | cons x0 x =>
      cases l with
      | nil => simp [InSubspace] at h
      | cons l0 l =>
        simp only [InSubspace] at h
        exact List.Forall₂.cons h.1.1 (ih h.2)

/-- C19: the list of points of a subspace contains exactly the local points of that subspace,
each once, in ascending order. -/
theorem C19_enumeration (g : List LocalDim) (hv : ∀ d ∈ g, ValidLocal d) (l : List ℕ)
    (hl : ∀ li ∈ l, 1 ≤ li) (hlen : l.length = g.length) :
    (∀ i, i ∈ getFGPointsOfSubspace g l ↔
      i < (g.map (·.size)).prod ∧ InSubspace g (getVectorIndex (g.map (·.size)) i) l) ∧
    (getFGPointsOfSubspace g l).Pairwise (· < ·) := by
  rw [getFGPointsOfSubspace_eq g l hlen]
  constructor
  · intro i
    rw [List.mem_map]
    constructor
    · rintro ⟨v, hvm, rfl⟩
      rw [mem_prodList, inSubspace_iff g hv v l hl hlen] at hvm
      have hlt := inSubspace_lt hvm
      rw [getVectorIndex_sequentialIndex _ _ hlt]
      exact ⟨sequentialIndex_lt _ _ hlt, hvm⟩
    · rintro ⟨h1, h2⟩
      refine ⟨getVectorIndex (g.map (·.size)) i, ?_, (getVectorIndex_spec _ _ h1).2⟩
      rw [mem_prodList, inSubspace_iff g hv _ l hl hlen]
      exact h2
  · apply prodList_sorted
    induction g generalizing l with
    | nil =>
      rw [List.length_nil, List.length_eq_zero_iff] at hlen
      subst hlen
      simp [oneDLists]
    | cons d g ih =>
      cases l with
      | nil => simp at hlen
      | cons l0 l =>
        have hd := hv d (by simp)
        simp only [oneDLists, List.zipWith_cons_cons, List.map_cons]
        refine List.Forall₂.cons ?_ (ih (fun d hd => hv d (by simp [hd])) l
          (fun li h => hl li (by simp [h])) (by simpa using hlen))
        obtain ⟨h1, h2⟩ := C14_indices d.level d.boundary d.first d.size l0 hd.boundary
          (hl l0 (by simp)) hd.level hd.range
        exact ⟨h2, fun x hx => ((h1 x).1 hx).1⟩

example : (∀ d ∈ [LocalDim.mk 2 2 0 3, LocalDim.mk 3 0 2 4], ValidLocal d) ∧
    getFGPointsOfSubspace [⟨2, 2, 0, 3⟩, ⟨3, 0, 2, 4⟩] [1, 3] = [0, 2, 6, 8] := by
  refine ⟨?_, by decide⟩
  intro d hd
  simp at hd
  rcases hd with rfl | rfl
  · exact ⟨by decide, by decide, by decide⟩
  · exact ⟨by decide, by decide, by decide⟩

/-- every local point is in exactly one subspace -/
theorem exists_unique_subspace (g : List LocalDim) (hv : ∀ d ∈ g, ValidLocal d) (x : List ℕ)
    (hx : List.Forall₂ (· < ·) x (g.map (·.size))) :
    ∃ l, ((∀ li ∈ l, 1 ≤ li) ∧ InSubspace g x l ∧
        List.Forall₂ (fun li d => li ≤ d.level) l g) ∧
      ∀ l', (∀ li ∈ l', 1 ≤ li) → InSubspace g x l' → l' = l := by
  induction g generalizing x with
  | nil =>
    simp at hx
    subst hx
    refine ⟨[], ⟨by simp, by simp [InSubspace], by simp⟩, ?_⟩
    intro l' _ h
    cases l' with
    | nil => rfl
    | cons _ _ => simp [InSubspace] at h
  | cons d g ih =>
    rw [List.map_cons, List.forall₂_cons_right_iff] at hx
    obtain ⟨x0, xs, hx0, hxs, rfl⟩ := hx
    obtain ⟨ls, ⟨h1, h2, h3⟩, h4⟩ := ih (fun d hd => hv d (by simp [hd])) xs hxs
    have hd := hv d (by simp)
    obtain ⟨l0, -, e2, e3, e4⟩ := C14_level d.level d.boundary (d.first + x0) hd.boundary
      (by have := hd.range; omega)
    have hlev := hd.level
    refine ⟨max l0 1 :: ls, ⟨?_, ?_, ?_⟩, ?_⟩
    · intro li hli
      rcases List.mem_cons.1 hli with rfl | hli
      · omega
      · exact h1 li hli
    · refine ⟨⟨hx0, ?_⟩, h2⟩
      by_cases h0 : l0 = 0
      · subst h0
        exact Or.inr ⟨rfl, e3⟩
      · have : max l0 1 = l0 := by omega
        rw [this]
        exact Or.inl e3
    · exact List.Forall₂.cons (by omega) h3
    · intro l' hl' hin
      cases l' with
      | nil => simp [InSubspace] at hin
      | cons l0' ls' =>
        simp only [InSubspace] at hin
        rw [h4 ls' (fun li h => hl' li (by simp [h])) hin.2]
        congr 1
        have hpos := hl' l0' (by simp)
        rcases hin.1.2 with h | ⟨h, hz⟩
        · have := e4 _ h
          omega
        · have := e4 _ hz
          omega

/-- C19: the point lists of the subspaces of a grid partition its local points: each local
point is in the list of exactly one subspace, which is one of the grid's subspaces. -/
theorem C19_partition (g : List LocalDim) (hv : ∀ d ∈ g, ValidLocal d) (i : ℕ)
    (hi : i < (g.map (·.size)).prod) :
    ∃! l, (l.length = g.length ∧ ∀ li ∈ l, 1 ≤ li) ∧ i ∈ getFGPointsOfSubspace g l := by
  obtain ⟨hlt, -⟩ := getVectorIndex_spec _ _ hi
  obtain ⟨l, ⟨h1, h2, h3⟩, h4⟩ := exists_unique_subspace g hv _ hlt
  refine ⟨l, ⟨⟨h3.length_eq, h1⟩, ?_⟩, ?_⟩
  · rw [(C19_enumeration g hv l h1 h3.length_eq).1]
    exact ⟨hi, h2⟩
  · rintro l' ⟨⟨hlen, hpos⟩, hmem⟩
    rw [(C19_enumeration g hv l' hpos hlen).1] at hmem
    exact h4 l' hpos hmem.2

/-! ### Consistency between grids -/

/-- One dimension of the reference grid: finest level, boundary flag and decomposition; `c` is
the coordinate of the process in this dimension. -/
structure RefDim where
  level : ℕ
  boundary : ℕ
  dec : List ℕ
  c : ℕ

/-- The reference dimension is usable. -/
structure ValidRef (r : RefDim) : Prop where
  boundary : r.boundary ≤ 2
  dec : ValidDec r.dec (nodal r.level r.boundary)
  coord : r.c < r.dec.length

/-- The local part of a coarser grid of level `L`, with the downsampled decomposition (bounds as
in the grid constructor, `DistributedFullGrid.hpp` l.650-656). -/
def localOf (r : RefDim) (L : ℕ) : LocalDim :=
  let dec := downsampleDecomposition1d r.dec r.level L r.boundary
  let lo := (lowerBound1d dec r.c).getD 0
  ⟨L, r.boundary, lo, (upperBound1d dec (nodal L r.boundary) r.c).getD 0 - lo⟩

/-- The reference index of local index `j` of a coarse grid: the same spatial point. -/
def refOf (r : RefDim) (L j : ℕ) : ℕ :=
  refIndex r.boundary (r.level - L) ((localOf r L).first + j)

theorem pointLevel_scale {L R x l : ℕ} (hLR : L ≤ R) (hl : l ≤ L) :
    PointLevel L x l ↔ PointLevel R (x * 2 ^ (R - L)) l := by
  have hR : 2 ^ R = 2 ^ L * 2 ^ (R - L) := by rw [← pow_add]; congr 1; omega
  have hp : 0 < 2 ^ (R - L) := by positivity
  unfold PointLevel
  apply or_congr
  · apply and_congr_right
    intro _
    apply or_congr
    · constructor
      · rintro rfl; simp
      · intro h
        rcases Nat.mul_eq_zero.1 h with h | h
        · exact h
        · omega
    · rw [hR]
      exact (Nat.mul_left_inj (by omega)).symm
  · constructor
    · rintro ⟨h1, h2, m, rfl⟩
      refine ⟨h1, by omega, m, ?_⟩
      rw [mul_assoc, ← pow_add]
      congr 2
      omega
    · rintro ⟨h1, h2, m, hm⟩
      refine ⟨h1, hl, m, ?_⟩
      have : (2 * m + 1) * 2 ^ (R - l) = (2 * m + 1) * 2 ^ (L - l) * 2 ^ (R - L) := by
        rw [mul_assoc, ← pow_add]
        congr 2
        omega
      rw [this] at hm
      exact (Nat.mul_left_inj (by omega)).1 hm

theorem refIndex_lt {b diff y y' : ℕ} (h : y < y') : refIndex b diff y < refIndex b diff y' := by
  have hp : 0 < 2 ^ diff := by positivity
  unfold refIndex
  split
  · have h1 : (y + 1) * 2 ^ diff < (y' + 1) * 2 ^ diff := Nat.mul_lt_mul_of_pos_right (by omega) hp
    have : 0 < (y + 1) * 2 ^ diff := by positivity
    omega
  · exact Nat.mul_lt_mul_of_pos_right h hp

theorem refIndex_surj {b diff z q : ℕ} (hz : pos b z = q * 2 ^ diff) (hpos : b = 0 → 0 < pos b z) :
    ∃ y, refIndex b diff y = z ∧ pos b y = q := by
  unfold pos at hz hpos
  unfold refIndex pos
  by_cases hb : b = 0
  · rw [if_pos hb] at hz hpos
    have hq : 0 < q := by
      rcases Nat.eq_zero_or_pos q with rfl | h
      · have := hpos hb; omega
      · exact h
    refine ⟨q - 1, ?_, ?_⟩
    · rw [if_pos hb]
      have : q - 1 + 1 = q := by omega
      rw [this]
      omega
    · rw [if_pos hb]
      omega
  · rw [if_neg hb] at hz
    exact ⟨q, by rw [if_neg hb, hz], by rw [if_neg hb]⟩

theorem localOf_spec (r : RefDim) (hr : ValidRef r) (L : ℕ) (hL : L ≤ r.level) :
    (localOf r L).first + (localOf r L).size ≤ nodal L r.boundary ∧
      ∀ j, j < (localOf r L).size ↔
        Owns1d (downsampleDecomposition1d r.dec r.level L r.boundary) (nodal L r.boundary) r.c
          ((localOf r L).first + j) := by
  obtain ⟨hv, -⟩ := C16_downsample r.dec r.level L r.boundary hr.boundary hL hr.dec
  have hc : r.c < (downsampleDecomposition1d r.dec r.level L r.boundary).length := by
    rw [downsample_eq_map, List.length_map]
    exact hr.coord
  obtain ⟨lo, hi, h1, h2, h3, h4⟩ := bounds1d hv hc
  have e : localOf r L = ⟨L, r.boundary, lo, hi - lo⟩ := by
    unfold localOf
    simp only [h1, h2, Option.getD_some]
  rw [e]
  refine ⟨by simp only; omega, fun j => ?_⟩
  unfold Owns1d
  rw [h1, h2]
  simp
  omega

/-- 1-d version: the points of level `l` on a coarse grid, as reference indices, are those of
the reference grid, in the same order -/
theorem get1d_consistent (r : RefDim) (hr : ValidRef r) (L l : ℕ) (hl : 1 ≤ l) (hlL : l ≤ L)
    (hL : L ≤ r.level) :
    (get1dIndicesLocal L r.boundary (localOf r L).first (localOf r L).size l).map (refOf r L) =
      (get1dIndicesLocal r.level r.boundary (localOf r r.level).first (localOf r r.level).size
        l).map (refOf r r.level) := by
  obtain ⟨hn1, ho1⟩ := localOf_spec r hr L hL
  obtain ⟨hn2, ho2⟩ := localOf_spec r hr r.level (le_refl _)
  obtain ⟨hm1, hs1⟩ := C14_indices L r.boundary _ _ l hr.boundary hl (by omega) hn1
  obtain ⟨hm2, hs2⟩ := C14_indices r.level r.boundary _ _ l hr.boundary hl (by omega) hn2
  obtain ⟨-, hc1⟩ := C16_downsample r.dec r.level L r.boundary hr.boundary hL hr.dec
  obtain ⟨-, hc2⟩ := C16_downsample r.dec r.level r.level r.boundary hr.boundary (le_refl _) hr.dec
  have p1 : ((get1dIndicesLocal L r.boundary (localOf r L).first (localOf r L).size l).map
      (refOf r L)).Pairwise (· < ·) := by
    rw [List.pairwise_map]
    exact hs1.imp fun {a b} h => refIndex_lt (by omega)
  have p2 : ((get1dIndicesLocal r.level r.boundary (localOf r r.level).first
      (localOf r r.level).size l).map (refOf r r.level)).Pairwise (· < ·) := by
    rw [List.pairwise_map]
    exact hs2.imp fun {a b} h => refIndex_lt (by omega)
  refine List.Perm.eq_of_pairwise (le := (· < ·)) (fun a b _ _ hab hba => by omega) p1 p2 ?_
  rw [List.perm_ext_iff_of_nodup (p1.imp fun h => ne_of_lt h) (p2.imp fun h => ne_of_lt h)]
  -- both sides: reference points owned by the process, of level `l`
  have hrl : r.level - r.level = 0 := by omega
  have href0 : ∀ j, refOf r r.level j = (localOf r r.level).first + j := by
    intro j
    unfold refOf refIndex
    rw [hrl]
    split <;> simp
  have hrefid : ∀ y, refIndex r.boundary (r.level - r.level) y = y := by
    intro y
    unfold refIndex
    rw [hrl]
    split <;> simp
  have char1 : ∀ z, z ∈ (get1dIndicesLocal L r.boundary (localOf r L).first (localOf r L).size
      l).map (refOf r L) ↔ z < nodal r.level r.boundary ∧ Owns1d r.dec (nodal r.level r.boundary) r.c z ∧
        (PointLevel r.level (pos r.boundary z) l ∨
          (l = 1 ∧ PointLevel r.level (pos r.boundary z) 0)) := by
    intro z
    rw [List.mem_map]
    constructor
    · rintro ⟨j, hj, rfl⟩
      obtain ⟨hj1, hj2⟩ := (hm1 j).1 hj
      have hy : (localOf r L).first + j < nodal L r.boundary := by omega
      refine ⟨(nodal_ref _ _ _ _ hr.boundary hL).1 hy, (hc1 _ _ hy).1 ((ho1 j).1 hj1), ?_⟩
      unfold refOf
      rw [C16_refIndex_same_point, ← pointLevel_scale hL hlL, ← pointLevel_scale hL (by omega)]
      exact hj2
    · rintro ⟨hz, hown, hlev⟩
      have hdvd : ∃ q, pos r.boundary z = q * 2 ^ (r.level - L) := by
        have hR : 2 ^ r.level = 2 ^ L * 2 ^ (r.level - L) := by rw [← pow_add]; congr 1; omega
        rcases hlev with (⟨h, _⟩ | ⟨_, _, m, hm⟩) | ⟨_, (⟨_, h | h⟩ | ⟨h, _⟩)⟩
        · omega
        · refine ⟨(2 * m + 1) * 2 ^ (L - l), ?_⟩
          rw [hm, mul_assoc, ← pow_add]
          congr 2
          omega
        · exact ⟨0, by rw [h]; simp⟩
        · exact ⟨2 ^ L, by rw [h, hR]⟩
        · omega
      obtain ⟨q, hq⟩ := hdvd
      obtain ⟨y, hy1, hy2⟩ := refIndex_surj hq (fun hb => (pos_le hr.boundary hz).2.2 hb)
      have hyN : y < nodal L r.boundary := by
        rw [nodal_ref _ _ _ _ hr.boundary hL, hy1]
        exact hz
      have hyo := (hc1 r.c y hyN).2 (by rw [hy1]; exact hown)
      -- `y` is above the first local index
      have hfirst : (localOf r L).first ≤ y := by
        obtain ⟨lo, hi, a1, a2, a3, a4⟩ := hyo
        simp only [localOf, a1, Option.getD_some]
        exact a3
      have hfy : (localOf r L).first + (y - (localOf r L).first) = y := by omega
      refine ⟨y - (localOf r L).first, ?_, ?_⟩
      · rw [hm1, hfy]
        refine ⟨(ho1 _).2 (by rw [hfy]; exact hyo), ?_⟩
        rw [pointLevel_scale hL hlL, pointLevel_scale hL (by omega : 0 ≤ L), hy2, ← hq]
        exact hlev
      · unfold refOf
        rw [hfy, hy1]
  intro z
  rw [char1]
  rw [List.mem_map]
  constructor
  · rintro ⟨hz, hown, hlev⟩
    have hzo := (hc2 r.c z hz).2 (by rw [hrefid]; exact hown)
    have hfirst : (localOf r r.level).first ≤ z := by
      obtain ⟨lo, hi, a1, a2, a3, a4⟩ := hzo
      simp only [localOf, a1, Option.getD_some]
      exact a3
    have hfz : (localOf r r.level).first + (z - (localOf r r.level).first) = z := by omega
    refine ⟨z - (localOf r r.level).first, ?_, by rw [href0, hfz]⟩
    rw [hm2, hfz]
    exact ⟨(ho2 _).2 (by rw [hfz]; exact hzo), hlev⟩
  · rintro ⟨j, hj, rfl⟩
    obtain ⟨hj1, hj2⟩ := (hm2 j).1 hj
    rw [href0]
    have hz : (localOf r r.level).first + j < nodal r.level r.boundary := by omega
    refine ⟨hz, ?_, hj2⟩
    have := (hc2 _ _ hz).1 ((ho2 j).1 hj1)
    rwa [hrefid] at this

/-- The spatial points (as index vectors on the reference grid) listed for a subspace by the
coarse grid of level `L`. -/
def spatialPoints (refs : List RefDim) (L l : List ℕ) : List (List ℕ) :=
  let g := List.zipWith localOf refs L
  (getFGPointsOfSubspace g l).map fun i =>
    List.zipWith (fun f x => f x) (List.zipWith refOf refs L) (getVectorIndex (g.map (·.size)) i)

theorem spatialPoints_eq (refs : List RefDim) (hr : ∀ r ∈ refs, ValidRef r) (L l : List ℕ)
    (hlen : L.length = refs.length) (hl : ∀ li ∈ l, 1 ≤ li) (hlL : List.Forall₂ (· ≤ ·) l L)
    (hL : List.Forall₂ (fun Li r => Li ≤ r.level) L refs) :
    spatialPoints refs L l =
      prodList (List.zipWith List.map (List.zipWith refOf refs L)
        (oneDLists (List.zipWith localOf refs L) l)) := by
  have hll := hlL.length_eq
  unfold spatialPoints
  simp only
  have hglen : (List.zipWith localOf refs L).length = l.length := by simp; omega
  have hval : ∀ d ∈ List.zipWith localOf refs L, ValidLocal d := by
    intro d hd
    obtain ⟨i, hi, rfl⟩ := List.mem_iff_getElem.1 hd
    simp only [List.length_zipWith] at hi
    rw [List.getElem_zipWith]
    have h1 := (List.forall₂_iff_get.1 hL).2 i (by omega) (by omega)
    have h2 := (List.forall₂_iff_get.1 hlL).2 i (by omega) (by omega)
    have h3 := hl _ (List.getElem_mem (l := l) (n := i) (by omega))
    simp only [List.get_eq_getElem] at h1 h2
    have hri := hr _ (List.getElem_mem (l := refs) (n := i) (by omega))
    exact ⟨hri.boundary, by simp only [localOf]; omega, (localOf_spec _ hri _ h1).1⟩
  rw [prodList_map (by simp [oneDLists]; omega), getFGPointsOfSubspace_eq _ _ hglen.symm,
    List.map_map]
  apply List.map_congr_left
  intro v hv
  rw [mem_prodList, inSubspace_iff _ hval v l hl hglen.symm] at hv
  simp only [Function.comp_apply]
  rw [getVectorIndex_sequentialIndex _ _ (inSubspace_lt hv)]

/-- C19: any two grids of a process group (with decompositions downsampled from a common
reference) that both contain a subspace list the same spatial points for it, in the same order. -/
theorem C19_consistent (refs : List RefDim) (hr : ∀ r ∈ refs, ValidRef r) (L L' l : List ℕ)
    (hl : ∀ li ∈ l, 1 ≤ li)
    (hlL : List.Forall₂ (· ≤ ·) l L) (hL : List.Forall₂ (fun Li r => Li ≤ r.level) L refs)
    (hlL' : List.Forall₂ (· ≤ ·) l L') (hL' : List.Forall₂ (fun Li r => Li ≤ r.level) L' refs) :
    spatialPoints refs L l = spatialPoints refs L' l := by
  rw [spatialPoints_eq refs hr L l hL.length_eq hl hlL hL,
    spatialPoints_eq refs hr L' l hL'.length_eq hl hlL' hL']
  congr 1
  have a1 := hlL.length_eq
  have a2 := hL.length_eq
  have a3 := hlL'.length_eq
  apply List.ext_getElem
  · simp [oneDLists]; omega
  · intro i h1 h2
    simp only [List.length_zipWith, oneDLists] at h1 h2
    simp only [List.getElem_zipWith, oneDLists]
    have hri := hr _ (List.getElem_mem (l := refs) (n := i) (by omega))
    have b0 := hl _ (List.getElem_mem (l := l) (n := i) (by omega))
    have b1 := (List.forall₂_iff_get.1 hlL).2 i (by omega) (by omega)
    have b2 := (List.forall₂_iff_get.1 hL).2 i (by omega) (by omega)
    have b3 := (List.forall₂_iff_get.1 hlL').2 i (by omega) (by omega)
    have b4 := (List.forall₂_iff_get.1 hL').2 i (by omega) (by omega)
    simp only [List.get_eq_getElem] at b1 b2 b3 b4
    have c1 := get1d_consistent _ hri _ _ b0 b1 b2
    have c2 := get1d_consistent _ hri _ _ b0 b3 b4
    exact c1.trans c2.symm

example : ValidRef ⟨4, 2, [0, 6, 11], 1⟩ ∧ ValidRef ⟨3, 0, [0, 3], 1⟩ ∧
    spatialPoints [⟨4, 2, [0, 6, 11], 1⟩, ⟨3, 0, [0, 3], 1⟩] [4, 2] [1, 2] = [[8, 5]] ∧
    spatialPoints [⟨4, 2, [0, 6, 11], 1⟩, ⟨3, 0, [0, 3], 1⟩] [2, 3] [1, 2] = [[8, 5]] :=
  ⟨⟨by decide, ⟨rfl, by decide, by decide⟩, by decide⟩,
    ⟨by decide, ⟨rfl, by decide, by decide⟩, by decide⟩, by decide, by decide⟩

end Verif

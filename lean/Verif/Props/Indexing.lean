import Verif.Lemmas.Decomposition
import Verif.Model.CombiScheme

/-!
# Properties C11, C12, C13: indices and owners
-/

namespace Verif

/-! ### C11 -/

/-- C11: linear and vector index are inverse to each other: every index vector within the
extents has a linear index below the number of elements from which it is recovered, and every
linear index below the number of elements is the linear index of exactly one vector. -/
theorem C11_bijection (es : List ℕ) :
    (∀ is, List.Forall₂ (· < ·) is es →
      sequentialIndex es is < es.prod ∧ getVectorIndex es (sequentialIndex es is) = is) ∧
    (∀ n < es.prod, ∃! is, List.Forall₂ (· < ·) is es ∧ sequentialIndex es is = n) := by
  refine ⟨fun is h => ⟨sequentialIndex_lt es is h, getVectorIndex_sequentialIndex es is h⟩,
    fun n hn => ?_⟩
  obtain ⟨h1, h2⟩ := getVectorIndex_spec es n hn
  refine ⟨getVectorIndex es n, ⟨h1, h2⟩, ?_⟩
  rintro is ⟨h3, rfl⟩
  exact (getVectorIndex_sequentialIndex es is h3).symm

/-- C11: the order is column-major: the first index runs fastest. -/
theorem C11_column_major (e i : ℕ) (es is : List ℕ) :
    sequentialIndex (e :: es) (i :: is) = i + e * sequentialIndex es is ∧
      sequentialIndex es [] = 0 :=
  ⟨sequentialIndex_cons e i es is, sequentialIndex_nil es⟩

/-- C11: the size is the product of the extents; an indexer without dimensions has no elements. -/
theorem C11_size (es : List ℕ) : (es ≠ [] → tensorSize es = es.prod) ∧ tensorSize [] = 0 := by
  refine ⟨fun h => ?_, rfl⟩
  rw [tensorSize, if_neg h, foldl_mul_eq, one_mul]

example : List.Forall₂ (· < ·) [2, 0, 1] [3, 4, 2] ∧ sequentialIndex [3, 4, 2] [2, 0, 1] = 14 ∧
    getVectorIndex [3, 4, 2] 14 = [2, 0, 1] := by decide

/-! ### C12 -/

/-- All dimensions of the grid have usable decompositions. -/
def ValidGrid (g : List Dim1) : Prop := ∀ d ∈ g, ValidDec d.dec d.numPoints

/-- Cartesian coordinates of a process. -/
def ValidCoords (g : List Dim1) (c : List ℕ) : Prop :=
  List.Forall₂ (fun ci d => ci < d.dec.length) c g

/-- Index vector of a grid point. -/
def IsPoint (g : List Dim1) (x : List ℕ) : Prop := List.Forall₂ (· < ·) x (globalSizes g)

theorem isGlobalIndexHere_cons (d : Dim1) (g : List Dim1) (c x : ℕ) (cs xs : List ℕ) :
    isGlobalIndexHere (d :: g) (c :: cs) (x :: xs) = true ↔
      ((lowerBound1d d.dec c).getD 0 ≤ x ∧ x < (upperBound1d d.dec d.numPoints c).getD 0) ∧
        isGlobalIndexHere g cs xs = true := by
  simp only [isGlobalIndexHere, lowerBounds, upperBounds, vecLeB, vecLtB, List.zipWith_cons_cons,
    List.all_cons, Bool.and_eq_true, decide_eq_true_eq, id]
  tauto

theorem owns1d_iff_bounds {dec : List ℕ} {n c x : ℕ} (h : ValidDec dec n) (hc : c < dec.length) :
    Owns1d dec n c x ↔
      (lowerBound1d dec c).getD 0 ≤ x ∧ x < (upperBound1d dec n c).getD 0 := by
  obtain ⟨lo, hi, h1, h2, -, -⟩ := bounds1d h hc
  unfold Owns1d
  rw [h1, h2]
  simp

/-- C12: every grid point is owned by exactly one process of the process grid. -/
theorem C12_unique_owner (g : List Dim1) (h : ValidGrid g) (x : List ℕ) (hx : IsPoint g x) :
    ∃! c, ValidCoords g c ∧ isGlobalIndexHere g c x = true := by
  induction g generalizing x with
  | nil =>
    rw [IsPoint, globalSizes, List.map_nil, List.forall₂_nil_right_iff] at hx
    subst hx
    refine ⟨[], ⟨List.Forall₂.nil, rfl⟩, ?_⟩
    rintro c ⟨hc, _⟩
    exact List.forall₂_nil_right_iff.1 hc
  | cons d g ih =>
    have hd := h d (by simp)
    rw [IsPoint, globalSizes, List.map_cons, List.forall₂_cons_right_iff] at hx
    obtain ⟨x0, xs, hx0, hxs, rfl⟩ := hx
    obtain ⟨cs, ⟨hcs1, hcs2⟩, huniq⟩ := ih (fun d hd => h d (by simp [hd])) xs hxs
    have hpos := stdLowerBound_pos hd x0
    have hle := stdLowerBound_le d.dec (x0 + 1)
    have how : Owns1d d.dec d.numPoints (stdLowerBound d.dec (x0 + 1) - 1) x0 :=
      (owns1d_iff hd _ _ hx0).2 (by omega)
    refine ⟨(stdLowerBound d.dec (x0 + 1) - 1) :: cs,
      ⟨List.Forall₂.cons (owns1d_lt_length how) hcs1, ?_⟩, ?_⟩
    · rw [isGlobalIndexHere_cons]
      exact ⟨(owns1d_iff_bounds hd (owns1d_lt_length how)).1 how, hcs2⟩
    · rintro c ⟨hc1, hc2⟩
      rw [ValidCoords, List.forall₂_cons_right_iff] at hc1
      obtain ⟨c0, cs', hc0, hcs', rfl⟩ := hc1
      rw [isGlobalIndexHere_cons, ← owns1d_iff_bounds hd hc0, owns1d_iff hd _ _ hx0] at hc2
      rw [huniq cs' ⟨hcs', hc2.2⟩]
      congr 1
      omega

example : ValidGrid [⟨[0, 2, 4], 5⟩, ⟨[0, 4], 9⟩] ∧ IsPoint [⟨[0, 2, 4], 5⟩, ⟨[0, 4], 9⟩] [4, 3] ∧
    isGlobalIndexHere [⟨[0, 2, 4], 5⟩, ⟨[0, 4], 9⟩] [2, 0] [4, 3] = true := by
  refine ⟨?_, by simp [IsPoint, globalSizes], by decide⟩
  intro d hd
  simp at hd
  rcases hd with rfl | rfl
  · exact ⟨rfl, by decide, by decide⟩
  · exact ⟨rfl, by decide, by decide⟩

/-- C12: the neighbour lookup finds the process owning the index in this dimension, and
reports indices outside of the domain as missing. -/
theorem C12_neighbor_lookup (dec : List ℕ) (n : ℕ) (h : ValidDec dec n) (idx : ℤ) :
    (∀ x : ℕ, idx = x → x < n →
      ∃ c : ℕ, getNeighborPartition1d dec n idx = some (c : ℤ) ∧ Owns1d dec n c x) ∧
    (idx < 0 ∨ (n : ℤ) ≤ idx → getNeighborPartition1d dec n idx = none) := by
  unfold getNeighborPartition1d
  constructor
  · rintro x rfl hx
    have hpos := stdLowerBound_pos h x
    rw [if_neg (by omega), if_neg (by omega)]
    refine ⟨stdLowerBound dec (x + 1) - 1, ?_, (owns1d_iff h _ _ hx).2 (by omega)⟩
    simp only [Int.toNat_natCast, Option.some.injEq]
    omega
  · rintro (hi | hi)
    · rw [if_pos hi]
    · rw [if_neg (by omega), if_pos (by omega)]

/-- C12: `getPartitionCoords` computes the owner's coordinate, too. -/
theorem C12_partition_coords (dec : List ℕ) (n : ℕ) (h : ValidDec dec n) (x : ℕ) (hx : x < n) :
    ∃ c : ℕ, getPartitionCoord1d dec x = c ∧ Owns1d dec n c x := by
  have hpos := stdLowerBound_pos h x
  refine ⟨stdLowerBound dec (x + 1) - 1, ?_, (owns1d_iff h _ _ hx).2 (by omega)⟩
  rw [getPartitionCoord1d_eq dec h.sorted]
  omega

example : ValidDec [0, 2, 4] 5 ∧ getPartitionCoord1d [0, 2, 4] 3 = 1 :=
  ⟨⟨rfl, by decide, by decide⟩, by decide⟩

/-- Specification: all process coordinates of a grid. -/
def allCoords : List Dim1 → List (List ℕ)
  | [] => [[]]
  | d :: g => (List.range d.dec.length).flatMap fun c => (allCoords g).map (c :: ·)

theorem mem_allCoords (g : List Dim1) (c : List ℕ) : c ∈ allCoords g ↔ ValidCoords g c := by
  induction g generalizing c with
  | nil => simp [allCoords, ValidCoords]
  | cons d g ih =>
    simp only [allCoords, List.mem_flatMap, List.mem_range, List.mem_map, ValidCoords,
      List.forall₂_cons_right_iff]
    constructor
    · rintro ⟨c0, h0, cs, hcs, rfl⟩
      exact ⟨c0, cs, h0, (ih cs).1 hcs, rfl⟩
    · rintro ⟨c0, cs, h0, hcs, rfl⟩
      exact ⟨c0, h0, cs, (ih cs).2 hcs, rfl⟩

/-- C12: the local numbers of points of all processes add up to the number of grid points. -/
theorem C12_sizes_add_up (g : List Dim1) (h : ValidGrid g) :
    ((allCoords g).map fun c => (localSizes g c).prod).sum = (globalSizes g).prod := by
  induction g with
  | nil => simp [allCoords, localSizes, globalSizes, upperBounds, lowerBounds]
  | cons d g ih =>
    have ih := ih fun d hd => h d (by simp [hd])
    have h1 := sum_localSizes_1d (h d (by simp))
    simp only [globalSizes, List.map_cons, List.prod_cons]
    rw [← globalSizes, ← ih]
    conv_rhs => rw [← h1]
    have hac : allCoords (d :: g) =
        (List.range d.dec.length).flatMap fun c => (allCoords g).map (c :: ·) := rfl
    rw [hac, sum_map_flatMap, ← List.sum_map_mul_right]
    congr 1
    apply List.map_congr_left
    intro c _
    rw [List.map_map, ← List.sum_map_mul_left]
    congr 1

/-- C12: the number of degrees of freedom that is reported for a component grid and used to balance the
load is the number of values all processes of a group store for it. It is not zero: a grid of level 0 without
boundary points in some dimension is rejected. -/
theorem C12_degrees_of_freedom (levels boundary : List ℕ) (g : List Dim1) (h : ValidGrid g)
    (hlen : levels.length = boundary.length)
    (hn : List.Forall₂ (fun lb d => getNumDofNodal lb.1 lb.2 = some d.numPoints) (levels.zip boundary) g) :
    getCombiDegreesOfFreedom levels boundary =
      ((allCoords g).map fun c => (localSizes g c).prod).sum ∧
    0 < getCombiDegreesOfFreedom levels boundary := by
  refine ⟨?_, ?_⟩
  swap
  · clear h hlen
    apply Nat.pos_of_ne_zero
    unfold getCombiDegreesOfFreedom
    rw [Ne, List.prod_eq_zero_iff]
    intro hx
    obtain ⟨i, hi, e⟩ := List.mem_iff_getElem.1 hx
    rw [List.length_zipWith] at hi
    rw [List.getElem_zipWith] at e
    have h1 := (List.forall₂_iff_get.1 hn).2 i (by simpa using hi) (by
      rw [← (List.forall₂_iff_get.1 hn).1]; simpa using hi)
    simp only [List.get_eq_getElem, List.getElem_zip] at h1
    unfold getNumDofNodal at h1
    unfold numDof1d at e
    split_ifs at h1 e with h2 h3
    · have := Nat.one_lt_two_pow (n := levels[i]) (by omega)
      omega
  rw [C12_sizes_add_up g h]
  clear h
  induction levels generalizing boundary g with
  | nil =>
    cases hn
    simp [getCombiDegreesOfFreedom, globalSizes]
  | cons l levels ih =>
    cases boundary with
    | nil => simp at hlen
    | cons b boundary =>
      rw [List.zip_cons_cons, List.forall₂_cons_left_iff] at hn
      obtain ⟨d, g', h1, h2, rfl⟩ := hn
      have := ih boundary g' (by simpa using hlen) h2
      unfold getCombiDegreesOfFreedom globalSizes at *
      simp only [List.zipWith_cons_cons, List.prod_cons, List.map_cons]
      rw [this]
      congr 1
      unfold getNumDofNodal at h1
      unfold numDof1d
      split_ifs at h1 ⊢ <;> simpa using h1

example : ValidGrid [⟨[0, 4], 9⟩, ⟨[0], 3⟩] ∧ List.Forall₂
    (fun lb (d : Dim1) => getNumDofNodal lb.1 lb.2 = some d.numPoints) (List.zip [3, 2] [2, 0])
    [⟨[0, 4], 9⟩, ⟨[0], 3⟩] :=
  ⟨by rintro d hd; rcases List.mem_cons.mp hd with rfl | hd
      · exact ⟨rfl, by decide, by decide⟩
      · rw [List.mem_singleton] at hd; subst hd; exact ⟨rfl, by decide, by decide⟩,
    .cons rfl (.cons rfl .nil)⟩

/-- C12: the default decompositions are valid and all parts are nonempty. -/
theorem C12_default_decomposition (n p : ℕ) (hp : 1 ≤ p) (forward : Bool) :
    (p ≤ n → ∃ dec, getDefaultDecomposition1d n p forward = some dec ∧ dec.length = p ∧
      ValidDec dec n ∧ dec.Pairwise (· < ·) ∧ ∀ x ∈ dec, x < n) ∧
    (n < p → getDefaultDecomposition1d n p forward = none) := by
  constructor
  · intro hpn
    have hmono : ∀ i j, i < j →
        (if forward then ceilDiv' (n * i) p else n * i / p) <
          (if forward then ceilDiv' (n * j) p else n * j / p) := by
      intro i j hij
      obtain ⟨k, rfl⟩ : ∃ k, j = i + 1 + k := ⟨j - i - 1, by omega⟩
      have h1 : n * i + p ≤ n * (i + 1 + k) := by nlinarith
      cases forward
      · simp only [Bool.false_eq_true, if_false]
        have : (n * i + p) / p ≤ n * (i + 1 + k) / p := Nat.div_le_div_right h1
        rw [Nat.add_div_right _ (by omega)] at this
        omega
      · simp only [if_true, ceilDiv']
        have : (n * i + p - 1 + p) / p ≤ (n * (i + 1 + k) + p - 1) / p :=
          Nat.div_le_div_right (by omega)
        rw [Nat.add_div_right _ (by omega)] at this
        omega
    have hlt : ∀ j < p, (if forward then ceilDiv' (n * j) p else n * j / p) < n := by
      intro j hj
      have h1 : n * j + n ≤ n * p := by nlinarith
      cases forward
      · simp only [Bool.false_eq_true, if_false]
        rw [Nat.div_lt_iff_lt_mul (by omega)]
        omega
      · simp only [if_true, ceilDiv']
        rw [Nat.div_lt_iff_lt_mul (by omega)]
        omega
    have hpw : ((List.range p).map fun j =>
        if forward then ceilDiv' (n * j) p else n * j / p).Pairwise (· < ·) := by
      rw [List.pairwise_map]
      exact List.pairwise_lt_range.imp fun {i j} h => hmono i j h
    have hl : ∀ x ∈ (List.range p).map fun j =>
        if forward then ceilDiv' (n * j) p else n * j / p, x < n := by
      intro x hx
      obtain ⟨j, hj, rfl⟩ := List.mem_map.1 hx
      exact hlt j (by simpa using hj)
    refine ⟨_, by rw [getDefaultDecomposition1d, if_neg (by omega)], by simp, ⟨?_, ?_, ?_⟩, hpw, hl⟩
    · obtain ⟨q, rfl⟩ : ∃ q, p = q + 1 := ⟨p - 1, by omega⟩
      rw [List.range_succ_eq_map]
      cases forward
      · simp
      · simp [ceilDiv']
    · exact hpw.imp fun h => le_of_lt h
    · exact fun x hx => le_of_lt (hl x hx)
  · intro h
    rw [getDefaultDecomposition1d, if_pos h]

example : getDefaultDecomposition1d 9 4 false = some [0, 2, 4, 6] ∧
    getDefaultDecomposition1d 9 4 true = some [0, 3, 5, 7] := by decide

/-! ### C12: ranks and coordinates -/

theorem foldl_set_spec (procs : List ℕ) (cc : List (List ℕ)) (hnd : cc.Nodup)
    (hmem : ∀ c ∈ cc, List.Forall₂ (· < ·) c procs) (v : List ℕ) (hv : v.length = procs.prod)
    (m : ℕ) (hm : m ≤ cc.length) :
    let w := (List.range m).foldl (fun v i => v.set (sequentialIndex procs (cc.getD i [])) i) v
    w.length = procs.prod ∧
      ∀ j, j < m → w[sequentialIndex procs (cc.getD j [])]? = some j := by
  induction m with
  | zero => simp [hv]
  | succ m ih =>
    obtain ⟨h1, h2⟩ := ih (by omega)
    simp only [List.range_succ, List.foldl_append, List.foldl_cons, List.foldl_nil,
      List.length_set]
    refine ⟨h1, fun j hj => ?_⟩
    have hin : ∀ i (hi : i < cc.length), sequentialIndex procs (cc.getD i []) < procs.prod := by
      intro i hi
      rw [List.getD_eq_getElem _ _ hi]
      exact sequentialIndex_lt _ _ (hmem _ (List.getElem_mem _))
    by_cases hjm : j = m
    · subst hjm
      rw [List.getElem?_set_self (by rw [h1]; exact hin _ (by omega))]
    · rw [List.getElem?_set_ne]
      · exact h2 j (by omega)
      · intro hc
        rw [List.getD_eq_getElem _ _ (by omega : j < cc.length),
          List.getD_eq_getElem _ _ (by omega : m < cc.length)] at hc
        have e1 := getVectorIndex_sequentialIndex procs _ (hmem _ (List.getElem_mem (l := cc) (n := m) (by omega)))
        have e2 := getVectorIndex_sequentialIndex procs _ (hmem _ (List.getElem_mem (l := cc) (n := j) (by omega)))
        rw [hc, e2] at e1
        exact hjm ((hnd.getElem_inj_iff).1 e1)

/-- C12: ranks and cartesian coordinates are translated consistently in both directions, for
every assignment of ranks to coordinates by MPI (each coordinate vector to one rank). -/
theorem C12_ranks (procs : List ℕ) (hne : procs ≠ []) (cc : List (List ℕ)) (hnd : cc.Nodup)
    (hmem : ∀ c, c ∈ cc ↔ List.Forall₂ (· < ·) c procs) (r : ℕ) (hr : r < cc.length) :
    getRankFromPartitionCoords procs (fillPartitionCoords procs cc) cc[r] = some r ∧
      getPartitionCoordsOfRank procs (fillPartitionCoords procs cc) r = cc[r] := by
  obtain ⟨h1, h2⟩ := foldl_set_spec procs cc hnd (fun c hc => (hmem c).1 hc)
    (List.replicate (tensorSize procs) 0) (by simp [(C11_size procs).1 hne]) cc.length (le_refl _)
  rw [← fillPartitionCoords] at h1 h2
  have hget : ∀ j (hj : j < cc.length),
      (fillPartitionCoords procs cc)[sequentialIndex procs cc[j]]? = some j := by
    intro j hj
    have := h2 j hj
    rwa [List.getD_eq_getElem _ _ hj] at this
  refine ⟨hget r hr, ?_⟩
  unfold getPartitionCoordsOfRank
  set pc := fillPartitionCoords procs cc with hpc
  have hrin : r ∈ pc := by
    obtain ⟨hh, he⟩ := List.getElem?_eq_some_iff.1 (hget r hr)
    rw [← he]
    exact List.getElem_mem _
  have hlt : pc.idxOf r < pc.length := List.idxOf_lt_length_of_mem hrin
  obtain ⟨a1, a2⟩ := getVectorIndex_spec procs (pc.idxOf r) (by rw [← h1]; exact hlt)
  set c := getVectorIndex procs (pc.idxOf r) with hc
  obtain ⟨j, hj, hjc⟩ := List.mem_iff_getElem.1 ((hmem c).2 a1)
  have h3 := hget j hj
  rw [hjc, a2, List.getElem?_eq_getElem hlt, List.getElem_idxOf hlt] at h3
  simp only [Option.some.injEq] at h3
  subst h3
  exact hjc.symm

example : ([[0, 0], [0, 1], [0, 2], [1, 0], [1, 1], [1, 2]] : List (List ℕ)).Nodup ∧
    getRankFromPartitionCoords [2, 3]
      (fillPartitionCoords [2, 3] [[0, 0], [0, 1], [0, 2], [1, 0], [1, 1], [1, 2]]) [1, 0] =
        some 3 := by decide

/-! ### C13 -/

theorem here_of_local (g : List Dim1) (h : ValidGrid g) (c : List ℕ) (hc : ValidCoords g c)
    (x : List ℕ) (hx : List.Forall₂ (· < ·) x (localSizes g c)) :
    x.length = (lowerBounds g c).length ∧
    isGlobalIndexHere g c (List.zipWith (· + ·) (lowerBounds g c) x) = true ∧
      IsPoint g (List.zipWith (· + ·) (lowerBounds g c) x) := by
  unfold ValidCoords at hc
  induction hc generalizing x with
  | nil =>
    simp [localSizes, lowerBounds, upperBounds] at hx
    subst hx
    exact ⟨rfl, rfl, List.Forall₂.nil⟩
  | cons hc0 hcs ih =>
    rename_i c0 d cs g
    obtain ⟨lo, hi, h1, h2, h3, h4⟩ := bounds1d (h d (by simp)) hc0
    simp only [localSizes, lowerBounds, upperBounds, List.zipWith_cons_cons] at hx
    rw [List.forall₂_cons_right_iff] at hx
    obtain ⟨x0, xs, hx0, hxs, rfl⟩ := hx
    obtain ⟨i1, i2, i3⟩ := ih (fun d hd => h d (by simp [hd])) xs hxs
    rw [h1, h2] at hx0
    simp only [Option.getD_some] at hx0
    refine ⟨?_, ?_, ?_⟩
    · simp only [lowerBounds, List.zipWith_cons_cons, List.length_cons] at i1 ⊢
      omega
    · simp only [lowerBounds, List.zipWith_cons_cons]
      rw [isGlobalIndexHere_cons, h1, h2]
      refine ⟨⟨by simp, by simp; omega⟩, i2⟩
    · simp only [IsPoint, globalSizes, lowerBounds, List.zipWith_cons_cons, List.map_cons]
      refine List.Forall₂.cons ?_ i3
      rw [h1]
      simp
      omega

/-- C13 (local to global): the global linear index of a local point is the linear index of the
local index vector shifted by the lower bounds, and that grid point is owned by this process. -/
theorem C13_local_to_global (g : List Dim1) (h : ValidGrid g) (c : List ℕ) (hc : ValidCoords g c)
    (loc : ℕ) (hloc : loc < (localSizes g c).prod) :
    let x := List.zipWith (· + ·) (lowerBounds g c) (getVectorIndex (localSizes g c) loc)
    getGlobalLinearIndex g c loc = sequentialIndex (globalSizes g) x ∧
      getVectorIndex (globalSizes g) (getGlobalLinearIndex g c loc) = x ∧
      IsPoint g x ∧ isGlobalIndexHere g c x = true := by
  obtain ⟨a1, a2⟩ := getVectorIndex_spec _ _ hloc
  obtain ⟨b1, b2, b3⟩ := here_of_local g h c hc _ a1
  have e : getGlobalLinearIndex g c loc = sequentialIndex (globalSizes g)
      (List.zipWith (· + ·) (lowerBounds g c) (getVectorIndex (localSizes g c) loc)) := by
    rw [sequentialIndex_add _ _ _ b1.symm]
    rfl
  refine ⟨e, ?_, b3, b2⟩
  rw [e]
  exact getVectorIndex_sequentialIndex _ _ b3

/-- C13 is violated for the opposite direction: on a 4x4 grid on 2x2 processes, the first point
of the last process gets the local index -4 instead of 0. -/
theorem C13_global_to_local_violated :
    ∃ g c, ValidGrid g ∧ ValidCoords g c ∧ 0 < (localSizes g c).prod ∧
      getLocalLinearIndex g c (getGlobalLinearIndex g c 0) = -4 := by
  refine ⟨[⟨[0, 2], 4⟩, ⟨[0, 2], 4⟩], [1, 1], ?_, by simp [ValidCoords], by decide, by decide⟩
  intro d hd
  simp at hd
  subst hd
  exact ⟨rfl, by decide, by decide⟩

/-- C13 (global to local), the part that holds: the round trip is the identity exactly for those
processes whose lower bounds have the same linear index in local and global numbering. Missing
for the full claim: the other processes, where it is false. -/
theorem C13_global_to_local_partial (g : List Dim1) (h : ValidGrid g) (c : List ℕ)
    (hc : ValidCoords g c) (loc : ℕ) (hloc : loc < (localSizes g c).prod) :
    getLocalLinearIndex g c (getGlobalLinearIndex g c loc) = loc ↔
      sequentialIndex (localSizes g c) (lowerBounds g c) =
        sequentialIndex (globalSizes g) (lowerBounds g c) := by
  obtain ⟨a1, a2⟩ := getVectorIndex_spec _ _ hloc
  obtain ⟨b1, b2, b3⟩ := here_of_local g h c hc _ a1
  obtain ⟨e1, e2, e3, e4⟩ := C13_local_to_global g h c hc loc hloc
  unfold getLocalLinearIndex
  simp only
  rw [e2, if_pos e4, sequentialIndex_add _ _ _ b1.symm, a2]
  omega

/-- A sufficient condition for `C13_global_to_local_partial`: only one dimension is distributed
(the process starts at 0 in all others, and the dimensions before it are undivided). -/
theorem C13_one_distributed_dim (pre post : List ℕ) (e e' lo : ℕ) (post' : List ℕ) :
    let lower := pre.map (fun _ => 0) ++ lo :: post.map fun _ => 0
    sequentialIndex (pre ++ e' :: post') lower = sequentialIndex (pre ++ e :: post) lower := by
  have hz : ∀ (es : List ℕ) (zs : List ℕ), (∀ z ∈ zs, z = 0) → sequentialIndex es zs = 0 := by
    intro es
    induction es with
    | nil => intro zs _; simp [sequentialIndex, tensorOffsets, offsetsLoop]
    | cons a es ih =>
      intro zs hzs
      cases zs with
      | nil => exact sequentialIndex_nil _
      | cons z zs =>
        rw [sequentialIndex_cons, ih zs fun z hz => hzs z (by simp [hz]), hzs z (by simp)]
        simp
  induction pre with
  | nil =>
    simp only [List.map_nil, List.nil_append]
    rw [sequentialIndex_cons, sequentialIndex_cons, hz _ _ (by simp), hz _ _ (by simp)]
    simp
  | cons a pre ih =>
    simp only [List.map_cons, List.cons_append] at ih ⊢
    rw [sequentialIndex_cons, sequentialIndex_cons, ih]

example : ValidGrid [⟨[0], 3⟩, ⟨[0, 2], 4⟩] ∧ ValidCoords [⟨[0], 3⟩, ⟨[0, 2], 4⟩] [0, 1] ∧
    getLocalLinearIndex [⟨[0], 3⟩, ⟨[0, 2], 4⟩] [0, 1] 7 = 1 := by
  refine ⟨?_, by simp [ValidCoords], by decide⟩
  intro d hd
  simp at hd
  rcases hd with rfl | rfl
  · exact ⟨rfl, by decide, by decide⟩
  · exact ⟨rfl, by decide, by decide⟩

end Verif

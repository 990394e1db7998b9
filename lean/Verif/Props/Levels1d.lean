import Verif.Lemmas.Levels1d
import Verif.Props.Indexing

/-!
# Properties C14, C15, C16: levels of 1-d points, predecessors, downsampling
-/

namespace Verif

/-! ### C14 -/

theorem pointLevel_zero_or {lmax x l : ℕ} (h : PointLevel lmax x l) : l ≤ lmax := by
  rcases h with ⟨rfl, _⟩ | ⟨_, h, _⟩ <;> omega

/-- C14: every grid point has exactly one level, and `getLevel` computes it. -/
theorem C14_level (lmax b idx : ℕ) (hb : b ≤ 2) (h : idx < nodal lmax b) :
    ∃ l : ℕ, getLevel lmax b idx = l ∧ l ≤ lmax ∧ PointLevel lmax (pos b idx) l ∧
      ∀ l', PointLevel lmax (pos b idx) l' → l' = l := by
  obtain ⟨hp, -, -⟩ := pos_le hb h
  have hg : getLevel lmax b idx =
      if pos b idx = 0 then 0 else (lmax : ℤ) - ctz (pos b idx) := rfl
  by_cases h0 : pos b idx = 0
  · have hl : PointLevel lmax (pos b idx) 0 := Or.inl ⟨rfl, Or.inl h0⟩
    exact ⟨0, by rw [hg, if_pos h0]; rfl, by omega, hl, fun l' h' => pointLevel_unique h' hl⟩
  · obtain ⟨h1, h2⟩ := pointLevel_ctz hp h0
    refine ⟨lmax - ctz (pos b idx), ?_, by omega, h2, fun l' h' => pointLevel_unique h' h2⟩
    rw [hg, if_neg h0]
    omega

theorem getLevel_eq_iff {lmax b idx : ℕ} (hb : b ≤ 2) (h : idx < nodal lmax b) (l : ℕ) :
    getLevel lmax b idx = l ↔ PointLevel lmax (pos b idx) l := by
  obtain ⟨l0, h1, _, h2, h3⟩ := C14_level lmax b idx hb h
  rw [h1]
  constructor
  · intro he
    have : l0 = l := by exact_mod_cast he
    rwa [← this]
  · intro hp
    rw [h3 l hp]

/-- C14: the level of a point is at least 1 on grids without boundary points. -/
theorem C14_level_pos (lmax idx : ℕ) (h : idx < nodal lmax 0) : 1 ≤ getLevel lmax 0 idx := by
  obtain ⟨l, h1, h2, h3, -⟩ := C14_level lmax 0 idx (by omega) h
  obtain ⟨-, p2, p3⟩ := pos_le (by omega : 0 ≤ 2) h
  have := p2 (by omega)
  have := p3 rfl
  rw [h1]
  rcases h3 with ⟨rfl, h | h⟩ | ⟨h, _⟩ <;> omega

example : 5 < nodal 3 2 ∧ getLevel 3 2 5 = 3 ∧ getLevel 3 2 6 = 2 ∧ getLevel 3 2 8 = 0 ∧
    getLevel 3 0 5 = 2 := by decide +kernel

/-- C14: the local indices enumerated for a level are exactly the local points of that level
(level-0 points, the boundary, are counted with level 1), each once and in ascending order. -/
theorem C14_indices (lmax b first size l : ℕ) (hb : b ≤ 2) (hl : 1 ≤ l) (hL : 1 ≤ lmax)
    (hn : first + size ≤ nodal lmax b) :
    (∀ j, j ∈ get1dIndicesLocal lmax b first size l ↔ j < size ∧
      (PointLevel lmax (pos b (first + j)) l ∨
        (l = 1 ∧ PointLevel lmax (pos b (first + j)) 0))) ∧
    (get1dIndicesLocal lmax b first size l).Pairwise (· < ·) := by
  refine ⟨mem_get1dIndicesLocal hb hl hL hn, ?_⟩
  unfold get1dIndicesLocal
  split
  · simp
  · simp only
    rw [List.pairwise_map]
    refine List.pairwise_lt_range.imp fun {i j} h => ?_
    have := stride_pos lmax b l
    have : i * strideForLevel lmax b l < j * strideForLevel lmax b l :=
      Nat.mul_lt_mul_of_pos_right h this
    omega

example : 3 + 4 ≤ nodal 3 2 ∧ get1dIndicesLocal 3 2 3 4 3 = [0, 2] ∧
    get1dIndicesLocal 3 2 3 4 2 = [3] ∧ get1dIndicesLocal 3 2 3 4 1 = [1] := by decide

/-- level test, with the boundary points counted with level 1 -/
def onLevel (lmax b l x : ℕ) : Bool :=
  getLevel lmax b x == l || (l == 1 && getLevel lmax b x == 0)

theorem get1d_eq_filter (lmax b first size l : ℕ) (hb : b ≤ 2) (hl : 1 ≤ l) (hL : 1 ≤ lmax)
    (hn : first + size ≤ nodal lmax b) :
    get1dIndicesLocal lmax b first size l =
      (List.range size).filter fun j => onLevel lmax b l (first + j) := by
  obtain ⟨h1, h2⟩ := C14_indices lmax b first size l hb hl hL hn
  have h3 : ((List.range size).filter fun j => onLevel lmax b l (first + j)).Pairwise (· < ·) :=
    List.pairwise_lt_range.filter _
  refine List.Perm.eq_of_pairwise (le := (· < ·)) (fun a b _ _ hab hba => by omega) h2 h3 ?_
  rw [List.perm_ext_iff_of_nodup (h2.imp fun h => ne_of_lt h) (h3.imp fun h => ne_of_lt h)]
  intro j
  rw [h1, List.mem_filter, List.mem_range]
  refine and_congr_right fun hj => ?_
  have hx : first + j < nodal lmax b := by omega
  unfold onLevel
  rw [Bool.or_eq_true, Bool.and_eq_true, beq_iff_eq, beq_iff_eq, beq_iff_eq,
    getLevel_eq_iff hb hx]
  have := getLevel_eq_iff hb hx 0
  rw [Nat.cast_zero] at this
  rw [this]

theorem count_split (p : ℕ → Bool) (a m k : ℕ) :
    ((List.range (m + k)).filter fun j => p (a + j)).length =
      ((List.range m).filter fun j => p (a + j)).length +
        ((List.range k).filter fun j => p (a + m + j)).length := by
  rw [List.range_add, List.filter_append, List.length_append, List.filter_map, List.length_map]
  congr 2
  apply List.filter_congr
  intro j _
  simp [add_assoc]

theorem sum_counts_aux (p : ℕ → Bool) (dec : List ℕ) (n a : ℕ) (h : (a :: dec).Pairwise (· ≤ ·))
    (hle : ∀ x ∈ a :: dec, x ≤ n) :
    ((List.range (a :: dec).length).map fun c =>
      ((List.range ((upperBound1d (a :: dec) n c).getD 0 - (lowerBound1d (a :: dec) c).getD 0)).filter
        fun j => p ((lowerBound1d (a :: dec) c).getD 0 + j)).length).sum =
      ((List.range (n - a)).filter fun j => p (a + j)).length := by
  induction dec generalizing a with
  | nil => simp [upperBound1d, lowerBound1d]
  | cons b dec ih =>
    have h' := (List.pairwise_cons.1 h).2
    have hab : a ≤ b := (List.pairwise_cons.1 h).1 b (by simp)
    have hbn : b ≤ n := hle b (by simp)
    have := ih b h' (fun x hx => hle x (by simp at hx ⊢; tauto))
    rw [List.length_cons, List.range_succ_eq_map, List.map_cons, List.sum_cons, List.map_map]
    have e : (List.map ((fun c => ((List.range ((upperBound1d (a :: b :: dec) n c).getD 0 -
        (lowerBound1d (a :: b :: dec) c).getD 0)).filter
          fun j => p ((lowerBound1d (a :: b :: dec) c).getD 0 + j)).length) ∘ Nat.succ)
          (List.range (b :: dec).length)) =
        (List.range (b :: dec).length).map fun c =>
      ((List.range ((upperBound1d (b :: dec) n c).getD 0 - (lowerBound1d (b :: dec) c).getD 0)).filter
        fun j => p ((lowerBound1d (b :: dec) c).getD 0 + j)).length := by
      apply List.map_congr_left
      intro c _
      simp [upperBound1d, lowerBound1d]
    rw [e, this]
    have hs := count_split p a (b - a) (n - b)
    have e1 : b - a + (n - b) = n - a := by omega
    have e2 : a + (b - a) = b := by omega
    rw [e1, e2] at hs
    rw [hs]
    simp [upperBound1d, lowerBound1d]

theorem length_get1d_full (lmax b l : ℕ) (hb : b ≤ 2) (hl : 1 ≤ l) (hL : l ≤ lmax) :
    (get1dIndicesLocal lmax b 0 (nodal lmax b) l).length = getNumDofHierarchical l b := by
  unfold get1dIndicesLocal
  rw [if_neg (by omega), List.length_map, List.length_range]
  have hstart : localStartForLevel lmax b 0 l = offsetForLevel lmax b l := by
    unfold localStartForLevel
    simp only
    have hs := stride_pos lmax b l
    split
    · omega
    · rename_i h
      have h0 : offsetForLevel lmax b l = 0 := by omega
      rw [h0]
      have : (0 - 0 + strideForLevel lmax b l - 1) / strideForLevel lmax b l = 0 :=
        Nat.div_eq_of_lt (by omega)
      rw [this]
      omega
  rw [hstart]
  have hs2 : 2 ^ (lmax - l + 1) = 2 * 2 ^ (lmax - l) := by rw [pow_succ]; ring
  have hs0 : 0 < 2 ^ (lmax - l) := by positivity
  have hLl : 2 ^ lmax = 2 ^ (l - 1) * (2 * 2 ^ (lmax - l)) := by
    rw [← hs2, ← pow_add]
    congr 1
    omega
  have hq : 0 < 2 ^ (l - 1) := by positivity
  obtain ⟨q, hqq⟩ : ∃ q, 2 ^ (l - 1) = q + 1 := ⟨2 ^ (l - 1) - 1, by omega⟩
  -- count for the progression with stride `2 s`
  have key : ∀ size off s : ℕ, 0 < s → off < size → (q * (2 * s) + off < size) →
      size ≤ (q + 1) * (2 * s) + off → numPointsOnPartition size off (2 * s) = q + 1 := by
    intro size off s hs h1 h2 h3
    unfold numPointsOnPartition
    rw [if_neg (by omega)]
    have : (size - 1 - off) / (2 * s) = q := by
      apply Nat.div_eq_of_lt_le
      · omega
      · have : (q + 1) * (2 * s) = q * (2 * s) + 2 * s := by ring
        rw [this] at h3 ⊢
        omega
    rw [this]
  have e1 : (q + 1) * (2 * 2 ^ (lmax - l)) = q * (2 * 2 ^ (lmax - l)) + 2 * 2 ^ (lmax - l) := by ring
  rw [hqq] at hLl
  have hn : nodal lmax b = 2 ^ lmax + b - 1 := rfl
  by_cases hb0 : b = 0
  · subst hb0
    have hof : offsetForLevel lmax 0 l = 2 ^ (lmax - l) - 1 := by simp [offsetForLevel]
    have hst : strideForLevel lmax 0 l = 2 * 2 ^ (lmax - l) := by simp [strideForLevel, hs2]
    rw [hof, hst, key _ _ _ hs0 (by omega) (by omega) (by omega)]
    unfold getNumDofHierarchical
    split
    · rename_i h1
      subst h1
      simp at hqq
      omega
    · omega
  · by_cases hl1 : l = 1
    · subst hl1
      have hof : offsetForLevel lmax b 1 = 0 := by simp [offsetForLevel, Nat.pos_of_ne_zero hb0]
      have hst : strideForLevel lmax b 1 = 2 ^ (lmax - 1) := by
        simp [strideForLevel, Nat.pos_of_ne_zero hb0]
      simp at hqq
      subst hqq
      rw [hof, hst]
      unfold numPointsOnPartition getNumDofHierarchical
      rw [if_neg (by omega), if_pos rfl]
      have : (nodal lmax b - 1 - 0) / 2 ^ (lmax - 1) = b := by
        apply Nat.div_eq_of_lt_le
        · have : b = 1 ∨ b = 2 := by omega
          rcases this with rfl | rfl <;> omega
        · have : b = 1 ∨ b = 2 := by omega
          rcases this with rfl | rfl <;> omega
      rw [this]
      omega
    · have hof : offsetForLevel lmax b l = 2 ^ (lmax - l) := by
        simp [offsetForLevel, Nat.pos_of_ne_zero hb0, hl1]
      have hst : strideForLevel lmax b l = 2 * 2 ^ (lmax - l) := by simp [strideForLevel, hs2, hl1]
      rw [hof, hst, key _ _ _ hs0 (by omega) (by omega) (by omega)]
      unfold getNumDofHierarchical
      rw [if_neg hl1]
      omega

/-- C14: summed over all processes, the number of points enumerated for a level is the size of
the hierarchical subspace. -/
theorem C14_counts (lmax b l : ℕ) (hb : b ≤ 2) (hl : 1 ≤ l) (hlm : l ≤ lmax) (dec : List ℕ)
    (h : ValidDec dec (nodal lmax b)) :
    ((List.range dec.length).map fun c =>
      (get1dIndicesLocal lmax b ((lowerBound1d dec c).getD 0)
        ((upperBound1d dec (nodal lmax b) c).getD 0 - (lowerBound1d dec c).getD 0) l).length).sum =
      getNumDofHierarchical l b := by
  rw [← length_get1d_full lmax b l hb hl hlm, get1d_eq_filter _ _ _ _ _ hb hl (by omega) (by omega)]
  have e : ((List.range dec.length).map fun c =>
      (get1dIndicesLocal lmax b ((lowerBound1d dec c).getD 0)
        ((upperBound1d dec (nodal lmax b) c).getD 0 - (lowerBound1d dec c).getD 0) l).length) =
      (List.range dec.length).map fun c =>
        ((List.range ((upperBound1d dec (nodal lmax b) c).getD 0 -
          (lowerBound1d dec c).getD 0)).filter
            fun j => onLevel lmax b l ((lowerBound1d dec c).getD 0 + j)).length := by
    apply List.map_congr_left
    intro c hc
    obtain ⟨lo, hi, h1, h2, h3, h4⟩ := bounds1d h (by simpa using hc : c < dec.length)
    rw [h1, h2, get1d_eq_filter _ _ _ _ _ hb hl (by omega)]
    simp only [Option.getD_some]
    omega
  rw [e]
  have h0 := h.head
  cases dec with
  | nil => simp at h0
  | cons a dec =>
    simp at h0
    subst h0
    have := sum_counts_aux (onLevel lmax b l) dec (nodal lmax b) 0 h.sorted h.le
    rw [this]
    simp

example : ValidDec [0, 3, 5] (nodal 3 2) := ⟨rfl, by decide, by decide⟩

/-! ### C15 -/

/-- Specification: `r` is the closest index left of `idx` with a smaller level, or -1 if there
is none. `lev` is the level function. -/
def IsLeftPred (lev : ℕ → ℤ) (idx : ℕ) (r : ℤ) : Prop :=
  (r = -1 ∧ ∀ y < idx, ¬ lev y < lev idx) ∨
    ∃ y < idx, r = y ∧ lev y < lev idx ∧ ∀ z, y < z → z < idx → ¬ lev z < lev idx

/-- Specification: `r` is the closest index right of `idx`, below `n`, with a smaller level, or
-1 if there is none. -/
def IsRightPred (lev : ℕ → ℤ) (n idx : ℕ) (r : ℤ) : Prop :=
  (r = -1 ∧ ∀ y, idx < y → y < n → ¬ lev y < lev idx) ∨
    ∃ y, idx < y ∧ y < n ∧ r = y ∧ lev y < lev idx ∧ ∀ z, idx < z → z < y → ¬ lev z < lev idx

theorem level_lt_iff {lmax b x y : ℕ} (hx0 : pos b x ≠ 0) (hx : (ctz (pos b x) : ℤ) < lmax) :
    getLevel lmax b y < getLevel lmax b x ↔ 2 ^ (ctz (pos b x) + 1) ∣ pos b y := by
  have hgx : getLevel lmax b x = (lmax : ℤ) - ctz (pos b x) := if_neg hx0
  have hgy : getLevel lmax b y = if pos b y = 0 then 0 else (lmax : ℤ) - ctz (pos b y) := rfl
  rw [hgx, hgy]
  by_cases hy : pos b y = 0
  · rw [if_pos hy, hy]
    simp only [dvd_zero, iff_true]
    omega
  · rw [if_neg hy, dvd_iff_le_ctz _ _ hy]
    omega

theorem pos_eq (b x : ℕ) : pos b x = x + (if b = 0 then 1 else 0) := by
  unfold pos; split <;> omega

theorem nonneg_level {lmax b y : ℕ} (hb : b ≤ 2) (hy : y < nodal lmax b ∨ b = 1 ∧ y = 2 ^ lmax) :
    0 ≤ getLevel lmax b y := by
  rcases hy with hy | ⟨rfl, rfl⟩
  · obtain ⟨l, h, _⟩ := C14_level lmax b y hb hy
    omega
  · have := ctz_unique 0 lmax
    simp at this
    simp [getLevel, this]

/-- C15: the left predecessor is the closest point to the left with smaller level, reported
missing exactly if there is none. -/
theorem C15_left_predecessor (lmax b idx : ℕ) (hb : b ≤ 2) (h : idx < nodal lmax b) :
    IsLeftPred (getLevel lmax b) idx (getLeftPredecessor lmax b idx) := by
  obtain ⟨l, hl, hlm, hpl, -⟩ := C14_level lmax b idx hb h
  unfold getLeftPredecessor
  simp only [hl]
  by_cases hl0 : (l : ℤ) = 0
  · rw [if_pos hl0]
    refine Or.inl ⟨rfl, fun y hy => ?_⟩
    have := nonneg_level (lmax := lmax) hb (Or.inl (by omega : y < nodal lmax b))
    omega
  · rw [if_neg hl0]
    have hx0 : pos b idx ≠ 0 := by
      intro hc
      have : getLevel lmax b idx = 0 := if_pos hc
      omega
    have hgx : getLevel lmax b idx = (lmax : ℤ) - ctz (pos b idx) := if_neg hx0
    have hexp : ((lmax : ℤ) - l).toNat = ctz (pos b idx) := by omega
    rw [hexp]
    have hiff := fun y => level_lt_iff (y := y) hx0 (by omega : (ctz (pos b idx) : ℤ) < lmax)
    set k := ctz (pos b idx) with hk
    obtain ⟨m, hm⟩ := ctz_spec _ hx0
    rw [← hk] at hm
    have hpk : 0 < 2 ^ k := by positivity
    have hpk2 : 2 ^ (k + 1) = 2 * 2 ^ k := by rw [pow_succ]; ring
    have hm' : pos b idx = 2 * 2 ^ k * m + 2 ^ k := by rw [hm]; ring
    -- no point of smaller level in between
    have hbetween : ∀ z, pos b z < pos b idx → pos b idx < pos b z + 2 ^ k →
        ¬ getLevel lmax b z < getLevel lmax b idx := by
      intro z hz1 hz2 hc
      rw [hiff, hpk2] at hc
      obtain ⟨q, hq⟩ := hc
      rw [hq, hm'] at hz1 hz2
      have h1 : m < q := by
        by_contra hc
        have : 2 * 2 ^ k * q ≤ 2 * 2 ^ k * m := Nat.mul_le_mul_left _ (by omega)
        omega
      have h2 : 2 * 2 ^ k * (m + 1) ≤ 2 * 2 ^ k * q := Nat.mul_le_mul_left _ (by omega)
      rw [mul_add] at h2
      omega
    have hpe := pos_eq b
    by_cases hm0 : 2 ^ k ≤ idx
    · right
      refine ⟨idx - 2 ^ k, by omega, by push_cast [hm0]; rfl, ?_, ?_⟩
      · rw [hiff, hpk2]
        refine ⟨m, ?_⟩
        have := hpe idx
        rw [hpe]
        omega
      · intro z hz1 hz2
        have h1 := hpe z
        have h2 := hpe idx
        exact hbetween z (by omega) (by omega)
    · left
      have h2 := hpe idx
      have hmz : m = 0 := by
        by_contra hc
        have : 2 * 2 ^ k * 1 ≤ 2 * 2 ^ k * m := Nat.mul_le_mul_left _ (by omega)
        split at h2 <;> omega
      have hb0 : b = 0 := by
        by_contra hc
        rw [if_neg hc] at h2
        rw [hmz] at hm'
        omega
      rw [if_pos hb0] at h2
      rw [hmz] at hm'
      refine ⟨?_, ?_⟩
      · have : ((2 ^ k : ℕ) : ℤ) = (idx : ℤ) + 1 := by omega
        push_cast at this
        omega
      · intro y hy
        have h1 := hpe y
        rw [if_pos hb0] at h1
        exact hbetween y (by omega) (by omega)

/-- C15: the right predecessor is the closest point to the right with smaller level, reported
missing exactly if there is none. With a one-sided (periodic) boundary, the virtual point after
the last one (the image of point 0, level 0) counts as a point. -/
theorem C15_right_predecessor (lmax b idx : ℕ) (hb : b ≤ 2) (h : idx < nodal lmax b) :
    IsRightPred (getLevel lmax b) (if b = 1 then nodal lmax b + 1 else nodal lmax b) idx
      (getRightPredecessor lmax b (nodal lmax b) idx) := by
  obtain ⟨l, hl, hlm, hpl, -⟩ := C14_level lmax b idx hb h
  have hN : nodal lmax b = 2 ^ lmax + b - 1 := rfl
  have hL0 : 0 < 2 ^ lmax := by positivity
  unfold getRightPredecessor
  simp only [hl]
  by_cases hl0 : (l : ℤ) = 0
  · rw [if_pos hl0]
    refine Or.inl ⟨rfl, fun y hy hyn => ?_⟩
    have := nonneg_level (lmax := lmax) (y := y) hb (by
      split at hyn
      · rename_i hb1; subst hb1; omega
      · exact Or.inl hyn)
    omega
  · rw [if_neg hl0]
    have hx0 : pos b idx ≠ 0 := by
      intro hc
      have : getLevel lmax b idx = 0 := if_pos hc
      omega
    have hgx : getLevel lmax b idx = (lmax : ℤ) - ctz (pos b idx) := if_neg hx0
    have hexp : ((lmax : ℤ) - l).toNat = ctz (pos b idx) := by omega
    rw [hexp]
    have hkl : (ctz (pos b idx) : ℤ) < lmax := by omega
    have hiff := fun y => level_lt_iff (y := y) hx0 hkl
    set k := ctz (pos b idx) with hk
    obtain ⟨m, hm⟩ := ctz_spec _ hx0
    rw [← hk] at hm
    have hpk : 0 < 2 ^ k := by positivity
    have hpk2 : 2 ^ (k + 1) = 2 * 2 ^ k := by rw [pow_succ]; ring
    have hm' : pos b idx = 2 * 2 ^ k * m + 2 ^ k := by rw [hm]; ring
    have hbetween : ∀ z, pos b idx < pos b z → pos b z < pos b idx + 2 ^ k →
        ¬ getLevel lmax b z < getLevel lmax b idx := by
      intro z hz1 hz2 hc
      rw [hiff, hpk2] at hc
      obtain ⟨q, hq⟩ := hc
      rw [hq, hm'] at hz1 hz2
      have h1 : m < q := by
        by_contra hc
        have : 2 * 2 ^ k * q ≤ 2 * 2 ^ k * m := Nat.mul_le_mul_left _ (by omega)
        omega
      have h2 : 2 * 2 ^ k * (m + 1) ≤ 2 * 2 ^ k * q := Nat.mul_le_mul_left _ (by omega)
      rw [mul_add] at h2
      omega
    have hpe := pos_eq b
    -- position of the right predecessor is at most 2^lmax
    have hright : pos b idx + 2 ^ k ≤ 2 ^ lmax := by
      obtain ⟨hple, -, -⟩ := pos_le hb h
      have hne : pos b idx ≠ 2 ^ lmax := by
        intro hc
        have := ctz_unique 0 lmax
        simp at this
        rw [← hc, ← hk] at this
        omega
      obtain ⟨r, hr⟩ : ∃ r, 2 ^ lmax = 2 * 2 ^ k * r := by
        rw [← hpk2]
        exact pow_dvd_pow 2 (by omega)
      have h1 : m < r := by
        by_contra hc
        have : 2 * 2 ^ k * r ≤ 2 * 2 ^ k * m := Nat.mul_le_mul_left _ (by omega)
        omega
      have h2 : 2 * 2 ^ k * (m + 1) ≤ 2 * 2 ^ k * r := Nat.mul_le_mul_left _ (by omega)
      rw [mul_add] at h2
      omega
    have hlevr : getLevel lmax b (idx + 2 ^ k) < getLevel lmax b idx := by
      rw [hiff, hpk2]
      refine ⟨m + 1, ?_⟩
      have h2 := hpe idx
      rw [hpe, mul_add]
      omega
    have hno : ∀ z, idx < z → z < idx + 2 ^ k → ¬ getLevel lmax b z < getLevel lmax b idx := by
      intro z hz1 hz2
      have h1 := hpe z
      have h2 := hpe idx
      exact hbetween z (by omega) (by omega)
    have hcast : (idx : ℤ) + 2 ^ k = ((idx + 2 ^ k : ℕ) : ℤ) := by push_cast; rfl
    rw [hcast]
    have h2 := hpe idx
    by_cases hb1 : b = 1 ∧ ((idx + 2 ^ k : ℕ) : ℤ) = nodal lmax b
    · rw [if_pos hb1]
      right
      refine ⟨idx + 2 ^ k, by omega, ?_, by omega, hlevr, hno⟩
      rw [if_pos hb1.1]
      omega
    · rw [if_neg hb1]
      by_cases hout : ((idx + 2 ^ k : ℕ) : ℤ) > (nodal lmax b : ℤ) - 1
      · rw [if_pos hout]
        left
        refine ⟨rfl, fun y hy1 hy2 => ?_⟩
        by_cases hbb : b = 1
        · exfalso
          subst hbb
          simp only [true_and, one_ne_zero, if_false] at hb1 h2
          omega
        · rw [if_neg hbb] at hy2
          exact hno y hy1 (by omega)
      · rw [if_neg hout]
        right
        refine ⟨idx + 2 ^ k, by omega, ?_, rfl, hlevr, hno⟩
        split <;> omega

example : 5 < nodal 3 2 ∧ getLeftPredecessor 3 2 5 = 4 ∧ getRightPredecessor 3 2 9 5 = 6 ∧
    getLeftPredecessor 3 0 0 = -1 ∧ getRightPredecessor 3 1 8 7 = 8 := by decide +kernel

/-! ### C16 -/

/-- Specification: index on the reference grid of the same spatial point. -/
def refIndex (b diff y : ℕ) : ℕ := if b = 0 then (y + 1) * 2 ^ diff - 1 else y * 2 ^ diff

theorem ceilDiv'_le_iff (d s y : ℕ) (hs : 0 < s) : ceilDiv' d s ≤ y ↔ d ≤ y * s := by
  unfold ceilDiv'
  rw [← Nat.lt_add_one_iff, Nat.div_lt_iff_lt_mul hs, add_mul, one_mul]
  omega

/-- the downsampled lower bound separates the coarse points like the original one -/
theorem downsample_le_iff (b diff d y : ℕ) :
    ((downsampleDecomposition1d [d] (diff) 0 b).headD 0 ≤ y) ↔ d ≤ refIndex b diff y := by
  have hs : 0 < 2 ^ diff := by positivity
  unfold downsampleDecomposition1d refIndex
  simp only [Nat.sub_zero]
  by_cases hb : b > 0
  · rw [if_pos hb, if_neg (by omega)]
    simp only [List.map_cons, List.map_nil, List.headD_cons]
    exact ceilDiv'_le_iff d _ y hs
  · rw [if_neg hb, if_pos (by omega)]
    simp only [List.map_cons, List.map_nil, List.headD_cons]
    have hs' : (0 : ℤ) < 2 ^ diff := by positivity
    have hpos : 0 < (y + 1) * 2 ^ diff := by positivity
    rw [Int.toNat_le, max_le_iff]
    have h1 : -(-((d : ℤ) - (2 ^ diff - 1)) / 2 ^ diff) ≤ y ↔
        (-(y : ℤ)) ≤ -((d : ℤ) - (2 ^ diff - 1)) / 2 ^ diff := by omega
    rw [h1, Int.le_ediv_iff_mul_le hs']
    constructor
    · rintro ⟨-, h⟩
      have : (d : ℤ) < ((y + 1) * 2 ^ diff : ℕ) := by push_cast; linarith
      omega
    · intro h
      refine ⟨by omega, ?_⟩
      have : (d : ℤ) < ((y + 1) * 2 ^ diff : ℕ) := by omega
      push_cast at this
      linarith

/-- one entry of the downsampled decomposition -/
def down1 (b diff d : ℕ) : ℕ := (downsampleDecomposition1d [d] diff 0 b).headD 0

theorem downsample_eq_map (dec : List ℕ) (L l b : ℕ) :
    downsampleDecomposition1d dec L l b = dec.map (down1 b (L - l)) := by
  unfold down1 downsampleDecomposition1d
  simp only [Nat.sub_zero]
  split <;> simp

theorem nodal_ref (b L l y : ℕ) (hb : b ≤ 2) (hl : l ≤ L) :
    y < nodal l b ↔ refIndex b (L - l) y < nodal L b := by
  have hs : 0 < 2 ^ (L - l) := by positivity
  have hL : 2 ^ L = 2 ^ l * 2 ^ (L - l) := by rw [← pow_add]; congr 1; omega
  have hl0 : 0 < 2 ^ l := by positivity
  have hL0 : 0 < 2 ^ L := by positivity
  unfold nodal refIndex
  have hb' : b = 0 ∨ b = 1 ∨ b = 2 := by omega
  rcases hb' with rfl | rfl | rfl
  · simp only [if_true]
    have h1 : (y + 1) * 2 ^ (L - l) < 2 ^ L ↔ y + 1 < 2 ^ l := by
      rw [hL]; exact Nat.mul_lt_mul_right hs
    have : 0 < (y + 1) * 2 ^ (L - l) := by positivity
    omega
  · simp only [one_ne_zero, if_false]
    have h1 : y * 2 ^ (L - l) < 2 ^ L ↔ y < 2 ^ l := by
      rw [hL]; exact Nat.mul_lt_mul_right hs
    omega
  · simp only [OfNat.ofNat_ne_zero, if_false]
    have h1 : y * 2 ^ (L - l) ≤ 2 ^ L ↔ y ≤ 2 ^ l := by
      rw [hL]; exact Nat.mul_le_mul_right_iff hs
    omega

theorem validDec_downsample (dec : List ℕ) (L l b : ℕ) (hb : b ≤ 2) (hl : l ≤ L)
    (h : ValidDec dec (nodal L b)) :
    ValidDec (downsampleDecomposition1d dec L l b) (nodal l b) := by
  rw [downsample_eq_map]
  have hmono : ∀ d d', d ≤ d' → down1 b (L - l) d ≤ down1 b (L - l) d' := by
    intro d d' hdd
    rw [down1, downsample_le_iff]
    exact le_trans hdd ((downsample_le_iff b (L - l) d' _).1 (le_refl _))
  refine ⟨?_, ?_, ?_⟩
  · have h0 := h.head
    cases dec with
    | nil => simp at h0
    | cons a dec =>
      simp at h0
      subst h0
      simp only [List.map_cons, List.head?_cons, Option.some.injEq]
      have := (downsample_le_iff b (L - l) 0 0).2 (by omega)
      unfold down1
      omega
  · rw [List.pairwise_map]
    exact h.sorted.imp fun {a c} hac => hmono a c hac
  · intro x hx
    obtain ⟨d, hd, rfl⟩ := List.mem_map.1 hx
    rw [down1, downsample_le_iff]
    have := h.le d hd
    have hnot := (nodal_ref b L l (nodal l b) hb hl).not.1 (by omega)
    omega

/-- C16: the downsampled decomposition is valid for the coarse grid, and a process owns a coarse
grid point exactly if it owns the same spatial point on the reference grid. -/
theorem C16_downsample (dec : List ℕ) (L l b : ℕ) (hb : b ≤ 2) (hl : l ≤ L)
    (h : ValidDec dec (nodal L b)) :
    ValidDec (downsampleDecomposition1d dec L l b) (nodal l b) ∧
      ∀ c y, y < nodal l b →
        (Owns1d (downsampleDecomposition1d dec L l b) (nodal l b) c y ↔
          Owns1d dec (nodal L b) c (refIndex b (L - l) y)) := by
  have hv := validDec_downsample dec L l b hb hl h
  refine ⟨hv, fun c y hy => ?_⟩
  rw [owns1d_iff hv c y hy, owns1d_iff h c _ ((nodal_ref b L l y hb hl).1 hy)]
  have : stdLowerBound (downsampleDecomposition1d dec L l b) (y + 1) =
      stdLowerBound dec (refIndex b (L - l) y + 1) := by
    rw [downsample_eq_map]
    unfold stdLowerBound
    rw [List.takeWhile_map, List.length_map]
    congr 2
    funext d
    have : down1 b (L - l) d ≤ y ↔ _ := downsample_le_iff b (L - l) d y
    simp only [Function.comp_apply]
    rw [decide_eq_decide]
    omega
  rw [this]

/-- `refIndex` is the same spatial point: the positions agree. -/
theorem C16_refIndex_same_point (b L l y : ℕ) :
    pos b (refIndex b (L - l) y) = pos b y * 2 ^ (L - l) := by
  unfold pos refIndex
  have : 0 < (y + 1) * 2 ^ (L - l) := by positivity
  split
  · omega
  · rfl

example : ValidDec [0, 3, 5] (nodal 3 0) ∧ downsampleDecomposition1d [0, 3, 5] 3 2 0 = [0, 1, 2] :=
  ⟨⟨rfl, by decide, by decide⟩, by decide⟩

end Verif

import Verif.Lemmas.WideSizes

/-!
# Property C85: the combination of several systems by files

Two or three systems, each with its own groups and component grids, combine through files: every
system writes the sums of the subspaces that several systems have, and reads and adds those of the others.
The result is stated without reference to subspaces, files, communicators or extra sparse grids: every
value of every component grid of every system becomes the sum over all component grids of all groups of
all systems, weighted with the coefficients, of the values at the same place.
-/

namespace Verif

variable {K : Type}

/-- The combination at place `z` of the component grids of `k` systems, system `s` with `n s` groups. -/
def valueOfSystems [Ring K] (refs : List RefDim) (k : ℕ) (n : ℕ → ℕ)
    (T : ℕ → ℕ → List (K × List ℕ × (ℕ → K))) (z : List ℕ) : K :=
  ((List.range k).map fun s => valueAtPlace refs (n s) (T s) z).sum

/-- Some group of the system has a component grid that contains subspace `l`. -/
def SystemHolds (n : ℕ) (T : ℕ → List (K × List ℕ × (ℕ → K))) (l : List ℕ) : Prop :=
  ∃ g < n, HoldsLevel T g l

/-- Component grids on the groups of `k` systems, and a sparse grid that contains all their subspaces. Only a
subspace that a single component grid of all systems contains, with coefficient one, may be left out. -/
structure ValidSystems [One K] (refs : List RefDim) (levels : List (List ℕ)) (k : ℕ) (n : ℕ → ℕ)
    (T : ℕ → ℕ → List (K × List ℕ × (ℕ → K))) : Prop where
  each : ∀ s < k, ValidSystem refs levels (n s) (T s)
  own : ∀ s < k, ∀ l, SystemHolds (n s) (T s) l →
    l ∈ levels ∨ ∀ s' < k, s' ≠ s → ¬ SystemHolds (n s') (T s') l

/-- Sparse grids with all subspaces. -/
theorem ValidSystems.of_full [One K] {refs : List RefDim} {levels : List (List ℕ)} {k : ℕ} {n : ℕ → ℕ}
    {T : ℕ → ℕ → List (K × List ℕ × (ℕ → K))} (h : ∀ s < k, ValidSystem refs levels (n s) (T s))
    (hf : ∀ s < k, FullLevels levels (n s) (T s)) : ValidSystems refs levels k n T :=
  ⟨h, fun s hs l ⟨g, hg, t, ht, hl⟩ => Or.inl (hf s hs g hg t ht l hl)⟩

theorem ValidSystems.mem_of_shared [One K] {refs : List RefDim} {levels : List (List ℕ)} {k : ℕ} {n : ℕ → ℕ}
    {T : ℕ → ℕ → List (K × List ℕ × (ℕ → K))} (h : ValidSystems refs levels k n T) {a b : ℕ} (ha : a < k)
    (hb : b < k) (hab : a ≠ b) {l : List ℕ} (hl : SystemHolds (n a) (T a) l)
    (hl' : SystemHolds (n b) (T b) l) : l ∈ levels :=
  (h.own a ha l hl).resolve_right fun hc => hc b hb (fun e => hab e.symm) hl'

/-- A subspace of a single grid with coefficient one has the combined values already. -/
theorem ValidSystems.value_of_alone [Ring K] {refs : List RefDim} {levels : List (List ℕ)} {k : ℕ}
    {n : ℕ → ℕ} {T : ℕ → ℕ → List (K × List ℕ × (ℕ → K))} (h : ValidSystems refs levels k n T) {s : ℕ}
    (hs : s < k) {g : ℕ} (hg : g < n s) {t : K × List ℕ × (ℕ → K)} (ht : t ∈ T s g) :
    ∀ l ∈ getDownSet t.2.1, l ∈ levels ∨
      ∀ p ∈ getFGPointsOfSubspace (List.zipWith localOf refs t.2.1) l,
        valueOfSystems refs k n T (spatialOf refs t.2.1 p) = t.2.2 p := by
  intro l hl
  by_cases hm : l ∈ levels
  · exact Or.inl hm
  refine Or.inr fun p hp => ?_
  rw [← ((h.each s hs).value_of_alone hg ht l hl).resolve_left hm p hp]
  refine sum_range_single hs (fun s' => valueAtPlace refs (n s') (T s') (spatialOf refs t.2.1 p)) ?_
  intro s' hs' hne
  have hno := (h.own s hs l ⟨g, hg, t, ht, hl⟩).resolve_left hm s' hs' hne
  apply List.sum_eq_zero
  intro y hy
  obtain ⟨m, hm', rfl⟩ := List.mem_map.1 hy
  apply List.sum_eq_zero
  intro y hy
  obtain ⟨t', ht', rfl⟩ := List.mem_map.1 hy
  have hm'' := List.mem_range.1 hm'
  rw [same_place_zero (h.each s hs).ref ((h.each s' hs').comp m hm'' t' ht') ((h.each s hs).comp g hg t ht)
    hl hp (fun hc => hno ⟨m, hm'', t', ht', hc⟩), mul_zero]

/-- The system given by component grids. -/
def systemOf (refs : List RefDim) (n o : ℕ) (T : ℕ → List (K × List ℕ × (ℕ → K))) : WideSystem K :=
  ⟨n, o, fun g => tasksOf refs (T g)⟩

/-- number of points of the `i`-th subspace -/
def countOf (refs : List RefDim) (levels : List (List ℕ)) (i : ℕ) : ℕ :=
  subspaceCount refs (levels.getD i [])

/-- group `g` holds the `i`-th subspace -/
def HoldsIdx (levels : List (List ℕ)) (T : ℕ → List (K × List ℕ × (ℕ → K))) (g i : ℕ) : Prop :=
  HoldsLevel T g (levels.getD i [])

theorem getD_lt {levels : List (List ℕ)} {i : ℕ} (hi : i < levels.length) :
    levels.getD i [] = levels[i] := List.getD_eq_getElem _ _ hi

theorem table_init [Zero K] {refs : List RefDim} {levels : List (List ℕ)} {n : ℕ}
    {T : ℕ → List (K × List ℕ × (ℕ → K))} {dsgs : List (Dsg K)}
    (h : Initialised refs levels n T dsgs) :
    dsgs.map (·.sizes) = sizeTable n levels.length (countOf refs levels) (HoldsIdx levels T) := by
  apply List.ext_getElem
  · rw [List.length_map, h.len, length_sizeTable]
  · intro g h1 h2
    rw [length_sizeTable] at h2
    have hrow : ∀ h, (sizeTable n levels.length (countOf refs levels) (HoldsIdx levels T))[g]'h =
        sizeRow levels.length (countOf refs levels) (HoldsIdx levels T g) := by
      intro h
      simp [sizeTable]
    have hd : dsgs.getD g (Dsg.empty levels) = dsgs[g]'(by rw [h.len]; exact h2) :=
      List.getD_eq_getElem _ _ _
    rw [hrow, List.getElem_map, ← hd]
    refine eq_sizeRow (h.slen g h2) ?_ ?_
    · intro i hi hh
      unfold HoldsIdx at hh
      unfold countOf
      rw [getD_lt hi] at hh ⊢
      exact h.hold g h2 i hi hh
    · intro i hi hh
      unfold HoldsIdx at hh
      rw [getD_lt hi] at hh
      exact h.nohold g h2 i hi hh

/-- all groups share -/
theorem shares_table [One K] {refs : List RefDim} {levels : List (List ℕ)} {n : ℕ}
    {T : ℕ → List (K × List ℕ × (ℕ → K))} (h : ValidSystem refs levels n T)
    (hsh : ∀ g < n, Shares refs n T g) (H : ℕ → ℕ → Prop)
    (hH : ∀ g < n, ∀ i < levels.length, HoldsIdx levels T g i → H g i) :
    ∀ g < n, ∃ i < levels.length, SharedBy n (countOf refs levels) H i ∧ H g i := by
  intro g hg
  obtain ⟨l, hc, ⟨t, ht, hl⟩, g', hg', hne, hh⟩ := hsh g hg
  obtain ⟨i, hi, rfl⟩ := List.mem_iff_getElem.1
    (h.mem_of_shared hg hg' (fun e => hne e.symm) ⟨t, ht, hl⟩ hh)
  have h1 : H g i := hH g hg i hi (by
    unfold HoldsIdx
    rw [getD_lt hi]
    exact ⟨t, ht, hl⟩)
  have h2 : H g' i := hH g' hg' i hi (by
    unfold HoldsIdx
    rw [getD_lt hi]
    exact hh)
  refine ⟨i, hi, ⟨?_, g, hg, g', hg', fun e => hne e.symm, h1, h2⟩, h1⟩
  unfold countOf
  rw [getD_lt hi]
  exact hc

/-- what a group has after the exchange in its system -/
def HoldsAfter (refs : List RefDim) (levels : List (List ℕ)) (n : ℕ)
    (T : ℕ → List (K × List ℕ × (ℕ → K))) (g i : ℕ) : Prop :=
  HoldsIdx levels T g i ∨ SharedBy n (countOf refs levels) (HoldsIdx levels T) i

theorem wideSizes_eq [Ring K] {refs : List RefDim} {levels : List (List ℕ)} {n o : ℕ} (ho : o < n)
    (hn : n ≤ 256) {T : ℕ → List (K × List ℕ × (ℕ → K))} (h : ValidSystem refs levels n T)
    (hsh : n = 1 ∨ ∀ g < n, Shares refs n T g) :
    ∃ dsgs, Initialised refs levels n T dsgs ∧ wideSizes levels (systemOf refs n o T) =
      some ⟨dsgs, sizeTable n levels.length (countOf refs levels) (HoldsAfter refs levels n T),
        sizeRow levels.length (countOf refs levels) fun i => ∃ g < n, HoldsIdx levels T g i⟩ := by
  obtain ⟨dsgs, i1, i2⟩ := initDsgs_eq h .chunkedOutgroupSparseGridReduce
  refine ⟨dsgs, i2, ?_⟩
  have hex := exchange_table n levels.length hn (countOf refs levels) (HoldsIdx levels T) (by
    rcases hsh with h1 | h1
    · exact Or.inl (by omega)
    · exact Or.inr (shares_table h h1 _ fun _ _ _ _ h => h))
  unfold wideSizes systemOf
  simp only [i1, Option.bind_eq_bind, Option.bind_some, table_init i2, hex]
  rw [getElem?_sizeTable ho]
  simp only [Option.bind_some]
  rw [maxReduce_table ho]
  congr 2
  refine sizeRow_congr fun i hi hN => ?_
  constructor
  · rintro ((h1 | ⟨-, a, ha, b, hb, -, h1, -⟩) | ⟨g, hg, -, h1 | ⟨-, a, ha, b, hb, -, h1, -⟩⟩)
    · exact ⟨o, ho, h1⟩
    · exact ⟨a, ha, h1⟩
    · exact ⟨g, hg, h1⟩
    · exact ⟨a, ha, h1⟩
  · rintro ⟨g, hg, h1⟩
    by_cases hgo : g = o
    · subst hgo
      exact Or.inl (Or.inl h1)
    · exact Or.inr ⟨g, hg, hgo, Or.inl h1⟩

/-- what a group has after the exchange with the other systems; `E` is what the extra sparse grid has -/
def HoldsWide (refs : List RefDim) (levels : List (List ℕ)) (n o : ℕ)
    (T : ℕ → List (K × List ℕ × (ℕ → K))) (E : ℕ → Prop) (g i : ℕ) : Prop :=
  HoldsAfter refs levels n T g i ∨ (g = o ∧ E i)

/-- the subspaces of the outgroup communicator -/
noncomputable def sharedWide (refs : List RefDim) (levels : List (List ℕ)) (n o : ℕ)
    (T : ℕ → List (K × List ℕ × (ℕ → K))) (E : ℕ → Prop) : List ℕ :=
  sharedList n levels.length (countOf refs levels) (HoldsWide refs levels n o T E)

/-- the sizes on a group -/
noncomputable def sizesWide (refs : List RefDim) (levels : List (List ℕ)) (n o : ℕ)
    (T : ℕ → List (K × List ℕ × (ℕ → K))) (E : ℕ → Prop) (g : ℕ) : List ℕ :=
  sizeRow levels.length (countOf refs levels) fun i => HoldsWide refs levels n o T E g i ∨
    SharedBy n (countOf refs levels) (HoldsWide refs levels n o T E) i

theorem wideStart_eq [Ring K] {refs : List RefDim} {levels : List (List ℕ)} {n o : ℕ} (ho : o < n)
    (hn : n ≤ 256) {T : ℕ → List (K × List ℕ × (ℕ → K))} (h : ValidSystem refs levels n T)
    (hsh : n = 1 ∨ ∀ g < n, Shares refs n T g) {dsgs : List (Dsg K)}
    (hi : Initialised refs levels n T dsgs) (E : ℕ → Prop) (others : List (List ℕ)) (c : List ℕ)
    (hE : reduceExtraSubspaceSizes (sizeRow levels.length (countOf refs levels)
      fun i => ∃ g < n, HoldsIdx levels T g i) others =
        .ok (sizeRow levels.length (countOf refs levels) E, c))
    (hne : ∃ i < levels.length, E i ∧ 0 < countOf refs levels i)
    (htotal : (levels.map (subspaceCount refs)).sum < 2 ^ 32) :
    ∃ st, wideStart levels (systemOf refs n o T)
        ⟨dsgs, sizeTable n levels.length (countOf refs levels) (HoldsAfter refs levels n T),
          sizeRow levels.length (countOf refs levels) fun i => ∃ g < n, HoldsIdx levels T g i⟩ others =
        some st ∧
      (∀ g < n, GroupOk levels (sizesWide refs levels n o T E g) (st.groups g) ∧
        (st.groups g).tasks = tasksOf refs (T g)) ∧
      ((∀ g < n, st.comm g = some (sharedWide refs levels n o T E)) ∨
        (sharedWide refs levels n o T E = [] ∧ ∀ g < n, st.comm g = none)) ∧
      Extra (sizeRow levels.length (countOf refs levels) E) (sizesWide refs levels n o T E o)
        st.extra ∧
      (∀ g < n, (st.groups g).dsg.data.len = 0 ∧ (st.groups g).dsg.kahan.len = 0 ∧
        ((st.groups g).dsg.sel = [] ∨ (st.groups g).dsg.sel = List.range levels.length)) ∧
      (n ≤ 1 → ∀ g < n, st.comm g = none) := by
  set m := levels.length with hm
  set N := countOf refs levels with hN
  have hmax : maxReduceInOutputGroup o (sizeTable n m N (HoldsAfter refs levels n T))
      (sizeRow m N fun i => ∃ g < n, HoldsIdx levels T g i) =
      sizeRow m N fun i => ∃ g < n, HoldsIdx levels T g i := by
    rw [maxReduce_table ho]
    refine sizeRow_congr fun i hi hN => ?_
    constructor
    · rintro (h1 | ⟨g, hg, -, h1 | ⟨-, a, ha, b, hb, -, h1, -⟩⟩)
      · exact h1
      · exact ⟨g, hg, h1⟩
      · exact ⟨a, ha, h1⟩
    · exact fun h1 => Or.inl h1
  have hset : (sizeTable n m N (HoldsAfter refs levels n T)).set o (List.zipWith max
      (sizeRow m N (HoldsAfter refs levels n T o)) (sizeRow m N E)) =
      sizeTable n m N (HoldsWide refs levels n o T E) := by
    rw [zipWith_max_row, set_sizeTable]
    refine sizeTable_congr fun g hg i hi hN => ?_
    unfold HoldsWide
    by_cases hgo : g = o
    · subst hgo; simp
    · simp [hgo]
  have hone : n ≤ 1 ∨ ∀ H : ℕ → ℕ → Prop,
      (∀ g < n, ∀ i < m, HoldsIdx levels T g i → H g i) →
      ∀ g < n, ∃ i < m, SharedBy n N H i ∧ H g i := by
    rcases hsh with h1 | h1
    · exact Or.inl (by omega)
    · exact Or.inr fun H hH => shares_table h h1 H hH
  have hex1 := exchange_table n m hn N (HoldsWide refs levels n o T E)
    (hone.imp_right fun f => f _ fun g _ i _ hh => Or.inl (Or.inl hh))
  have hex2 := exchange_table n m hn N (fun g i => HoldsWide refs levels n o T E g i ∨
      SharedBy n N (HoldsWide refs levels n o T E) i)
    (hone.imp_right fun f => f _ fun g _ i _ hh => Or.inl (Or.inl (Or.inl hh)))
  have hstable : ∀ i, SharedBy n N (fun g i => HoldsWide refs levels n o T E g i ∨
      SharedBy n N (HoldsWide refs levels n o T E) i) i ↔
      SharedBy n N (HoldsWide refs levels n o T E) i := by
    intro i
    constructor
    · rintro ⟨hN, a, ha, b, hb, hab, h1 | h1, h2 | h2⟩
      · exact ⟨hN, a, ha, b, hb, hab, h1, h2⟩
      all_goals assumption
    · rintro ⟨hN, a, ha, b, hb, hab, h1, h2⟩
      exact ⟨hN, a, ha, b, hb, hab, Or.inl h1, Or.inl h2⟩
  have htab : sizeTable n m N (fun g i => (HoldsWide refs levels n o T E g i ∨
      SharedBy n N (HoldsWide refs levels n o T E) i) ∨ SharedBy n N (fun g i =>
        HoldsWide refs levels n o T E g i ∨ SharedBy n N (HoldsWide refs levels n o T E) i) i) =
      sizeTable n m N (fun g i => HoldsWide refs levels n o T E g i ∨
        SharedBy n N (HoldsWide refs levels n o T E) i) := by
    refine sizeTable_congr fun g hg i hi hN => ?_
    rw [hstable]
    tauto
  have hlist : sharedList n m N (fun g i => HoldsWide refs levels n o T E g i ∨
      SharedBy n N (HoldsWide refs levels n o T E) i) = sharedWide refs levels n o T E := by
    classical
    unfold sharedWide sharedList
    apply List.filter_congr
    intro i _
    rw [Bool.eq_iff_iff, decide_eq_true_iff, decide_eq_true_iff]
    exact hstable i
  rw [htab, hlist] at hex2
  have hfit : ∀ i, (sizeRow m N E).getD i 0 ≠ 0 →
      (sizesWide refs levels n o T E o).getD i 0 = (sizeRow m N E).getD i 0 := by
    intro i hne
    obtain ⟨hil, hEi, -⟩ := sizeRow_pos (Nat.pos_of_ne_zero hne)
    rw [getD_sizeRow_pos hil hEi]
    exact getD_sizeRow_pos hil (Or.inl (Or.inr ⟨rfl, hEi⟩))
  have hsum : (sizeRow m N E).sum < 2 ^ 32 := by
    refine lt_of_le_of_lt (sum_le_total (length_sizeRow _ _ _) fun i hi => ?_) htotal
    refine le_trans getD_sizeRow_le (le_of_eq ?_)
    rw [hN]
    unfold countOf
    rw [getD_lt hi]
  obtain ⟨e, e1, e2⟩ := extraGrid_eq (K := K) levels (sizeRow m N E) (sizesWide refs levels n o T E o)
    (length_sizeRow _ _ _) hsum (by
      obtain ⟨i, hi, hEi, hp⟩ := hne
      exact ⟨i, by rw [getD_sizeRow_pos hi hEi]; exact hp⟩) hfit
  refine ⟨⟨fun g => afterSizes (dsgs.getD g (Dsg.empty levels))
    ((sizeTable n m N (fun g i => HoldsWide refs levels n o T E g i ∨
      SharedBy n N (HoldsWide refs levels n o T E) i)).getD g []) (tasksOf refs (T g)),
    fun g => ((List.range n).map fun _ => if n ≤ 1 then none else
      some (sharedWide refs levels n o T E)).getD g none, e⟩, ?_, ?_, ?_, e2, ?_, ?_⟩
  · unfold wideStart systemOf
    simp only [hmax, hE, Option.bind_eq_bind, Option.bind_some]
    rw [getElem?_sizeTable ho]
    simp only [Option.bind_some, hset, ← hm, hex1, hex2, e1]
    rfl
  · intro g hg
    refine ⟨?_, rfl⟩
    have hrow : (sizeTable n m N (fun g i => HoldsWide refs levels n o T E g i ∨
        SharedBy n N (HoldsWide refs levels n o T E) i)).getD g [] = sizesWide refs levels n o T E g := by
      rw [List.getD_eq_getElem?_getD, getElem?_sizeTable hg]
      rfl
    simp only [hrow]
    refine (afterSizes_ok h hi hg _ ?_).1
    intro i hil hh
    unfold sizesWide
    rw [getD_sizeRow_pos hil]
    · unfold countOf
      rw [getD_lt hil]
    · refine Or.inl (Or.inl (Or.inl ?_))
      unfold HoldsIdx
      rw [getD_lt hil]
      exact hh
  · have hget : ∀ g < n, ((List.range n).map fun _ => if n ≤ 1 then none else
        some (sharedWide refs levels n o T E)).getD g none = if n ≤ 1 then none else
          some (sharedWide refs levels n o T E) := by
      intro g hg
      rw [List.getD_eq_getElem _ _ (by simpa using hg), List.getElem_map]
    by_cases h1 : n ≤ 1
    · right
      refine ⟨?_, fun g hg => ?_⟩
      · rw [List.eq_nil_iff_forall_not_mem]
        intro i hi
        obtain ⟨-, -, a, ha, b, hb, hab, -⟩ := mem_sharedList.1 hi
        omega
      · simp only
        rw [hget g hg, if_pos h1]
    · left
      intro g hg
      simp only
      rw [hget g hg, if_neg h1]
  · exact fun g hg => ⟨rfl, rfl, hi.sel g hg⟩
  · intro h1 g hg
    simp only
    rw [List.getD_eq_getElem _ _ (by simpa using hg), List.getElem_map, if_pos h1]

/-- values after the extraction of all subspaces -/
theorem extracted_place [Ring K] {refs : List RefDim} {levels : List (List ℕ)} {n : ℕ}
    {T : ℕ → List (K × List ℕ × (ℕ → K))} (h : ValidSystem refs levels n T) {g : ℕ} (hg : g < n)
    (sizes : List ℕ) (F : ℕ → ℕ → K) (ts : List (K × Dfg K))
    (hx : ExtractedAll levels sizes (List.range levels.length) F (tasksOf refs (T g)) ts)
    (hsz : ∀ i (hi : i < levels.length), HoldsLevel T g levels[i] →
      sizes.getD i 0 = subspaceCount refs levels[i]) (V : List ℕ → K)
    (hF : ∀ t ∈ T g, ∀ i (hi : i < levels.length), levels[i] ∈ getDownSet t.2.1 → ∀ j p
      (hj : j < (getFGPointsOfSubspace (List.zipWith localOf refs t.2.1) levels[i]).length),
      (getFGPointsOfSubspace (List.zipWith localOf refs t.2.1) levels[i])[j] = p →
        F i j = V (spatialOf refs t.2.1 p))
    (hV : ∀ t ∈ T g, ∀ l ∈ getDownSet t.2.1, l ∈ levels ∨
      ∀ p ∈ getFGPointsOfSubspace (List.zipWith localOf refs t.2.1) l, V (spatialOf refs t.2.1 p) = t.2.2 p) :
    List.Forall₂ (fun t (t' : K × Dfg K) => t'.1 = t.1 ∧
      t'.2.dims = (gridOf refs t.2.1 t.2.2).dims ∧ t'.2.data.len = numLocal refs t.2.1 ∧
      ∀ p < numLocal refs t.2.1, t'.2.data.val p = V (spatialOf refs t.2.1 p)) (T g) ts := by
  unfold ExtractedAll tasksOf at hx
  rw [List.forall₂_map_left_iff] at hx
  rw [List.forall₂_iff_get] at hx ⊢
  refine ⟨hx.1, fun k h1 h2 => ?_⟩
  obtain ⟨e1, e2⟩ := hx.2 k h1 h2
  have ht : (T g).get ⟨k, h1⟩ ∈ T g := List.get_mem _ _
  generalize (T g).get ⟨k, h1⟩ = t at e1 e2 ht ⊢
  generalize ts.get ⟨k, h2⟩ = t' at e1 e2 ⊢
  simp only at e1 e2
  have hL := h.comp g hg t ht
  refine ⟨e1, e2.dims, e2.len, fun p hp => ?_⟩
  obtain ⟨l, hl, hpl⟩ := exists_subspace_of_point h.ref hL hp
  by_cases hlm : l ∈ levels
  swap
  · rw [(hV t ht l hl).resolve_left hlm p hpl]
    apply e2.miss
    intro i hi hm _ _ hpi
    rw [gridOf_levels hL.le.length_eq] at hm
    have h1 := ((points_facts h.ref hL hl).2.2.1 p).1 hpl
    have h2 := ((points_facts h.ref hL hm).2.2.1 p).1 hpi
    have heq := refIn_unique (points_facts h.ref hL hl).1 (points_facts h.ref hL hm).1
      (refIn_of_inSubspace hL.le h1.2) (refIn_of_inSubspace hL.le h2.2)
    exact hlm (heq ▸ List.getElem_mem hi)
  obtain ⟨i, hi, rfl⟩ := List.mem_iff_getElem.1 hlm
  obtain ⟨j, hj, hpj⟩ := List.mem_iff_getElem.1 hpl
  have hheld : HoldsLevel T g levels[i] := ⟨t, ht, hl⟩
  have hj' : j < subspaceCount refs levels[i] := by
    rw [← length_points h.ref hL hl]; exact hj
  have hit := e2.hit i hi (by rw [gridOf_levels hL.le.length_eq]; exact hl) (List.mem_range.2 hi)
    (by rw [hsz i hi hheld]; omega) j hj
  have hpj' : (getFGPointsOfSubspace (gridOf refs t.2.1 t.2.2).dims levels[i])[j]'hj = p := hpj
  rw [hpj'] at hit
  rw [hit, hF t ht i hi hl j p hj hpj]

/-- two of `k` systems hold the `i`-th subspace -/
def TwoSystems (levels : List (List ℕ)) (k : ℕ) (n : ℕ → ℕ) (T : ℕ → ℕ → List (K × List ℕ × (ℕ → K)))
    (i : ℕ) : Prop :=
  ∃ a < k, ∃ b < k, a ≠ b ∧ (∃ g < n a, HoldsIdx levels (T a) g i) ∧ ∃ g < n b, HoldsIdx levels (T b) g i

/-- The exchange of systems whose extra sparse grids have the subspaces of two systems. -/
theorem wideExchange_eq [Ring K] (refs : List RefDim) (levels : List (List ℕ)) (k : ℕ)
    (hk : 0 < k) (n o : ℕ → ℕ) (T : ℕ → ℕ → List (K × List ℕ × (ℕ → K)))
    (h : ValidSystems refs levels k n T) (ho : ∀ s < k, o s < n s)
    (order : ℕ → List ℕ)
    (horder : ∀ s < k, (order s).Perm ((List.range k).filter fun t => t ≠ s))
    (maxChunk : ℕ) (hmax : maxChunk < 2 ^ 31)
    (hsmall : ∀ l ∈ levels, subspaceCount refs l < 2 ^ 31) (st : ℕ → WideState K)
    (hst : ∀ s < k,
      (∀ g < n s, GroupOk levels (sizesWide refs levels (n s) (o s) (T s) (TwoSystems levels k n T) g)
          ((st s).groups g) ∧ ((st s).groups g).tasks = tasksOf refs (T s g)) ∧
      ((∀ g < n s, (st s).comm g =
          some (sharedWide refs levels (n s) (o s) (T s) (TwoSystems levels k n T))) ∨
        (sharedWide refs levels (n s) (o s) (T s) (TwoSystems levels k n T) = [] ∧
          ∀ g < n s, (st s).comm g = none)) ∧
      Extra (sizeRow levels.length (countOf refs levels) (TwoSystems levels k n T))
        (sizesWide refs levels (n s) (o s) (T s) (TwoSystems levels k n T) (o s)) (st s).extra) :
    ∃ R : ℕ → ℕ → Group K,
      wideExchange maxChunk k (fun s => systemOf refs (n s) (o s) (T s)) order
        ((List.range k).map st) = some ((List.range k).map R) ∧
      ∀ s < k, ∀ g < n s, List.Forall₂ (fun t (t' : K × Dfg K) => t'.1 = t.1 ∧
        t'.2.dims = (gridOf refs t.2.1 t.2.2).dims ∧ t'.2.data.len = numLocal refs t.2.1 ∧
        ∀ p < numLocal refs t.2.1,
          t'.2.data.val p = valueOfSystems refs k n T (spatialOf refs t.2.1 p))
        (T s g) (R s g).tasks := by
  have h0 := h
  replace h := h.each
  set m := levels.length with hm
  set N := countOf refs levels with hN
  have hNi : ∀ i (hi : i < m), N i = subspaceCount refs levels[i] := by
    intro i hi
    rw [hN]
    unfold countOf
    rw [getD_lt hi]
  have hN30 : ∀ i < m, N i < 2 ^ 31 := by
    intro i hi
    rw [hNi i hi]
    exact hsmall _ (List.getElem_mem _)
  set E : ℕ → Prop := TwoSystems levels k n T with hE
  have hordmem : ∀ s < k, ∀ t, t ∈ order s ↔ t < k ∧ t ≠ s := by
    intro s hs t
    rw [(horder s hs).mem_iff, List.mem_filter, List.mem_range, decide_eq_true_eq]
  have hsorted : levels.Pairwise (· < ·) := (h 0 hk).sorted
  have hnd : levels.Nodup := hsorted.imp fun h => ne_of_lt h
  have hget : ∀ {α : Type} (f : ℕ → α) (s : ℕ), s < k → ((List.range k).map f)[s]? = some (f s) := by
    intro α f s hs
    rw [List.getElem?_map, List.getElem?_range hs]
    rfl
  have hord1 : ∀ {α β : Type} (f : ℕ → α) (p : α → β) (s : ℕ), s < k →
      (order s).mapM (fun t => ((List.range k).map f)[t]?.map p) =
        some ((order s).map fun t => p (f t)) := by
    intro α β f p s hs
    refine mapM_some_map _ _ _ fun t ht => ?_
    rw [hget f t ((hordmem s hs t).1 ht).1]
    rfl
  -- collection
  have hlenw : ∀ s g, (sizesWide refs levels (n s) (o s) (T s) E g).length = levels.length :=
    fun s g => length_sizeRow _ _ _
  have hsharedlt : ∀ s, ∀ i ∈ sharedWide refs levels (n s) (o s) (T s) E, i < levels.length :=
    fun s i hi => (mem_sharedList.1 hi).1
  have hsz31 : ∀ s g, ∀ i < levels.length,
      (sizesWide refs levels (n s) (o s) (T s) E g).getD i 0 < 2 ^ 31 := by
    intro s g i hi
    have h1 : (sizesWide refs levels (n s) (o s) (T s) E g).getD i 0 ≤ N i := getD_sizeRow_le
    have := hN30 i hi
    omega
  have hszsh : ∀ s g, ∀ i ∈ sharedWide refs levels (n s) (o s) (T s) E,
      (sizesWide refs levels (n s) (o s) (T s) E g).getD i 0 = N i := by
    intro s g i hi
    obtain ⟨a, b⟩ := mem_sharedList.1 hi
    exact getD_sizeRow_pos a (Or.inr b)
  have hcollect : ∀ s, ∃ (S' : ℕ → Group K) (w : ℕ → K), s < k →
      collectReduceDistributeKeep maxChunk (n s) (o s) (st s) =
        some ⟨S', (st s).comm, (st s).extra.withVal w⟩ ∧
      (∀ g < n s, GroupOk levels (sizesWide refs levels (n s) (o s) (T s) E g) (S' g) ∧
        ExtractedAll levels (sizesWide refs levels (n s) (o s) (T s) E g) (List.range levels.length)
          (combined (n s) levels (sharedWide refs levels (n s) (o s) (T s) E) (st s).groups g)
          ((st s).groups g).tasks (S' g).tasks) ∧
      ∀ i, ∀ j < (sizeRow m N E).getD i 0, ((st s).extra.withVal w).at i j =
        combined (n s) levels (sharedWide refs levels (n s) (o s) (T s) E) (st s).groups (o s) i j := by
    intro s
    by_cases hs : s < k
    · obtain ⟨q2, q3, q4⟩ := hst s hs
      obtain ⟨S', w, r⟩ := collectReduceDistributeKeep_eq hsorted (n s) (o s) (ho s hs) _ (hlenw s)
        maxChunk (le_of_lt hmax) _ (sharedList_sorted _ _ _ _) (hsharedlt s) N
        (fun g _ => hsz31 s g) (fun g _ => hszsh s g) (st s) q3 (fun g hg => (q2 g hg).1)
        (sizeRow m N E) (length_sizeRow _ _ _) q4
      exact ⟨S', w, fun _ => r⟩
    · exact ⟨fun _ => ⟨Dsg.empty levels, []⟩, fun _ => 0, fun hc => absurd hc hs⟩
  choose S1 w hcol using hcollect
  let cs : ℕ → WideState K := fun s => ⟨S1 s, (st s).comm, (st s).extra.withVal (w s)⟩
  have m3 : ((List.range k).mapM fun s => do
      let x ← ((List.range k).map st)[s]?
      collectReduceDistributeKeep maxChunk (systemOf refs (n s) (o s) (T s)).n
        (systemOf refs (n s) (o s) (T s)).o x) = some ((List.range k).map cs) := by
    refine mapM_some_map _ _ _ fun s hs => ?_
    have hs' := List.mem_range.1 hs
    rw [hget st s hs']
    exact (hcol s hs').1
  -- files
  have hlen : ∀ s < k, (st s).extra.data.len = selOffset (sizeRow m N E)
      (List.range (sizeRow m N E).length) (sizeRow m N E).length := by
    intro s hs
    have e := (hst s hs).2.2
    rw [e.placed.dataLen, e.sizes, e.sel]
  let tot : ℕ → ℕ → K := fun s i => w s i + ((order s).map fun t => w t i).sum
  have hfiles : ∀ s < k, ((order s).map fun t => (cs t).extra.data).foldlM addFile (cs s).extra.data =
      some ⟨(st s).extra.data.len, tot s⟩ := by
    intro s hs
    rw [addFiles_eq]
    · congr 2
      funext i
      simp only [tot, List.map_map]
      rfl
    · intro f hf
      obtain ⟨t, ht, rfl⟩ := List.mem_map.1 hf
      have h1 := hlen t ((hordmem s hs t).1 ht).1
      have h2 := hlen s hs
      change (st t).extra.data.len = (st s).extra.data.len
      rw [h1, h2]
  -- distribution
  have hdist : ∀ s, ∃ R : ℕ → Group K, s < k →
      wideDistribute maxChunk (n s) (o s) ((order s).map fun t => (cs t).extra.data) (cs s) = some R ∧
      ∀ g < n s, ExtractedAll levels (sizesWide refs levels (n s) (o s) (T s) E g)
        ((List.range levels.length).filter fun i => decide (0 < (sizeRow m N E).getD i 0 ∧
          (i ∈ sharedWide refs levels (n s) (o s) (T s) E ∨ g = o s)))
        (fun i j => ((st s).extra.withVal (tot s)).at i j) (S1 s g).tasks (R g).tasks := by
    intro s
    by_cases hs : s < k
    · obtain ⟨q2, q3, q4⟩ := hst s hs
      obtain ⟨R, r1, r2⟩ := distributeChunkedBroadcasts_eq hsorted (n s) (o s) (ho s hs) _ (hlenw s)
        maxChunk hmax _ (hsharedlt s) N (fun g _ => hsz31 s g) (fun g _ => hszsh s g)
        ⟨S1 s, (st s).comm, (st s).extra.withVal (tot s)⟩ q3
        (fun g hg => ((hcol s hs).2.1 g hg).1) (sizeRow m N E) (length_sizeRow _ _ _)
        (q4.withVal _)
      refine ⟨R, fun _ => ⟨?_, r2⟩⟩
      unfold wideDistribute
      rw [hfiles s hs]
      exact r1
    · exact ⟨fun _ => ⟨Dsg.empty levels, []⟩, fun hc => absurd hc hs⟩
  choose R hR using hdist
  have m4 : ((List.range k).mapM fun s => do
      let x ← ((List.range k).map cs)[s]?
      let files ← (order s).mapM fun t => ((List.range k).map cs)[t]?.map fun x => x.extra.data
      wideDistribute maxChunk (systemOf refs (n s) (o s) (T s)).n
        (systemOf refs (n s) (o s) (T s)).o files x) = some ((List.range k).map R) := by
    refine mapM_some_map _ _ _ fun s hs => ?_
    have hs' := List.mem_range.1 hs
    rw [hget cs s hs', hord1 cs (fun x => x.extra.data) s hs']
    exact (hR s hs').1
  refine ⟨R, ?_, ?_⟩
  · unfold wideExchange
    simp only [Option.bind_eq_bind] at m3 m4 ⊢
    rw [m3]
    exact m4
  intro s hs g hg
  -- sum over the groups of a system
  let sysSum : ℕ → ℕ → ℕ → K := fun s i j =>
    ((List.range (n s)).map fun q => localSum levels (tasksOf refs (T s q)) i j).sum
  have hzero : ∀ s < k, ∀ q < n s, ∀ i < m, ¬ HoldsIdx levels (T s) q i → ∀ j,
      localSum levels (tasksOf refs (T s q)) i j = 0 := by
    intro s hs q hq i hi hno j
    refine localSum_zero ((h s hs).comp q hq) hi ?_ j
    unfold HoldsIdx at hno
    rwa [getD_lt hi] at hno
  have hgroups : ∀ s < k, ∀ g < n s, ∀ i j, combined (n s) levels
      (sharedWide refs levels (n s) (o s) (T s) E) (st s).groups g i j =
      if i ∈ sharedWide refs levels (n s) (o s) (T s) E then sysSum s i j
        else localSum levels (tasksOf refs (T s g)) i j := by
    intro s hs g hg i j
    unfold combined
    have hsame : ((List.range (n s)).map fun q => localSum levels ((st s).groups q).tasks i j) =
        (List.range (n s)).map fun q => localSum levels (tasksOf refs (T s q)) i j :=
      List.map_congr_left fun q hq => by rw [((hst s hs).1 q (List.mem_range.1 hq)).2]
    rw [hsame, ((hst s hs).1 g hg).2]
  -- groups that hold a subspace have the sum over the system
  have hsum : ∀ s < k, ∀ g < n s, ∀ i < m, 0 < N i →
      HoldsWide refs levels (n s) (o s) (T s) E g i → ∀ j,
      combined (n s) levels (sharedWide refs levels (n s) (o s) (T s) E) (st s).groups g i j =
        sysSum s i j := by
    intro s hs g hg i hi hpos hold j
    rw [hgroups s hs g hg]
    split
    · rfl
    · rename_i hns
      refine (sum_range_single hg (fun q => localSum levels (tasksOf refs (T s q)) i j) ?_).symm
      intro q hq hne
      refine hzero s hs q hq i hi (fun hh => hns ?_) j
      exact mem_sharedList.2 ⟨hi, hpos, g, hg, q, hq, fun e => hne e.symm, hold,
        Or.inl (Or.inl hh)⟩
  have hex : ExtractedAll levels (sizesWide refs levels (n s) (o s) (T s) E g)
      (List.range levels.length)
      (fun i j => if i ∈ (List.range levels.length).filter (fun i =>
          decide (0 < (sizeRow m N E).getD i 0 ∧
            (i ∈ sharedWide refs levels (n s) (o s) (T s) E ∨ g = o s)))
        then ((st s).extra.withVal (tot s)).at i j
        else combined (n s) levels (sharedWide refs levels (n s) (o s) (T s) E) (st s).groups g i j)
      (tasksOf refs (T s g)) (R s g).tasks := by
    have hok := ((hst s hs).1 g hg).1.ok
    have := ((hcol s hs).2.1 g hg).2.over hnd hok ((hR s hs).2 g hg)
    rw [((hst s hs).1 g hg).2] at this hok
    refine this.congr hok ?_ (fun _ _ _ _ _ => rfl)
    intro i hi _
    rw [List.mem_append, List.mem_filter]
    tauto
  refine extracted_place (h s hs) hg _ _ _ hex ?_ _ ?_ fun t ht => h0.value_of_alone hs hg ht
  · intro i hi hh
    have h1 : (sizesWide refs levels (n s) (o s) (T s) E g).getD i 0 = N i := by
      refine getD_sizeRow_pos hi (Or.inl (Or.inl (Or.inl ?_)))
      unfold HoldsIdx
      rw [getD_lt hi]
      exact hh
    rw [h1, hNi i hi]
  · intro t ht i hi hl j p hj hpj
    have hL := (h s hs).comp g hg t ht
    have hheld : HoldsIdx levels (T s) g i := by
      unfold HoldsIdx
      rw [getD_lt hi]
      exact ⟨t, ht, hl⟩
    have hj' : j < N i := by
      rw [hNi i hi, ← length_points (h s hs).ref hL hl]
      exact hj
    have hpos : 0 < N i := by omega
    -- the value at the place
    have hval : valueOfSystems refs k n T (spatialOf refs t.2.1 p) =
        ((List.range k).map fun s' => sysSum s' i j).sum := by
      unfold valueOfSystems
      congr 1
      apply List.map_congr_left
      intro s' hs'
      unfold valueAtPlace
      congr 1
      apply List.map_congr_left
      intro q hq
      exact (localSum_place (h s hs).ref ((h s' (List.mem_range.1 hs')).comp q (List.mem_range.1 hq))
        hL hi hl hj hpj).symm
    rw [hval]
    by_cases hEi : E i
    · have hesz : (sizeRow m N E).getD i 0 = N i := getD_sizeRow_pos hi hEi
      rw [if_pos]
      · -- extra sparse grids
        have hat : ∀ s' < k, w s' (selOffset (sizeRow m N E) (List.range (sizeRow m N E).length) i + j) =
            sysSum s' i j := by
          intro s' hs'
          have e := (hst s' hs').2.2
          have := (hcol s' hs').2.2 i j (by rw [hesz]; exact hj')
          rw [hsum s' hs' (o s') (ho s' hs') i hi hpos (Or.inr ⟨rfl, hEi⟩)] at this
          rw [← this]
          unfold Dsg.at Dsg.withVal
          simp only [e.sizes, e.sel]
        have e := (hst s hs).2.2
        have h1 : ((st s).extra.withVal (tot s)).at i j = tot s (selOffset (sizeRow m N E)
            (List.range (sizeRow m N E).length) i + j) := by
          unfold Dsg.at Dsg.withVal
          simp only [e.sizes, e.sel]
        rw [h1]
        simp only [tot]
        rw [hat s hs, List.map_congr_left fun t' ht' => hat t' ((hordmem s hs t').1 ht').1]
        have hperm : (s :: order s).Perm (List.range k) := by
          rw [List.perm_ext_iff_of_nodup (List.nodup_cons.2
            ⟨fun hh => ((hordmem s hs s).1 hh).2 rfl,
              (horder s hs).nodup_iff.2 (List.nodup_range.filter _)⟩) List.nodup_range]
          intro t'
          rw [List.mem_cons, hordmem s hs, List.mem_range]
          by_cases h : t' = s
          · subst h; simp [hs]
          · simp [h]
        rw [← (hperm.map fun s' => sysSum s' i j).sum_eq, List.map_cons, List.sum_cons]
      · rw [List.mem_filter, List.mem_range, decide_eq_true_eq, hesz]
        refine ⟨hi, hpos, ?_⟩
        by_cases hgo : g = o s
        · exact Or.inr hgo
        · refine Or.inl (mem_sharedList.2 ⟨hi, hpos, g, hg, o s, ho s hs, hgo,
            Or.inl (Or.inl hheld), Or.inr ⟨rfl, hEi⟩⟩)
    · rw [if_neg]
      · rw [hsum s hs g hg i hi hpos (Or.inl (Or.inl hheld))]
        refine (sum_range_single hs (fun s' => sysSum s' i j) ?_).symm
        intro s' hs' hne
        apply List.sum_eq_zero
        intro y hy
        obtain ⟨q, hq, rfl⟩ := List.mem_map.1 hy
        refine hzero s' hs' q (List.mem_range.1 hq) i hi (fun hh => hEi ?_) j
        exact ⟨s', hs', s, hs, hne, ⟨q, List.mem_range.1 hq, hh⟩, ⟨g, hg, hheld⟩⟩
      · rw [List.mem_filter, decide_eq_true_eq, getD_sizeRow_neg hEi]
        rintro ⟨-, hc, -⟩
        omega

/-- **C85** (partial: all groups of a system with several groups share subspaces with other groups on
this process, at least one subspace with points is held by two systems, and subspaces have less than
`2 ^ 30` points). Two or three systems that combine through files: the values of all component grids of
all systems become the combination of all component grids of all systems. -/
theorem C85_files_partial [Ring K] (refs : List RefDim) (levels : List (List ℕ)) (k : ℕ)
    (hk : k = 2 ∨ k = 3) (n o : ℕ → ℕ) (T : ℕ → ℕ → List (K × List ℕ × (ℕ → K)))
    (h : ValidSystems refs levels k n T) (ho : ∀ s < k, o s < n s)
    (hn : ∀ s < k, n s ≤ 256)
    (hshare : ∀ s < k, n s = 1 ∨ ∀ g < n s, Shares refs (n s) (T s) g)
    (hconj : ∃ l, 0 < subspaceCount refs l ∧ ∃ a < k, ∃ b < k, a ≠ b ∧
      SystemHolds (n a) (T a) l ∧ SystemHolds (n b) (T b) l)
    (order : ℕ → List ℕ)
    (horder : ∀ s < k, (order s).Perm ((List.range k).filter fun t => t ≠ s))
    (maxChunk : ℕ) (hmax : maxChunk < 2 ^ 31)
    (hsmall : ∀ l ∈ levels, subspaceCount refs l < 2 ^ 30)
    (htotal : (levels.map (subspaceCount refs)).sum < 2 ^ 32) :
    ∃ R : ℕ → ℕ → Group K,
      wideCombine maxChunk levels k (fun s => systemOf refs (n s) (o s) (T s)) order =
        some ((List.range k).map R) ∧
      ∀ s < k, ∀ g < n s, List.Forall₂ (fun t (t' : K × Dfg K) => t'.1 = t.1 ∧
        t'.2.dims = (gridOf refs t.2.1 t.2.2).dims ∧ t'.2.data.len = numLocal refs t.2.1 ∧
        ∀ p < numLocal refs t.2.1,
          t'.2.data.val p = valueOfSystems refs k n T (spatialOf refs t.2.1 p))
        (T s g) (R s g).tasks := by
  have h0 := h
  replace h := h.each
  set m := levels.length with hm
  set N := countOf refs levels with hN
  have hNi : ∀ i (hi : i < m), N i = subspaceCount refs levels[i] := by
    intro i hi
    rw [hN]
    unfold countOf
    rw [getD_lt hi]
  have hN30 : ∀ i < m, N i < 2 ^ 30 := by
    intro i hi
    rw [hNi i hi]
    exact hsmall _ (List.getElem_mem _)
  let W : ℕ → ℕ → Prop := fun s i => ∃ g < n s, HoldsIdx levels (T s) g i
  let E : ℕ → Prop := TwoSystems levels k n T
  have hordmem : ∀ s < k, ∀ t, t ∈ order s ↔ t < k ∧ t ≠ s := by
    intro s hs t
    rw [(horder s hs).mem_iff, List.mem_filter, List.mem_range, decide_eq_true_eq]
  have hEne : ∃ i < m, E i ∧ 0 < N i := by
    obtain ⟨l, hc, a, ha, b, hb, hab, ⟨ga, hga, hha⟩, ⟨gb, hgb, hhb⟩⟩ := hconj
    obtain ⟨t, ht, hl⟩ := hha
    obtain ⟨i, hi, rfl⟩ := List.mem_iff_getElem.1
      (h0.mem_of_shared ha hb hab ⟨ga, hga, t, ht, hl⟩ ⟨gb, hgb, hhb⟩)
    refine ⟨i, hi, ⟨a, ha, b, hb, hab, ⟨ga, hga, ?_⟩, ⟨gb, hgb, ?_⟩⟩, by rw [hNi i hi]; exact hc⟩
    · unfold HoldsIdx
      rw [getD_lt hi]
      exact ⟨t, ht, hl⟩
    · unfold HoldsIdx
      rw [getD_lt hi]
      exact hhb
  -- sizes
  have hsizes : ∀ s, ∃ dsgs : List (Dsg K), s < k → Initialised refs levels (n s) (T s) dsgs ∧
      wideSizes levels (systemOf refs (n s) (o s) (T s)) = some ⟨dsgs,
        sizeTable (n s) m N (HoldsAfter refs levels (n s) (T s)), sizeRow m N (W s)⟩ := by
    intro s
    by_cases hs : s < k
    · obtain ⟨d, d1, d2⟩ := wideSizes_eq (ho s hs) (hn s hs) (h s hs) (hshare s hs)
      exact ⟨d, fun _ => ⟨d1, d2⟩⟩
    · exact ⟨[], fun hc => absurd hc hs⟩
  choose dsgs hdsgs using hsizes
  let ws : ℕ → WideSizes K := fun s => ⟨dsgs s,
    sizeTable (n s) m N (HoldsAfter refs levels (n s) (T s)), sizeRow m N (W s)⟩
  have m1 : (List.range k).mapM (fun s => wideSizes levels (systemOf refs (n s) (o s) (T s))) =
      some ((List.range k).map ws) :=
    mapM_some_map _ _ _ fun s hs => (hdsgs s (List.mem_range.1 hs)).2
  have hget : ∀ {α : Type} (f : ℕ → α) (s : ℕ), s < k → ((List.range k).map f)[s]? = some (f s) := by
    intro α f s hs
    rw [List.getElem?_map, List.getElem?_range hs]
    rfl
  -- start
  have hstart : ∀ s, ∃ st : WideState K, s < k →
      wideStart levels (systemOf refs (n s) (o s) (T s)) (ws s)
        ((order s).map fun t => sizeRow m N (W t)) = some st ∧
      (∀ g < n s, GroupOk levels (sizesWide refs levels (n s) (o s) (T s) E g) (st.groups g) ∧
        (st.groups g).tasks = tasksOf refs (T s g)) ∧
      ((∀ g < n s, st.comm g = some (sharedWide refs levels (n s) (o s) (T s) E)) ∨
        (sharedWide refs levels (n s) (o s) (T s) E = [] ∧ ∀ g < n s, st.comm g = none)) ∧
      Extra (sizeRow m N E) (sizesWide refs levels (n s) (o s) (T s) E (o s)) st.extra := by
    intro s
    by_cases hs : s < k
    · obtain ⟨c, hc⟩ := reduceExtra_row m N hN30 k hk W s hs (order s) (horder s hs)
      obtain ⟨st, q⟩ := wideStart_eq (ho s hs) (hn s hs) (h s hs) (hshare s hs) (hdsgs s hs).1 E _ c
        hc hEne htotal
      exact ⟨st, fun _ => ⟨q.1, q.2.1, q.2.2.1, q.2.2.2.1⟩⟩
    · exact ⟨⟨fun _ => ⟨Dsg.empty levels, []⟩, fun _ => none, Dsg.empty levels⟩,
        fun hc => absurd hc hs⟩
  choose st hst using hstart
  have hord1 : ∀ {α β : Type} (f : ℕ → α) (p : α → β) (s : ℕ), s < k →
      (order s).mapM (fun t => ((List.range k).map f)[t]?.map p) =
        some ((order s).map fun t => p (f t)) := by
    intro α β f p s hs
    refine mapM_some_map _ _ _ fun t ht => ?_
    rw [hget f t ((hordmem s hs t).1 ht).1]
    rfl
  have m2 : ((List.range k).mapM fun s => do
      let own ← ((List.range k).map ws)[s]?
      let others ← (order s).mapM fun t => ((List.range k).map ws)[t]?.map WideSizes.written
      wideStart levels (systemOf refs (n s) (o s) (T s)) own others) =
      some ((List.range k).map st) := by
    refine mapM_some_map _ _ _ fun s hs => ?_
    have hs' := List.mem_range.1 hs
    rw [hget ws s hs', hord1 ws WideSizes.written s hs']
    exact (hst s hs').1
  obtain ⟨R, r1, r2⟩ := wideExchange_eq refs levels k (by omega) n o T h0 ho order horder maxChunk hmax
    (fun l hl => lt_trans (hsmall l hl) (by decide)) st fun s hs => (hst s hs).2
  refine ⟨R, ?_, r2⟩
  unfold wideCombine
  rw [m1]
  simp only [Option.bind_eq_bind, Option.bind_some] at m2 ⊢
  rw [m2]
  exact r1

/-- The component grids of a second system with one group. -/
def exampleSystemB (_g : ℕ) : List (ℚ × List ℕ × (ℕ → ℚ)) :=
  [(1, [1, 3], fun q => 5 - q), (-1, [1, 2], fun q => q * q)]

/-- The hypotheses of `C85_files_partial` hold for two systems, with two groups and one group. -/
theorem exampleSystems_valid : ValidSystems exampleRefs [[1, 1], [1, 2], [1, 3], [2, 1]] 2 (fun s => 2 - s)
      (fun s => if s = 0 then exampleSystem else exampleSystemB) ∧
    (∀ s < 2, 2 - s = 1 ∨ ∀ g < 2 - s, Shares exampleRefs (2 - s)
      (if s = 0 then exampleSystem else exampleSystemB) g) ∧
    (∃ l, 0 < subspaceCount exampleRefs l ∧ SystemHolds 2 exampleSystem l ∧
      SystemHolds 1 exampleSystemB l) ∧
    (∀ s < 2, [1 - s].Perm ((List.range 2).filter fun t => t ≠ s)) ∧
    (∀ l ∈ [[1, 1], [1, 2], [1, 3], [2, 1]], subspaceCount exampleRefs l < 2 ^ 30) ∧
    ([[1, 1], [1, 2], [1, 3], [2, 1]].map (subspaceCount exampleRefs)).sum < 2 ^ 32 := by
  have hr : ∀ r ∈ exampleRefs, ValidRef r := by
    intro r hr
    simp only [exampleRefs, List.mem_cons, List.not_mem_nil, or_false] at hr
    rcases hr with rfl | rfl
    · exact ⟨by decide, ⟨rfl, by decide, by decide⟩, by decide⟩
    · exact ⟨by decide, ⟨rfl, by decide, by decide⟩, by decide⟩
  have h0 : HoldsLevel exampleSystem 0 [1, 1] :=
    ⟨(1, [1, 2], fun q => q + 1), by simp [exampleSystem], by decide +kernel⟩
  have h1 : HoldsLevel exampleSystem 1 [1, 1] :=
    ⟨(1, [2, 1], fun q => 7 * q + 3), by simp [exampleSystem], by decide +kernel⟩
  refine ⟨?_, ?_, ⟨[1, 1], by decide +kernel, ⟨0, by decide, h0⟩, 0, by decide, ?_⟩, by decide +kernel,
    by decide +kernel, by decide +kernel⟩
  · have hfull : ∀ s < 2, FullLevels [[1, 1], [1, 2], [1, 3], [2, 1]] (2 - s)
        (if s = 0 then exampleSystem else exampleSystemB) := by
      intro s hs
      have : s = 0 ∨ s = 1 := by omega
      rcases this with rfl | rfl
      · intro g hg t ht
        simp only [if_true] at ht
        unfold exampleSystem at ht
        split at ht
        · simp only [List.mem_cons, List.not_mem_nil, or_false] at ht
          rcases ht with rfl | rfl <;> decide +kernel
        · simp only [List.mem_cons, List.not_mem_nil, or_false] at ht
          rcases ht with rfl
          decide +kernel
      · intro g hg t ht
        simp only [one_ne_zero, if_false, exampleSystemB, List.mem_cons, List.not_mem_nil,
          or_false] at ht
        rcases ht with rfl | rfl <;> decide +kernel
    refine .of_full (fun s hs => .of_full hr (by decide) ?_ (hfull s hs)) hfull
    have : s = 0 ∨ s = 1 := by omega
    rcases this with rfl | rfl
    · intro g hg t ht
      simp only [if_true] at ht
      unfold exampleSystem at ht
      split at ht
      · simp only [List.mem_cons, List.not_mem_nil, or_false] at ht
        rcases ht with rfl | rfl <;> exact ⟨by decide, by simp [exampleRefs]⟩
      · simp only [List.mem_cons, List.not_mem_nil, or_false] at ht
        rcases ht with rfl
        exact ⟨by decide, by simp [exampleRefs]⟩
    · intro g hg t ht
      simp only [one_ne_zero, if_false, exampleSystemB, List.mem_cons, List.not_mem_nil,
        or_false] at ht
      rcases ht with rfl | rfl <;> exact ⟨by decide, by simp [exampleRefs]⟩
  · intro s hs
    have : s = 0 ∨ s = 1 := by omega
    rcases this with rfl | rfl
    · right
      intro g hg
      refine ⟨[1, 1], by decide +kernel, ?_⟩
      have : g = 0 ∨ g = 1 := by omega
      rcases this with rfl | rfl
      · exact ⟨h0, 1, by decide, by decide, h1⟩
      · exact ⟨h1, 0, by decide, by decide, h0⟩
    · left; rfl
  · exact ⟨(1, [1, 3], fun q => 5 - q), by simp [exampleSystemB], by decide +kernel⟩

/-- One component grid on the only group of each of two systems, on a process without points of level 1. -/
def lonelySystem (s _g : ℕ) : List (ℚ × List ℕ × (ℕ → ℚ)) :=
  if s = 0 then [(1, [3], fun q => q)] else [(1, [1], fun q => q)]

/-- C85 is violated if the subspaces that two systems have in common have no points on a process: the
output group throws ("Extra DSG is not initialized"), although there is nothing to exchange on this process. -/
theorem C85_violated :
    ValidSystems unevenRefs [[1], [2], [3]] 2 (fun _ => 1) lonelySystem ∧
      SystemHolds 1 (lonelySystem 0) [1] ∧ SystemHolds 1 (lonelySystem 1) [1] ∧
      (wideCombine 5 [[1], [2], [3]] 2 (fun s => systemOf unevenRefs 1 0 (lonelySystem s))
        fun s => [1 - s]).isNone = true := by
  have hfull : ∀ s < 2, FullLevels [[1], [2], [3]] 1 (lonelySystem s) := by
    intro s hs g hg t ht
    unfold lonelySystem at ht
    split at ht
    · simp only [List.mem_cons, List.not_mem_nil, or_false] at ht
      rcases ht with rfl
      decide +kernel
    · simp only [List.mem_cons, List.not_mem_nil, or_false] at ht
      rcases ht with rfl
      decide +kernel
  refine ⟨.of_full (fun s hs => .of_full ?_ (by decide) ?_ (hfull s hs)) hfull, ?_, ?_, by decide +kernel⟩
  · intro r hr
    simp only [unevenRefs, List.mem_cons, List.not_mem_nil, or_false] at hr
    rcases hr with rfl
    exact ⟨by decide, ⟨rfl, by decide, by decide⟩, by decide⟩
  · intro g hg t ht
    unfold lonelySystem at ht
    split at ht
    · simp only [List.mem_cons, List.not_mem_nil, or_false] at ht
      rcases ht with rfl
      exact ⟨by decide, by simp [unevenRefs]⟩
    · simp only [List.mem_cons, List.not_mem_nil, or_false] at ht
      rcases ht with rfl
      exact ⟨by decide, by simp [unevenRefs]⟩
  · exact ⟨0, by decide, (1, [3], fun q => q), by simp [lonelySystem], by decide +kernel⟩
  · exact ⟨0, by decide, (1, [1], fun q => q), by simp [lonelySystem], by decide +kernel⟩

end Verif

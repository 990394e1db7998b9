import Verif.Model.SubspaceWriter
import Verif.Props.WideCombine

/-!
# Lemmas about sizes written ahead
-/

namespace Verif

variable {K : Type}

theorem foldlM_conjoint (N : ℕ) (xs : List ℕ) (h : ∀ x ∈ xs, x = 0 ∨ x = N) (a c : ℕ)
    (ha : a = 0 ∨ a = N) :
    ∃ r, xs.foldlM conjointStep (a, c) = some r ∧ r.2 = c + xs.countP (fun x => decide (0 < x)) ∧
      (r.1 = 0 ∨ r.1 = N) ∧ ((∃ x ∈ xs, 0 < x) → r.1 = N) ∧ (a = N → r.1 = N) := by
  induction xs generalizing a c with
  | nil => exact ⟨(a, c), rfl, by simp, ha, by simp, fun h => h⟩
  | cons x xs ih =>
    have hx := h x List.mem_cons_self
    have hxs := fun y hy => h y (List.mem_cons_of_mem _ hy)
    rw [List.foldlM_cons]
    have hstep : conjointStep (a, c) x = some (if 0 < x then (x, c + 1) else (a, c)) := by
      unfold conjointStep
      rw [if_pos]
      rcases hx with h1 | h1
      · exact Or.inl h1
      · rcases ha with h2 | h2
        · exact Or.inr (Or.inl h2)
        · exact Or.inr (Or.inr (by rw [h1, h2]))
    rw [hstep]
    by_cases hp : 0 < x
    · obtain ⟨r, r1, r2, r3, r4, r5⟩ := ih hxs x (c + 1) hx
      have hxN : x = N := by omega
      refine ⟨r, by rw [if_pos hp]; exact r1, ?_, r3, fun _ => r5 hxN, fun _ => r5 hxN⟩
      rw [r2, List.countP_cons_of_pos (by simpa using hp)]
      omega
    · obtain ⟨r, r1, r2, r3, r4, r5⟩ := ih hxs a c ha
      refine ⟨r, by rw [if_neg hp]; exact r1, ?_, r3, ?_, r5⟩
      · rw [r2, List.countP_cons_of_neg (by simpa using hp)]
      · rintro ⟨y, hy, hpy⟩
        rcases List.mem_cons.1 hy with rfl | hy
        · exact absurd hpy hp
        · exact r4 ⟨y, hy, hpy⟩

theorem one_lt_countP {k : ℕ} (p : ℕ → Bool) :
    1 < (List.range k).countP p ↔ ∃ a < k, ∃ b < k, a ≠ b ∧ p a = true ∧ p b = true := by
  rw [List.countP_eq_length_filter]
  have hnd : ((List.range k).filter p).Nodup := List.nodup_range.filter _
  have hmem : ∀ a, a ∈ (List.range k).filter p ↔ a < k ∧ p a = true := by
    intro a
    rw [List.mem_filter, List.mem_range]
  generalize (List.range k).filter p = l at hnd hmem
  constructor
  · intro h
    match l, hnd, hmem, h with
    | a :: b :: l, hnd, hmem, _ =>
      have ha := (hmem a).1 (by simp)
      have hb := (hmem b).1 (by simp)
      refine ⟨a, ha.1, b, hb.1, ?_, ha.2, hb.2⟩
      rintro rfl
      simp at hnd
  · rintro ⟨a, ha, b, hb, hab, pa, pb⟩
    have hs : [a, b] ⊆ l := by
      intro x hx
      rcases List.mem_cons.1 hx with rfl | hx
      · exact (hmem x).2 ⟨ha, pa⟩
      · rw [List.mem_singleton] at hx
        subst hx
        exact (hmem x).2 ⟨hb, pb⟩
    have := (List.Nodup.subperm (by simpa using hab) hs).length_le
    exact this

/-- the size of a subspace that systems have with the same number of points -/
theorem conjointSize_eq (N k : ℕ) (W : ℕ → Prop) (x : ℕ → ℕ) (h1 : ∀ s < k, W s → x s = N)
    (h2 : ∀ s < k, ¬ W s → x s = 0) :
    ∃ c, conjointSize ((List.range k).map x) = some c ∧
      ((∃ a < k, ∃ b < k, a ≠ b ∧ W a ∧ W b) → c = N) ∧
      (¬ (∃ a < k, ∃ b < k, a ≠ b ∧ W a ∧ W b) → c = 0) := by
  classical
  obtain ⟨r, r1, r2, r3, r4, -⟩ := foldlM_conjoint N ((List.range k).map x) (by
    intro y hy
    obtain ⟨s, hs, rfl⟩ := List.mem_map.1 hy
    by_cases hw : W s
    · exact Or.inr (h1 s (List.mem_range.1 hs) hw)
    · exact Or.inl (h2 s (List.mem_range.1 hs) hw)) 0 0 (Or.inl rfl)
  rw [List.countP_map, zero_add] at r2
  refine ⟨_, by unfold conjointSize; rw [r1]; rfl, ?_, ?_⟩
  · rintro ⟨a, ha, b, hb, hab, wa, wb⟩
    by_cases hN : N = 0
    · rw [hN] at r3 ⊢
      split <;> omega
    · have hlt : 1 < r.2 := by
        rw [r2]
        refine (one_lt_countP _).2 ⟨a, ha, b, hb, hab, ?_, ?_⟩
        · simp [h1 a ha wa]; omega
        · simp [h1 b hb wb]; omega
      rw [if_pos hlt]
      exact r4 ⟨x a, List.mem_map.2 ⟨a, List.mem_range.2 ha, rfl⟩, by rw [h1 a ha wa]; omega⟩
  · intro hno
    rw [if_neg]
    rw [r2]
    intro hlt
    obtain ⟨a, ha, b, hb, hab, pa, pb⟩ := (one_lt_countP _).1 hlt
    refine hno ⟨a, ha, b, hb, hab, ?_, ?_⟩
    · by_contra hw
      simp [h2 a ha hw] at pa
    · by_contra hw
      simp [h2 b hb hw] at pb

theorem conjointSizes_rows (m : ℕ) (N : ℕ → ℕ) (k : ℕ) (W : ℕ → ℕ → Prop) :
    conjointSizes m ((List.range k).map fun s => sizeRow m N (W s)) =
      some (sizeRow m N fun i => ∃ a < k, ∃ b < k, a ≠ b ∧ W a i ∧ W b i) := by
  have hone : ∀ i, ∃ c, i < m → (do
      let s ← ((List.range k).map fun s => sizeRow m N (W s)).mapM fun u => u[i]?
      conjointSize s) = some c ∧
      ((∃ a < k, ∃ b < k, a ≠ b ∧ W a i ∧ W b i) → c = N i) ∧
      (¬ (∃ a < k, ∃ b < k, a ≠ b ∧ W a i ∧ W b i) → c = 0) := by
    intro i
    by_cases hi : i < m
    · obtain ⟨c, c1, c2, c3⟩ := conjointSize_eq (N i) k (fun s => W s i)
        (fun s => (sizeRow m N (W s)).getD i 0) (fun s _ hw => getD_sizeRow_pos hi hw)
        (fun s _ hw => getD_sizeRow_neg hw)
      refine ⟨c, fun _ => ⟨?_, c2, c3⟩⟩
      have hm : (((List.range k).map fun s => sizeRow m N (W s)).mapM fun u => u[i]?) =
          some ((List.range k).map fun s => (sizeRow m N (W s)).getD i 0) := by
        rw [mapM_some_map _ _ (fun u : List ℕ => u.getD i 0) ?_, List.map_map]
        · rfl
        intro u hu
        obtain ⟨s, hs, rfl⟩ := List.mem_map.1 hu
        have hl : i < (sizeRow m N (W s)).length := by rw [length_sizeRow]; exact hi
        rw [List.getElem?_eq_getElem hl, List.getD_eq_getElem _ _ hl]
      rw [hm]
      exact c1
    · exact ⟨0, fun hc => absurd hc hi⟩
  choose c hc using hone
  unfold conjointSizes
  rw [mapM_some_map _ _ c fun i hi => (hc i (List.mem_range.1 hi)).1]
  congr 1
  refine eq_sizeRow (by simp) ?_ ?_
  · intro i hi h
    rw [List.getD_eq_getElem _ _ (by simpa using hi)]
    simp only [List.getElem_map, List.getElem_range]
    exact (hc i hi).2.1 h
  · intro i hi h
    rw [List.getD_eq_getElem _ _ (by simpa using hi)]
    simp only [List.getElem_map, List.getElem_range]
    exact (hc i hi).2.2 h

/-- The grids of the scheme file of a system, without values. -/
def schemeGrids (K : Type) [Zero K] (refs : List RefDim) (file : List (List ℕ)) : List (Dfg K) :=
  file.map fun l => gridOf refs l fun _ => 0

/-- The sizes that the tool computes for the scheme of a system. -/
theorem schemeSizes_eq [Ring K] {refs : List RefDim} {levels : List (List ℕ)} {n : ℕ}
    {T : ℕ → List (K × List ℕ × (ℕ → K))} (h : ValidSystem refs levels n T) (file : List (List ℕ))
    (hf : file.Perm (((List.range n).flatMap T).map fun t => t.2.1)) :
    schemeSizes levels (schemeGrids K refs file) =
      some (sizeRow levels.length (countOf refs levels) fun i => ∃ g < n, HoldsIdx levels T g i) := by
  let T' : ℕ → List (K × List ℕ × (ℕ → K)) := fun _ => file.map fun l => (1, l, fun _ => 0)
  have hmem : ∀ l, l ∈ file ↔ ∃ g < n, ∃ t ∈ T g, t.2.1 = l := by
    intro l
    rw [hf.mem_iff, List.mem_map]
    constructor
    · rintro ⟨t, ht, rfl⟩
      obtain ⟨g, hg, ht⟩ := List.mem_flatMap.1 ht
      exact ⟨g, List.mem_range.1 hg, t, ht, rfl⟩
    · rintro ⟨g, hg, t, ht, rfl⟩
      exact ⟨t, List.mem_flatMap.2 ⟨g, List.mem_range.2 hg, ht⟩, rfl⟩
  have hhold : ∀ l, HoldsLevel T' 0 l ↔ ∃ g < n, HoldsLevel T g l := by
    intro l
    constructor
    · rintro ⟨t, ht, hl⟩
      obtain ⟨L, hL, rfl⟩ := List.mem_map.1 ht
      obtain ⟨g, hg, t, ht', rfl⟩ := (hmem L).1 hL
      exact ⟨g, hg, t, ht', hl⟩
    · rintro ⟨g, hg, t, ht, hl⟩
      exact ⟨(1, t.2.1, fun _ => 0), List.mem_map.2 ⟨t.2.1, (hmem _).2 ⟨g, hg, t, ht, rfl⟩, rfl⟩, hl⟩
  have hlen : ∀ l, (holders 1 T' l).length = (holders n T l).length := by
    intro l
    have e1 : (holders 1 T' l).length = (file.filter fun L => decide (l ∈ getDownSet L)).length := by
      unfold holders
      rw [List.range_one, List.flatMap_singleton, List.filter_map, List.length_map]
      rfl
    rw [e1, (hf.filter _).length_eq, List.filter_map, List.length_map]
    rfl
  have hv : ValidSystem refs levels 1 T' := by
    refine ⟨h.ref, h.sorted, ?_, ?_, ?_⟩
    · intro _ _ t ht
      obtain ⟨L, hL, rfl⟩ := List.mem_map.1 ht
      obtain ⟨g, hg, t, ht', rfl⟩ := (hmem L).1 hL
      exact h.comp g hg t ht'
    · intro _ _ t ht
      obtain ⟨L, hL, rfl⟩ := List.mem_map.1 ht
      obtain ⟨g, hg, t, ht', rfl⟩ := (hmem L).1 hL
      exact h.low g hg t ht'
    · intro _ _ t ht l hl
      obtain ⟨L, hL, rfl⟩ := List.mem_map.1 ht
      obtain ⟨g, hg, t, ht', rfl⟩ := (hmem L).1 hL
      rcases h.mem g hg t ht' l hl with h1 | h1
      · exact Or.inl h1
      · exact Or.inr ⟨rfl, by rw [hlen]; exact h1.2⟩
  obtain ⟨d, d1, d2, d3, d4, d5⟩ := registered_eq hv (g := 0) (by decide)
  have hfold : (schemeGrids K refs file).foldlM registerDistributedFullGrid (Dsg.empty levels) =
      some d := by
    rw [← d1]
    unfold schemeGrids tasksOf
    rw [List.map_map, List.foldlM_map, List.foldlM_map]
    rfl
  unfold schemeSizes
  rw [hfold]
  show some d.sizes = _
  congr 1
  refine eq_sizeRow d3 ?_ ?_
  · intro i hi hh
    unfold HoldsIdx at hh
    unfold countOf
    rw [getD_lt hi] at hh ⊢
    exact (d5 i hi).1 ((hhold _).2 hh)
  · intro i hi hh
    unfold HoldsIdx at hh
    rw [getD_lt hi] at hh
    exact (d5 i hi).2 fun hc => hh ((hhold _).1 hc)

theorem conjointOf_eq [Ring K] {refs : List RefDim} {levels : List (List ℕ)} {k : ℕ} {n : ℕ → ℕ}
    {T : ℕ → ℕ → List (K × List ℕ × (ℕ → K))} (h : ∀ s < k, ValidSystem refs levels (n s) (T s))
    (file : ℕ → List (List ℕ))
    (hf : ∀ s < k, (file s).Perm (((List.range (n s)).flatMap (T s)).map fun t => t.2.1)) :
    conjointOf levels ((List.range k).map fun s => schemeGrids K refs (file s)) =
      some (sizeRow levels.length (countOf refs levels) (TwoSystems levels k n T)) := by
  unfold conjointOf
  have h1 : ((List.range k).map fun s => schemeGrids K refs (file s)).mapM (schemeSizes levels) =
      some ((List.range k).map fun s => sizeRow levels.length (countOf refs levels)
        fun i => ∃ g < n s, HoldsIdx levels (T s) g i) := by
    rw [List.mapM_map]
    exact mapM_some_map _ _ _ fun s hs =>
      schemeSizes_eq (h s (List.mem_range.1 hs)) _ (hf s (List.mem_range.1 hs))
  rw [h1]
  exact conjointSizes_rows _ _ _ _

theorem sizesValid_rows (m : ℕ) (N : ℕ → ℕ) (P Q : ℕ → Prop) (h : ∀ i < m, Q i → P i) :
    sizesValid (sizeRow m N P) (sizeRow m N Q) = true := by
  unfold sizesValid
  rw [Bool.and_eq_true, List.all_eq_true, decide_eq_true_eq]
  constructor
  · intro p hp
    obtain ⟨i, hi, rfl⟩ := List.mem_iff_getElem.1 hp
    rw [List.length_zip, length_sizeRow, length_sizeRow, min_self] at hi
    rw [List.getElem_zip, decide_eq_true_eq]
    simp only
    rw [← List.getD_eq_getElem _ 0, ← List.getD_eq_getElem _ 0]
    by_cases hq : Q i
    · rw [getD_sizeRow_pos hi hq, getD_sizeRow_pos hi (h i hi hq)]
      simp
    · rw [getD_sizeRow_neg hq]
      simp
  · apply List.Forall₂.sum_le_sum
    rw [List.forall₂_iff_get]
    refine ⟨by rw [length_sizeRow, length_sizeRow], fun i h1 h2 => ?_⟩
    rw [length_sizeRow] at h1
    simp only [List.get_eq_getElem]
    rw [← List.getD_eq_getElem _ 0, ← List.getD_eq_getElem _ 0]
    by_cases hq : Q i
    · rw [getD_sizeRow_pos h1 hq, getD_sizeRow_pos h1 (h i h1 hq)]
    · rw [getD_sizeRow_neg hq]
      omega

theorem wideStartAhead_eq [Ring K] {refs : List RefDim} {levels : List (List ℕ)} {n o : ℕ} (ho : o < n)
    (hn : n ≤ 256) {T : ℕ → List (K × List ℕ × (ℕ → K))} (h : ValidSystem refs levels n T)
    (hsh : n = 1 ∨ ∀ g < n, Shares refs n T g) (debug : Bool) (E : ℕ → Prop)
    (hdebug : debug = true → ∀ i < levels.length, E i → HoldsAfter refs levels n T o i)
    (hne : ∃ i < levels.length, E i ∧ 0 < countOf refs levels i)
    (htotal : (levels.map (subspaceCount refs)).sum < 2 ^ 32) :
    ∃ st, wideStartAhead debug levels (systemOf refs n o T)
        (sizeRow levels.length (countOf refs levels) E) = some st ∧
      (∀ g < n, GroupOk levels (sizesWide refs levels n o T E g) (st.groups g) ∧
        (st.groups g).tasks = tasksOf refs (T g)) ∧
      ((∀ g < n, st.comm g = some (sharedWide refs levels n o T E)) ∨
        (sharedWide refs levels n o T E = [] ∧ ∀ g < n, st.comm g = none)) ∧
      Extra (sizeRow levels.length (countOf refs levels) E) (sizesWide refs levels n o T E o)
        st.extra := by
  obtain ⟨dsgs, i1, hi⟩ := initDsgs_eq h .chunkedOutgroupSparseGridReduce
  set m := levels.length with hm
  set N := countOf refs levels with hN
  have hone : n ≤ 1 ∨ ∀ H : ℕ → ℕ → Prop,
      (∀ g < n, ∀ i < m, HoldsIdx levels T g i → H g i) →
      ∀ g < n, ∃ i < m, SharedBy n N H i ∧ H g i := by
    rcases hsh with h1 | h1
    · exact Or.inl (by omega)
    · exact Or.inr fun H hH => shares_table h h1 H hH
  have hex0 : exchangeOutgroup m (sizeTable n m N (HoldsIdx levels T)) = some
      (sizeTable n m N (HoldsAfter refs levels n T), (List.range n).map fun _ =>
        if n ≤ 1 then none else some (sharedList n m N (HoldsIdx levels T))) :=
    exchange_table n m hn N (HoldsIdx levels T) (hone.imp_right fun f => f _ fun g _ i _ hh => hh)
  have hset : (sizeTable n m N (HoldsAfter refs levels n T)).set o (List.zipWith max
      (sizeRow m N (HoldsAfter refs levels n T o)) (sizeRow m N E)) =
      sizeTable n m N (HoldsWide refs levels n o T E) := by
    rw [zipWith_max_row, set_sizeTable]
    refine sizeTable_congr fun g hg i hi hN => ?_
    unfold HoldsWide
    by_cases hgo : g = o
    · subst hgo; simp
    · simp [hgo]
  have hex1 := exchange_table n m hn N (HoldsWide refs levels n o T E)
    (hone.imp_right fun f => f _ fun g _ i _ hh => Or.inl (Or.inl hh))
  have hfit : ∀ i, (sizeRow m N E).getD i 0 ≠ 0 →
      (sizesWide refs levels n o T E o).getD i 0 = (sizeRow m N E).getD i 0 := by
    intro i hne
    obtain ⟨hil, hEi, -⟩ := sizeRow_pos (Nat.pos_of_ne_zero hne)
    rw [getD_sizeRow_pos hil hEi]
    exact getD_sizeRow_pos hil (Or.inl (Or.inr ⟨rfl, hEi⟩))
  have hsum : (sizeRow m N E).sum < 2 ^ 32 := by
    refine lt_of_le_of_lt (sum_le_total (length_sizeRow _ _ _) fun i hi => ?_) htotal
    refine le_trans getD_sizeRow_le (le_of_eq ?_)
    rw [hN]
    unfold countOf
    rw [getD_lt hi]
  obtain ⟨e, e1, e2⟩ := extraGrid_eq (K := K) levels (sizeRow m N E) (sizesWide refs levels n o T E o)
    (length_sizeRow _ _ _) hsum (by
      obtain ⟨i, hi, hEi, hp⟩ := hne
      exact ⟨i, by rw [getD_sizeRow_pos hi hEi]; exact hp⟩) hfit
  refine ⟨⟨fun g => afterSizes (dsgs.getD g (Dsg.empty levels))
    ((sizeTable n m N (fun g i => HoldsWide refs levels n o T E g i ∨
      SharedBy n N (HoldsWide refs levels n o T E) i)).getD g []) (tasksOf refs (T g)),
    fun g => ((List.range n).map fun _ => if n ≤ 1 then none else
      some (sharedWide refs levels n o T E)).getD g none, e⟩, ?_, ?_, ?_, e2⟩
  · unfold wideStartAhead systemOf
    simp only [i1, Option.bind_eq_bind, Option.bind_some, table_init hi, ← hm, ← hN, hex0]
    rw [getElem?_sizeTable ho]
    simp only [Option.bind_some]
    rw [if_pos ⟨length_sizeRow _ _ _, fun hd => sizesValid_rows _ _ _ _ (hdebug hd)⟩, hset, hex1]
    simp only [Option.bind_some, e1]
    rfl
  · intro g hg
    refine ⟨?_, rfl⟩
    have hrow : (sizeTable n m N (fun g i => HoldsWide refs levels n o T E g i ∨
        SharedBy n N (HoldsWide refs levels n o T E) i)).getD g [] = sizesWide refs levels n o T E g := by
      rw [List.getD_eq_getElem?_getD, getElem?_sizeTable hg]
      rfl
    simp only [hrow]
    refine (afterSizes_ok h hi hg _ ?_).1
    intro i hil hh
    unfold sizesWide
    rw [getD_sizeRow_pos hil]
    · unfold countOf
      rw [getD_lt hil]
    · refine Or.inl (Or.inl (Or.inl ?_))
      unfold HoldsIdx
      rw [getD_lt hil]
      exact hh
  · have hget : ∀ g < n, ((List.range n).map fun _ => if n ≤ 1 then none else
        some (sharedWide refs levels n o T E)).getD g none = if n ≤ 1 then none else
          some (sharedWide refs levels n o T E) := by
      intro g hg
      rw [List.getD_eq_getElem _ _ (by simpa using hg), List.getElem_map]
    by_cases h1 : n ≤ 1
    · right
      refine ⟨?_, fun g hg => ?_⟩
      · rw [List.eq_nil_iff_forall_not_mem]
        intro i hi
        obtain ⟨-, -, a, ha, b, hb, hab, -⟩ := mem_sharedList.1 hi
        omega
      · simp only
        rw [hget g hg, if_pos h1]
    · left
      intro g hg
      simp only
      rw [hget g hg, if_neg h1]

end Verif

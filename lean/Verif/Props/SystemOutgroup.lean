import Verif.Lemmas.SystemOutgroup
import Verif.Props.SystemCombine

/-!
# Property C87: the combination of several systems through files, with an outgroup communicator

Two or three systems combine through files with the variant that keeps the sparse grids of the groups allocated and
reduces only the subspaces that several groups have. The result is stated as in C85 and C86: every value of every
component grid of every system becomes the sum over all component grids of all groups of all systems.
-/

namespace Verif

variable {K : Type}

theorem linkSizes_outgroup [Ring K] {refs : List RefDim} {levels : List (List ℕ)} {n : ℕ} (o : ℕ)
    (hn : n ≤ 256) {T : ℕ → List (K × List ℕ × (ℕ → K))} (h : ValidSystem refs levels n T)
    (hsh : n = 1 ∨ ∀ g < n, Shares refs n T g) :
    ∃ dsgs comms, Initialised refs levels n T dsgs ∧
      linkSizes .outgroupSparseGridReduce levels (systemOf refs n o T) =
        some ⟨dsgs, sizeTable n levels.length (countOf refs levels) (HoldsAfter refs levels n T),
          comms⟩ := by
  obtain ⟨dsgs, i1, i2⟩ := initDsgs_eq h .outgroupSparseGridReduce
  have hex := exchange_table n levels.length hn (countOf refs levels) (HoldsIdx levels T) (by
    rcases hsh with h1 | h1
    · exact Or.inl (by omega)
    · exact Or.inr (shares_table h h1 _ fun _ _ _ _ h => h))
  refine ⟨dsgs, (List.range n).map fun _ => if n ≤ 1 then none else
    some (sharedList n levels.length (countOf refs levels) (HoldsIdx levels T)), i2, ?_⟩
  unfold linkSizes systemOf exchangeSizes
  simp only [i1, Option.bind_eq_bind, Option.bind_some, table_init i2, hex]
  rfl

/-- the sizes that a system writes -/
theorem linkWritten_outgroup {refs : List RefDim} {levels : List (List ℕ)} {n o : ℕ} (ho : o < n)
    {T : ℕ → List (K × List ℕ × (ℕ → K))} (dsgs : List (Dsg K)) (comms : List (Option (List ℕ))) :
    linkWritten (systemOf refs n o T) ⟨dsgs, sizeTable n levels.length (countOf refs levels)
        (HoldsAfter refs levels n T), comms⟩ =
      some (sizeRow levels.length (countOf refs levels) (SystemHoldsIdx levels n T)) := by
  unfold linkWritten
  have ho' : (systemOf refs n o T).o = o := rfl
  simp only [ho', getElem?_sizeTable ho, Option.bind_eq_bind, Option.bind_some]
  rw [maxReduce_table ho]
  congr 1
  refine sizeRow_congr fun i hi hN => ?_
  constructor
  · rintro ((h1 | ⟨-, a, ha, b, hb, -, h1, -⟩) | ⟨g, hg, -, h1 | ⟨-, a, ha, b, hb, -, h1, -⟩⟩)
    · exact ⟨o, ho, h1⟩
    · exact ⟨a, ha, h1⟩
    · exact ⟨g, hg, h1⟩
    · exact ⟨a, ha, h1⟩
  · rintro ⟨g, hg, h1⟩
    by_cases hgo : g = o
    · subst hgo
      exact Or.inl (Or.inl h1)
    · exact Or.inr ⟨g, hg, hgo, Or.inl h1⟩

/-- the start of a combination is that of C85 -/
theorem linkStartFiles_wideStart [Zero K] {levels : List (List ℕ)} (sys : WideSystem K)
    (dsgs : List (Dsg K)) (sizes : List (List ℕ)) (comms : List (Option (List ℕ))) (written : List ℕ)
    (hw : linkWritten sys ⟨dsgs, sizes, comms⟩ = some written) (others : List (List ℕ))
    {st : WideState K} (h : wideStart levels sys ⟨dsgs, sizes, written⟩ others = some st) :
    linkStartFiles .outgroupSparseGridReduce levels sys ⟨dsgs, sizes, comms⟩ others =
      some ⟨st.groups, st.comm, some st.extra⟩ := by
  unfold wideStart at h
  unfold linkStartFiles
  rw [hw]
  simp only [Option.bind_eq_bind, Option.bind_some] at h ⊢
  generalize reduceExtraSubspaceSizes (maxReduceInOutputGroup sys.o sizes written) others = r at h ⊢
  cases r with
  | error => exact absurd h (by simp)
  | stuck => exact absurd h (by simp)
  | ok r =>
  simp only at h ⊢
  rw [Option.bind_eq_some_iff] at h
  obtain ⟨own, h2, h⟩ := h
  rw [h2]
  rw [Option.bind_eq_some_iff] at h
  obtain ⟨e1, h3, h⟩ := h
  have h3' : exchangeSizes .outgroupSparseGridReduce levels.length
      (sizes.set sys.o (List.zipWith max own r.1)) = some e1 := h3
  simp only [Option.bind_some]
  rw [h3']
  rw [Option.bind_eq_some_iff] at h
  obtain ⟨e2, h4, h⟩ := h
  have h4' : exchangeSizes .outgroupSparseGridReduce levels.length e1.1 = some e2 := h4
  simp only [Option.bind_some]
  rw [h4']
  rw [Option.bind_eq_some_iff] at h
  obtain ⟨e, h5, h⟩ := h
  simp only [Option.bind_some]
  rw [h5]
  simp only [Option.bind_some]
  have h' := Option.some.inj h
  rw [← h']
  rfl

/-- **C87** (partial: all groups of a system with several groups share subspaces with other groups on this
process, at least one subspace with points is held by two systems, and there are less than `INT_MAX` values on a
process). Two or three systems that combine through files with outgroup sparse grid reduce: the values of all
component grids of all systems become the combination of all component grids of all systems, in whatever order
the files are read. -/
theorem C87_files_partial [Ring K] (refs : List RefDim) (levels : List (List ℕ)) (k : ℕ)
    (hk : k = 2 ∨ k = 3) (n o : ℕ → ℕ) (T : ℕ → ℕ → List (K × List ℕ × (ℕ → K)))
    (h : ValidSystems refs levels k n T) (ho : ∀ s < k, o s < n s)
    (hn : ∀ s < k, n s ≤ 256)
    (hshare : ∀ s < k, n s = 1 ∨ ∀ g < n s, Shares refs (n s) (T s) g)
    (hconj : ∃ l, 0 < subspaceCount refs l ∧ ∃ a < k, ∃ b < k, a ≠ b ∧
      SystemHolds (n a) (T a) l ∧ SystemHolds (n b) (T b) l)
    (order : ℕ → List ℕ)
    (horder : ∀ s < k, (order s).Perm ((List.range k).filter fun t => t ≠ s))
    (maxChunk : ℕ) (hmax : maxChunk ≤ 2 ^ 31)
    (hsmall : ∀ l ∈ levels, subspaceCount refs l < 2 ^ 30)
    (htotal : (levels.map (subspaceCount refs)).sum < 2 ^ 31 - 1) :
    ∃ R : ℕ → ℕ → Group K,
      linkFiles .outgroupSparseGridReduce maxChunk levels k (fun s => systemOf refs (n s) (o s) (T s))
        order = some ((List.range k).map R) ∧ AllCombined refs k n T R := by
  have h0 := h
  replace h := h.each
  set m := levels.length with hm
  set N := countOf refs levels with hN
  let W : ℕ → ℕ → Prop := fun s i => SystemHoldsIdx levels (n s) (T s) i
  let E : ℕ → Prop := fun i => ∃ a < k, ∃ b < k, a ≠ b ∧ W a i ∧ W b i
  let Z : ℕ → ℕ → List ℕ := fun s g => sizesWide refs levels (n s) (o s) (T s) E g
  let C : ℕ → List ℕ := fun s => sharedWide refs levels (n s) (o s) (T s) E
  have h32 : (levels.map (subspaceCount refs)).sum < 2 ^ 32 := lt_trans htotal (by norm_num)
  have hNi : ∀ i (hi : i < m), N i = subspaceCount refs levels[i] := by
    intro i hi
    rw [hN]
    unfold countOf
    rw [getD_lt hi]
  have hN30 : ∀ i < m, N i < 2 ^ 30 := by
    intro i hi
    rw [hNi i hi]
    exact hsmall _ (List.getElem_mem _)
  have hordmem : ∀ s < k, ∀ t, t ∈ order s ↔ t < k ∧ t ≠ s := by
    intro s hs t
    rw [(horder s hs).mem_iff, List.mem_filter, List.mem_range, decide_eq_true_eq]
  have hordne : ∀ s < k, order s ≠ [] := by
    intro s hs hc
    by_cases h0 : s = 0
    · have := (hordmem s hs 1).2 ⟨by omega, by omega⟩
      rw [hc] at this
      simp at this
    · have := (hordmem s hs 0).2 ⟨by omega, by omega⟩
      rw [hc] at this
      simp at this
  obtain ⟨ic, hic, hNc, hEc⟩ : ∃ i < m, 0 < N i ∧ E i := by
    obtain ⟨l, hc, a, ha, b, hb, hab, ⟨ga, hga, hha⟩, ⟨gb, hgb, hhb⟩⟩ := hconj
    obtain ⟨t, ht, hl⟩ := hha
    obtain ⟨i, hi, rfl⟩ := List.mem_iff_getElem.1
      (h0.mem_of_shared ha hb hab ⟨ga, hga, t, ht, hl⟩ ⟨gb, hgb, hhb⟩)
    refine ⟨i, hi, by rw [hNi i hi]; exact hc, a, ha, b, hb, hab, ⟨ga, hga, ?_⟩, ⟨gb, hgb, ?_⟩⟩
    · unfold HoldsIdx
      rw [getD_lt hi]
      exact ⟨t, ht, hl⟩
    · unfold HoldsIdx
      rw [getD_lt hi]
      exact hhb
  -- sizes
  have hsizes : ∀ s, ∃ (dsgs : List (Dsg K)) (comms : List (Option (List ℕ))), s < k →
      Initialised refs levels (n s) (T s) dsgs ∧
      linkSizes .outgroupSparseGridReduce levels (systemOf refs (n s) (o s) (T s)) = some ⟨dsgs,
        sizeTable (n s) m N (HoldsAfter refs levels (n s) (T s)), comms⟩ := by
    intro s
    by_cases hs : s < k
    · obtain ⟨d, c, d1, d2⟩ := linkSizes_outgroup (o s) (hn s hs) (h s hs) (hshare s hs)
      exact ⟨d, c, fun _ => ⟨d1, d2⟩⟩
    · exact ⟨[], [], fun hc => absurd hc hs⟩
  choose dsgs comms hdsgs using hsizes
  let ws : ℕ → LinkSizes K := fun s => ⟨dsgs s,
    sizeTable (n s) m N (HoldsAfter refs levels (n s) (T s)), comms s⟩
  have hget : ∀ {α : Type} (f : ℕ → α) (s : ℕ), s < k → ((List.range k).map f)[s]? = some (f s) := by
    intro α f s hs
    rw [List.getElem?_map, List.getElem?_range hs]
    rfl
  have hwritten : ∀ s < k, linkWritten (systemOf refs (n s) (o s) (T s)) (ws s) =
      some (sizeRow m N (W s)) := fun s hs => linkWritten_outgroup (ho s hs) _ _
  -- start
  have hstart : ∀ s, ∃ st : WideState K, s < k →
      linkStartFiles .outgroupSparseGridReduce levels (systemOf refs (n s) (o s) (T s)) (ws s)
        ((order s).map fun t => sizeRow m N (W t)) = some ⟨st.groups, st.comm, some st.extra⟩ ∧
      (∀ g < n s, (GroupOk levels (Z s g) (st.groups g) ∧ (st.groups g).dsg.data.len = 0 ∧
        (st.groups g).dsg.kahan.len = 0 ∧
        ((st.groups g).dsg.sel = [] ∨ (st.groups g).dsg.sel = List.range levels.length)) ∧
        (st.groups g).tasks = tasksOf refs (T s g)) ∧
      ((C s ≠ [] ∧ ∀ g < n s, st.comm g = some (C s)) ∨ (C s = [] ∧ ∀ g < n s, st.comm g = none)) ∧
      Extra (sizeRow m N E) (Z s (o s)) st.extra := by
    intro s
    by_cases hs : s < k
    · obtain ⟨c, hc⟩ := reduceExtra_row m N hN30 k hk W s hs (order s) (horder s hs)
      obtain ⟨st, q1, q2, q3, q4, q5, q6⟩ := wideStart_eq (ho s hs) (hn s hs) (h s hs) (hshare s hs)
        (hdsgs s hs).1 E _ c hc ⟨ic, hic, hEc, hNc⟩ h32
      refine ⟨st, fun _ => ⟨linkStartFiles_wideStart _ _ _ _ _ (hwritten s hs) _ q1,
        fun g hg => ⟨⟨(q2 g hg).1, q5 g hg⟩, (q2 g hg).2⟩, ?_, q4⟩⟩
      rcases hshare s hs with h1 | h1
      · right
        have hnone := q6 (by omega)
        rcases q3 with q3 | q3
        · have := q3 (o s) (ho s hs)
          rw [hnone (o s) (ho s hs)] at this
          exact absurd this (by simp)
        · exact q3
      · left
        have hne : C s ≠ [] := by
          obtain ⟨i, hi, hsb, -⟩ := shares_table (h s hs) h1 (HoldsWide refs levels (n s) (o s) (T s) E)
            (fun g _ i _ hh => Or.inl (Or.inl hh)) (o s) (ho s hs)
          exact List.ne_nil_of_mem (mem_sharedList.2 ⟨hi, hsb⟩)
        rcases q3 with q3 | q3
        · exact ⟨hne, q3⟩
        · exact absurd q3.1 hne
    · exact ⟨⟨fun _ => ⟨Dsg.empty levels, []⟩, fun _ => none, Dsg.empty levels⟩,
        fun hc => absurd hc hs⟩
  choose st hst using hstart
  let ls : ℕ → LinkState K := fun s => ⟨(st s).groups, (st s).comm, some (st s).extra⟩
  -- sizes of subspaces
  have hlenZ : ∀ s g, (Z s g).length = levels.length := fun s g => length_sizeRow _ _ _
  have hCsort : ∀ s, (C s).Pairwise (· < ·) := fun s => sharedList_sorted _ _ _ _
  have hCl : ∀ s, ∀ i ∈ C s, i < levels.length := fun s i hi => (mem_sharedList.1 hi).1
  have hCpos : ∀ s, ∀ i ∈ C s, 0 < N i := fun s i hi => (mem_sharedList.1 hi).2.1
  have hC31 : ∀ s, ∀ i ∈ C s, N i < 2 ^ 31 := by
    intro s i hi
    have := hN30 i (hCl s i hi)
    omega
  have hszC : ∀ s g, ∀ i ∈ C s, (Z s g).getD i 0 = N i := by
    intro s g i hi
    obtain ⟨a, b⟩ := mem_sharedList.1 hi
    exact getD_sizeRow_pos a (Or.inr b)
  have hZsum : ∀ s g, (Z s g).sum < 2 ^ 31 - 1 := fun s g => lt_of_le_of_lt (sum_sizeRow_le _) htotal
  -- a subspace that a group has and that is not shared
  have halone : ∀ s < k, ∀ g < n s, ∀ i < m, 0 < N i → i ∉ C s →
      HoldsWide refs levels (n s) (o s) (T s) E g i → ∀ j,
      localSum levels (tasksOf refs (T s g)) i j = systemSum refs levels (n s) (T s) i j := by
    intro s hs g hg i hi hp hno hold j
    refine (sum_range_single hg (fun q => localSum levels (tasksOf refs (T s q)) i j) ?_).symm
    intro q hq hne
    refine localSum_zero ((h s hs).comp q hq) hi (fun hh => hno ?_) j
    refine mem_sharedList.2 ⟨hi, hp, g, hg, q, hq, fun e => hne e.symm, hold, Or.inl (Or.inl ?_)⟩
    unfold HoldsIdx
    rwa [getD_lt hi]
  -- collection
  have hcollect : ∀ s, ∃ (S : ℕ → Group K) (x : Dsg K), s < k →
      linkCollect .outgroupSparseGridReduce (some (o s)) maxChunk (n s) (ls s) = some S ∧
      (∀ g < n s, Ready levels (Z s g) (S g) ∧ (S g).tasks = tasksOf refs (T s g)) ∧
      (∀ i < m, ∀ j < N i, i ∈ C s ∨ HoldsWide refs levels (n s) (o s) (T s) E (o s) i →
        (S (o s)).dsg.at i j = systemSum refs levels (n s) (T s) i j) ∧
      (∀ g < n s, g ≠ o s → ∀ i < m, ∀ j < N i, i ∉ C s → HoldsIdx levels (T s) g i →
        (S g).dsg.at i j = systemSum refs levels (n s) (T s) i j) ∧
      linkOutgoing (S (o s)).dsg (ls s).extra = some x ∧
      Outgoing (sizeRow m N E) (fun i j => systemSum refs levels (n s) (T s) i j) x := by
    intro s
    by_cases hs : s < k
    · obtain ⟨-, q2, q3, q4⟩ := hst s hs
      obtain ⟨S, a1, a2, a3, a4⟩ := linkCollect_outgroup (h s hs).sorted (n s) (o s) (ho s hs) (Z s)
        (hlenZ s) maxChunk hmax (fun g _ => lt_trans (hZsum s g) (by norm_num)) (C s) (hCsort s) (hCl s) N
        (hC31 s) (fun g _ => hszC s g) (ls s) (q3.imp_left And.right) (fun g hg => (q2 g hg).1)
      have hv1 : ∀ i < m, ∀ j < N i, i ∈ C s ∨ HoldsWide refs levels (n s) (o s) (T s) E (o s) i →
          (S (o s)).dsg.at i j = systemSum refs levels (n s) (T s) i j := by
        intro i hi j hj hc
        by_cases hiC : i ∈ C s
        · rw [a3 i hiC j hj]
          unfold systemSum
          congr 1
          exact List.map_congr_left fun q hq => by rw [← (q2 q (List.mem_range.1 hq)).2]
        · have hold := hc.resolve_left hiC
          rw [a4 (o s) (ho s hs) i hi (fun _ => hiC) j (by
            rw [show (Z s (o s)).getD i 0 = N i from getD_sizeRow_pos hi (Or.inl hold)]; exact hj)]
          change localSum levels ((st s).groups (o s)).tasks i j = _
          rw [(q2 (o s) (ho s hs)).2]
          exact halone s hs (o s) (ho s hs) i hi (by omega) hiC hold j
      have hw := (a2 (o s) (ho s hs)).1.whole (hlenZ s (o s))
      obtain ⟨x, x1, x2, x3⟩ := linkOutgoing_extra hw q4 (by rw [hlenZ, length_sizeRow])
      refine ⟨S, x, fun _ => ⟨a1, fun g hg => ⟨(a2 g hg).1, (a2 g hg).2.trans (q2 g hg).2⟩, hv1, ?_, x1,
        x2, ?_⟩⟩
      · intro g hg hgo i hi j hj hiC hold
        have hold' : HoldsWide refs levels (n s) (o s) (T s) E g i := Or.inl (Or.inl hold)
        rw [a4 g hg i hi (fun e => absurd e hgo) j (by
          rw [show (Z s g).getD i 0 = N i from getD_sizeRow_pos hi (Or.inl hold')]; exact hj)]
        change localSum levels ((st s).groups g).tasks i j = _
        rw [(q2 g hg).2]
        exact halone s hs g hg i hi (by omega) hiC hold' j
      · intro i j hj
        obtain ⟨hi, hEi, -⟩ := sizeRow_pos (show 0 < (sizeRow m N E).getD i 0 by omega)
        rw [x3 i j hj]
        exact hv1 i hi j (by rwa [getD_sizeRow_pos hi hEi] at hj) (Or.inr (Or.inr ⟨rfl, hEi⟩))
    · exact ⟨fun _ => ⟨Dsg.empty levels, []⟩, Dsg.empty levels, fun hc => absurd hc hs⟩
  choose S x hcol using hcollect
  have hxw : ∀ s < k, Whole (sizeRow m N E) (x s) := fun s hs => (hcol s hs).2.2.2.2.2.1
  -- reading and distribution
  have hdist : ∀ s, ∃ (w w' : ℕ → K) (R : ℕ → Group K), s < k →
      ((order s).map fun t => (x t).data).foldlM readAndReduce (x s, (S s (o s)).dsg) =
        some ((x s).withVal w', (S s (o s)).dsg.withVal w) ∧
      linkDistribute .outgroupSparseGridReduce (n s) (o s) (st s).comm (Function.update (S s) (o s)
        { S s (o s) with dsg := (S s (o s)).dsg.withVal w }) = some R ∧
      ∀ g < n s, List.Forall₂ (fun t (t' : K × Dfg K) => t'.1 = t.1 ∧
        t'.2.dims = (gridOf refs t.2.1 t.2.2).dims ∧ t'.2.data.len = numLocal refs t.2.1 ∧
        ∀ p < numLocal refs t.2.1,
          t'.2.data.val p = valueOfSystems refs k n T (spatialOf refs t.2.1 p))
        (T s g) (R g).tasks := by
    intro s
    by_cases hs : s < k
    · obtain ⟨-, q2, q3, q4⟩ := hst s hs
      obtain ⟨c1, c2, c3, c3', c4, c5⟩ := hcol s hs
      have hdw := (c2 (o s) (ho s hs)).1.whole (hlenZ s (o s))
      obtain ⟨w, w', w1, w2⟩ := readAndReduce_eq (by rw [hlenZ, length_sizeRow]) q4.fit
        ((order s).map fun t => (x t).data) hdw (hxw s hs) (by
          rw [hdw.dataLen]
          have := pos_lt_total (sizes := Z s (o s)) (i := ic) (j := 0) (by
            rw [show (Z s (o s)).getD ic 0 = N ic from
              getD_sizeRow_pos hic (Or.inl (Or.inr ⟨rfl, hEc⟩))]
            exact hNc)
          omega) (by
          intro f hf
          obtain ⟨t, ht, rfl⟩ := List.mem_map.1 hf
          rw [(hxw s hs).dataLen, (hxw t ((hordmem s hs t).1 ht).1).dataLen]) (by
          rw [Ne, List.map_eq_nil_iff]
          exact hordne s hs)
      -- the output group has the sums over all systems
      have w3 : ∀ i < m, ∀ j < N i, i ∈ C s ∨ HoldsWide refs levels (n s) (o s) (T s) E (o s) i →
          W s i → ((S s (o s)).dsg.withVal w).at i j =
            ((List.range k).map fun t => systemSum refs levels (n t) (T t) i j).sum := by
        intro i hi j hj hc hWi
        have hZi : (Z s (o s)).getD i 0 = N i := by
          rcases hc with hc | hc
          · exact hszC s (o s) i hc
          · exact getD_sizeRow_pos hi (Or.inl hc)
        rw [w2 i j (by rw [hZi]; exact hj)]
        split
        · rename_i h0
          have hnE : ¬ E i := by
            intro hEi
            rw [getD_sizeRow_pos hi hEi] at h0
            omega
          rw [c3 i hi j hj hc]
          refine (sum_range_single hs (fun t => systemSum refs levels (n t) (T t) i j) ?_).symm
          intro t ht hne
          refine systemSum_zero (h t ht) hi (fun hWt => hnE ?_) j
          exact ⟨t, ht, s, hs, hne, hWt, hWi⟩
        · rename_i h0
          have hEi : E i := by
            by_contra hc
            exact h0 (getD_sizeRow_neg hc)
          have hj' : j < (sizeRow m N E).getD i 0 := by rw [getD_sizeRow_pos hi hEi]; exact hj
          rw [c5.2 i j hj', List.map_map]
          have hother : (order s).map ((fun f : Buf K => f.val (selOffset (sizeRow m N E)
              (List.range (sizeRow m N E).length) i + j)) ∘ fun t => (x t).data) =
              (order s).map fun t => systemSum refs levels (n t) (T t) i j := by
            apply List.map_congr_left
            intro t ht
            have htk := ((hordmem s hs t).1 ht).1
            have e := (hcol t htk).2.2.2.2.2.2 i j hj'
            rw [(hxw t htk).at_eq] at e
            exact e
          rw [hother]
          have hperm : (s :: order s).Perm (List.range k) := by
            rw [List.perm_ext_iff_of_nodup (List.nodup_cons.2
              ⟨fun hh => ((hordmem s hs s).1 hh).2 rfl,
                (horder s hs).nodup_iff.2 (List.nodup_range.filter _)⟩) List.nodup_range]
            intro t'
            rw [List.mem_cons, hordmem s hs, List.mem_range]
            by_cases h : t' = s
            · subst h; simp [hs]
            · simp [h]
          rw [← (hperm.map fun t => systemSum refs levels (n t) (T t) i j).sum_eq, List.map_cons,
            List.sum_cons]
      set S1 := Function.update (S s) (o s)
        { S s (o s) with dsg := (S s (o s)).dsg.withVal w } with hS1
      have ho1 : S1 (o s) = { S s (o s) with dsg := (S s (o s)).dsg.withVal w } := by
        rw [hS1, Function.update_self]
      have hne1 : ∀ g, g ≠ o s → S1 g = S s g := fun g hg => by rw [hS1, Function.update_of_ne hg]
      have hr1 : ∀ g < n s, Ready levels (Z s g) (S1 g) := by
        intro g hg
        by_cases hgo : g = o s
        · subst hgo
          rw [ho1]
          exact (c2 _ hg).1.withVal w
        · rw [hne1 g hgo]
          exact (c2 g hg).1
      have ht1 : ∀ g < n s, (S1 g).tasks = tasksOf refs (T s g) := by
        intro g hg
        by_cases hgo : g = o s
        · subst hgo
          rw [ho1]
          exact (c2 _ hg).2
        · rw [hne1 g hgo]
          exact (c2 g hg).2
      obtain ⟨R, r1, r2⟩ := linkDistribute_outgroup (n s) (o s) (ho s hs) (Z s) (hlenZ s)
        (fun g _ => hZsum s g) (C s) (hCsort s) (hCl s) N (fun g _ => hszC s g) (hCpos s) (st s).comm q3
        S1 hr1
      refine ⟨w, w', R, fun _ => ⟨w1, r1, fun g hg => ?_⟩⟩
      have hx := r2 g hg
      rw [ht1 g hg] at hx
      refine systems_place h0 hs hg _ _ _ hx ?_ ?_
      · intro i hi hh
        exact getD_sizeRow_pos hi (Or.inl (Or.inl (Or.inl hh)))
      · intro i hi hh j hj
        have hWi : W s i := ⟨g, hg, hh⟩
        have hj' : j < N i := hj
        split
        · rename_i hiC
          rw [ho1]
          exact w3 i hi j hj' (Or.inl hiC) hWi
        · rename_i hiC
          by_cases hgo : g = o s
          · rw [hgo, ho1]
            exact w3 i hi j hj' (Or.inr (Or.inl (Or.inl (hgo ▸ hh)))) hWi
          · have hnE : ¬ E i := fun hEi => hiC (mem_sharedList.2 ⟨hi, by omega, g, hg, o s, ho s hs, hgo,
              Or.inl (Or.inl hh), Or.inr ⟨rfl, hEi⟩⟩)
            rw [hne1 g hgo, c3' g hg hgo i hi j hj' hiC hh]
            refine (sum_range_single hs (fun t => systemSum refs levels (n t) (T t) i j) ?_).symm
            intro t ht hne
            refine systemSum_zero (h t ht) hi (fun hWt => hnE ?_) j
            exact ⟨t, ht, s, hs, hne, hWt, hWi⟩
    · exact ⟨fun _ => 0, fun _ => 0, fun _ => ⟨Dsg.empty levels, []⟩, fun hc => absurd hc hs⟩
  choose w w' R hR using hdist
  refine ⟨R, ?_, fun s hs => (hR s hs).2.2⟩
  have m1 : (List.range k).mapM (fun s => linkSizes .outgroupSparseGridReduce levels
      (systemOf refs (n s) (o s) (T s))) = some ((List.range k).map ws) :=
    mapM_some_map _ _ _ fun s hs => (hdsgs s (List.mem_range.1 hs)).2
  have m1' : ((List.range k).mapM fun s => do
      let y ← ((List.range k).map ws)[s]?
      linkWritten (systemOf refs (n s) (o s) (T s)) y) =
      some ((List.range k).map fun s => sizeRow m N (W s)) := by
    refine mapM_some_map _ _ _ fun s hs => ?_
    have hs' := List.mem_range.1 hs
    rw [hget ws s hs']
    exact hwritten s hs'
  have m2 : ((List.range k).mapM fun s => do
      let y ← ((List.range k).map ws)[s]?
      let others ← (order s).mapM fun t => ((List.range k).map fun s => sizeRow m N (W s))[t]?
      linkStartFiles .outgroupSparseGridReduce levels (systemOf refs (n s) (o s) (T s)) y others) =
      some ((List.range k).map ls) := by
    refine mapM_some_map _ _ _ fun s hs => ?_
    have hs' := List.mem_range.1 hs
    rw [hget ws s hs', mapM_some_map _ _ (fun t => sizeRow m N (W t)) fun t ht =>
      hget (fun s => sizeRow m N (W s)) t ((hordmem s hs' t).1 ht).1]
    exact (hst s hs').1
  have m3 : ((List.range k).mapM fun s => do
      let y ← ((List.range k).map ls)[s]?
      linkCollect .outgroupSparseGridReduce (some (systemOf refs (n s) (o s) (T s)).o) maxChunk
        (systemOf refs (n s) (o s) (T s)).n y) = some ((List.range k).map S) := by
    refine mapM_some_map _ _ _ fun s hs => ?_
    have hs' := List.mem_range.1 hs
    rw [hget ls s hs']
    exact (hcol s hs').1
  have m4 : ((List.range k).mapM fun s => do
      let y ← ((List.range k).map ls)[s]?
      let z ← ((List.range k).map S)[s]?
      linkOutgoing (z (systemOf refs (n s) (o s) (T s)).o).dsg y.extra) =
      some ((List.range k).map x) := by
    refine mapM_some_map _ _ _ fun s hs => ?_
    have hs' := List.mem_range.1 hs
    rw [hget ls s hs', hget S s hs']
    exact (hcol s hs').2.2.2.2.1
  have m5 : ((List.range k).mapM fun s => do
      let y ← ((List.range k).map ls)[s]?
      let z ← ((List.range k).map S)[s]?
      let e ← ((List.range k).map x)[s]?
      let files ← (order s).mapM fun t => ((List.range k).map x)[t]?.map fun d => d.data
      let r ← files.foldlM readAndReduce (e, (z (systemOf refs (n s) (o s) (T s)).o).dsg)
      linkDistribute .outgroupSparseGridReduce (systemOf refs (n s) (o s) (T s)).n
        (systemOf refs (n s) (o s) (T s)).o y.comm
        (Function.update z (systemOf refs (n s) (o s) (T s)).o
          { z (systemOf refs (n s) (o s) (T s)).o with dsg := r.2 })) =
      some ((List.range k).map R) := by
    refine mapM_some_map _ _ _ fun s hs => ?_
    have hs' := List.mem_range.1 hs
    have hfiles : ((order s).mapM fun t => ((List.range k).map x)[t]?.map fun d => d.data) =
        some ((order s).map fun t => (x t).data) := by
      refine mapM_some_map _ _ _ fun t ht => ?_
      rw [hget x t ((hordmem s hs' t).1 ht).1]
      rfl
    rw [hget ls s hs', hget S s hs', hget x s hs', hfiles]
    have ho' : (systemOf refs (n s) (o s) (T s)).o = o s := rfl
    simp only [Option.bind_eq_bind, Option.bind_some, ho']
    rw [(hR s hs').1]
    exact (hR s hs').2.1
  unfold linkFiles
  rw [m1]
  simp only [Option.bind_eq_bind, Option.bind_some] at m1' m2 m3 m4 m5 ⊢
  rw [m1']
  simp only [Option.bind_some]
  rw [m2]
  simp only [Option.bind_some]
  rw [m3]
  simp only [Option.bind_some]
  rw [m4]
  simp only [Option.bind_some]
  exact m5

/-- The hypotheses of `C87_files_partial` hold for two systems, with two groups and one group. -/
example : ValidSystems exampleRefs [[1, 1], [1, 2], [2, 1]] 2 linkGroups linkSystem ∧
    (∀ s < 2, 0 < linkGroups s ∧ linkGroups s ≤ 256) ∧
    (∀ s < 2, linkGroups s = 1 ∨ ∀ g < linkGroups s, Shares exampleRefs (linkGroups s) (linkSystem s) g) ∧
    (∃ l, 0 < subspaceCount exampleRefs l ∧ SystemHolds (linkGroups 0) (linkSystem 0) l ∧
      SystemHolds (linkGroups 1) (linkSystem 1) l) ∧
    (∀ s < 2, [1 - s].Perm ((List.range 2).filter fun t => t ≠ s)) ∧
    (∀ l ∈ [[1, 1], [1, 2], [2, 1]], subspaceCount exampleRefs l < 2 ^ 30) ∧
    ([[1, 1], [1, 2], [2, 1]].map (subspaceCount exampleRefs)).sum < 2 ^ 31 - 1 :=
  ⟨linkSystem_valid, by decide, linkSystem_shares.1, linkSystem_shares.2, by decide +kernel,
    by decide +kernel, by decide +kernel⟩

end Verif

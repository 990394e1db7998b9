import Verif.Lemmas.SystemCombine
import Verif.Props.WideCombine

/-!
# Property C86: the combination of several systems, sparse grid reduce

Two systems, each with its own groups and component grids, combine over the third-level manager, or two or
three through files, with the variant that reduces whole sparse grids. As in C85, the result is stated without
reference to subspaces, messages, files or sparse grids: every value of every component grid of every system
becomes the sum over all component grids of all groups of all systems, weighted with the coefficients, of the
values at the same place. The variant with a communicator for shared subspaces violates this over the
third-level manager.
-/

namespace Verif

variable {K : Type}

/-- Every value of the component grids of all systems has become the combination of all systems. -/
def AllCombined [Ring K] (refs : List RefDim) (k : ℕ) (n : ℕ → ℕ)
    (T : ℕ → ℕ → List (K × List ℕ × (ℕ → K))) (R : ℕ → ℕ → Group K) : Prop :=
  ∀ s < k, ∀ g < n s, List.Forall₂ (fun t (t' : K × Dfg K) => t'.1 = t.1 ∧
    t'.2.dims = (gridOf refs t.2.1 t.2.2).dims ∧ t'.2.data.len = numLocal refs t.2.1 ∧
    ∀ p < numLocal refs t.2.1,
      t'.2.data.val p = valueOfSystems refs k n T (spatialOf refs t.2.1 p))
    (T s g) (R s g).tasks

/-- sum over the groups of a system -/
def systemSum [Ring K] (refs : List RefDim) (levels : List (List ℕ)) (n : ℕ)
    (T : ℕ → List (K × List ℕ × (ℕ → K))) (i j : ℕ) : K :=
  ((List.range n).map fun q => localSum levels (tasksOf refs (T q)) i j).sum

/-- the system holds subspace `i` -/
def SystemHoldsIdx (levels : List (List ℕ)) (n : ℕ) (T : ℕ → List (K × List ℕ × (ℕ → K)))
    (i : ℕ) : Prop := ∃ g < n, HoldsIdx levels T g i

theorem systemSum_zero [Ring K] {refs : List RefDim} {levels : List (List ℕ)} {n : ℕ}
    {T : ℕ → List (K × List ℕ × (ℕ → K))} (h : ValidSystem refs levels n T) {i : ℕ}
    (hi : i < levels.length) (hno : ¬ SystemHoldsIdx levels n T i) (j : ℕ) :
    systemSum refs levels n T i j = 0 := by
  apply List.sum_eq_zero
  intro y hy
  obtain ⟨q, hq, rfl⟩ := List.mem_map.1 hy
  have hq' := List.mem_range.1 hq
  refine localSum_zero (h.comp q hq') hi (fun hh => hno ⟨q, hq', ?_⟩) j
  unfold HoldsIdx
  rwa [getD_lt hi]

/-- values when the extracted ones are the sums over all systems -/
theorem systems_place [Ring K] {refs : List RefDim} {levels : List (List ℕ)} {k : ℕ} {n : ℕ → ℕ}
    {T : ℕ → ℕ → List (K × List ℕ × (ℕ → K))} (h : ValidSystems refs levels k n T)
    {s : ℕ} (hs : s < k) {g : ℕ} (hg : g < n s) (sizes : List ℕ) (F : ℕ → ℕ → K)
    (ts : List (K × Dfg K))
    (hx : ExtractedAll levels sizes (List.range levels.length) F (tasksOf refs (T s g)) ts)
    (hsz : ∀ i < levels.length, HoldsIdx levels (T s) g i → sizes.getD i 0 = countOf refs levels i)
    (hF : ∀ i < levels.length, HoldsIdx levels (T s) g i → ∀ j < countOf refs levels i,
      F i j = ((List.range k).map fun s' => systemSum refs levels (n s') (T s') i j).sum) :
    List.Forall₂ (fun t (t' : K × Dfg K) => t'.1 = t.1 ∧
      t'.2.dims = (gridOf refs t.2.1 t.2.2).dims ∧ t'.2.data.len = numLocal refs t.2.1 ∧
      ∀ p < numLocal refs t.2.1,
        t'.2.data.val p = valueOfSystems refs k n T (spatialOf refs t.2.1 p)) (T s g) ts := by
  have h0 := h
  replace h := h.each
  refine extracted_place (h s hs) hg _ _ _ hx ?_ _ ?_ fun t ht => h0.value_of_alone hs hg ht
  · intro i hi hh
    rw [hsz i hi (by unfold HoldsIdx; rwa [getD_lt hi])]
    unfold countOf
    rw [getD_lt hi]
  · intro t ht i hi hl j p hj hpj
    have hL := (h s hs).comp g hg t ht
    rw [hF i hi]
    · unfold valueOfSystems
      congr 1
      apply List.map_congr_left
      intro s' hs'
      unfold valueAtPlace systemSum
      congr 1
      apply List.map_congr_left
      intro q hq
      exact localSum_place (h s hs).ref ((h s' (List.mem_range.1 hs')).comp q (List.mem_range.1 hq))
        hL hi hl hj hpj
    · unfold HoldsIdx
      rw [getD_lt hi]
      exact ⟨t, ht, hl⟩
    · unfold countOf
      rw [getD_lt hi, ← length_points (h s hs).ref hL hl]
      exact hj

/-! ### Sizes -/

theorem exchangeAll_table (n m : ℕ) (N : ℕ → ℕ) (H : ℕ → ℕ → Prop) :
    exchangeSizes .sparseGridReduce m (sizeTable n m N H) =
      some (sizeTable n m N (fun _ i => ∃ g < n, H g i), (List.range n).map fun _ => none) := by
  unfold exchangeSizes
  simp only
  congr 2
  · conv_lhs => rw [sizeTable, List.map_map]
    unfold sizeTable
    apply List.map_congr_left
    intro g hg
    simp only [Function.comp]
    have hget : ∀ i < m, (outgroupSizes (sizeTable n m N H) (List.range m) (sizeRow m N (H g))).getD i 0 =
        ((sizeTable n m N H).map fun s => s.getD i 0).foldl max 0 := by
      intro i hi
      unfold outgroupSizes
      rw [List.getD_eq_getElem _ _ (by simp [length_sizeRow, hi]), List.getElem_map,
        List.getElem_range, if_pos (List.mem_range.2 hi)]
    refine eq_sizeRow ?_ ?_ ?_
    · unfold outgroupSizes
      simp [length_sizeRow]
    · intro i hi hP
      exact (hget i hi).trans ((foldl_max_table hi).1 hP)
    · intro i hi hP
      exact (hget i hi).trans ((foldl_max_table hi).2 hP)
  · apply List.ext_getElem
    · simp [length_sizeTable]
    · intro i h1 h2
      simp

theorem linkSizes_eq [Ring K] {refs : List RefDim} {levels : List (List ℕ)} {n : ℕ} (o : ℕ)
    {T : ℕ → List (K × List ℕ × (ℕ → K))} (h : ValidSystem refs levels n T) :
    ∃ dsgs, Initialised refs levels n T dsgs ∧
      linkSizes .sparseGridReduce levels (systemOf refs n o T) =
        some ⟨dsgs, sizeTable n levels.length (countOf refs levels)
          (fun _ => SystemHoldsIdx levels n T), (List.range n).map fun _ => none⟩ := by
  obtain ⟨dsgs, i1, i2⟩ := initDsgs_eq h .sparseGridReduce
  refine ⟨dsgs, i2, ?_⟩
  unfold linkSizes systemOf
  simp only [i1, Option.bind_eq_bind, Option.bind_some, table_init i2]
  rw [exchangeAll_table]
  rfl

/-- The state before a combination: the sparse grids have the subspaces `Q`, what is exchanged the subspaces
`O`. -/
structure Started [Ring K] (refs : List RefDim) (levels : List (List ℕ)) (n : ℕ)
    (T : ℕ → List (K × List ℕ × (ℕ → K))) (Q O : ℕ → Prop) (st : LinkState K) : Prop where
  ok : ∀ g < n, GroupOk levels (sizeRow levels.length (countOf refs levels) Q) (st.groups g) ∧
    CanZero levels.length (st.groups g).dsg
  tasks : ∀ g < n, (st.groups g).tasks = tasksOf refs (T g)
  extra : (∃ e, st.extra = some e ∧ Extra (sizeRow levels.length (countOf refs levels) O)
      (sizeRow levels.length (countOf refs levels) Q) e) ∨
    (st.extra = none ∧ sizeRow levels.length (countOf refs levels) O =
      sizeRow levels.length (countOf refs levels) Q)

theorem sum_sizeRow_le {refs : List RefDim} {levels : List (List ℕ)} (P : ℕ → Prop) :
    (sizeRow levels.length (countOf refs levels) P).sum ≤ (levels.map (subspaceCount refs)).sum := by
  refine sum_le_total (length_sizeRow _ _ _) fun i hi => ?_
  refine le_trans getD_sizeRow_le (le_of_eq ?_)
  unfold countOf
  rw [getD_lt hi]

theorem groupsWith_ok [Ring K] {refs : List RefDim} {levels : List (List ℕ)} {n o : ℕ}
    {T : ℕ → List (K × List ℕ × (ℕ → K))} (h : ValidSystem refs levels n T) {dsgs : List (Dsg K)}
    (hi : Initialised refs levels n T dsgs) (sizes : List (List ℕ)) (comms : List (Option (List ℕ)))
    (Q : ℕ → Prop) (hQ : ∀ i, SystemHoldsIdx levels n T i → Q i)
    (sizes' : List (List ℕ))
    (hs' : sizes' = sizeTable n levels.length (countOf refs levels) fun _ => Q) :
    ∀ g < n, GroupOk levels (sizeRow levels.length (countOf refs levels) Q)
        ((⟨dsgs, sizes, comms⟩ : LinkSizes K).groupsWith levels (systemOf refs n o T) sizes' g) ∧
      CanZero levels.length
        ((⟨dsgs, sizes, comms⟩ : LinkSizes K).groupsWith levels (systemOf refs n o T) sizes' g).dsg := by
  intro g hg
  have hrow : sizes'.getD g [] = sizeRow levels.length (countOf refs levels) Q := by
    rw [hs', List.getD_eq_getElem?_getD, getElem?_sizeTable hg]
    rfl
  unfold LinkSizes.groupsWith
  rw [hrow]
  refine And.imp_right Or.inl (afterSizes_ok h hi hg _ ?_)
  intro i hil hh
  rw [getD_sizeRow_pos hil]
  · unfold countOf
    rw [getD_lt hil]
  · refine hQ i ⟨g, hg, ?_⟩
    unfold HoldsIdx
    rwa [getD_lt hil]

/-- the sizes after the exchange over the third-level manager -/
theorem linkStart_eq [Ring K] {refs : List RefDim} {levels : List (List ℕ)} {n o : ℕ} (ho : o < n)
    {T : ℕ → List (K × List ℕ × (ℕ → K))} (h : ValidSystem refs levels n T) {dsgs : List (Dsg K)}
    (hi : Initialised refs levels n T dsgs) (comms : List (Option (List ℕ))) (hasExtra : Bool)
    (P : ℕ → Prop) (hne : hasExtra = true → ∃ i < levels.length, 0 < countOf refs levels i ∧
      SystemHoldsIdx levels n T i ∧ P i)
    (htotal : (levels.map (subspaceCount refs)).sum < 2 ^ 32) :
    ∃ st, linkStart hasExtra levels (systemOf refs n o T) ⟨dsgs, sizeTable n levels.length
        (countOf refs levels) (fun _ => SystemHoldsIdx levels n T), comms⟩
        (sizeRow levels.length (countOf refs levels) P) = some st ∧
      Started refs levels n T
        (fun i => SystemHoldsIdx levels n T i ∨ (hasExtra = false ∧ P i))
        (fun i => if hasExtra = true then SystemHoldsIdx levels n T i ∧ P i
          else SystemHoldsIdx levels n T i ∨ P i) st := by
  unfold linkStart linkResize
  have ho' : (systemOf refs n o T).o = o := rfl
  simp only [ho', getElem?_sizeTable ho, Option.bind_eq_bind, Option.bind_some]
  cases hasExtra with
  | true =>
    simp only [if_true]
    rw [zipWith_min_row]
    obtain ⟨i, hil, hp, h1, h2⟩ := hne rfl
    have hQ : sizeRow levels.length (countOf refs levels)
        (fun i => SystemHoldsIdx levels n T i ∨ (true = false ∧ P i)) =
        sizeRow levels.length (countOf refs levels) (SystemHoldsIdx levels n T) :=
      sizeRow_congr fun i _ _ => by simp
    obtain ⟨e, e1, e2⟩ := extraGrid_eq (K := K) levels
      (sizeRow levels.length (countOf refs levels) fun i => SystemHoldsIdx levels n T i ∧ P i)
      (sizeRow levels.length (countOf refs levels) (SystemHoldsIdx levels n T)) (length_sizeRow _ _ _)
      (lt_of_le_of_lt (sum_sizeRow_le _) htotal)
      ⟨i, by rw [getD_sizeRow_pos hil ⟨h1, h2⟩]; exact hp⟩ (by
        intro i hne
        obtain ⟨a, b, -⟩ := sizeRow_pos (Nat.pos_of_ne_zero hne)
        rw [getD_sizeRow_pos (P := SystemHoldsIdx levels n T) a b.1, getD_sizeRow_pos a b])
    rw [e1]
    refine ⟨_, rfl, ?_, fun _ _ => rfl, Or.inl ⟨e, rfl, ?_⟩⟩
    · rw [hQ]
      exact groupsWith_ok h hi _ _ _ (fun i h => h) _ rfl
    · rw [hQ]
      exact e2
  | false =>
    simp only [Bool.false_eq_true, if_false]
    rw [zipWith_max_row]
    refine ⟨_, rfl, ?_, fun _ _ => rfl, Or.inr ⟨rfl, ?_⟩⟩
    · refine groupsWith_ok h hi _ _ _ (fun i h => Or.inl h) _ ?_
      apply List.ext_getElem
      · simp [length_sizeTable]
      · intro g h1 h2
        simp [sizeTable]
    · exact sizeRow_congr fun i _ _ => by simp

/-- the sizes after the exchange by files -/
theorem linkStartFiles_eq [Ring K] {refs : List RefDim} {levels : List (List ℕ)} {n o : ℕ} (ho : o < n)
    {T : ℕ → List (K × List ℕ × (ℕ → K))} (h : ValidSystem refs levels n T) {dsgs : List (Dsg K)}
    (hi : Initialised refs levels n T dsgs) (comms : List (Option (List ℕ))) (E : ℕ → Prop)
    (others : List (List ℕ)) (c : List ℕ)
    (hE : reduceExtraSubspaceSizes (sizeRow levels.length (countOf refs levels)
      (SystemHoldsIdx levels n T)) others = .ok (sizeRow levels.length (countOf refs levels) E, c))
    (hne : ∃ i < levels.length, 0 < countOf refs levels i ∧ E i)
    (htotal : (levels.map (subspaceCount refs)).sum < 2 ^ 32) :
    ∃ st, linkStartFiles .sparseGridReduce levels (systemOf refs n o T) ⟨dsgs, sizeTable n levels.length
        (countOf refs levels) (fun _ => SystemHoldsIdx levels n T), comms⟩ others = some st ∧
      Started refs levels n T (fun i => SystemHoldsIdx levels n T i ∨ E i) E st := by
  have ho' : (systemOf refs n o T).o = o := rfl
  set m := levels.length with hm
  set N := countOf refs levels with hN
  have hmax : maxReduceInOutputGroup o (sizeTable n m N fun _ => SystemHoldsIdx levels n T)
      (sizeRow m N (SystemHoldsIdx levels n T)) = sizeRow m N (SystemHoldsIdx levels n T) := by
    rw [maxReduce_table ho]
    refine sizeRow_congr fun i _ _ => ?_
    constructor
    · rintro (h | ⟨_, _, _, h⟩) <;> exact h
    · exact Or.inl
  have hset : (sizeTable n m N fun _ => SystemHoldsIdx levels n T).set o
      (List.zipWith max (sizeRow m N (SystemHoldsIdx levels n T)) (sizeRow m N E)) =
      sizeTable n m N fun g i => SystemHoldsIdx levels n T i ∨ (g = o ∧ E i) := by
    rw [zipWith_max_row, set_sizeTable]
    refine sizeTable_congr fun g hg i hi hN => ?_
    by_cases hgo : g = o
    · subst hgo; simp
    · simp [hgo]
  have hex1 : exchangeSizes .sparseGridReduce m (sizeTable n m N fun g i =>
      SystemHoldsIdx levels n T i ∨ (g = o ∧ E i)) =
      some (sizeTable n m N (fun _ i => SystemHoldsIdx levels n T i ∨ E i),
        (List.range n).map fun _ => none) := by
    rw [exchangeAll_table]
    congr 2
    refine sizeTable_congr fun g hg i hi hN => ?_
    constructor
    · rintro ⟨g, hg, h | ⟨-, h⟩⟩
      · exact Or.inl h
      · exact Or.inr h
    · rintro (h | h)
      · exact ⟨o, ho, Or.inl h⟩
      · exact ⟨o, ho, Or.inr ⟨rfl, h⟩⟩
  have hex2 : exchangeSizes .sparseGridReduce m (sizeTable n m N fun _ i =>
      SystemHoldsIdx levels n T i ∨ E i) =
      some (sizeTable n m N (fun _ i => SystemHoldsIdx levels n T i ∨ E i),
        (List.range n).map fun _ => none) := by
    rw [exchangeAll_table]
    congr 2
    refine sizeTable_congr fun g hg i hi hN => ?_
    exact ⟨fun ⟨_, _, h⟩ => h, fun h => ⟨o, ho, h⟩⟩
  obtain ⟨i, hil, hp, h1⟩ := hne
  obtain ⟨e, e1, e2⟩ := extraGrid_eq (K := K) levels (sizeRow m N E)
    (sizeRow m N fun i => SystemHoldsIdx levels n T i ∨ E i) (length_sizeRow _ _ _)
    (lt_of_le_of_lt (sum_sizeRow_le _) htotal)
    ⟨i, by rw [getD_sizeRow_pos hil h1]; exact hp⟩ (by
      intro i hne
      obtain ⟨a, b, -⟩ := sizeRow_pos (Nat.pos_of_ne_zero hne)
      rw [getD_sizeRow_pos a b, getD_sizeRow_pos a (Or.inr b)])
  refine ⟨⟨(⟨dsgs, sizeTable n m N (fun _ => SystemHoldsIdx levels n T), comms⟩ : LinkSizes K).groupsWith
      levels (systemOf refs n o T) (sizeTable n m N (fun _ i => SystemHoldsIdx levels n T i ∨ E i)),
    fun g => ((List.range n).map fun _ => none).getD g none, some e⟩, ?_, ?_, fun _ _ => rfl,
    Or.inl ⟨e, rfl, e2⟩⟩
  · unfold linkStartFiles linkWritten
    simp only [ho', getElem?_sizeTable ho, Option.bind_eq_bind, Option.bind_some]
    rw [← hm, hmax]
    simp only [pure, Option.bind_some]
    rw [hmax, hE]
    simp only
    rw [hset, hex1]
    simp only [Option.bind_some]
    rw [hex2]
    simp only [Option.bind_some]
    rw [e1]
    rfl
  · exact groupsWith_ok h hi _ _ _ (fun i h => Or.inl h) _ rfl

/-! ### The combination -/

/-- collection within the system, and what is sent or written -/
theorem started_collect [Ring K] {refs : List RefDim} {levels : List (List ℕ)} {n o : ℕ} (ho : o < n)
    {T : ℕ → List (K × List ℕ × (ℕ → K))} (h : ValidSystem refs levels n T) {Q O : ℕ → Prop}
    {st : LinkState K} (hst : Started refs levels n T Q O st) (maxChunk : ℕ) (hpos : 0 < maxChunk)
    (hmax : maxChunk < 2 ^ 31) (htotal : (levels.map (subspaceCount refs)).sum < 2 ^ 32)
    (root : Option ℕ) (hroot : root = none ∨ root = some o) :
    ∃ (S : ℕ → Group K) (x : Dsg K), linkCollect .sparseGridReduce root maxChunk n st = some S ∧
      (∀ g < n, Ready levels (sizeRow levels.length (countOf refs levels) Q) (S g) ∧
        (S g).tasks = tasksOf refs (T g)) ∧
      (∀ i, ∀ j < (sizeRow levels.length (countOf refs levels) Q).getD i 0,
        (S o).dsg.at i j = systemSum refs levels n T i j) ∧
      linkOutgoing (S o).dsg st.extra = some x ∧
      Outgoing (sizeRow levels.length (countOf refs levels) O)
        (fun i j => systemSum refs levels n T i j) x := by
  obtain ⟨S, a1, a2, a3⟩ := linkCollect_sparseGridReduce h.sorted n o ho
    (sizeRow levels.length (countOf refs levels) Q) (length_sizeRow _ _ _) maxChunk hpos hmax
    (lt_of_le_of_lt (sum_sizeRow_le _) htotal) root hroot st hst.ok
  have hval : ∀ i, ∀ j < (sizeRow levels.length (countOf refs levels) Q).getD i 0,
      (S o).dsg.at i j = systemSum refs levels n T i j := by
    intro i j hj
    rw [a3 i j hj]
    unfold systemSum
    congr 1
    exact List.map_congr_left fun q hq => by rw [hst.tasks q (List.mem_range.1 hq)]
  have hw := (a2 o ho).1.whole (length_sizeRow _ _ _)
  have hready : ∀ g < n, Ready levels (sizeRow levels.length (countOf refs levels) Q) (S g) ∧
      (S g).tasks = tasksOf refs (T g) := fun g hg => ⟨(a2 g hg).1, (a2 g hg).2.trans (hst.tasks g hg)⟩
  rcases hst.extra with ⟨e, e1, e2⟩ | ⟨e1, e2⟩
  · obtain ⟨x, x1, x2, x3⟩ := linkOutgoing_extra hw e2 (by rw [length_sizeRow, length_sizeRow])
    refine ⟨S, x, a1, hready, hval, by rw [e1]; exact x1, x2, fun i j hj => ?_⟩
    rw [x3 i j hj]
    exact hval i j (by rw [e2.fit i (by omega)]; exact hj)
  · refine ⟨S, _, a1, hready, hval, by rw [e1]; rfl, ?_, ?_⟩
    · rw [e2]; exact hw
    · rw [e2]; exact hval

/-- distribution of what the group that communicates has -/
theorem started_distribute [Ring K] {refs : List RefDim} {levels : List (List ℕ)} {k : ℕ} {n : ℕ → ℕ}
    {T : ℕ → ℕ → List (K × List ℕ × (ℕ → K))} (h : ValidSystems refs levels k n T)
    {s : ℕ} (hs : s < k) {o : ℕ} (ho : o < n s) {Q O : ℕ → Prop}
    (hQ : ∀ i, SystemHoldsIdx levels (n s) (T s) i → Q i)
    (hO : ∀ i, ¬ O i → SystemHoldsIdx levels (n s) (T s) i → ∀ t < k, t ≠ s →
      ¬ SystemHoldsIdx levels (n t) (T t) i)
    (htotal : (levels.map (subspaceCount refs)).sum < 2 ^ 31 - 1) (comm : ℕ → Option (List ℕ))
    {S : ℕ → Group K}
    (hS : ∀ g < n s, Ready levels (sizeRow levels.length (countOf refs levels) Q) (S g) ∧
      (S g).tasks = tasksOf refs (T s g)) (w : ℕ → K)
    (hw : ∀ i, ∀ j < (sizeRow levels.length (countOf refs levels) Q).getD i 0,
      ((S o).dsg.withVal w).at i j =
        if (sizeRow levels.length (countOf refs levels) O).getD i 0 = 0 then
          systemSum refs levels (n s) (T s) i j
        else ((List.range k).map fun t => systemSum refs levels (n t) (T t) i j).sum) :
    ∃ R, linkDistribute .sparseGridReduce (n s) o comm
        (Function.update S o { S o with dsg := (S o).dsg.withVal w }) = some R ∧
      (∀ g < n s, List.Forall₂ (fun t (t' : K × Dfg K) => t'.1 = t.1 ∧
        t'.2.dims = (gridOf refs t.2.1 t.2.2).dims ∧ t'.2.data.len = numLocal refs t.2.1 ∧
        ∀ p < numLocal refs t.2.1,
          t'.2.data.val p = valueOfSystems refs k n T (spatialOf refs t.2.1 p))
        (T s g) (R g).tasks) ∧
      ∀ g < n s, (R g).dsg.levels = levels ∧
        (R g).dsg.sizes = sizeRow levels.length (countOf refs levels) Q ∧
        CanZero levels.length (R g).dsg := by
  have h0 := h
  replace h := h.each
  set S1 := Function.update S o { S o with dsg := (S o).dsg.withVal w } with hS1
  have ho1 : S1 o = { S o with dsg := (S o).dsg.withVal w } := by rw [hS1, Function.update_self]
  have hr1 : ∀ g < n s, Ready levels (sizeRow levels.length (countOf refs levels) Q) (S1 g) := by
    intro g hg
    by_cases hgo : g = o
    · subst hgo
      rw [ho1]
      exact (hS g hg).1.withVal w
    · rw [hS1, Function.update_of_ne hgo]
      exact (hS g hg).1
  have ht1 : ∀ g < n s, (S1 g).tasks = tasksOf refs (T s g) := by
    intro g hg
    by_cases hgo : g = o
    · subst hgo
      rw [ho1]
      exact (hS g hg).2
    · rw [hS1, Function.update_of_ne hgo]
      exact (hS g hg).2
  obtain ⟨R, r1, r2, r3⟩ := linkDistribute_whole (n s) o ho _ (length_sizeRow _ _ _)
    (lt_of_le_of_lt (sum_sizeRow_le _) htotal) comm S1 hr1
  refine ⟨R, r1, fun g hg => ?_, fun g hg => ?_⟩
  swap
  · rw [r3 g hg]
    exact ⟨(hr1 g hg).1.lev, (hr1 g hg).1.siz, Or.inr ⟨(hr1 g hg).2.1.withVal _, (hr1 g hg).2.2⟩⟩
  have hx := r2 g hg
  rw [ht1 g hg] at hx
  refine systems_place h0 hs hg _ _ _ hx ?_ ?_
  · intro i hi hh
    exact getD_sizeRow_pos hi (hQ i ⟨g, hg, hh⟩)
  · intro i hi hh j hj
    have hsz : (sizeRow levels.length (countOf refs levels) Q).getD i 0 = countOf refs levels i :=
      getD_sizeRow_pos hi (hQ i ⟨g, hg, hh⟩)
    rw [ho1]
    have := hw i j (by rw [hsz]; exact hj)
    simp only
    rw [this]
    split
    · rename_i h0
      have hno : ¬ O i := by
        intro hOi
        rw [getD_sizeRow_pos hi hOi] at h0
        omega
      refine (sum_range_single hs (fun t => systemSum refs levels (n t) (T t) i j) ?_).symm
      intro t ht hne
      exact systemSum_zero (h t ht) hi (hO i hno ⟨g, hg, hh⟩ t ht hne) j
    · rfl

/-- **C86** (partial: sparse grid reduce; less than `INT_MAX` values on a process; something is exchanged
on this process). Two systems that combine over the third-level manager: the values of all component
grids of both systems become the combination of all component grids of both systems, with and without an extra
sparse grid, whichever system sends first. -/
theorem C86_manager_partial [Ring K] (refs : List RefDim) (levels : List (List ℕ)) (n o : ℕ → ℕ)
    (T : ℕ → ℕ → List (K × List ℕ × (ℕ → K)))
    (h : ValidSystems refs levels 2 n T) (ho : ∀ s < 2, o s < n s)
    (hasExtra firstSends : Bool)
    (hconj : ∃ l, 0 < subspaceCount refs l ∧ SystemHolds (n 0) (T 0) l ∧ SystemHolds (n 1) (T 1) l)
    (maxChunk : ℕ) (hpos : 0 < maxChunk) (hmax : maxChunk < 2 ^ 31)
    (htotal : (levels.map (subspaceCount refs)).sum < 2 ^ 31 - 1) :
    ∃ R : ℕ → ℕ → Group K,
      linkCombine .sparseGridReduce hasExtra firstSends maxChunk levels
        (fun s => systemOf refs (n s) (o s) (T s)) = some ((List.range 2).map R) ∧
      AllCombined refs 2 n T R := by
  have h0 := h
  replace h := h.each
  set m := levels.length with hm
  set N := countOf refs levels with hN
  let W : ℕ → ℕ → Prop := fun s i => SystemHoldsIdx levels (n s) (T s) i
  have h32 : (levels.map (subspaceCount refs)).sum < 2 ^ 32 := lt_trans htotal (by norm_num)
  obtain ⟨ic, hic, hNc, hW0, hW1⟩ : ∃ i < m, 0 < N i ∧ W 0 i ∧ W 1 i := by
    obtain ⟨l, hc, ⟨ga, hga, hha⟩, ⟨gb, hgb, hhb⟩⟩ := hconj
    obtain ⟨t, ht, hl⟩ := hha
    obtain ⟨i, hi, rfl⟩ := List.mem_iff_getElem.1
      (h0.mem_of_shared (show 0 < 2 by omega) (show 1 < 2 by omega) (by omega) ⟨ga, hga, t, ht, hl⟩
        ⟨gb, hgb, hhb⟩)
    refine ⟨i, hi, ?_, ⟨ga, hga, ?_⟩, ⟨gb, hgb, ?_⟩⟩
    · rw [hN]
      unfold countOf
      rwa [getD_lt hi]
    · unfold HoldsIdx
      rw [getD_lt hi]
      exact ⟨t, ht, hl⟩
    · unfold HoldsIdx
      rw [getD_lt hi]
      exact hhb
  -- sizes
  have hsizes : ∀ s, ∃ dsgs : List (Dsg K), s < 2 → Initialised refs levels (n s) (T s) dsgs ∧
      linkSizes .sparseGridReduce levels (systemOf refs (n s) (o s) (T s)) = some ⟨dsgs,
        sizeTable (n s) m N (fun _ => W s), (List.range (n s)).map fun _ => none⟩ := by
    intro s
    by_cases hs : s < 2
    · obtain ⟨d, d1, d2⟩ := linkSizes_eq (o s) (h s hs)
      exact ⟨d, fun _ => ⟨d1, d2⟩⟩
    · exact ⟨[], fun hc => absurd hc hs⟩
  choose dsgs hdsgs using hsizes
  let ws : ℕ → LinkSizes K := fun s => ⟨dsgs s, sizeTable (n s) m N (fun _ => W s),
    (List.range (n s)).map fun _ => none⟩
  have m1 : (List.range 2).mapM (fun s => linkSizes .sparseGridReduce levels
      (systemOf refs (n s) (o s) (T s))) = some ((List.range 2).map ws) :=
    mapM_some_map _ _ _ fun s hs => (hdsgs s (List.mem_range.1 hs)).2
  have hget : ∀ {α : Type} (f : ℕ → α) (s : ℕ), s < 2 → ((List.range 2).map f)[s]? = some (f s) := by
    intro α f s hs
    rw [List.getElem?_map, List.getElem?_range hs]
    rfl
  -- start
  let Q : ℕ → ℕ → Prop := fun s i => W s i ∨ (hasExtra = false ∧ W (1 - s) i)
  let O : ℕ → Prop := fun i => if hasExtra = true then W 0 i ∧ W 1 i else W 0 i ∨ W 1 i
  have hOs : ∀ s < 2, (fun i => if hasExtra = true then W s i ∧ W (1 - s) i else W s i ∨ W (1 - s) i) =
      O := by
    intro s hs
    have : s = 0 ∨ s = 1 := by omega
    rcases this with rfl | rfl
    · rfl
    · funext i
      simp only [O]
      split
      · exact propext and_comm
      · exact propext or_comm
  have hstart : ∀ s, ∃ st : LinkState K, s < 2 →
      linkStart hasExtra levels (systemOf refs (n s) (o s) (T s)) (ws s) (sizeRow m N (W (1 - s))) =
        some st ∧ Started refs levels (n s) (T s) (Q s) O st := by
    intro s
    by_cases hs : s < 2
    · obtain ⟨st, q1, q2⟩ := linkStart_eq (ho s hs) (h s hs) (hdsgs s hs).1
        ((List.range (n s)).map fun _ => none) hasExtra (W (1 - s)) (fun _ => ⟨ic, hic, hNc, by
          have : s = 0 ∨ s = 1 := by omega
          rcases this with rfl | rfl
          · exact ⟨hW0, hW1⟩
          · exact ⟨hW1, hW0⟩⟩) h32
      refine ⟨st, fun _ => ⟨q1, ?_⟩⟩
      rw [← hOs s hs]
      exact q2
    · exact ⟨⟨fun _ => ⟨Dsg.empty levels, []⟩, fun _ => none, none⟩, fun hc => absurd hc hs⟩
  choose st hst using hstart
  -- collection
  have hcollect : ∀ s, ∃ (S : ℕ → Group K) (x : Dsg K), s < 2 →
      linkCollect .sparseGridReduce none maxChunk (n s) (st s) = some S ∧
      (∀ g < n s, Ready levels (sizeRow m N (Q s)) (S g) ∧ (S g).tasks = tasksOf refs (T s g)) ∧
      (∀ i, ∀ j < (sizeRow m N (Q s)).getD i 0,
        (S (o s)).dsg.at i j = systemSum refs levels (n s) (T s) i j) ∧
      linkOutgoing (S (o s)).dsg (st s).extra = some x ∧
      Outgoing (sizeRow m N O) (fun i j => systemSum refs levels (n s) (T s) i j) x := by
    intro s
    by_cases hs : s < 2
    · obtain ⟨S, x, q⟩ := started_collect (ho s hs) (h s hs) (hst s hs).2 maxChunk hpos hmax h32 none
        (Or.inl rfl)
      exact ⟨S, x, fun _ => q⟩
    · exact ⟨fun _ => ⟨Dsg.empty levels, []⟩, Dsg.empty levels, fun hc => absurd hc hs⟩
  choose S x hcol using hcollect
  -- exchange
  have hxw : ∀ s < 2, Whole (sizeRow m N O) (x s) := fun s hs => (hcol s hs).2.2.2.2.1
  have hOc : O ic := by
    simp only [O]
    split
    · exact ⟨hW0, hW1⟩
    · exact Or.inl hW0
  have hlenx : ∀ s < 2, (x s).data.len = (x 0).data.len := by
    intro s hs
    rw [(hxw s hs).dataLen, (hxw 0 (by omega)).dataLen]
  have hlen0 : (x 0).data.len ≠ 0 := by
    rw [(hxw 0 (by omega)).dataLen]
    have := pos_lt_total (sizes := sizeRow m N O) (i := ic) (j := 0) (by
      rw [getD_sizeRow_pos hic hOc]; exact hNc)
    omega
  have hexch : exchangeOverManager firstSends (x 0).data (x 1).data =
      some ⟨(x 0).data.len, fun i => (if firstSends then (x 1).data.val i + (x 0).data.val i else
        (x 0).data.val i + (x 1).data.val i)⟩ := by
    have h1 := hlenx 1 (by omega)
    unfold exchangeOverManager addFile
    rw [if_neg hlen0]
    cases firstSends with
    | true =>
      simp only [if_true]
      rw [if_pos h1.symm, h1]
    | false =>
      simp only [Bool.false_eq_true, if_false]
      rw [if_pos h1]
  set b : Buf K := ⟨(x 0).data.len, fun i => (if firstSends then (x 1).data.val i + (x 0).data.val i else
        (x 0).data.val i + (x 1).data.val i)⟩ with hb
  have hbval : ∀ i, ∀ j < (sizeRow m N O).getD i 0,
      b.val (selOffset (sizeRow m N O) (List.range (sizeRow m N O).length) i + j) =
        ((List.range 2).map fun t => systemSum refs levels (n t) (T t) i j).sum := by
    intro i j hj
    have e0 := (hcol 0 (by omega)).2.2.2.2.2 i j hj
    have e1 := (hcol 1 (by omega)).2.2.2.2.2 i j hj
    rw [(hxw 0 (by omega)).at_eq] at e0
    rw [(hxw 1 (by omega)).at_eq] at e1
    simp only [hb, e0, e1, List.range_succ, List.range_zero, List.nil_append, List.map_append,
      List.map_cons, List.map_nil, List.sum_append, List.sum_cons, List.sum_nil, add_zero]
    split
    · rw [add_comm]
    · rfl
  -- distribution
  have hdist : ∀ s, ∃ (w : ℕ → K) (R : ℕ → Group K), s < 2 →
      linkIncoming (S s (o s)).dsg ((st s).extra.map fun _ => x s) b =
        some ((S s (o s)).dsg.withVal w) ∧
      linkDistribute .sparseGridReduce (n s) (o s) (st s).comm (Function.update (S s) (o s)
        { S s (o s) with dsg := (S s (o s)).dsg.withVal w }) = some R ∧
      ∀ g < n s, List.Forall₂ (fun t (t' : K × Dfg K) => t'.1 = t.1 ∧
        t'.2.dims = (gridOf refs t.2.1 t.2.2).dims ∧ t'.2.data.len = numLocal refs t.2.1 ∧
        ∀ p < numLocal refs t.2.1,
          t'.2.data.val p = valueOfSystems refs 2 n T (spatialOf refs t.2.1 p))
        (T s g) (R g).tasks := by
    intro s
    by_cases hs : s < 2
    · obtain ⟨c1, c2, c3, c4, c5⟩ := hcol s hs
      have hdw := (c2 (o s) (ho s hs)).1.whole (length_sizeRow _ _ _)
      obtain ⟨w, w1, w2⟩ : ∃ w : ℕ → K, linkIncoming (S s (o s)).dsg ((st s).extra.map fun _ => x s) b =
          some ((S s (o s)).dsg.withVal w) ∧ ∀ i, ∀ j < (sizeRow m N (Q s)).getD i 0,
          ((S s (o s)).dsg.withVal w).at i j = if (sizeRow m N O).getD i 0 = 0 then
            systemSum refs levels (n s) (T s) i j
          else ((List.range 2).map fun t => systemSum refs levels (n t) (T t) i j).sum := by
        rcases (hst s hs).2.extra with ⟨e, e1, e2⟩ | ⟨e1, e2⟩
        · obtain ⟨w, w1, w2⟩ := linkIncoming_extra hdw (hxw s hs) (by
              rw [length_sizeRow, length_sizeRow]) e2.fit b (hlenx s hs).symm _ hbval
          refine ⟨w, by rw [e1]; exact w1, fun i j hj => ?_⟩
          rw [w2 i j hj]
          split
          · exact c3 i j hj
          · rfl
        · have hlen : b.len = (S s (o s)).dsg.data.len := by
            rw [hdw.dataLen, ← e2, ← (hxw 0 (by omega)).dataLen]
          refine ⟨b.val, ?_, fun i j hj => ?_⟩
          · rw [e1]
            unfold linkIncoming Dsg.withVal
            simp only [Option.map_none]
            rw [← hlen]
          · rw [(hdw.withVal b.val).at_eq]
            rw [← e2] at hj ⊢
            change j < (sizeRow m N O).getD i 0 at hj
            rw [if_neg (show (sizeRow m N O).getD i 0 ≠ 0 by omega)]
            exact hbval i j hj
      obtain ⟨R, r1, r2, -⟩ := started_distribute h0 hs (ho s hs) (Q := Q s) (O := O) (fun i hi => Or.inl hi)
        (by
          intro i hno hWs t ht hne hWt
          have hts : t = 1 - s := by omega
          subst hts
          apply hno
          rw [← hOs s hs]
          beta_reduce
          split
          · exact ⟨hWs, hWt⟩
          · exact Or.inl hWs) htotal (st s).comm c2 w w2
      exact ⟨w, R, fun _ => ⟨w1, r1, r2⟩⟩
    · exact ⟨fun _ => 0, fun _ => ⟨Dsg.empty levels, []⟩, fun hc => absurd hc hs⟩
  choose w R hR using hdist
  refine ⟨R, ?_, fun s hs => (hR s hs).2.2⟩
  have m2 : ((List.range 2).mapM fun s => do
      let w ← ((List.range 2).map ws)[s]?
      let remote ← ((List.range 2).map ws)[1 - s]?
      linkStart hasExtra levels (systemOf refs (n s) (o s) (T s)) w
        (← remote.sizes[(systemOf refs (n (1 - s)) (o (1 - s)) (T (1 - s))).o]?)) =
      some ((List.range 2).map st) := by
    refine mapM_some_map _ _ _ fun s hs => ?_
    have hs' := List.mem_range.1 hs
    rw [hget ws s hs', hget ws (1 - s) (by omega)]
    have hrow : (ws (1 - s)).sizes[(systemOf refs (n (1 - s)) (o (1 - s)) (T (1 - s))).o]? =
        some (sizeRow m N (W (1 - s))) := getElem?_sizeTable (ho (1 - s) (by omega))
    simp only [Option.bind_eq_bind, Option.bind_some, hrow]
    exact (hst s hs').1
  have m3 : ((List.range 2).mapM fun s => do
      let y ← ((List.range 2).map st)[s]?
      linkCollect .sparseGridReduce none maxChunk (systemOf refs (n s) (o s) (T s)).n y) =
      some ((List.range 2).map S) := by
    refine mapM_some_map _ _ _ fun s hs => ?_
    have hs' := List.mem_range.1 hs
    rw [hget st s hs']
    exact (hcol s hs').1
  have m4 : ((List.range 2).mapM fun s => do
      let y ← ((List.range 2).map st)[s]?
      let z ← ((List.range 2).map S)[s]?
      linkOutgoing (z (systemOf refs (n s) (o s) (T s)).o).dsg y.extra) =
      some ((List.range 2).map x) := by
    refine mapM_some_map _ _ _ fun s hs => ?_
    have hs' := List.mem_range.1 hs
    rw [hget st s hs', hget S s hs']
    exact (hcol s hs').2.2.2.1
  have m5 : ((List.range 2).mapM fun s => do
      let y ← ((List.range 2).map st)[s]?
      let z ← ((List.range 2).map S)[s]?
      let e ← ((List.range 2).map x)[s]?
      let d ← linkIncoming (z (systemOf refs (n s) (o s) (T s)).o).dsg (y.extra.map fun _ => e) b
      linkDistribute .sparseGridReduce (systemOf refs (n s) (o s) (T s)).n
        (systemOf refs (n s) (o s) (T s)).o y.comm
        (Function.update z (systemOf refs (n s) (o s) (T s)).o
          { z (systemOf refs (n s) (o s) (T s)).o with dsg := d })) =
      some ((List.range 2).map R) := by
    refine mapM_some_map _ _ _ fun s hs => ?_
    have hs' := List.mem_range.1 hs
    rw [hget st s hs', hget S s hs', hget x s hs']
    have ho' : (systemOf refs (n s) (o s) (T s)).o = o s := rfl
    simp only [Option.bind_eq_bind, Option.bind_some, ho']
    rw [(hR s hs').1]
    exact (hR s hs').2.1
  unfold linkCombine
  rw [m1]
  simp only [Option.bind_eq_bind, Option.bind_some] at m2 m3 m4 m5 ⊢
  rw [m2]
  simp only [Option.bind_some]
  rw [m3]
  simp only [Option.bind_some]
  rw [m4]
  simp only [Option.bind_some]
  rw [hget x 0 (by omega), hget x 1 (by omega)]
  simp only [Option.bind_some]
  rw [hexch]
  exact m5

/-- **C86**, files (partial: sparse grid reduce; less than `INT_MAX` values on a process and `2 ^ 30` in a
subspace; two systems share a subspace with points on this process). Two or three systems that combine
through files: the values of all component grids of all systems become the combination of all component
grids of all systems. In contrast to `C85_files_partial` the groups of a system need not share anything. -/
theorem C86_files_partial [Ring K] (refs : List RefDim) (levels : List (List ℕ)) (k : ℕ)
    (hk : k = 2 ∨ k = 3) (n o : ℕ → ℕ) (T : ℕ → ℕ → List (K × List ℕ × (ℕ → K)))
    (h : ValidSystems refs levels k n T) (ho : ∀ s < k, o s < n s)
    (hconj : ∃ l, 0 < subspaceCount refs l ∧ ∃ a < k, ∃ b < k, a ≠ b ∧
      SystemHolds (n a) (T a) l ∧ SystemHolds (n b) (T b) l)
    (order : ℕ → List ℕ)
    (horder : ∀ s < k, (order s).Perm ((List.range k).filter fun t => t ≠ s))
    (maxChunk : ℕ) (hpos : 0 < maxChunk) (hmax : maxChunk < 2 ^ 31)
    (hsmall : ∀ l ∈ levels, subspaceCount refs l < 2 ^ 30)
    (htotal : (levels.map (subspaceCount refs)).sum < 2 ^ 31 - 1) :
    ∃ R : ℕ → ℕ → Group K,
      linkFiles .sparseGridReduce maxChunk levels k (fun s => systemOf refs (n s) (o s) (T s)) order =
        some ((List.range k).map R) ∧ AllCombined refs k n T R := by
  have h0 := h
  replace h := h.each
  set m := levels.length with hm
  set N := countOf refs levels with hN
  let W : ℕ → ℕ → Prop := fun s i => SystemHoldsIdx levels (n s) (T s) i
  let E : ℕ → Prop := fun i => ∃ a < k, ∃ b < k, a ≠ b ∧ W a i ∧ W b i
  have h32 : (levels.map (subspaceCount refs)).sum < 2 ^ 32 := lt_trans htotal (by norm_num)
  have hNi : ∀ i (hi : i < m), N i = subspaceCount refs levels[i] := by
    intro i hi
    rw [hN]
    unfold countOf
    rw [getD_lt hi]
  have hN30 : ∀ i < m, N i < 2 ^ 30 := by
    intro i hi
    rw [hNi i hi]
    exact hsmall _ (List.getElem_mem _)
  have hordmem : ∀ s < k, ∀ t, t ∈ order s ↔ t < k ∧ t ≠ s := by
    intro s hs t
    rw [(horder s hs).mem_iff, List.mem_filter, List.mem_range, decide_eq_true_eq]
  have hordne : ∀ s < k, order s ≠ [] := by
    intro s hs hc
    by_cases h0 : s = 0
    · have := (hordmem s hs 1).2 ⟨by omega, by omega⟩
      rw [hc] at this
      simp at this
    · have := (hordmem s hs 0).2 ⟨by omega, by omega⟩
      rw [hc] at this
      simp at this
  obtain ⟨ic, hic, hNc, hEc⟩ : ∃ i < m, 0 < N i ∧ E i := by
    obtain ⟨l, hc, a, ha, b, hb, hab, ⟨ga, hga, hha⟩, ⟨gb, hgb, hhb⟩⟩ := hconj
    obtain ⟨t, ht, hl⟩ := hha
    obtain ⟨i, hi, rfl⟩ := List.mem_iff_getElem.1
      (h0.mem_of_shared ha hb hab ⟨ga, hga, t, ht, hl⟩ ⟨gb, hgb, hhb⟩)
    refine ⟨i, hi, by rw [hNi i hi]; exact hc, a, ha, b, hb, hab, ⟨ga, hga, ?_⟩, ⟨gb, hgb, ?_⟩⟩
    · unfold HoldsIdx
      rw [getD_lt hi]
      exact ⟨t, ht, hl⟩
    · unfold HoldsIdx
      rw [getD_lt hi]
      exact hhb
  -- sizes
  have hsizes : ∀ s, ∃ dsgs : List (Dsg K), s < k → Initialised refs levels (n s) (T s) dsgs ∧
      linkSizes .sparseGridReduce levels (systemOf refs (n s) (o s) (T s)) = some ⟨dsgs,
        sizeTable (n s) m N (fun _ => W s), (List.range (n s)).map fun _ => none⟩ := by
    intro s
    by_cases hs : s < k
    · obtain ⟨d, d1, d2⟩ := linkSizes_eq (o s) (h s hs)
      exact ⟨d, fun _ => ⟨d1, d2⟩⟩
    · exact ⟨[], fun hc => absurd hc hs⟩
  choose dsgs hdsgs using hsizes
  let ws : ℕ → LinkSizes K := fun s => ⟨dsgs s, sizeTable (n s) m N (fun _ => W s),
    (List.range (n s)).map fun _ => none⟩
  have hget : ∀ {α : Type} (f : ℕ → α) (s : ℕ), s < k → ((List.range k).map f)[s]? = some (f s) := by
    intro α f s hs
    rw [List.getElem?_map, List.getElem?_range hs]
    rfl
  have hwritten : ∀ s < k, linkWritten (systemOf refs (n s) (o s) (T s)) (ws s) =
      some (sizeRow m N (W s)) := by
    intro s hs
    unfold linkWritten
    have ho' : (systemOf refs (n s) (o s) (T s)).o = o s := rfl
    have hrow : (ws s).sizes[o s]? = some (sizeRow m N (W s)) := getElem?_sizeTable (ho s hs)
    rw [ho', hrow]
    have := maxReduce_table (m := m) (N := N) (H := fun _ => W s) (ho s hs) (W s)
    change some (maxReduceInOutputGroup (o s) (sizeTable (n s) m N fun _ => W s) (sizeRow m N (W s))) = _
    rw [this]
    congr 1
    refine sizeRow_congr fun i _ _ => ?_
    constructor
    · rintro (h | ⟨_, _, _, h⟩) <;> exact h
    · exact Or.inl
  -- start
  have hstart : ∀ s, ∃ st : LinkState K, s < k →
      linkStartFiles .sparseGridReduce levels (systemOf refs (n s) (o s) (T s)) (ws s)
        ((order s).map fun t => sizeRow m N (W t)) = some st ∧
      Started refs levels (n s) (T s) (fun i => W s i ∨ E i) E st := by
    intro s
    by_cases hs : s < k
    · obtain ⟨c, hc⟩ := reduceExtra_row m N hN30 k hk W s hs (order s) (horder s hs)
      obtain ⟨st, q⟩ := linkStartFiles_eq (ho s hs) (h s hs) (hdsgs s hs).1
        ((List.range (n s)).map fun _ => none) E _ c hc ⟨ic, hic, hNc, hEc⟩ h32
      exact ⟨st, fun _ => q⟩
    · exact ⟨⟨fun _ => ⟨Dsg.empty levels, []⟩, fun _ => none, none⟩, fun hc => absurd hc hs⟩
  choose st hst using hstart
  -- collection
  have hcollect : ∀ s, ∃ (S : ℕ → Group K) (x : Dsg K), s < k →
      linkCollect .sparseGridReduce (some (o s)) maxChunk (n s) (st s) = some S ∧
      (∀ g < n s, Ready levels (sizeRow m N fun i => W s i ∨ E i) (S g) ∧
        (S g).tasks = tasksOf refs (T s g)) ∧
      (∀ i, ∀ j < (sizeRow m N fun i => W s i ∨ E i).getD i 0,
        (S (o s)).dsg.at i j = systemSum refs levels (n s) (T s) i j) ∧
      linkOutgoing (S (o s)).dsg (st s).extra = some x ∧
      Outgoing (sizeRow m N E) (fun i j => systemSum refs levels (n s) (T s) i j) x := by
    intro s
    by_cases hs : s < k
    · obtain ⟨S, x, q⟩ := started_collect (ho s hs) (h s hs) (hst s hs).2 maxChunk hpos hmax h32
        (some (o s)) (Or.inr rfl)
      exact ⟨S, x, fun _ => q⟩
    · exact ⟨fun _ => ⟨Dsg.empty levels, []⟩, Dsg.empty levels, fun hc => absurd hc hs⟩
  choose S x hcol using hcollect
  have hxw : ∀ s < k, Whole (sizeRow m N E) (x s) := fun s hs => (hcol s hs).2.2.2.2.1
  -- reading and distribution
  have hfit : ∀ s i, (sizeRow m N E).getD i 0 ≠ 0 →
      (sizeRow m N fun i => W s i ∨ E i).getD i 0 = (sizeRow m N E).getD i 0 := by
    intro s i hne
    obtain ⟨a, b, -⟩ := sizeRow_pos (Nat.pos_of_ne_zero hne)
    rw [getD_sizeRow_pos a b, getD_sizeRow_pos a (Or.inr b)]
  have hdist : ∀ s, ∃ (w w' : ℕ → K) (R : ℕ → Group K), s < k →
      ((order s).map fun t => (x t).data).foldlM readAndReduce (x s, (S s (o s)).dsg) =
        some ((x s).withVal w', (S s (o s)).dsg.withVal w) ∧
      linkDistribute .sparseGridReduce (n s) (o s) (st s).comm (Function.update (S s) (o s)
        { S s (o s) with dsg := (S s (o s)).dsg.withVal w }) = some R ∧
      ∀ g < n s, List.Forall₂ (fun t (t' : K × Dfg K) => t'.1 = t.1 ∧
        t'.2.dims = (gridOf refs t.2.1 t.2.2).dims ∧ t'.2.data.len = numLocal refs t.2.1 ∧
        ∀ p < numLocal refs t.2.1,
          t'.2.data.val p = valueOfSystems refs k n T (spatialOf refs t.2.1 p))
        (T s g) (R g).tasks := by
    intro s
    by_cases hs : s < k
    · obtain ⟨c1, c2, c3, c4, c5⟩ := hcol s hs
      have hdw := (c2 (o s) (ho s hs)).1.whole (length_sizeRow _ _ _)
      obtain ⟨w, w', w1, w2⟩ := readAndReduce_eq (by rw [length_sizeRow, length_sizeRow]) (hfit s)
        ((order s).map fun t => (x t).data) hdw (hxw s hs) (by
          rw [hdw.dataLen]
          have := pos_lt_total (sizes := sizeRow m N fun i => W s i ∨ E i) (i := ic) (j := 0) (by
            rw [getD_sizeRow_pos hic (Or.inr hEc)]; exact hNc)
          omega) (by
          intro f hf
          obtain ⟨t, ht, rfl⟩ := List.mem_map.1 hf
          rw [(hxw s hs).dataLen, (hxw t ((hordmem s hs t).1 ht).1).dataLen]) (by
          rw [Ne, List.map_eq_nil_iff]
          exact hordne s hs)
      have w3 : ∀ i, ∀ j < (sizeRow m N fun i => W s i ∨ E i).getD i 0,
          ((S s (o s)).dsg.withVal w).at i j = if (sizeRow m N E).getD i 0 = 0 then
            systemSum refs levels (n s) (T s) i j
          else ((List.range k).map fun t => systemSum refs levels (n t) (T t) i j).sum := by
        intro i j hj
        rw [w2 i j hj]
        split
        · exact c3 i j hj
        · rename_i h0
          have hj' : j < (sizeRow m N E).getD i 0 := by rw [← hfit s i h0]; exact hj
          rw [c5.2 i j hj', List.map_map]
          have hother : (order s).map ((fun f : Buf K => f.val (selOffset (sizeRow m N E)
              (List.range (sizeRow m N E).length) i + j)) ∘ fun t => (x t).data) =
              (order s).map fun t => systemSum refs levels (n t) (T t) i j := by
            apply List.map_congr_left
            intro t ht
            have htk := ((hordmem s hs t).1 ht).1
            have e := (hcol t htk).2.2.2.2.2 i j hj'
            rw [(hxw t htk).at_eq] at e
            exact e
          rw [hother]
          have hperm : (s :: order s).Perm (List.range k) := by
            rw [List.perm_ext_iff_of_nodup (List.nodup_cons.2
              ⟨fun hh => ((hordmem s hs s).1 hh).2 rfl,
                (horder s hs).nodup_iff.2 (List.nodup_range.filter _)⟩) List.nodup_range]
            intro t'
            rw [List.mem_cons, hordmem s hs, List.mem_range]
            by_cases h : t' = s
            · subst h; simp [hs]
            · simp [h]
          rw [← (hperm.map fun t => systemSum refs levels (n t) (T t) i j).sum_eq, List.map_cons,
            List.sum_cons]
      obtain ⟨R, r1, r2, -⟩ := started_distribute h0 hs (ho s hs) (Q := fun i => W s i ∨ E i) (O := E)
        (fun i hi => Or.inl hi) (by
          intro i hno hWs t ht hne hWt
          exact hno ⟨t, ht, s, hs, hne, hWt, hWs⟩) htotal (st s).comm c2 w w3
      exact ⟨w, w', R, fun _ => ⟨w1, r1, r2⟩⟩
    · exact ⟨fun _ => 0, fun _ => 0, fun _ => ⟨Dsg.empty levels, []⟩, fun hc => absurd hc hs⟩
  choose w w' R hR using hdist
  refine ⟨R, ?_, fun s hs => (hR s hs).2.2⟩
  have m1 : (List.range k).mapM (fun s => linkSizes .sparseGridReduce levels
      (systemOf refs (n s) (o s) (T s))) = some ((List.range k).map ws) :=
    mapM_some_map _ _ _ fun s hs => (hdsgs s (List.mem_range.1 hs)).2
  have m1' : ((List.range k).mapM fun s => do
      let y ← ((List.range k).map ws)[s]?
      linkWritten (systemOf refs (n s) (o s) (T s)) y) =
      some ((List.range k).map fun s => sizeRow m N (W s)) := by
    refine mapM_some_map _ _ _ fun s hs => ?_
    have hs' := List.mem_range.1 hs
    rw [hget ws s hs']
    exact hwritten s hs'
  have m2 : ((List.range k).mapM fun s => do
      let y ← ((List.range k).map ws)[s]?
      let others ← (order s).mapM fun t => ((List.range k).map fun s => sizeRow m N (W s))[t]?
      linkStartFiles .sparseGridReduce levels (systemOf refs (n s) (o s) (T s)) y others) =
      some ((List.range k).map st) := by
    refine mapM_some_map _ _ _ fun s hs => ?_
    have hs' := List.mem_range.1 hs
    rw [hget ws s hs', mapM_some_map _ _ (fun t => sizeRow m N (W t)) fun t ht =>
      hget (fun s => sizeRow m N (W s)) t ((hordmem s hs' t).1 ht).1]
    exact (hst s hs').1
  have m3 : ((List.range k).mapM fun s => do
      let y ← ((List.range k).map st)[s]?
      linkCollect .sparseGridReduce (some (systemOf refs (n s) (o s) (T s)).o) maxChunk
        (systemOf refs (n s) (o s) (T s)).n y) = some ((List.range k).map S) := by
    refine mapM_some_map _ _ _ fun s hs => ?_
    have hs' := List.mem_range.1 hs
    rw [hget st s hs']
    exact (hcol s hs').1
  have m4 : ((List.range k).mapM fun s => do
      let y ← ((List.range k).map st)[s]?
      let z ← ((List.range k).map S)[s]?
      linkOutgoing (z (systemOf refs (n s) (o s) (T s)).o).dsg y.extra) =
      some ((List.range k).map x) := by
    refine mapM_some_map _ _ _ fun s hs => ?_
    have hs' := List.mem_range.1 hs
    rw [hget st s hs', hget S s hs']
    exact (hcol s hs').2.2.2.1
  have m5 : ((List.range k).mapM fun s => do
      let y ← ((List.range k).map st)[s]?
      let z ← ((List.range k).map S)[s]?
      let e ← ((List.range k).map x)[s]?
      let files ← (order s).mapM fun t => ((List.range k).map x)[t]?.map fun d => d.data
      let r ← files.foldlM readAndReduce (e, (z (systemOf refs (n s) (o s) (T s)).o).dsg)
      linkDistribute .sparseGridReduce (systemOf refs (n s) (o s) (T s)).n
        (systemOf refs (n s) (o s) (T s)).o y.comm
        (Function.update z (systemOf refs (n s) (o s) (T s)).o
          { z (systemOf refs (n s) (o s) (T s)).o with dsg := r.2 })) =
      some ((List.range k).map R) := by
    refine mapM_some_map _ _ _ fun s hs => ?_
    have hs' := List.mem_range.1 hs
    have hfiles : ((order s).mapM fun t => ((List.range k).map x)[t]?.map fun d => d.data) =
        some ((order s).map fun t => (x t).data) := by
      refine mapM_some_map _ _ _ fun t ht => ?_
      rw [hget x t ((hordmem s hs' t).1 ht).1]
      rfl
    rw [hget st s hs', hget S s hs', hget x s hs', hfiles]
    have ho' : (systemOf refs (n s) (o s) (T s)).o = o s := rfl
    simp only [Option.bind_eq_bind, Option.bind_some, ho']
    rw [(hR s hs').1]
    exact (hR s hs').2.1
  unfold linkFiles
  rw [m1]
  simp only [Option.bind_eq_bind, Option.bind_some] at m1' m2 m3 m4 m5 ⊢
  rw [m1']
  simp only [Option.bind_some]
  rw [m2]
  simp only [Option.bind_some]
  rw [m3]
  simp only [Option.bind_some]
  rw [m4]
  simp only [Option.bind_some]
  exact m5

/-! ### Examples and violations -/

/-- Number of groups of two systems. -/
def linkGroups (s : ℕ) : ℕ := 2 - s

/-- Component grids of two systems: the first has two groups, the second has one. -/
def linkSystem (s g : ℕ) : List (ℤ × List ℕ × (ℕ → ℤ)) :=
  if s = 0 then
    if g = 0 then [(1, [1, 2], fun q => q + 1)] else [(1, [2, 1], fun q => 7 * q + 3)]
  else [(1, [2, 1], fun q => 5 * q + 1)]

theorem linkSystem_full : ∀ s < 2, FullLevels [[1, 1], [1, 2], [2, 1]] (linkGroups s) (linkSystem s) := by
  intro s hs g hg t ht
  unfold linkSystem at ht
  split at ht
  · split at ht
    all_goals
      simp only [List.mem_cons, List.not_mem_nil, or_false] at ht
      rcases ht with rfl
      decide +kernel
  · simp only [List.mem_cons, List.not_mem_nil, or_false] at ht
    rcases ht with rfl
    decide +kernel

theorem linkSystem_valid :
    ValidSystems exampleRefs [[1, 1], [1, 2], [2, 1]] 2 linkGroups linkSystem := by
  refine .of_full (fun s hs => .of_full ?_ (by decide) ?_ (linkSystem_full s hs)) linkSystem_full
  · intro r hr
    simp only [exampleRefs, List.mem_cons, List.not_mem_nil, or_false] at hr
    rcases hr with rfl | rfl
    · exact ⟨by decide, ⟨rfl, by decide, by decide⟩, by decide⟩
    · exact ⟨by decide, ⟨rfl, by decide, by decide⟩, by decide⟩
  · intro g hg t ht
    unfold linkSystem at ht
    split at ht
    · split at ht
      all_goals
        simp only [List.mem_cons, List.not_mem_nil, or_false] at ht
        rcases ht with rfl
        exact ⟨by decide, by simp [exampleRefs]⟩
    · simp only [List.mem_cons, List.not_mem_nil, or_false] at ht
      rcases ht with rfl
      exact ⟨by decide, by simp [exampleRefs]⟩

/-- all groups and both systems have the coarsest subspace, which has points -/
theorem linkSystem_shares :
    (∀ s < 2, linkGroups s = 1 ∨ ∀ g < linkGroups s, Shares exampleRefs (linkGroups s) (linkSystem s) g) ∧
    (∃ l, 0 < subspaceCount exampleRefs l ∧ SystemHolds (linkGroups 0) (linkSystem 0) l ∧
      SystemHolds (linkGroups 1) (linkSystem 1) l) := by
  have h0 : HoldsLevel (linkSystem 0) 0 [1, 1] :=
    ⟨(1, [1, 2], fun q => q + 1), by simp [linkSystem], by decide +kernel⟩
  have h1 : HoldsLevel (linkSystem 0) 1 [1, 1] :=
    ⟨(1, [2, 1], fun q => 7 * q + 3), by simp [linkSystem], by decide +kernel⟩
  have h2 : HoldsLevel (linkSystem 1) 0 [1, 1] :=
    ⟨(1, [2, 1], fun q => 5 * q + 1), by simp [linkSystem], by decide +kernel⟩
  refine ⟨?_, [1, 1], by decide +kernel, ⟨0, by decide, h0⟩, 0, by decide, h2⟩
  intro s hs
  have : s = 0 ∨ s = 1 := by omega
  rcases this with rfl | rfl
  · right
    intro g hg
    refine ⟨[1, 1], by decide +kernel, ?_⟩
    have : g = 0 ∨ g = 1 := by
      have : linkGroups 0 = 2 := rfl
      omega
    rcases this with rfl | rfl
    · exact ⟨h0, 1, by decide, by decide, h1⟩
    · exact ⟨h1, 0, by decide, by decide, h0⟩
  · left; rfl

/-- The hypotheses of `C86_manager_partial` and `C86_files_partial` hold for these systems. -/
example : ValidSystems exampleRefs [[1, 1], [1, 2], [2, 1]] 2 linkGroups linkSystem ∧
    (∀ s < 2, 0 < linkGroups s) ∧
    (∃ l, 0 < subspaceCount exampleRefs l ∧ SystemHolds (linkGroups 0) (linkSystem 0) l ∧
      SystemHolds (linkGroups 1) (linkSystem 1) l) ∧
    (∀ s < 2, [1 - s].Perm ((List.range 2).filter fun t => t ≠ s)) ∧
    (∀ l ∈ [[1, 1], [1, 2], [2, 1]], subspaceCount exampleRefs l < 2 ^ 30) ∧
    ([[1, 1], [1, 2], [2, 1]].map (subspaceCount exampleRefs)).sum < 2 ^ 31 - 1 :=
  ⟨linkSystem_valid, by decide, linkSystem_shares.2, by decide +kernel, by decide +kernel,
    by decide +kernel⟩

/-- The value of the combination at the first point of the second group of the first system that is not
in the coarsest subspace is 16 = 10 + 6. -/
theorem linkSystem_value : valueOfSystems exampleRefs 2 linkGroups linkSystem
    (spatialOf exampleRefs [2, 1] 1) = 16 := by decide +kernel

/-- C86 is violated by the variant with a communicator for the subspaces that several groups share, over the
third-level manager, with and without an extra sparse grid: the exchange covers only the subspaces that the
third-level group has or shares. A subspace that another group of the system and the other system have is not
combined between the systems; there is no error. -/
theorem C86_violated (hasExtra : Bool) :
    ∃ R : ℕ → ℕ → Group ℤ,
      linkCombine .outgroupSparseGridReduce hasExtra true 5 [[1, 1], [1, 2], [2, 1]]
        (fun s => systemOf exampleRefs (linkGroups s) 0 (linkSystem s)) = some ((List.range 2).map R) ∧
      ¬ AllCombined exampleRefs 2 linkGroups linkSystem R := by
  have hev : ∀ e, ((linkCombine .outgroupSparseGridReduce e true 5 [[1, 1], [1, 2], [2, 1]]
      (fun s => systemOf exampleRefs (linkGroups s) 0 (linkSystem s))).map fun l =>
        (l.length, (l.getD 0 fun _ => ⟨Dsg.empty [], []⟩) 1 |>.tasks.map fun t => t.2.data.val 1)) =
      some (2, [10]) := by decide +kernel
  have h := hev hasExtra
  rw [Option.map_eq_some_iff] at h
  obtain ⟨l, h1, h2⟩ := h
  rw [Prod.mk.injEq] at h2
  refine ⟨fun s => l.getD s fun _ => ⟨Dsg.empty [], []⟩, ?_, ?_⟩
  · rw [h1]
    congr 1
    apply List.ext_getElem
    · simp [h2.1]
    · intro i a b
      rw [List.getElem_map, List.getElem_range]
      exact (List.getD_eq_getElem _ _ a).symm
  · intro hall
    have := hall 0 (by omega) 1 (by decide)
    simp only [linkSystem, if_true, one_ne_zero, if_false] at this
    have h3 := h2.2
    generalize ((l.getD 0 fun _ => ⟨Dsg.empty [], []⟩) 1).tasks = ts at this h3
    cases this with
    | cons hd tl =>
      have hv := hd.2.2.2 1 (by decide +kernel)
      rw [linkSystem_value] at hv
      simp only [List.map_cons, List.cons.injEq] at h3
      omega

end Verif

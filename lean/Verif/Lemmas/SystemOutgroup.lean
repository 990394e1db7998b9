import Verif.Lemmas.SystemCombine

/-!
# Lemmas on the combination of several systems with an outgroup communicator

The reduction of the shared subspaces to one group, and the broadcast of the shared subspaces of one group.
-/

namespace Verif

variable {K : Type}

/-! ### Reduction to one group -/

/-- `S'` is `S` after the reduction of `subs` to group `root`. -/
structure ReducedTo [AddCommMonoid K] (root : ℕ) (members subs : List ℕ) (size : ℕ → ℕ)
    (S S' : ℕ → Group K) : Prop where
  other : ∀ g, g ≠ root → S' g = S g
  same : ∃ v, S' root = ⟨(S root).dsg.withVal v, (S root).tasks⟩
  hit : ∀ i ∈ subs, ∀ j < size i, (S' root).dsg.at i j = (members.map fun m => (S m).dsg.at i j).sum
  miss : ∀ i ∈ (S root).dsg.sel, i ∉ subs → ∀ j < (S root).dsg.sizes.getD i 0,
    (S' root).dsg.at i j = (S root).dsg.at i j

theorem ReducedTo.sizes_eq [AddCommMonoid K] {root : ℕ} {members subs : List ℕ} {size : ℕ → ℕ}
    {S S' : ℕ → Group K} (h : ReducedTo root members subs size S S') (g : ℕ) :
    (S' g).dsg.sizes = (S g).dsg.sizes ∧ (S' g).dsg.sel = (S g).dsg.sel ∧
      (S' g).dsg.levels = (S g).dsg.levels ∧ (S' g).tasks = (S g).tasks := by
  by_cases hg : g = root
  · subst hg
    obtain ⟨v, e⟩ := h.same
    rw [e]
    exact ⟨rfl, rfl, rfl, rfl⟩
  · rw [h.other g hg]
    exact ⟨rfl, rfl, rfl, rfl⟩

theorem ReducedTo.well [Ring K] {root : ℕ} {members subs : List ℕ} {size : ℕ → ℕ}
    {S S' : ℕ → Group K} (h : ReducedTo root members subs size S S') (g : ℕ)
    (hw : WellAllocated (S g).dsg) : WellAllocated (S' g).dsg := by
  by_cases hg : g = root
  · subst hg
    obtain ⟨v, e⟩ := h.same
    rw [e]
    exact hw.withVal v
  · rw [h.other g hg]
    exact hw

theorem reduceIndexed_eq [Ring K] (root : ℕ) (members chunk : List ℕ) (hroot : root ∈ members)
    (size : ℕ → ℕ) (S : ℕ → Group K) (h : Reducible members chunk size S) :
    ∃ S', reduceIndexed (some root) members (members.map fun g => posOf (S g).dsg chunk) S = some S' ∧
      ReducedTo root members chunk size S S' := by
  obtain ⟨S1, e1, r1⟩ := allreduceIndexed_eq members chunk size S h
  refine ⟨Function.update S root (S1 root), ?_, ?_, ?_, ?_, ?_⟩
  · unfold reduceIndexed
    simp only
    rw [e1]
    rfl
  · intro g hg
    exact Function.update_of_ne hg _ _
  · rw [Function.update_self]
    exact r1.same root hroot
  · rw [Function.update_self]
    exact r1.hit root hroot
  · rw [Function.update_self]
    exact r1.miss root hroot

/-- reducing chunk after chunk -/
theorem chunks_reduceTo_eq [Ring K] (root : ℕ) (members : List ℕ) (hroot : root ∈ members) (size : ℕ → ℕ)
    (chunks : List (List ℕ)) (hnd : chunks.flatten.Nodup) (S : ℕ → Group K)
    (h : Reducible members chunks.flatten size S) (P : ℕ → List ℕ → List ℕ)
    (hP : ∀ g ∈ members, ∀ c ∈ chunks, P g c = posOf (S g).dsg c) :
    ∃ S', chunks.foldlM (fun S c => reduceIndexed (some root) members (members.map fun g => P g c) S) S =
      some S' ∧ ReducedTo root members chunks.flatten size S S' := by
  induction chunks generalizing S with
  | nil =>
    refine ⟨S, rfl, fun _ _ => rfl, ⟨(S root).dsg.data.val, rfl⟩, by simp, ?_⟩
    exact fun _ _ _ _ _ => rfl
  | cons c cs ih =>
    rw [List.flatten_cons] at hnd h ⊢
    rw [List.nodup_append] at hnd
    obtain ⟨S1, e1, r1⟩ := reduceIndexed_eq root members c hroot size S
      ⟨h.well, fun g hg s hs => h.sel g hg s (by simp [hs]),
        fun g hg s hs => h.size g hg s (by simp only [List.mem_append]; exact Or.inl hs)⟩
    obtain ⟨S2, e2, r2⟩ := ih hnd.2.1 S1
      ⟨fun g hg => r1.well g (h.well g hg), fun g hg s hs => by
          rw [(r1.sizes_eq g).2.1]
          exact h.sel g hg s (by rw [List.mem_append]; exact Or.inr hs),
        fun g hg s hs => by
          rw [(r1.sizes_eq g).1]
          exact h.size g hg s (by rw [List.mem_append]; exact Or.inr hs)⟩ (by
        intro g hg c' hc'
        rw [hP g hg c' (by simp [hc'])]
        unfold posOf
        rw [(r1.sizes_eq g).1, (r1.sizes_eq g).2.1])
    refine ⟨S2, ?_, ?_, ?_, ?_, ?_⟩
    · rw [List.foldlM_cons]
      have : (members.map fun g => P g c) = members.map fun g => posOf (S g).dsg c :=
        List.map_congr_left fun g hg => hP g hg c (by simp)
      rw [this, e1]
      exact e2
    · intro g hg
      rw [r2.other g hg, r1.other g hg]
    · obtain ⟨v1, q1⟩ := r1.same
      obtain ⟨v2, q2⟩ := r2.same
      refine ⟨v2, ?_⟩
      rw [q2, q1]
      rfl
    · intro i hi j hj
      rcases List.mem_append.1 hi with hi | hi
      · rw [r2.miss i (by
            rw [(r1.sizes_eq root).2.1]
            exact h.sel root hroot i (by simp [hi])) (fun hc => hnd.2.2 i hi i hc rfl) j (by
            rw [(r1.sizes_eq root).1,
              h.size root hroot i (by simp only [List.mem_append]; exact Or.inl hi)]
            exact hj)]
        exact r1.hit i hi j hj
      · rw [r2.hit i hi j hj]
        congr 1
        apply List.map_congr_left
        intro m hm
        by_cases hmr : m = root
        · subst hmr
          apply r1.miss i (h.sel m hm i (by simp only [List.mem_append]; exact Or.inr hi))
          · exact fun hc => hnd.2.2 i hc i hi rfl
          · rw [h.size m hm i (by simp only [List.mem_append]; exact Or.inr hi)]
            exact hj
        · rw [r1.other m hmr]
    · intro i hi hni j hj
      rw [List.mem_append, not_or] at hni
      rw [r2.miss i (by rw [(r1.sizes_eq root).2.1]; exact hi) hni.2 j (by
        rw [(r1.sizes_eq root).1]; exact hj)]
      exact r1.miss i hi hni.1 j hj

/-- The subspace reduction to one group. -/
theorem subspaceReduceTo_eq [Ring K] (root : ℕ) (maxChunk : ℕ) (hmax : maxChunk ≤ 2 ^ 31)
    (members subs : List ℕ) (hroot : root ∈ members) (size : ℕ → ℕ) (hsort : subs.Pairwise (· < ·))
    (hsize : ∀ s ∈ subs, size s < 2 ^ 31) (subsOf : ℕ → List ℕ) (S : ℕ → Group K)
    (hsub : ∀ g ∈ members, subsOf g = subs) (h : Reducible members subs size S)
    (hfit : ∀ g ∈ members, ∀ c ∈ getChunkedSubspaces size maxChunk subs, ∀ s ∈ c, ∀ s0 ∈ c,
      selOffset (S g).dsg.sizes (S g).dsg.sel s < selOffset (S g).dsg.sizes (S g).dsg.sel s0 + 2 ^ 31) :
    ∃ S', subspaceReduceTo (some root) maxChunk members subsOf S = some S' ∧
      ReducedTo root members subs size S S' := by
  obtain ⟨hc1, hc2⟩ := C33_chunks_partial size maxChunk hmax subs hsize hsort
  generalize hch : getChunkedSubspaces size maxChunk subs = chunks at *
  have hdt : ∀ g ∈ members, getReductionDatatypes (S g).dsg maxChunk (subsOf g) =
      some (chunks.map (posOf (S g).dsg)) := by
    intro g hg
    unfold getReductionDatatypes
    rw [hsub g hg, C33_same_chunks _ size maxChunk subs (fun s hs => h.size g hg s hs), hch]
    apply mapM_some_map
    intro c hc
    have hcs : ∀ s ∈ c, s ∈ subs := fun s hs => by
      rw [← hc1]; exact List.mem_flatten.2 ⟨c, hc, hs⟩
    apply datatypePositions_eq _ (h.well g hg) _ (hc2 c hc).1
    · have hsub : c.Sublist subs := by
        rw [← hc1]
        exact List.sublist_flatten_of_mem hc
      exact List.Pairwise.sublist hsub hsort
    · exact fun s hs => h.sel g hg s (hcs s hs)
    · exact fun s hs => by rw [h.size g hg s (hcs s hs)]; exact hsize s (hcs s hs)
    · exact hfit g hg c hc
  have hnd : chunks.flatten.Nodup := by rw [hc1]; exact hsort.imp fun h => ne_of_lt h
  unfold subspaceReduceTo
  rw [mapM_some_map _ _ _ hdt]
  simp only [Option.bind_eq_bind, Option.bind_some]
  rw [if_pos (by
    rw [List.all_eq_true]
    intro d hd
    obtain ⟨g, hg, rfl⟩ := List.mem_map.1 hd
    cases members with
    | nil => simp at hg
    | cons m ms => simp)]
  obtain ⟨S', e, r⟩ := chunks_reduceTo_eq root members hroot size chunks hnd S (by rw [hc1]; exact h)
    (fun g c => posOf (S g).dsg c) (fun _ _ _ _ => rfl)
  rw [hc1] at r
  refine ⟨S', ?_, r⟩
  have hlen : ((members.map fun g => chunks.map (posOf (S g).dsg)).headD []).length =
      chunks.length := by
    cases members with
    | nil => simp at hroot
    | cons m ms => simp
  rw [hlen, ← e]
  have := foldlM_range_getD chunks [] (fun (T : ℕ → Group K) c =>
    reduceIndexed (some root) members (members.map fun g => posOf (S g).dsg c) T) S
  rw [← this]
  refine foldlM_congr_mem _ _ _ (fun T k hk => ?_) _
  have hk' := List.mem_range.1 hk
  have e1 : ((members.map fun g => chunks.map (posOf (S g).dsg)).map fun d => d.getD k []) =
      members.map fun g => posOf (S g).dsg (chunks.getD k []) := by
    rw [List.map_map]
    apply List.map_congr_left
    intro g _
    simp only [Function.comp]
    rw [List.getD_eq_getElem _ _ (by simpa using hk'), List.getD_eq_getElem _ _ hk',
      List.getElem_map]
  rw [e1]

/-! ### Broadcast of the shared subspaces -/

/-- the broadcast leaves the other subspaces as they are -/
theorem bcastIndexed_miss [Ring K] (root : ℕ) (members chunk : List ℕ)
    (size : ℕ → ℕ) (S S' : ℕ → Group K) (h : Reducible members chunk size S)
    (hb : bcastIndexed root members (members.map fun g => posOf (S g).dsg chunk) S = some S') :
    ∀ g ∈ members, ∀ i ∈ (S g).dsg.sel, i ∉ chunk → ∀ j < (S g).dsg.sizes.getD i 0,
      (S' g).dsg.at i j = (S g).dsg.at i j := by
  unfold bcastIndexed at hb
  rw [Option.bind_eq_bind, Option.bind_eq_some_iff] at hb
  obtain ⟨rp, -, hb⟩ := hb
  split at hb
  case isFalse => exact absurd hb (by simp)
  rw [Option.some.injEq] at hb
  intro g hg i hi hni j hj
  rw [← hb]
  simp only [lookup_zip_map, if_pos hg, Option.elim_some]
  unfold Group.setData Dsg.at
  simp only
  rw [if_neg]
  rw [mem_posOf]
  rintro ⟨s, hs, k, hk, he⟩
  have e := storage_inj (sizes := (S g).dsg.sizes) (sel := (S g).dsg.sel) (i := i) (i' := s)
    (j := j) (j' := k) (by rw [selSize_of_mem hi]; exact hj)
    (by rw [selSize_of_mem (h.sel g hg _ hs)]; exact hk) he
  exact hni (e.1 ▸ hs)

/-! ### The groups of a system -/

theorem offset_le_sum (sizes : List ℕ) (i : ℕ) (hi : i ≤ sizes.length) :
    selOffset sizes (List.range sizes.length) i ≤ sizes.sum := by
  refine le_trans (selOffset_mono _ _ hi) (le_of_eq ?_)
  rw [selOffset_length _ _ List.nodup_range (fun i hi => List.mem_range.1 hi)]
  congr 1
  apply List.ext_getElem
  · simp
  · intro i h1 h2
    rw [List.getElem_map, List.getElem_range]
    exact List.getD_eq_getElem _ _ h2

/-- zeroing, adding and reducing the shared subspaces to group `o` -/
theorem linkCollect_outgroup [Ring K] {levels : List (List ℕ)} (hs : levels.Pairwise (· < ·))
    (n o : ℕ) (ho : o < n) (sizes : ℕ → List ℕ) (hlen : ∀ g, (sizes g).length = levels.length)
    (maxChunk : ℕ) (hmax : maxChunk ≤ 2 ^ 31) (hlt : ∀ g < n, (sizes g).sum < 2 ^ 31) (shared : List ℕ)
    (hsort : shared.Pairwise (· < ·)) (hsr : ∀ i ∈ shared, i < levels.length) (size : ℕ → ℕ)
    (hsize : ∀ i ∈ shared, size i < 2 ^ 31)
    (hsz : ∀ g < n, ∀ i ∈ shared, (sizes g).getD i 0 = size i) (st : LinkState K)
    (hcomm : (∀ g < n, st.comm g = some shared) ∨ (shared = [] ∧ ∀ g < n, st.comm g = none))
    (hg : ∀ g < n, GroupOk levels (sizes g) (st.groups g) ∧ (st.groups g).dsg.data.len = 0 ∧
      (st.groups g).dsg.kahan.len = 0 ∧
      ((st.groups g).dsg.sel = [] ∨ (st.groups g).dsg.sel = List.range levels.length)) :
    ∃ S', linkCollect .outgroupSparseGridReduce (some o) maxChunk n st = some S' ∧
      (∀ g < n, Ready levels (sizes g) (S' g) ∧ (S' g).tasks = (st.groups g).tasks) ∧
      (∀ i ∈ shared, ∀ j < size i, (S' o).dsg.at i j =
        ((List.range n).map fun m => localSum levels (st.groups m).tasks i j).sum) ∧
      ∀ g < n, ∀ i < levels.length, (g = o → i ∉ shared) → ∀ j < (sizes g).getD i 0,
        (S' g).dsg.at i j = localSum levels (st.groups g).tasks i j := by
  obtain ⟨S1, a1, a2⟩ := collectGroups_eq hs n sizes hlen
    (fun g hg => lt_trans (hlt g hg) (by norm_num)) st.groups
    (fun g hgn => ⟨(hg g hgn).1, Or.inl (hg g hgn).2⟩)
  rcases hcomm with hcomm | ⟨hnil, hcomm⟩
  · have hred : Reducible (List.range n) shared size S1 :=
      ⟨fun g hgm => (a2 g (List.mem_range.1 hgm)).1.2.1, fun g hgm s hs => by
        rw [(a2 g (List.mem_range.1 hgm)).1.2.2, List.mem_range]; exact hsr s hs, fun g hgm s hs => by
        rw [(a2 g (List.mem_range.1 hgm)).1.1.siz]; exact hsz g (List.mem_range.1 hgm) s hs⟩
    obtain ⟨S2, b1, b2⟩ := subspaceReduceTo_eq o maxChunk hmax (List.range n) shared (List.mem_range.2 ho)
      size hsort hsize (fun g => (st.comm g).getD []) S1 (fun g hgm => by
        rw [hcomm g (List.mem_range.1 hgm)]; rfl) hred (by
      intro g hgm c hc s hs' s0 hs0
      have hgn := List.mem_range.1 hgm
      have hcs : s ∈ shared := by
        obtain ⟨hc1, -⟩ := C33_chunks_partial size maxChunk hmax shared hsize hsort
        rw [← hc1]
        exact List.mem_flatten.2 ⟨c, hc, hs'⟩
      rw [(a2 g hgn).1.1.siz, (a2 g hgn).1.2.2, ← hlen g]
      have := offset_le_sum (sizes g) s (by rw [hlen]; exact le_of_lt (hsr s hcs))
      have := hlt g hgn
      omega)
    refine ⟨S2, ?_, ?_, ?_, ?_⟩
    · unfold linkCollect
      rw [a1]
      simp only [Option.bind_eq_bind, Option.bind_some]
      rw [if_neg, if_pos]
      · exact b1
      · unfold commsMatch
        rw [Bool.or_eq_true]
        left
        rw [List.all_eq_true]
        intro g hgm
        rw [hcomm g (List.mem_range.1 hgm)]
        rfl
      · intro hall
        rw [List.all_eq_true] at hall
        have := hall o (List.mem_range.2 ho)
        rw [hcomm o ho] at this
        simp at this
    · intro g hgn
      obtain ⟨⟨q1, q2, q3⟩, q4, -⟩ := a2 g hgn
      obtain ⟨r1, r2, r3, r4⟩ := b2.sizes_eq g
      exact ⟨⟨⟨r3.trans q1.lev, r1.trans q1.siz, by rw [r4]; exact q1.ok⟩, b2.well g q2, r2.trans q3⟩,
        r4.trans q4⟩
    · intro i hi j hj
      rw [b2.hit i hi j hj]
      congr 1
      apply List.map_congr_left
      intro m hm
      have hm' := List.mem_range.1 hm
      exact (a2 m hm').2.2 i (hsr i hi) j (by rw [hsz m hm' i hi]; exact hj)
    · intro g hgn i hi hno j hj
      by_cases hgo : g = o
      · subst hgo
        rw [b2.miss i (by rw [(a2 g hgn).1.2.2, List.mem_range]; exact hi) (hno rfl) j (by
          rw [(a2 g hgn).1.1.siz]; exact hj)]
        exact (a2 g hgn).2.2 i hi j hj
      · rw [b2.other g hgo]
        exact (a2 g hgn).2.2 i hi j hj
  · refine ⟨S1, ?_, fun g hgn => ⟨(a2 g hgn).1, (a2 g hgn).2.1⟩, by rw [hnil]; simp, ?_⟩
    · unfold linkCollect
      rw [a1]
      simp only [Option.bind_eq_bind, Option.bind_some]
      rw [if_pos]
      rw [List.all_eq_true]
      intro g hgm
      rw [hcomm g (List.mem_range.1 hgm)]
      rfl
    · intro g hgn i hi _ j hj
      exact (a2 g hgn).2.2 i hi j hj

theorem chunked_all (size : ℕ → ℕ) (M : ℕ) (hM : M ≤ 2 ^ 31) (c : List ℕ) (hne : c ≠ [])
    (hpos : ∀ s ∈ c, 0 < size s) (hsum : (c.map size).sum < M) (hsort : c.Pairwise (· < ·)) :
    getChunkedSubspaces size M c = [c] := by
  cases c with
  | nil => exact absurd rfl hne
  | cons s ss =>
    rw [List.map_cons, List.sum_cons] at hsum
    have hm : size s % 2 ^ 32 = size s := Nat.mod_eq_of_lt (by omega)
    rw [getChunkedSubspaces, hm, chunkLoop_all size M hM [s] (size s) ss
      (fun t ht => hpos t (by simp [ht])) hsum hsort]
    simp [getChunkedSubspaces]

/-- broadcast of the shared subspaces, and extraction -/
theorem linkDistribute_outgroup [Ring K] {levels : List (List ℕ)} (n o : ℕ) (ho : o < n)
    (sizes : ℕ → List ℕ) (hlen : ∀ g, (sizes g).length = levels.length)
    (hlt : ∀ g < n, (sizes g).sum < 2 ^ 31 - 1) (shared : List ℕ)
    (hsort : shared.Pairwise (· < ·)) (hsr : ∀ i ∈ shared, i < levels.length) (size : ℕ → ℕ)
    (hsz : ∀ g < n, ∀ i ∈ shared, (sizes g).getD i 0 = size i) (hszpos : ∀ i ∈ shared, 0 < size i)
    (comm : ℕ → Option (List ℕ))
    (hcomm : (shared ≠ [] ∧ ∀ g < n, comm g = some shared) ∨ (shared = [] ∧ ∀ g < n, comm g = none))
    (S : ℕ → Group K) (hr : ∀ g < n, Ready levels (sizes g) (S g)) :
    ∃ S', linkDistribute .outgroupSparseGridReduce n o comm S = some S' ∧
      ∀ g < n, ExtractedAll levels (sizes g) (List.range levels.length)
        (fun i j => if i ∈ shared then (S o).dsg.at i j else (S g).dsg.at i j)
        (S g).tasks (S' g).tasks := by
  obtain ⟨S1, a1, a2, a3, a4⟩ : ∃ S1, bcastOutgroup n o comm S = some S1 ∧
      (∀ g < n, Ready levels (sizes g) (S1 g) ∧ (S1 g).tasks = (S g).tasks) ∧
      (∀ g < n, ∀ i ∈ shared, ∀ j < size i, (S1 g).dsg.at i j = (S o).dsg.at i j) ∧
      ∀ g < n, ∀ i < levels.length, i ∉ shared → ∀ j < (sizes g).getD i 0,
        (S1 g).dsg.at i j = (S g).dsg.at i j := by
    rcases hcomm with ⟨hne, hcomm⟩ | ⟨hnil, hcomm⟩
    · have hred : Reducible (List.range n) shared size S :=
        ⟨fun g hgm => (hr g (List.mem_range.1 hgm)).2.1, fun g hgm s hs => by
          rw [(hr g (List.mem_range.1 hgm)).2.2, List.mem_range]; exact hsr s hs, fun g hgm s hs => by
          rw [(hr g (List.mem_range.1 hgm)).1.siz]; exact hsz g (List.mem_range.1 hgm) s hs⟩
      have hsum : (shared.map size).sum < 2 ^ 31 - 1 := by
        have h1 : (shared.map size) = shared.map fun i => (sizes o).getD i 0 :=
          List.map_congr_left fun i hi => (hsz o ho i hi).symm
        have h2 : (shared.map fun i => (sizes o).getD i 0).sum =
            selOffset (sizes o) shared (sizes o).length := by
          rw [selOffset_length _ _ (hsort.imp fun h => ne_of_lt h) (by rw [hlen]; exact hsr)]
        have h3 : (shared.map fun i => (sizes o).getD i 0).sum ≤
            ((List.range (sizes o).length).map fun i => (sizes o).getD i 0).sum := by
          refine List.Sublist.sum_le_sum (List.Sublist.map _ ?_) (by simp)
          have hsub : shared.Subperm (List.range (sizes o).length) :=
            List.subperm_of_subset (hsort.imp fun h => ne_of_lt h)
              (fun i hi => List.mem_range.2 (by rw [hlen]; exact hsr i hi))
          exact List.sublist_of_subperm_of_sortedLE hsub hsort.sortedLT.sortedLE
            (List.sortedLT_range _).sortedLE
        have h4 := offset_le_sum (sizes o) (sizes o).length le_rfl
        rw [selOffset_length _ _ List.nodup_range (fun i hi => List.mem_range.1 hi)] at h4
        have := hlt o ho
        rw [h1]
        omega
      have hsize : ∀ i ∈ shared, size i < 2 ^ 31 := by
        intro i hi
        have := List.single_le_sum (l := shared.map size) (by simp) _ (List.mem_map.2 ⟨i, hi, rfl⟩)
        omega
      have hdt : ∀ g ∈ List.range n, bcastDatatypeOf (S g).dsg ((comm g).getD []) =
          some (posOf (S g).dsg shared) := by
        intro g hgm
        have hgn := List.mem_range.1 hgm
        have hch : getChunkedSubspaces (fun s => (S g).dsg.sizes.getD s 0) (2 ^ 31 - 1) shared =
            [shared] := by
          rw [(hr g hgn).1.siz, C33_same_chunks _ size _ shared fun s hs => hsz g hgn s hs]
          exact chunked_all size _ (by omega) shared hne hszpos hsum hsort
        have hdp := datatypePositions_eq (S g).dsg (hr g hgn).2.1 shared hne hsort
          (fun s hs => hred.sel g hgm s hs)
          (fun s hs => by rw [hred.size g hgm s hs]; exact hsize s hs) (by
            intro s hs s0 hs0
            rw [(hr g hgn).1.siz, (hr g hgn).2.2, ← hlen g]
            have := offset_le_sum (sizes g) s (by rw [hlen]; exact le_of_lt (hsr s hs))
            have := hlt g hgn
            omega)
        unfold bcastDatatypeOf getReductionDatatypes
        rw [hcomm g hgn]
        simp only [Option.getD_some]
        rw [hch, List.mapM_cons, hdp]
        rfl
      obtain ⟨S1, c1, c2, c3⟩ := bcastIndexed_eq o (List.range n) shared (List.mem_range.2 ho) size S hred
      have c4 := bcastIndexed_miss o (List.range n) shared size S S1 hred c1
      refine ⟨S1, ?_, ?_, ?_, ?_⟩
      · unfold bcastOutgroup
        rw [if_neg, if_pos, mapM_some_map _ _ _ hdt]
        · exact c1
        · unfold commsMatch
          rw [Bool.or_eq_true]
          left
          rw [List.all_eq_true]
          intro g hgm
          rw [hcomm g (List.mem_range.1 hgm)]
          rfl
        · intro hall
          rw [List.all_eq_true] at hall
          have := hall o (List.mem_range.2 ho)
          rw [hcomm o ho] at this
          simp at this
      · intro g hgn
        obtain ⟨v, e⟩ := c2 g (List.mem_range.2 hgn)
        rw [e]
        exact ⟨(hr g hgn).withVal v, rfl⟩
      · intro g hgn i hi j hj
        exact c3 g (List.mem_range.2 hgn) i hi j hj
      · intro g hgn i hi hni j hj
        exact c4 g (List.mem_range.2 hgn) i (by rw [(hr g hgn).2.2, List.mem_range]; exact hi) hni j (by
          rw [(hr g hgn).1.siz]; exact hj)
    · refine ⟨S, ?_, fun g hgn => ⟨hr g hgn, rfl⟩, by rw [hnil]; simp, fun _ _ _ _ _ _ _ => rfl⟩
      unfold bcastOutgroup
      rw [if_pos]
      rw [List.all_eq_true]
      intro g hgm
      rw [hcomm g (List.mem_range.1 hgm)]
      rfl
  obtain ⟨S2, c1, c2⟩ := extractGroups_eq n sizes (fun g _ => hlen g) S1 (fun g hg => (a2 g hg).1)
  refine ⟨S2, ?_, fun g hg => ?_⟩
  · unfold linkDistribute
    simp only
    rw [a1]
    exact c1
  · have := (c2 g hg).1
    rw [(a2 g hg).2] at this
    refine this.congr (by rw [← (a2 g hg).2]; exact (a2 g hg).1.1.ok) (fun _ _ _ => Iff.rfl) ?_
    intro i hi _ j hj
    split
    · rename_i h1
      exact a3 g hg i h1 j (by rw [← hsz g hg i h1]; exact hj)
    · rename_i h1
      exact a4 g hg i hi h1 j hj

end Verif

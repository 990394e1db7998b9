import Verif.Model.WideCombine
import Verif.Lemmas.CombineSystem

/-!
# Lemmas on the combination of several systems
-/

namespace Verif

variable {K : Type}

/-! ### Copies between sparse grids -/

/-- Sparse grid with allocated data; the levels may have been reset. -/
structure Placed (d : Dsg K) : Prop where
  selRange : ∀ i ∈ d.sel, i < d.sizes.length
  ptr : ∀ i < d.sizes.length, d.ptr[i]? = some (selOffset d.sizes d.sel i)
  dataLen : d.data.len = selOffset d.sizes d.sel d.sizes.length

theorem WellAllocated.placed [Zero K] {d : Dsg K} (h : WellAllocated d) : Placed d :=
  ⟨h.selRange, h.ptr, h.dataLen⟩

theorem Placed.withVal {d : Dsg K} (h : Placed d) (v : ℕ → K) : Placed (d.withVal v) :=
  ⟨h.selRange, h.ptr, h.dataLen⟩

theorem Dsg.withVal_withVal (d : Dsg K) (v w : ℕ → K) : (d.withVal v).withVal w = d.withVal w := rfl

theorem Dsg.withVal_val (d : Dsg K) : d.withVal d.data.val = d := rfl

theorem copyPoints_eq (f : ℕ → K) (src : Buf K) (p q n : ℕ) (hp : p + n ≤ src.len)
    (hf : ∀ j < n, src.val (p + j) = f j) (b : Buf K) (hq : q + n ≤ b.len) :
    ∃ v, (List.range n).foldlM
        (fun buf j => (src.get? (p + j)).bind fun x => buf.set? (q + j) x) b = some ⟨b.len, v⟩ ∧
      (∀ j < n, v (q + j) = f j) ∧ ∀ x, (x < q ∨ q + n ≤ x) → v x = b.val x := by
  induction n with
  | zero => exact ⟨b.val, rfl, by simp, fun _ _ => rfl⟩
  | succ n ih =>
    obtain ⟨v, h1, h2, h3⟩ := ih (by omega) (fun j hj => hf j (by omega)) (by omega)
    refine ⟨Function.update v (q + n) (f n), ?_, ?_, ?_⟩
    · rw [List.range_succ, List.foldlM_append, h1]
      simp only [Option.bind_eq_bind, Option.bind_some, List.foldlM_cons, List.foldlM_nil]
      unfold Buf.get? Buf.set?
      rw [if_pos (by omega), Option.bind_some, if_pos (show q + n < b.len by omega), hf n (by omega)]
      rfl
    · intro j hj
      by_cases hjn : j = n
      · subst hjn
        simp
      · rw [Function.update_of_ne (by omega)]
        exact h2 j (by omega)
    · intro x hx
      rw [Function.update_of_ne (by omega)]
      exact h3 x (by omega)

theorem copySubspace_eq (src dst : Dsg K) (hs : Placed src) (hd : Placed dst) (v : ℕ → K) {i : ℕ}
    (his : i ∈ src.sel) (hid : i ∈ dst.sel) (hsz : src.sizes.getD i 0 = dst.sizes.getD i 0) :
    ∃ w, copySubspace src dst ⟨dst.data.len, v⟩ i = some ⟨dst.data.len, w⟩ ∧
      (∀ j < dst.sizes.getD i 0, (dst.withVal w).at i j = src.at i j) ∧
      ∀ i' ∈ dst.sel, i' ≠ i → ∀ j < dst.sizes.getD i' 0,
        (dst.withVal w).at i' j = (dst.withVal v).at i' j := by
  have h1 := hs.selRange i his
  have h2 := hd.selRange i hid
  have l1 := storage_le (sel := src.sel) h1
  have l2 := storage_le (sel := dst.sel) h2
  rw [selSize_of_mem his, hsz, ← hs.dataLen] at l1
  rw [selSize_of_mem hid, ← hd.dataLen] at l2
  obtain ⟨w, e1, e2, e3⟩ := copyPoints_eq (fun j => src.at i j) src.data
    (selOffset src.sizes src.sel i) (selOffset dst.sizes dst.sel i) (dst.sizes.getD i 0) l1
    (fun _ _ => rfl) ⟨dst.data.len, v⟩ l2
  refine ⟨w, ?_, e2, ?_⟩
  · unfold copySubspace
    rw [List.getElem?_eq_getElem h1, List.getElem?_eq_getElem h2, hs.ptr i h1, hd.ptr i h2]
    simp only [Option.bind_eq_bind, Option.bind_some]
    rw [List.getD_eq_getElem _ _ h1, List.getD_eq_getElem _ _ h2] at hsz
    rw [hsz, min_self]
    rw [List.getD_eq_getElem _ _ h2] at e1
    exact e1
  · intro i' hi' hne j hj
    unfold Dsg.at Dsg.withVal
    simp only
    apply e3
    by_contra hc
    push Not at hc
    obtain ⟨m, hm⟩ := Nat.exists_eq_add_of_le hc.1
    have := storage_inj (sizes := dst.sizes) (sel := dst.sel) (i := i') (i' := i) (j := j) (j' := m)
      (by rw [selSize_of_mem hi']; exact hj) (by rw [selSize_of_mem hid]; omega) hm
    exact hne this.1

theorem copyDataFrom_eq (dst src : Dsg K) (hs : Placed src) (hd : Placed dst) (subs : List ℕ)
    (hn : subs.Nodup) (his : ∀ i ∈ subs, i ∈ src.sel) (hid : ∀ i ∈ subs, i ∈ dst.sel)
    (hsz : ∀ i ∈ subs, src.sizes.getD i 0 = dst.sizes.getD i 0) :
    ∃ w, dst.copyDataFrom src subs = some (dst.withVal w) ∧
      (∀ i ∈ subs, ∀ j < dst.sizes.getD i 0, (dst.withVal w).at i j = src.at i j) ∧
      ∀ i ∈ dst.sel, i ∉ subs → ∀ j < dst.sizes.getD i 0, (dst.withVal w).at i j = dst.at i j := by
  have H : ∀ (l : List ℕ) (v : ℕ → K), l.Nodup → (∀ i ∈ l, i ∈ subs) →
      ∃ w, l.foldlM (copySubspace src dst) ⟨dst.data.len, v⟩ = some ⟨dst.data.len, w⟩ ∧
        (∀ i ∈ l, ∀ j < dst.sizes.getD i 0, (dst.withVal w).at i j = src.at i j) ∧
        ∀ i ∈ dst.sel, i ∉ l → ∀ j < dst.sizes.getD i 0,
          (dst.withVal w).at i j = (dst.withVal v).at i j := by
    intro l
    induction l with
    | nil => exact fun v _ _ => ⟨v, rfl, by simp, fun _ _ _ _ _ => rfl⟩
    | cons i l ih =>
      intro v hnd hl
      rw [List.nodup_cons] at hnd
      have hi := hl i (by simp)
      obtain ⟨w1, a1, a2, a3⟩ := copySubspace_eq src dst hs hd v (his i hi) (hid i hi) (hsz i hi)
      obtain ⟨w2, b1, b2, b3⟩ := ih w1 hnd.2 fun i' h => hl i' (by simp [h])
      refine ⟨w2, ?_, ?_, ?_⟩
      · rw [List.foldlM_cons, a1]
        exact b1
      · intro i' hi' j hj
        rcases List.mem_cons.1 hi' with rfl | hi'
        · rw [b3 i' (hid i' hi) hnd.1 j hj, a2 j hj]
        · exact b2 i' hi' j hj
      · intro i' hi' hni j hj
        rw [List.mem_cons, not_or] at hni
        rw [b3 i' hi' hni.2 j hj, a3 i' hi' hni.1 j hj]
  obtain ⟨w, e1, e2, e3⟩ := H subs dst.data.val hn fun _ h => h
  refine ⟨w, ?_, e2, e3⟩
  unfold Dsg.copyDataFrom
  rw [show dst.data = ⟨dst.data.len, dst.data.val⟩ from rfl, e1]
  rfl

/-! ### Extracting again -/

theorem Extracted.over {levels : List (List ℕ)} (hs : levels.Nodup) {sizes a b : List ℕ}
    {F G : ℕ → ℕ → K} {t t' t'' : Dfg K} (hok : TaskOk levels sizes t)
    (h1 : Extracted levels sizes a F t t') (h2 : Extracted levels sizes b G t' t'') :
    Extracted levels sizes (a ++ b) (fun i j => if i ∈ b then G i j else F i j) t t'' := by
  have e := h1.levels_eq
  refine ⟨h2.dims.trans h1.dims, h2.len.trans h1.len, ?_, ?_⟩
  · intro i hi hl hm hp j hj
    by_cases hb : i ∈ b
    · rw [if_pos hb]
      have := h2.hit i hi (by rw [e]; exact hl) hb hp j (by rw [h1.dims]; exact hj)
      simp only [h1.dims] at this
      exact this
    · rw [if_neg hb]
      have hm := (List.mem_append.1 hm).resolve_right hb
      rw [h2.miss, h1.hit i hi hl hm hp j hj]
      intro i' hi' hl' hm' _ hcon
      rw [e] at hl'
      rw [h1.dims] at hcon
      have := hok.disj _ hl _ hl' _ (List.getElem_mem hj) hcon
      rw [hs.getElem_inj_iff] at this
      subst this
      exact hb hm'
  · intro p hp
    rw [h2.miss, h1.miss]
    · intro i hi hl hm hpos
      exact hp i hi hl (by simp [hm]) hpos
    · intro i hi hl hm hpos
      rw [h1.dims]
      exact hp i hi (by rw [← e]; exact hl) (by simp [hm]) hpos

theorem ExtractedAll.over {levels : List (List ℕ)} (hs : levels.Nodup) {sizes a b : List ℕ}
    {F G : ℕ → ℕ → K} {ts ts' ts'' : List (K × Dfg K)} (hok : ∀ t ∈ ts, TaskOk levels sizes t.2)
    (h1 : ExtractedAll levels sizes a F ts ts') (h2 : ExtractedAll levels sizes b G ts' ts'') :
    ExtractedAll levels sizes (a ++ b) (fun i j => if i ∈ b then G i j else F i j) ts ts'' := by
  induction h1 generalizing ts'' with
  | nil => cases h2; exact List.Forall₂.nil
  | cons h1 _ ih =>
    cases h2 with
    | cons h2 h2' =>
      exact List.Forall₂.cons ⟨h2.1.trans h1.1, h1.2.over hs (hok _ (by simp)) h2.2⟩
        (ih (fun t ht => hok t (by simp [ht])) h2')

/-! ### Collecting -/

/-- The extra sparse grid with sizes `esz` on a group with sizes `osz`. -/
structure Extra (esz osz : List ℕ) (e : Dsg K) : Prop where
  placed : Placed e
  sizes : e.sizes = esz
  sel : e.sel = List.range esz.length
  data : e.data.len ≠ 0
  fit : ∀ i, esz.getD i 0 ≠ 0 → osz.getD i 0 = esz.getD i 0

theorem Extra.withVal {esz osz : List ℕ} {e : Dsg K} (h : Extra esz osz e) (v : ℕ → K) :
    Extra esz osz (e.withVal v) := ⟨h.placed.withVal v, h.sizes, h.sel, h.data, h.fit⟩

theorem mem_subspacesToCopy {d e : Dsg K} {i : ℕ} :
    i ∈ subspacesToCopy d e ↔ i ∈ d.sel ∧ e.sizes.getD i 0 ≠ 0 := by
  unfold subspacesToCopy
  rw [List.mem_filter, decide_eq_true_eq]

theorem lt_of_getD_ne {l : List ℕ} {i : ℕ} (h : l.getD i 0 ≠ 0) : i < l.length := by
  by_contra hc
  exact h (List.getD_eq_default _ _ (by omega))

theorem copyToExtra_eq {esz osz : List ℕ} {e : Dsg K} (h : Extra esz osz e) (src : Dsg K)
    (hp : Placed src) (hsz : src.sizes = osz) (hn : src.sel.Nodup) :
    ∃ w, copyFromPartialDsgToExtraDSG src e = some (e.withVal w) ∧
      (∀ i ∈ src.sel, ∀ j < esz.getD i 0, (e.withVal w).at i j = src.at i j) ∧
      ∀ i, i ∉ src.sel → ∀ j < esz.getD i 0, (e.withVal w).at i j = e.at i j := by
  obtain ⟨w, a1, a2, a3⟩ := copyDataFrom_eq e src hp h.placed (subspacesToCopy src e)
    (hn.filter _) (fun i hi => (mem_subspacesToCopy.1 hi).1)
    (fun i hi => by
      rw [h.sel, List.mem_range]
      have := (mem_subspacesToCopy.1 hi).2
      rw [h.sizes] at this
      exact lt_of_getD_ne this)
    (fun i hi => by
      have := (mem_subspacesToCopy.1 hi).2
      rw [h.sizes] at this
      rw [hsz, h.sizes]
      exact h.fit i this)
  rw [h.sizes] at a2 a3
  refine ⟨w, ?_, ?_, ?_⟩
  · unfold copyFromPartialDsgToExtraDSG
    rw [if_neg h.data]
    exact a1
  · intro i hi j hj
    exact a2 i (mem_subspacesToCopy.2 ⟨hi, by rw [h.sizes]; omega⟩) j hj
  · intro i hi j hj
    refine a3 i ?_ (fun hc => hi (mem_subspacesToCopy.1 hc).1) j hj
    rw [h.sel, List.mem_range]
    exact lt_of_getD_ne (by omega)

/-- one round with communication and copies -/
theorem outgroupRoundKeep_eq [Ring K] {levels : List (List ℕ)} (hs : levels.Pairwise (· < ·))
    (sizes : ℕ → List ℕ) (hlen : ∀ g, (sizes g).length = levels.length) (maxChunk : ℕ)
    (hmax : maxChunk ≤ 2 ^ 31) (members : List ℕ) (hmn : members.Nodup) (size : ℕ → ℕ)
    (S0 : ℕ → Group K) (hok0 : ∀ g ∈ members, ∀ t ∈ (S0 g).tasks, TaskOk levels (sizes g) t.2)
    (F : ℕ → ℕ → ℕ → K) (o : ℕ) (ho : o ∈ members) (esz : List ℕ) (done : List ℕ) (S : ℕ → Group K)
    (e : Dsg K) (he : Extra esz (sizes o) e)
    (hv : ∀ i ∈ done, ∀ j < esz.getD i 0, e.at i j = F o i j)
    (hg : ∀ g ∈ members, GroupOk levels (sizes g) (S g))
    (hp : ∀ g ∈ members, ExtractedAll levels (sizes g) done (F g) (S0 g).tasks (S g).tasks)
    (c : List ℕ) (hc : ChunkOk size maxChunk c) (hr : ∀ i ∈ c, i < levels.length)
    (hsz : ∀ g ∈ members, ∀ i ∈ c, (sizes g).getD i 0 = size i)
    (chunkOf : ℕ → List ℕ) (hco : ∀ g ∈ members, chunkOf g = c)
    (hdisj : ∀ i ∈ done, i ∉ c)
    (hF : ∀ g ∈ members, ∀ i ∈ c, ∀ j < size i,
      F g i j = (members.map fun m => localSum levels (S0 m).tasks i j).sum) :
    ∃ S' w, outgroupRoundKeep o maxChunk members chunkOf (S, e) = some (S', e.withVal w) ∧
      (∀ g ∈ members, GroupOk levels (sizes g) (S' g) ∧
        ExtractedAll levels (sizes g) (done ++ c) (F g) (S0 g).tasks (S' g).tasks) ∧
      (∀ i ∈ done ++ c, ∀ j < esz.getD i 0, (e.withVal w).at i j = F o i j) := by
  obtain ⟨S2, c1, d1, -⟩ := outgroupReduce_eq hs sizes hlen maxChunk hmax members hmn size S0 hok0 F
    done S hg hp c hc hr hsz chunkOf hco hdisj hF
  obtain ⟨S3, f1, f2, -⟩ := outgroupRound_eq hs sizes hlen maxChunk hmax members hmn size S0 hok0 F
    done S hg hp c hc hr hsz chunkOf hco hdisj hF
  unfold outgroupRound at f1
  rw [c1, Option.bind_some] at f1
  obtain ⟨q1, q2, q3, -, q5⟩ := d1 o ho
  obtain ⟨w, w1, w2, w3⟩ := copyToExtra_eq he (S2 o).dsg q2.placed q1.siz (by
    rw [q3]; exact hc.sorted.imp fun h => ne_of_lt h)
  rw [q3] at w2 w3
  refine ⟨S3, w, ?_, f2, ?_⟩
  · unfold outgroupRoundKeep
    simp only [c1, ho, if_true, w1, f1, Option.bind_eq_bind, Option.bind_some]
    rfl
  · intro i hi j hj
    by_cases hic : i ∈ c
    · rw [w2 i hic j hj]
      refine q5 i hic j ?_
      rw [← hsz o ho i hic, he.fit i (by omega)]
      exact hj
    · rw [w3 i hic j hj]
      exact hv i ((List.mem_append.1 hi).resolve_right hic) j hj

/-- all rounds with communication and copies -/
theorem outgroupRoundsKeep_eq [Ring K] {levels : List (List ℕ)} (hs : levels.Pairwise (· < ·))
    (sizes : ℕ → List ℕ) (hlen : ∀ g, (sizes g).length = levels.length) (maxChunk : ℕ)
    (hmax : maxChunk ≤ 2 ^ 31) (members : List ℕ) (hmn : members.Nodup) (size : ℕ → ℕ)
    (S : ℕ → Group K) (hg : ∀ g ∈ members, GroupOk levels (sizes g) (S g))
    (F : ℕ → ℕ → ℕ → K) (o : ℕ) (ho : o ∈ members) (esz : List ℕ)
    (e : Dsg K) (he : Extra esz (sizes o) e) (chunks : List (List ℕ))
    (hc : ∀ c ∈ chunks, ChunkOk size maxChunk c) (hnd : chunks.flatten.Nodup)
    (hr : ∀ i ∈ chunks.flatten, i < levels.length)
    (hsz : ∀ g ∈ members, ∀ i ∈ chunks.flatten, (sizes g).getD i 0 = size i)
    (chunkOf : ℕ → ℕ → List ℕ)
    (hco : ∀ k (hk : k < chunks.length), ∀ g ∈ members, chunkOf k g = chunks[k])
    (hF : ∀ g ∈ members, ∀ i ∈ chunks.flatten, ∀ j < size i,
      F g i j = (members.map fun m => localSum levels (S m).tasks i j).sum) :
    ∃ S' w, (List.range chunks.length).foldlM
        (fun x k => outgroupRoundKeep o maxChunk members (chunkOf k) x) (S, e) =
          some (S', e.withVal w) ∧
      (∀ g ∈ members, GroupOk levels (sizes g) (S' g) ∧
        ExtractedAll levels (sizes g) chunks.flatten (F g) (S g).tasks (S' g).tasks) ∧
      (∀ i ∈ chunks.flatten, ∀ j < esz.getD i 0, (e.withVal w).at i j = F o i j) := by
  have H : ∀ k ≤ chunks.length, ∃ S' w, (List.range k).foldlM
        (fun x k => outgroupRoundKeep o maxChunk members (chunkOf k) x) (S, e) =
          some (S', e.withVal w) ∧
      (∀ g ∈ members, GroupOk levels (sizes g) (S' g) ∧
        ExtractedAll levels (sizes g) (chunks.take k).flatten (F g) (S g).tasks (S' g).tasks) ∧
      (∀ i ∈ (chunks.take k).flatten, ∀ j < esz.getD i 0, (e.withVal w).at i j = F o i j) := by
    intro k
    induction k with
    | zero =>
      intro _
      exact ⟨S, e.data.val, rfl, fun g hgm => ⟨hg g hgm, extracted_refl _ _ _ _⟩, by simp⟩
    | succ k ih =>
      intro hk
      obtain ⟨S1, w1, a1, a2, a3⟩ := ih (by omega)
      have htake : (chunks.take (k + 1)).flatten = (chunks.take k).flatten ++ chunks[k] := by
        rw [List.take_succ_eq_append_getElem (by omega), List.flatten_append, List.flatten_singleton]
      have hsub : ∀ i ∈ chunks[k], i ∈ chunks.flatten := fun i hi =>
        List.mem_flatten.2 ⟨_, List.getElem_mem _, hi⟩
      obtain ⟨S2, w2, b1, b2, b3⟩ := outgroupRoundKeep_eq hs sizes hlen maxChunk hmax members hmn size
        S (fun g hgm => (hg g hgm).ok) F o ho esz (chunks.take k).flatten S1 (e.withVal w1)
        (he.withVal w1) a3 (fun g hgm => (a2 g hgm).1) (fun g hgm => (a2 g hgm).2) chunks[k]
        (hc _ (List.getElem_mem _)) (fun i hi => hr i (hsub i hi))
        (fun g hgm i hi => hsz g hgm i (hsub i hi)) (chunkOf k) (hco k (by omega)) (by
          have := List.Nodup.sublist (List.Sublist.flatten (List.take_sublist (k + 1) chunks)) hnd
          rw [htake, List.nodup_append] at this
          exact fun i hi h => this.2.2 i hi i h rfl)
        (fun g hgm i hi => hF g hgm i (hsub i hi))
      refine ⟨S2, w2, ?_, ?_, ?_⟩
      · rw [List.range_succ, List.foldlM_append, a1]
        simp only [Option.bind_eq_bind, Option.bind_some, List.foldlM_cons, List.foldlM_nil, b1]
        rfl
      · rw [htake]; exact b2
      · rw [htake]; exact b3
  have := H chunks.length (le_refl _)
  rw [List.take_length] at this
  exact this

/-- one round without communication, with copies -/
theorem ingroupRoundKeep_eq [Ring K] {levels : List (List ℕ)} (hs : levels.Pairwise (· < ·))
    {sizes : List ℕ} (hlen : sizes.length = levels.length) (ts0 : List (K × Dfg K))
    (hok0 : ∀ t ∈ ts0, TaskOk levels sizes t.2) (F : ℕ → ℕ → K) (esz : List ℕ)
    (done : List ℕ) (g : Group K) (e : Dsg K) (he : Extra esz sizes e)
    (hv : ∀ i ∈ done, ∀ j < esz.getD i 0, e.at i j = F i j)
    (hg : GroupOk levels sizes g) (hp : ExtractedAll levels sizes done F ts0 g.tasks)
    (c : List ℕ) (hne : c ≠ []) (hsort : c.Pairwise (· < ·))
    (hr : ∀ i ∈ c, i < levels.length) (hlt : (c.map fun i => sizes.getD i 0).sum < 2 ^ 32)
    (hdisj : ∀ i ∈ done, i ∉ c)
    (hF : ∀ i ∈ c, ∀ j < sizes.getD i 0, F i j = localSum levels ts0 i j) :
    ∃ g' w, Group.ingroupRoundKeep (g, e) c = some (g', e.withVal w) ∧
      GroupOk levels sizes g' ∧ ExtractedAll levels sizes (done ++ c) F ts0 g'.tasks ∧
      ∀ i ∈ done ++ c, ∀ j < esz.getD i 0, (e.withVal w).at i j = F i j := by
  have hnd : levels.Nodup := hs.imp fun h => ne_of_lt h
  obtain ⟨d', e1, e2, e3, e4, e5, e6⟩ := collectChunk_eq hs hlen g hg c hne hsort hr hlt
  obtain ⟨g', f1, f2, f3⟩ := ingroupRound_eq hs hlen ts0 hok0 F done g hg hp c hne hsort hr hlt hdisj
    hF
  rw [e1, Option.bind_some] at f1
  obtain ⟨w, w1, w2, w3⟩ := copyToExtra_eq he d' e2.placed e4 (by
    rw [e5]; exact hsort.imp fun h => ne_of_lt h)
  rw [e5] at w2 w3
  refine ⟨g', w, ?_, f2, f3, ?_⟩
  · unfold Group.ingroupRoundKeep
    simp only [e1, w1, f1, Option.bind_eq_bind, Option.bind_some]
    rfl
  · intro i hi j hj
    by_cases hic : i ∈ c
    · have hj' : j < sizes.getD i 0 := by rw [he.fit i (by omega)]; exact hj
      rw [w2 i hic j hj, e6 i hic j hj', hF i hic j hj']
      exact localSum_extracted hnd hok0 hp (hr i hic) (fun h => hdisj i h hic) hj'
    · rw [w3 i hic j hj]
      exact hv i ((List.mem_append.1 hi).resolve_right hic) j hj

theorem ingroupRoundsKeep_eq [Ring K] {levels : List (List ℕ)} (hs : levels.Pairwise (· < ·))
    {sizes : List ℕ} (hlen : sizes.length = levels.length) (ts0 : List (K × Dfg K))
    (hok0 : ∀ t ∈ ts0, TaskOk levels sizes t.2) (F : ℕ → ℕ → K) (esz : List ℕ)
    (chunks : List (List ℕ)) (done : List ℕ) (g : Group K) (e : Dsg K) (he : Extra esz sizes e)
    (hv : ∀ i ∈ done, ∀ j < esz.getD i 0, e.at i j = F i j)
    (hg : GroupOk levels sizes g) (hp : ExtractedAll levels sizes done F ts0 g.tasks)
    (hc : ∀ c ∈ chunks, c ≠ [] ∧ c.Pairwise (· < ·) ∧ (∀ i ∈ c, i < levels.length) ∧
      (c.map fun i => sizes.getD i 0).sum < 2 ^ 32)
    (hnd : chunks.flatten.Nodup) (hdisj : ∀ i ∈ done, i ∉ chunks.flatten)
    (hF : ∀ i ∈ chunks.flatten, ∀ j < sizes.getD i 0, F i j = localSum levels ts0 i j) :
    ∃ g' w, chunks.foldlM Group.ingroupRoundKeep (g, e) = some (g', e.withVal w) ∧
      GroupOk levels sizes g' ∧
      ExtractedAll levels sizes (done ++ chunks.flatten) F ts0 g'.tasks ∧
      ∀ i ∈ done ++ chunks.flatten, ∀ j < esz.getD i 0, (e.withVal w).at i j = F i j := by
  induction chunks generalizing done g e with
  | nil => exact ⟨g, e.data.val, rfl, hg, by simpa using hp, by
      rw [List.flatten_nil, List.append_nil]; exact hv⟩
  | cons c cs ih =>
    rw [List.flatten_cons] at hnd hdisj hF ⊢
    rw [List.nodup_append] at hnd
    obtain ⟨q1, q2, q3, q4⟩ := hc c (by simp)
    obtain ⟨g1, w1, e1, e2, e3, e4⟩ := ingroupRoundKeep_eq hs hlen ts0 hok0 F esz done g e he hv hg hp
      c q1 q2 q3 q4 (fun i hi h => hdisj i hi (by simp [h])) (fun i hi => hF i (by simp [hi]))
    obtain ⟨g2, w2, f1, f2, f3, f4⟩ := ih (done ++ c) g1 (e.withVal w1) (he.withVal w1) e4 e2 e3
      (fun c' hc' => hc c' (by simp [hc'])) hnd.2.1
      (by
        intro i hi h
        rcases List.mem_append.1 hi with hi | hi
        · exact hdisj i hi (by rw [List.mem_append]; exact Or.inr h)
        · exact hnd.2.2 i hi i h rfl)
      (fun i hi => hF i (by rw [List.mem_append]; exact Or.inr hi))
    rw [List.append_assoc] at f3 f4
    refine ⟨g2, w2, ?_, f2, f3, f4⟩
    rw [List.foldlM_cons, e1]
    exact f1

theorem GroupOk.delete {levels : List (List ℕ)} {sizes : List ℕ} {g : Group K}
    (h : GroupOk levels sizes g) : GroupOk levels sizes ⟨g.dsg.deleteSubspaceData, g.tasks⟩ :=
  ⟨h.lev, h.siz, h.ok⟩

/-- What a group does with the subspaces that it does not share. -/
structure Ingroup (levels : List (List ℕ)) (sizes : List ℕ) (maxChunk : ℕ) (shared : List ℕ)
    (chunks : List (List ℕ)) : Prop where
  flat : ∀ i, i ∈ chunks.flatten ↔ i < levels.length ∧ 0 < sizes.getD i 0 ∧ i ∉ shared
  nodup : chunks.flatten.Nodup
  chunk : ∀ c ∈ chunks, c ≠ [] ∧ c.Pairwise (· < ·) ∧ (∀ i ∈ c, i < levels.length) ∧
    (c.map fun i => sizes.getD i 0).sum < 2 ^ 32

theorem ingroup_chunks {levels : List (List ℕ)} {sizes : List ℕ}
    (hlen : sizes.length = levels.length) (maxChunk : ℕ) (hmax : maxChunk ≤ 2 ^ 31) (shared : List ℕ)
    (comm : Option (List ℕ)) (hcomm : comm.getD [] = shared)
    (hsize : ∀ i < levels.length, sizes.getD i 0 < 2 ^ 31) :
    Ingroup levels sizes maxChunk shared (getChunkedSubspaces (fun s => sizes.getD s 0) maxChunk
      (getIngroupSubspaces sizes comm)) := by
  have hin : ∀ i, i ∈ getIngroupSubspaces sizes comm ↔
      i < levels.length ∧ 0 < sizes.getD i 0 ∧ i ∉ shared := by
    intro i
    unfold getIngroupSubspaces
    rw [hcomm, List.mem_filter, List.mem_range, hlen]
    simp
  have hsort : (getIngroupSubspaces sizes comm).Pairwise (· < ·) :=
    List.Pairwise.sublist List.filter_sublist List.pairwise_lt_range
  have hsmall : ∀ s ∈ getIngroupSubspaces sizes comm, sizes.getD s 0 < 2 ^ 31 :=
    fun s hsm => hsize s ((hin s).1 hsm).1
  obtain ⟨c1, -⟩ := C33_chunks_partial (fun s => sizes.getD s 0) maxChunk hmax _ hsmall hsort
  have c2 := chunkOk_of_mem (fun s => sizes.getD s 0) maxChunk hmax _ hsmall hsort
  constructor
  · rw [c1]; exact hin
  · rw [c1]; exact hsort.imp fun h => ne_of_lt h
  · intro c hc
    refine ⟨(c2 c hc).ne, (c2 c hc).sorted, ?_, ?_⟩
    · intro i hi
      apply ((hin i).1 ?_).1
      rw [← c1]
      exact List.mem_flatten.2 ⟨c, hc, hi⟩
    · have := (c2 c hc).sum_lt hmax
      omega

/-- everything is extracted -/
theorem ingroup_all {levels : List (List ℕ)} {sizes : List ℕ} {maxChunk : ℕ} {shared : List ℕ}
    {chunks : List (List ℕ)} (h : Ingroup levels sizes maxChunk shared chunks)
    {ts ts' : List (K × Dfg K)} (hok : ∀ t ∈ ts, TaskOk levels sizes t.2) {F : ℕ → ℕ → K}
    (hx : ExtractedAll levels sizes (shared ++ chunks.flatten) F ts ts') :
    ExtractedAll levels sizes (List.range levels.length) F ts ts' := by
  refine hx.congr hok ?_ (fun _ _ _ _ _ => rfl)
  intro i hi hpos
  rw [List.mem_append, h.flat, List.mem_range]
  constructor
  · exact fun _ => hi
  · intro _
    by_cases hh : i ∈ shared
    · exact Or.inl hh
    · exact Or.inr ⟨hi, hpos, hh⟩

/-- The chunked combination with copies to the extra sparse grid. -/
theorem collectReduceDistributeKeep_eq [Ring K] {levels : List (List ℕ)}
    (hs : levels.Pairwise (· < ·)) (n o : ℕ) (ho : o < n)
    (sizes : ℕ → List ℕ) (hlen : ∀ g, (sizes g).length = levels.length) (maxChunk : ℕ)
    (hmax : maxChunk ≤ 2 ^ 31) (shared : List ℕ) (hsh : shared.Pairwise (· < ·))
    (hshr : ∀ i ∈ shared, i < levels.length) (size : ℕ → ℕ)
    (hsize : ∀ g < n, ∀ i < levels.length, (sizes g).getD i 0 < 2 ^ 31)
    (hsz : ∀ g < n, ∀ i ∈ shared, (sizes g).getD i 0 = size i)
    (st : WideState K)
    (hcomm : (∀ g < n, st.comm g = some shared) ∨ (shared = [] ∧ ∀ g < n, st.comm g = none))
    (hg : ∀ g < n, GroupOk levels (sizes g) (st.groups g))
    (esz : List ℕ) (hel : esz.length = levels.length) (he : Extra esz (sizes o) st.extra) :
    ∃ S' w, collectReduceDistributeKeep maxChunk n o st = some ⟨S', st.comm, st.extra.withVal w⟩ ∧
      (∀ g < n, GroupOk levels (sizes g) (S' g) ∧
        ExtractedAll levels (sizes g) (List.range levels.length)
          (combined n levels shared st.groups g) (st.groups g).tasks (S' g).tasks) ∧
      ∀ i, ∀ j < esz.getD i 0, (st.extra.withVal w).at i j = combined n levels shared st.groups o i j := by
  have hshn : shared.Nodup := hsh.imp fun h => ne_of_lt h
  have hmatch : commsMatch n st.comm = true := by
    unfold commsMatch
    rw [Bool.or_eq_true, List.all_eq_true, List.all_eq_true]
    rcases hcomm with h | ⟨-, h⟩
    · exact Or.inl fun g hgm => by rw [h g (List.mem_range.1 hgm)]; rfl
    · exact Or.inr fun g hgm => by rw [h g (List.mem_range.1 hgm)]; rfl
  have hget : ∀ g < n, (st.comm g).getD [] = shared := by
    intro g hgn
    rcases hcomm with h | ⟨h0, h⟩
    · rw [h g hgn]; rfl
    · rw [h g hgn, h0]; rfl
  -- outgroup phase
  obtain ⟨S1, w1, a1, a2, a3⟩ : ∃ (S1 : ℕ → Group K) (w1 : ℕ → K),
      collectReduceDistributeKeep maxChunk n o st =
      (((S1 o).ingroupPhaseKeep maxChunk (st.comm o) (st.extra.withVal w1)).bind fun p =>
        (forGroups (fun m g => g.ingroupPhase maxChunk (st.comm m))
          ((List.range n).filter fun g => g ≠ o) S1).bind fun S =>
          some ⟨Function.update S o p.1, st.comm, p.2⟩) ∧
      (∀ g < n, GroupOk levels (sizes g) (S1 g) ∧ ExtractedAll levels (sizes g) shared
        (combined n levels shared st.groups g) (st.groups g).tasks (S1 g).tasks) ∧
      ∀ i ∈ shared, ∀ j < esz.getD i 0,
        (st.extra.withVal w1).at i j = combined n levels shared st.groups o i j := by
    rcases hcomm with hcomm | ⟨hsh0, hcomm⟩
    · have hmem : (List.range n).filter (fun g => (st.comm g).isSome) = List.range n := by
        rw [List.filter_eq_self]
        intro g hgm
        rw [hcomm g (List.mem_range.1 hgm)]
        rfl
      have hsz0 : ∀ i ∈ shared, size i < 2 ^ 31 := by
        intro i hi
        rw [← hsz o ho i hi]
        exact hsize o ho i (hshr i hi)
      obtain ⟨c1, -⟩ := C33_chunks_partial size maxChunk hmax shared hsz0 hsh
      have c2 := chunkOk_of_mem size maxChunk hmax shared hsz0 hsh
      generalize hch : getChunkedSubspaces size maxChunk shared = chunks at *
      have hchunks : ∀ g < n, getChunkedSubspaces (fun s => (st.groups g).dsg.sizes.getD s 0) maxChunk
          ((st.comm g).getD []) = chunks := by
        intro g hgm
        rw [hcomm g hgm, (hg g hgm).siz, Option.getD_some, ← hch]
        exact C33_same_chunks _ _ _ _ fun s hs => hsz g hgm s hs
      obtain ⟨S1, w1, e1, e2, e3⟩ := outgroupRoundsKeep_eq hs sizes hlen maxChunk hmax (List.range n)
        List.nodup_range size st.groups (fun g hgm => hg g (List.mem_range.1 hgm))
        (combined n levels shared st.groups) o (List.mem_range.2 ho) esz st.extra he chunks c2
        (by rw [c1]; exact hshn) (by rw [c1]; exact hshr)
        (by rw [c1]; exact fun g hgm => hsz g (List.mem_range.1 hgm))
        (fun k g => (getChunkedSubspaces (fun s => (st.groups g).dsg.sizes.getD s 0) maxChunk
          ((st.comm g).getD [])).getD k [])
        (by
          intro k hk g hgm
          simp only [hchunks g (List.mem_range.1 hgm)]
          rw [List.getD_eq_getElem _ _ hk])
        (by
          rw [c1]
          intro g hgm i hi j hj
          unfold combined
          rw [if_pos hi])
      rw [c1] at e2 e3
      refine ⟨S1, w1, ?_, fun g hgn => e2 g (List.mem_range.2 hgn), e3⟩
      unfold collectReduceDistributeKeep
      simp only [hmem]
      have hhead : (List.range n).headD 0 < n := by
        rw [show n = (n - 1) + 1 by omega, List.range_succ_eq_map]
        simp
      rw [hchunks _ hhead, if_pos ⟨hmatch, by
        rw [List.all_eq_true]
        intro g hgm
        rw [hchunks g (List.mem_range.1 hgm)]
        simp⟩, if_neg (by
        rw [List.range_eq_nil]
        omega), e1]
      rfl
    · have hmem : (List.range n).filter (fun g => (st.comm g).isSome) = [] := by
        rw [List.filter_eq_nil_iff]
        intro g hgm
        rw [hcomm g (List.mem_range.1 hgm)]
        simp
      refine ⟨st.groups, st.extra.data.val, ?_, ?_, ?_⟩
      · unfold collectReduceDistributeKeep
        simp only [hmem, List.all_nil, hmatch, and_self, if_true]
        rfl
      · intro g hgm
        rw [hsh0]
        exact ⟨hg g hgm, extracted_refl _ _ _ _⟩
      · rw [hsh0]; simp
  -- ingroup phase
  have hin : ∀ g < n, Ingroup levels (sizes g) maxChunk shared
      (getChunkedSubspaces (fun s => (sizes g).getD s 0) maxChunk
        (getIngroupSubspaces (sizes g) (st.comm g))) := fun g hgn =>
    ingroup_chunks (hlen g) maxChunk hmax shared (st.comm g) (hget g hgn) (hsize g hgn)
  have hFin : ∀ g < n, ∀ i, i ∈ (getChunkedSubspaces (fun s => (sizes g).getD s 0) maxChunk
        (getIngroupSubspaces (sizes g) (st.comm g))).flatten → ∀ j < (sizes g).getD i 0,
      combined n levels shared st.groups g i j = localSum levels (st.groups g).tasks i j := by
    intro g hgn i hi j _
    unfold combined
    rw [if_neg (((hin g hgn).flat i).1 hi).2.2]
  obtain ⟨q1, q2⟩ := a2 o ho
  obtain ⟨g', w2, b1, b2, b3, b4⟩ := ingroupRoundsKeep_eq hs (hlen o) (st.groups o).tasks (hg o ho).ok
    (combined n levels shared st.groups o) esz _ shared (S1 o) (st.extra.withVal w1) (he.withVal w1)
    a3 q1 q2 (hin o ho).chunk (hin o ho).nodup
    (fun i hi h => (((hin o ho).flat i).1 h).2.2 hi) (hFin o ho)
  obtain ⟨S2, d1, d2, -⟩ := forGroups_spec (fun m g => g.ingroupPhase maxChunk (st.comm m))
    ((List.range n).filter fun g => g ≠ o) (List.nodup_range.filter _) S1
    (fun g r => GroupOk levels (sizes g) r ∧ ExtractedAll levels (sizes g)
      (List.range levels.length) (combined n levels shared st.groups g) (st.groups g).tasks r.tasks) (by
    intro g hgm
    have hgn := List.mem_range.1 (List.mem_filter.1 hgm).1
    obtain ⟨p1, p2⟩ := a2 g hgn
    obtain ⟨g', e1, e2, e3⟩ := ingroupRounds_eq hs (hlen g) (st.groups g).tasks (hg g hgn).ok
      (combined n levels shared st.groups g) _ shared (S1 g) p1 p2 (hin g hgn).chunk
      (hin g hgn).nodup (fun i hi h => (((hin g hgn).flat i).1 h).2.2 hi) (hFin g hgn)
    refine ⟨⟨g'.dsg.deleteSubspaceData, g'.tasks⟩, ?_, e2.delete,
      ingroup_all (hin g hgn) (hg g hgn).ok e3⟩
    unfold Group.ingroupPhase
    simp only [p1.siz, e1]
    rfl)
  refine ⟨Function.update S2 o ⟨g'.dsg.deleteSubspaceData, g'.tasks⟩, w2, ?_, ?_, ?_⟩
  · rw [a1]
    unfold Group.ingroupPhaseKeep
    simp only [q1.siz, b1, d1, Option.bind_eq_bind, Option.bind_some]
    rfl
  · intro g hgn
    by_cases hgo : g = o
    · subst hgo
      rw [Function.update_self]
      exact ⟨b2.delete, ingroup_all (hin g ho) (hg g ho).ok b3⟩
    · rw [Function.update_of_ne hgo]
      exact d2 g (List.mem_filter.2 ⟨List.mem_range.2 hgn, by simpa using hgo⟩)
  · intro i j hj
    refine b4 i ?_ j hj
    rw [List.mem_append, (hin o ho).flat]
    by_cases hh : i ∈ shared
    · exact Or.inl hh
    · refine Or.inr ⟨?_, ?_, hh⟩
      · rw [← hel]
        exact lt_of_getD_ne (by omega)
      · rw [he.fit i (by omega)]
        omega

/-! ### Distributing -/

theorem chunkLoop_all (size : ℕ → ℕ) (M : ℕ) (hM : M ≤ 2 ^ 31) (chunk : List ℕ) (acc : ℕ)
    (rest : List ℕ) (hpos : ∀ s ∈ rest, 0 < size s) (hsum : acc + (rest.map size).sum < M)
    (hsort : (chunk ++ rest).Pairwise (· < ·)) :
    chunkLoop size M chunk acc rest = (chunk ++ rest, []) := by
  induction rest generalizing chunk acc with
  | nil => simp [chunkLoop]
  | cons s ss ih =>
    rw [List.map_cons, List.sum_cons] at hsum
    have hm : (acc + size s) % 2 ^ 32 = acc + size s := Nat.mod_eq_of_lt (by omega)
    have hs := hpos s (by simp)
    have hi : insertSet s chunk = chunk ++ [s] := insertSet_append _ _ fun y hy =>
      (List.pairwise_append.1 hsort).2.2 y hy s (by simp)
    rw [chunkLoop, hm, if_pos ⟨by omega, by omega⟩, hi, ih (chunk ++ [s]) (acc + size s)
      (fun t ht => hpos t (by simp [ht])) (by omega) (by simpa using hsort)]
    simp

/-- one chunk is one datatype -/
theorem chunked_single (size : ℕ → ℕ) (maxChunk M : ℕ) (hM : M ≤ 2 ^ 31) (hmax : maxChunk ≤ M)
    (c : List ℕ) (hc : ChunkOk size maxChunk c) (hpos : ∀ s ∈ c, 0 < size s) :
    getChunkedSubspaces size M c = [c] := by
  have hne := hc.ne
  cases c with
  | nil => exact absurd rfl hne
  | cons s ss =>
    have hm : size s % 2 ^ 32 = size s := Nat.mod_eq_of_lt (by
      have := hc.lt s (by simp)
      omega)
    rw [getChunkedSubspaces, hm]
    rcases hc.small with h | h
    · rw [List.map_cons, List.sum_cons] at h
      rw [chunkLoop_all size M hM [s] (size s) ss (fun t ht => hpos t (by simp [ht])) (by omega)
        hc.sorted]
      simp [getChunkedSubspaces]
    · have : ss = [] := by
        rw [List.length_cons] at h
        exact List.length_eq_zero_iff.1 (by omega)
      subst this
      simp [chunkLoop, getChunkedSubspaces]

theorem bcastIndexed_eq [Ring K] (root : ℕ) (members chunk : List ℕ) (hroot : root ∈ members)
    (size : ℕ → ℕ) (S : ℕ → Group K) (h : Reducible members chunk size S) :
    ∃ S', bcastIndexed root members (members.map fun g => posOf (S g).dsg chunk) S = some S' ∧
      (∀ g ∈ members, ∃ v, S' g = ⟨(S g).dsg.withVal v, (S g).tasks⟩) ∧
      ∀ g ∈ members, ∀ i ∈ chunk, ∀ j < size i, (S' g).dsg.at i j = (S root).dsg.at i j := by
  have hpos : ∀ g ∈ members, posOf (S g).dsg chunk = (keysOf size chunk).map fun q =>
      selOffset (S g).dsg.sizes (S g).dsg.sel q.1 + q.2 :=
    fun g hg => posOf_eq_keys _ _ _ (h.size g hg)
  have hlen : ((members.map fun g => posOf (S g).dsg chunk).all fun p => decide (p.length =
      (posOf (S root).dsg chunk).length)) = true := by
    rw [List.all_eq_true]
    intro p hp
    obtain ⟨g, hg, rfl⟩ := List.mem_map.1 hp
    rw [hpos g hg, hpos root hroot]
    simp
  unfold bcastIndexed
  simp only [lookup_zip_map, if_pos hroot, Option.bind_eq_bind, Option.bind_some]
  rw [if_pos hlen]
  refine ⟨_, rfl, ?_⟩
  have hval : ∀ g ∈ members, ((if g ∈ members then some (posOf (S g).dsg chunk) else none).elim (S g)
      fun pos => (S g).setData ⟨(S g).dsg.data.len, fun i =>
        if i ∈ pos then (S root).dsg.data.val ((posOf (S root).dsg chunk).getD (pos.idxOf i) 0)
        else (S g).dsg.data.val i⟩) = ⟨(S g).dsg.withVal fun i =>
          if i ∈ posOf (S g).dsg chunk then (S root).dsg.data.val
              ((posOf (S root).dsg chunk).getD ((posOf (S g).dsg chunk).idxOf i) 0)
          else (S g).dsg.data.val i, (S g).tasks⟩ := by
    intro g hg
    rw [if_pos hg]
    rfl
  refine ⟨fun g hg => ⟨_, hval g hg⟩, ?_⟩
  intro g hg i hi j hj
  simp only [hval g hg]
  unfold Dsg.at Dsg.withVal
  simp only
  have hsz := h.size g hg i hi
  rw [if_pos (mem_posOf.2 ⟨i, hi, j, by rw [hsz]; exact hj, rfl⟩)]
  congr 1
  rw [hpos g hg, hpos root hroot]
  refine getD_idxOf_map (keysOf size chunk)
    (fun q => selOffset (S g).dsg.sizes (S g).dsg.sel q.1 + q.2) _ (i, j)
    (mem_keysOf.2 ⟨hi, hj⟩) ?_
  intro q hq he
  rw [mem_keysOf] at hq
  have e := storage_inj (sizes := (S g).dsg.sizes) (sel := (S g).dsg.sel) (i := q.1) (i' := i)
    (j := q.2) (j' := j)
    (by rw [selSize_of_mem (h.sel g hg _ hq.1), h.size g hg _ hq.1]; exact hq.2)
    (by rw [selSize_of_mem (h.sel g hg _ hi), hsz]; exact hj) he
  exact Prod.ext e.1 e.2

theorem copyFromExtra_eq {esz osz : List ℕ} {e : Dsg K} (h : Extra esz osz e) (g : Group K)
    (hp : Placed g.dsg) (hsz : g.dsg.sizes = osz) (hn : g.dsg.sel.Nodup) :
    ∃ w, g.copyFromExtra e = some ⟨g.dsg.withVal w, g.tasks⟩ ∧
      ∀ i ∈ g.dsg.sel, ∀ j < esz.getD i 0, (g.dsg.withVal w).at i j = e.at i j := by
  obtain ⟨w, a1, a2, -⟩ := copyDataFrom_eq g.dsg e h.placed hp (subspacesToCopy g.dsg e)
    (hn.filter _)
    (fun i hi => by
      rw [h.sel, List.mem_range]
      have := (mem_subspacesToCopy.1 hi).2
      rw [h.sizes] at this
      exact lt_of_getD_ne this)
    (fun i hi => (mem_subspacesToCopy.1 hi).1)
    (fun i hi => by
      have := (mem_subspacesToCopy.1 hi).2
      rw [h.sizes] at this
      rw [hsz, h.sizes]
      exact (h.fit i this).symm)
  refine ⟨w, ?_, ?_⟩
  · unfold Group.copyFromExtra
    rw [a1]
    rfl
  · intro i hi j hj
    refine a2 i (mem_subspacesToCopy.2 ⟨hi, by rw [h.sizes]; omega⟩) j ?_
    rw [hsz, h.fit i (by omega)]
    exact hj

/-- allocating and, on the output group, copying -/
theorem prepareBroadcast_eq [Ring K] {levels : List (List ℕ)} (hs : levels.Pairwise (· < ·))
    {sizes : List ℕ} (hlen : sizes.length = levels.length) (g : Group K)
    (hg : GroupOk levels sizes g) (c : List ℕ) (hne : c ≠ []) (hsort : c.Pairwise (· < ·))
    (hr : ∀ i ∈ c, i < levels.length) (hlt : (c.map fun i => sizes.getD i 0).sum < 2 ^ 32)
    (isOutput : Bool) (esz : List ℕ) (e : Dsg K) (he : isOutput = true → Extra esz sizes e) :
    ∃ d', g.prepareBroadcast isOutput e c = some ⟨d', g.tasks⟩ ∧ WellAllocated d' ∧
      d'.levels = levels ∧ d'.sizes = sizes ∧ d'.sel = c ∧
      (isOutput = true → ∀ i ∈ c, ∀ j < esz.getD i 0, d'.at i j = e.at i j) := by
  obtain ⟨d, ts⟩ := g
  obtain ⟨h1, h2, h3⟩ := hg
  simp only at h1 h2 h3
  subst h1
  subst h2
  obtain ⟨d2, e1, e2, e3, e4, e5, -⟩ := allocate_eq d hs hlen c hne hsort hr hlt
  cases isOutput with
  | false =>
    refine ⟨d2, ?_, e2, e3, e4, e5, by simp⟩
    unfold Group.prepareBroadcast
    simp only [e1, Option.bind_eq_bind, Option.bind_some]
    rfl
  | true =>
    obtain ⟨w, f1, f2⟩ := copyFromExtra_eq (he rfl) ⟨d2, ts⟩ e2.placed e4 (by
      simp only [e5]
      exact hsort.imp fun h => ne_of_lt h)
    simp only [e5] at f2
    refine ⟨d2.withVal w, ?_, e2.withVal w, e3, e4, e5, fun _ => f2⟩
    unfold Group.prepareBroadcast
    simp only [e1, Option.bind_eq_bind, Option.bind_some, if_true]
    exact f1

/-- one broadcast -/
theorem broadcastRound_eq [Ring K] {levels : List (List ℕ)} (hs : levels.Pairwise (· < ·))
    (sizes : ℕ → List ℕ) (hlen : ∀ g, (sizes g).length = levels.length) (maxChunk : ℕ)
    (hmax : maxChunk < 2 ^ 31) (n o : ℕ) (ho : o < n) (size : ℕ → ℕ) (S : ℕ → Group K)
    (hg : ∀ g < n, GroupOk levels (sizes g) (S g)) (esz : List ℕ) (e : Dsg K)
    (he : Extra esz (sizes o) e) (c : List ℕ) (hc : ChunkOk size maxChunk c)
    (hr : ∀ i ∈ c, i < levels.length) (hsz : ∀ g < n, ∀ i ∈ c, (sizes g).getD i 0 = size i)
    (hesz : ∀ i ∈ c, 0 < esz.getD i 0)
    (chunkOf : ℕ → List ℕ) (hco : ∀ g < n, chunkOf g = c) :
    ∃ S', broadcastRound o n e chunkOf S = some S' ∧
      ∀ g < n, GroupOk levels (sizes g) (S' g) ∧
        ExtractedAll levels (sizes g) c (fun i j => e.at i j) (S g).tasks (S' g).tasks := by
  have hsum := hc.sum_lt (le_of_lt hmax)
  have heq : ∀ i ∈ c, esz.getD i 0 = size i := by
    intro i hi
    rw [← hsz o ho i hi, he.fit i (by have := hesz i hi; omega)]
  have hmap : ∀ m < n, (c.map fun i => (sizes m).getD i 0) = c.map size :=
    fun m hm => List.map_congr_left fun i hi => hsz m hm i hi
  obtain ⟨S1, a1, a2, -⟩ := forGroups_spec
    (fun m g => g.prepareBroadcast (decide (m = o)) e (chunkOf m)) (List.range n)
    List.nodup_range S (fun m r => ∃ d', r = ⟨d', (S m).tasks⟩ ∧ WellAllocated d' ∧
      d'.levels = levels ∧ d'.sizes = sizes m ∧ d'.sel = c ∧
      (decide (m = o) = true → ∀ i ∈ c, ∀ j < esz.getD i 0, d'.at i j = e.at i j)) (by
    intro m hm
    have hmn := List.mem_range.1 hm
    obtain ⟨d', e1, e2⟩ := prepareBroadcast_eq hs (hlen m) (S m) (hg m hmn) c hc.ne hc.sorted hr (by
      rw [hmap m hmn]; omega) (decide (m = o)) esz e (fun h => by
      rw [decide_eq_true_eq] at h
      rw [h]; exact he)
    refine ⟨_, ?_, d', rfl, e2⟩
    simp only [hco m hmn]
    exact e1)
  have b1 : ∀ g < n, WellAllocated (S1 g).dsg ∧ (S1 g).dsg.levels = levels ∧
      (S1 g).dsg.sizes = sizes g ∧ (S1 g).dsg.sel = c ∧ (S1 g).tasks = (S g).tasks := by
    intro g hgn
    obtain ⟨d', q0, q1, q2, q3, q4, -⟩ := a2 g (List.mem_range.2 hgn)
    rw [q0]
    exact ⟨q1, q2, q3, q4, rfl⟩
  have b2 : ∀ i ∈ c, ∀ j < size i, (S1 o).dsg.at i j = e.at i j := by
    intro i hi j hj
    obtain ⟨d', q0, -, -, -, -, q5⟩ := a2 o (List.mem_range.2 ho)
    rw [q0]
    exact q5 (by simp) i hi j (by rw [heq i hi]; exact hj)
  -- datatypes
  have hdt : ∀ g < n, bcastDatatype (S1 g).dsg = some (posOf (S1 g).dsg c) := by
    intro g hgn
    obtain ⟨p1, p2, p3, p4, -⟩ := b1 g hgn
    have hch : getChunkedSubspaces (fun s => (S1 g).dsg.sizes.getD s 0) (2 ^ 31 - 1) c = [c] := by
      rw [p3, C33_same_chunks _ size _ c fun s hs => hsz g hgn s hs]
      exact chunked_single size maxChunk _ (by omega) (by omega) c hc fun s hs => by
        have := hesz s hs
        rw [heq s hs] at this
        exact this
    have hdp := datatypePositions_eq (S1 g).dsg p1 c hc.ne hc.sorted (by rw [p4]; exact fun _ h => h)
      (fun s hs => by rw [p3, hsz g hgn s hs]; exact hc.lt s hs)
      (by
        intro s hs s0 hs0
        rw [p3, p4]
        have hrl : ∀ i ∈ c, i < (sizes g).length := by rw [hlen]; exact hr
        have htot := selOffset_length (sizes g) c (hc.sorted.imp fun h => ne_of_lt h) hrl
        rw [hmap g hgn] at htot
        have := selOffset_mono (sizes g) c (le_of_lt (hrl s hs))
        omega)
    unfold bcastDatatype getReductionDatatypes
    rw [p4, hch, List.mapM_cons, hdp]
    rfl
  obtain ⟨S2, c1, c2, c3⟩ := bcastIndexed_eq o (List.range n) c (List.mem_range.2 ho) size S1
    ⟨fun g hgm => (b1 g (List.mem_range.1 hgm)).1,
      fun g hgm s hs => by rw [(b1 g (List.mem_range.1 hgm)).2.2.2.1]; exact hs,
      fun g hgm s hs => by
        rw [(b1 g (List.mem_range.1 hgm)).2.2.1]; exact hsz g (List.mem_range.1 hgm) s hs⟩
  have d1 : ∀ g < n, GroupOk levels (sizes g) (S2 g) ∧ WellAllocated (S2 g).dsg ∧
      (S2 g).dsg.sel = c ∧ (S2 g).tasks = (S g).tasks := by
    intro g hgn
    obtain ⟨q1, q2, q3, q4, q5⟩ := b1 g hgn
    obtain ⟨v, hv⟩ := c2 g (List.mem_range.2 hgn)
    rw [hv]
    exact ⟨⟨q2, q3, by simp only [q5]; exact (hg g hgn).ok⟩, q1.withVal v, q4, q5⟩
  obtain ⟨S3, f1, f2, -⟩ := forGroups_spec (fun _ (g : Group K) => g.extractTasks false)
    (List.range n) List.nodup_range S2 (fun m r => ∃ ts', r = ⟨(S2 m).dsg, ts'⟩ ∧
      ExtractedAll levels (sizes m) c (fun i j => (S2 m).dsg.at i j) (S2 m).tasks ts') (by
    intro m hm
    obtain ⟨q1, q2, q3, q4⟩ := d1 m (List.mem_range.1 hm)
    obtain ⟨ts', e1, e2⟩ := extractTasks_eq false (S2 m) q2 (by simp) (by
      rw [q1.lev, q1.siz]; exact q1.ok)
    rw [q1.lev, q1.siz, q3] at e2
    exact ⟨_, e1, ts', rfl, e2⟩)
  refine ⟨S3, ?_, ?_⟩
  · unfold broadcastRound
    rw [a1]
    simp only [Option.bind_eq_bind, Option.bind_some]
    rw [mapM_some_map _ _ _ fun g hgm => hdt g (List.mem_range.1 hgm)]
    simp only [Option.bind_some, c1]
    exact f1
  · intro g hgn
    obtain ⟨q1, q2, q3, q4⟩ := d1 g hgn
    obtain ⟨ts', e1, e2⟩ := f2 g (List.mem_range.2 hgn)
    rw [e1]
    refine ⟨⟨q1.lev, q1.siz, e2.ok q1.ok⟩, ?_⟩
    simp only
    rw [← q4]
    refine e2.congr q1.ok (fun _ _ _ => Iff.rfl) ?_
    intro i hi hic j hj
    rw [hsz g hgn i hic] at hj
    rw [c3 g (List.mem_range.2 hgn) i hic j hj, b2 i hic j hj]

/-- all broadcasts -/
theorem broadcastRounds_eq [Ring K] {levels : List (List ℕ)} (hs : levels.Pairwise (· < ·))
    (sizes : ℕ → List ℕ) (hlen : ∀ g, (sizes g).length = levels.length) (maxChunk : ℕ)
    (hmax : maxChunk < 2 ^ 31) (n o : ℕ) (ho : o < n) (size : ℕ → ℕ) (S : ℕ → Group K)
    (hg : ∀ g < n, GroupOk levels (sizes g) (S g)) (esz : List ℕ) (e : Dsg K)
    (he : Extra esz (sizes o) e) (chunks : List (List ℕ))
    (hc : ∀ c ∈ chunks, ChunkOk size maxChunk c) (hnd : chunks.flatten.Nodup)
    (hr : ∀ i ∈ chunks.flatten, i < levels.length)
    (hsz : ∀ g < n, ∀ i ∈ chunks.flatten, (sizes g).getD i 0 = size i)
    (hesz : ∀ i ∈ chunks.flatten, 0 < esz.getD i 0) (chunkOf : ℕ → ℕ → List ℕ)
    (hco : ∀ k (hk : k < chunks.length), ∀ g < n, chunkOf k g = chunks[k]) :
    ∃ S', (List.range chunks.length).foldlM (fun S k => broadcastRound o n e (chunkOf k) S) S =
        some S' ∧
      ∀ g < n, GroupOk levels (sizes g) (S' g) ∧ ExtractedAll levels (sizes g) chunks.flatten
        (fun i j => e.at i j) (S g).tasks (S' g).tasks := by
  have hn : levels.Nodup := hs.imp fun h => ne_of_lt h
  have H : ∀ k ≤ chunks.length, ∃ S', (List.range k).foldlM
        (fun S k => broadcastRound o n e (chunkOf k) S) S = some S' ∧
      ∀ g < n, GroupOk levels (sizes g) (S' g) ∧ ExtractedAll levels (sizes g)
        (chunks.take k).flatten (fun i j => e.at i j) (S g).tasks (S' g).tasks := by
    intro k
    induction k with
    | zero =>
      intro _
      exact ⟨S, rfl, fun g hgm => ⟨hg g hgm, extracted_refl _ _ _ _⟩⟩
    | succ k ih =>
      intro hk
      obtain ⟨S1, a1, a2⟩ := ih (by omega)
      have htake : (chunks.take (k + 1)).flatten = (chunks.take k).flatten ++ chunks[k] := by
        rw [List.take_succ_eq_append_getElem (by omega), List.flatten_append, List.flatten_singleton]
      have hsub : ∀ i ∈ chunks[k], i ∈ chunks.flatten := fun i hi =>
        List.mem_flatten.2 ⟨_, List.getElem_mem _, hi⟩
      obtain ⟨S2, b1, b2⟩ := broadcastRound_eq hs sizes hlen maxChunk hmax n o ho size S1
        (fun g hgm => (a2 g hgm).1) esz e he chunks[k] (hc _ (List.getElem_mem _))
        (fun i hi => hr i (hsub i hi)) (fun g hgm i hi => hsz g hgm i (hsub i hi))
        (fun i hi => hesz i (hsub i hi)) (chunkOf k) (hco k (by omega))
      refine ⟨S2, ?_, ?_⟩
      · rw [List.range_succ, List.foldlM_append, a1]
        simp only [Option.bind_eq_bind, Option.bind_some, List.foldlM_cons, List.foldlM_nil, b1]
        rfl
      · intro g hgn
        refine ⟨(b2 g hgn).1, ?_⟩
        rw [htake]
        refine (a2 g hgn).2.trans hn (hg g hgn).ok ?_ (b2 g hgn).2
        have := List.Nodup.sublist (List.Sublist.flatten (List.take_sublist (k + 1) chunks)) hnd
        rw [htake, List.nodup_append] at this
        exact fun i hi h => this.2.2 i hi i h rfl
  have := H chunks.length (le_refl _)
  rw [List.take_length] at this
  exact this

/-- one chunk that only the output group has -/
theorem updateRound_eq [Ring K] {levels : List (List ℕ)} (hs : levels.Pairwise (· < ·))
    {sizes : List ℕ} (hlen : sizes.length = levels.length) (g : Group K)
    (hg : GroupOk levels sizes g) (c : List ℕ) (hne : c ≠ []) (hsort : c.Pairwise (· < ·))
    (hr : ∀ i ∈ c, i < levels.length) (hlt : (c.map fun i => sizes.getD i 0).sum < 2 ^ 32)
    (esz : List ℕ) (e : Dsg K) (he : Extra esz sizes e) (hesz : ∀ i ∈ c, 0 < esz.getD i 0) :
    ∃ g', g.updateRound e c = some g' ∧ GroupOk levels sizes g' ∧
      ExtractedAll levels sizes c (fun i j => e.at i j) g.tasks g'.tasks := by
  obtain ⟨d', e1, e2, e3, e4, e5, e6⟩ := prepareBroadcast_eq hs hlen g hg c hne hsort hr hlt true esz e
    (fun _ => he)
  obtain ⟨ts', f1, f2⟩ := extractTasks_eq false ⟨d', g.tasks⟩ e2 (by simp) (by
    simp only [e3, e4]; exact hg.ok)
  simp only [e3, e4, e5] at f2
  refine ⟨⟨d', ts'⟩, ?_, ⟨e3, e4, f2.ok hg.ok⟩, ?_⟩
  rotate_left
  · refine f2.congr hg.ok (fun _ _ _ => Iff.rfl) ?_
    intro i hi hic j hj
    refine e6 rfl i hic j ?_
    rw [he.fit i (by have := hesz i hic; omega)] at hj
    exact hj
  · unfold Group.prepareBroadcast at e1
    unfold Group.updateRound
    rw [← f1]
    cases hal : g.dsg.allocateDifferentSubspaces c with
    | none => rw [hal] at e1; simp at e1
    | some d =>
      rw [hal] at e1
      simp only [Option.bind_eq_bind, Option.bind_some, if_true] at e1 ⊢
      rw [e1]
      rfl

theorem updateRounds_eq [Ring K] {levels : List (List ℕ)} (hs : levels.Pairwise (· < ·))
    {sizes : List ℕ} (hlen : sizes.length = levels.length) (chunks : List (List ℕ)) (g : Group K)
    (hg : GroupOk levels sizes g)
    (hc : ∀ c ∈ chunks, c ≠ [] ∧ c.Pairwise (· < ·) ∧ (∀ i ∈ c, i < levels.length) ∧
      (c.map fun i => sizes.getD i 0).sum < 2 ^ 32) (hnd : chunks.flatten.Nodup)
    (esz : List ℕ) (e : Dsg K) (he : Extra esz sizes e)
    (hesz : ∀ i ∈ chunks.flatten, 0 < esz.getD i 0) :
    ∃ g', chunks.foldlM (Group.updateRound e) g = some g' ∧ GroupOk levels sizes g' ∧
      ExtractedAll levels sizes chunks.flatten (fun i j => e.at i j) g.tasks g'.tasks := by
  have hn : levels.Nodup := hs.imp fun h => ne_of_lt h
  induction chunks generalizing g with
  | nil => exact ⟨g, rfl, hg, extracted_refl _ _ _ _⟩
  | cons c cs ih =>
    rw [List.flatten_cons] at hnd hesz ⊢
    rw [List.nodup_append] at hnd
    obtain ⟨q1, q2, q3, q4⟩ := hc c (by simp)
    obtain ⟨g1, e1, e2, e3⟩ := updateRound_eq hs hlen g hg c q1 q2 q3 q4 esz e he
      (fun i hi => hesz i (by simp [hi]))
    obtain ⟨g2, f1, f2, f3⟩ := ih g1 e2 (fun c' hc' => hc c' (by simp [hc'])) hnd.2.1
      (fun i hi => hesz i (by rw [List.mem_append]; exact Or.inr hi))
    refine ⟨g2, ?_, f2, e3.trans hn hg.ok (fun i hi h => hnd.2.2 i hi i h rfl) f3⟩
    rw [List.foldlM_cons, e1]
    exact f1

/-- The distribution of the extra sparse grid. -/
theorem distributeChunkedBroadcasts_eq [Ring K] {levels : List (List ℕ)}
    (hs : levels.Pairwise (· < ·)) (n o : ℕ) (ho : o < n)
    (sizes : ℕ → List ℕ) (hlen : ∀ g, (sizes g).length = levels.length) (maxChunk : ℕ)
    (hmax : maxChunk < 2 ^ 31) (shared : List ℕ)
    (hshr : ∀ i ∈ shared, i < levels.length) (size : ℕ → ℕ)
    (hsize : ∀ g < n, ∀ i < levels.length, (sizes g).getD i 0 < 2 ^ 31)
    (hsz : ∀ g < n, ∀ i ∈ shared, (sizes g).getD i 0 = size i)
    (st : WideState K)
    (hcomm : (∀ g < n, st.comm g = some shared) ∨ (shared = [] ∧ ∀ g < n, st.comm g = none))
    (hg : ∀ g < n, GroupOk levels (sizes g) (st.groups g))
    (esz : List ℕ) (hel : esz.length = levels.length) (he : Extra esz (sizes o) st.extra) :
    ∃ S', distributeChunkedBroadcasts maxChunk n o st = some S' ∧
      ∀ g < n, ExtractedAll levels (sizes g)
        ((List.range levels.length).filter fun i =>
          decide (0 < esz.getD i 0 ∧ (i ∈ shared ∨ g = o)))
        (fun i j => st.extra.at i j) (st.groups g).tasks (S' g).tasks := by
  have hn : levels.Nodup := hs.imp fun h => ne_of_lt h
  have hget : ∀ g < n, (st.comm g).getD [] = shared := by
    intro g hgn
    rcases hcomm with h | ⟨h0, h⟩
    · rw [h g hgn]; rfl
    · rw [h g hgn, h0]; rfl
  -- broadcasts
  have hb : ∀ i, i ∈ subspacesToBroadcast st.extra (st.comm o) ↔ 0 < esz.getD i 0 ∧ i ∈ shared := by
    intro i
    unfold subspacesToBroadcast
    rw [List.mem_filter, List.mem_range, he.sizes, hget o ho, decide_eq_true_eq]
    constructor
    · exact fun h => h.2
    · exact fun h => ⟨lt_of_getD_ne (by omega), h⟩
  have hbs : (subspacesToBroadcast st.extra (st.comm o)).Pairwise (· < ·) :=
    List.Pairwise.sublist List.filter_sublist List.pairwise_lt_range
  generalize hsub : subspacesToBroadcast st.extra (st.comm o) = subs at hb hbs
  have hsz0 : ∀ i ∈ subs, size i < 2 ^ 31 := by
    intro i hi
    rw [← hsz o ho i ((hb i).1 hi).2]
    exact hsize o ho i (hshr i ((hb i).1 hi).2)
  obtain ⟨c1, -⟩ := C33_chunks_partial size maxChunk (le_of_lt hmax) subs hsz0 hbs
  have c2 := chunkOk_of_mem size maxChunk (le_of_lt hmax) subs hsz0 hbs
  have hchunks : ∀ g < n, getChunkedSubspaces (fun s => (st.groups g).dsg.sizes.getD s 0) maxChunk
      subs = getChunkedSubspaces size maxChunk subs := by
    intro g hgm
    rw [(hg g hgm).siz]
    exact C33_same_chunks _ _ _ _ fun s hs => hsz g hgm s ((hb s).1 hs).2
  generalize hch : getChunkedSubspaces size maxChunk subs = chunks at *
  obtain ⟨S1, a1, a2⟩ := broadcastRounds_eq hs sizes hlen maxChunk hmax n o ho size st.groups hg esz
    st.extra he chunks c2 (by rw [c1]; exact hbs.imp fun h => ne_of_lt h)
    (by rw [c1]; exact fun i hi => hshr i ((hb i).1 hi).2)
    (by rw [c1]; exact fun g hgm i hi => hsz g hgm i ((hb i).1 hi).2)
    (by rw [c1]; exact fun i hi => ((hb i).1 hi).1)
    (fun k g => (getChunkedSubspaces (fun s => (st.groups g).dsg.sizes.getD s 0) maxChunk
      subs).getD k [])
    (by
      intro k hk g hgm
      simp only [hchunks g hgm]
      rw [List.getD_eq_getElem _ _ hk])
  rw [c1] at a2
  -- subspaces of the output group
  obtain ⟨p1, p2⟩ := a2 o ho
  have ho' : ∀ i, i ∈ subspacesOfOutputGroup st.extra (sizes o) (st.comm o) ↔
      0 < esz.getD i 0 ∧ i ∉ shared := by
    intro i
    unfold subspacesOfOutputGroup getIngroupSubspaces
    rw [List.mem_filter, List.mem_range, decide_eq_true_eq, List.mem_filter, List.mem_range,
      he.sizes, hget o ho, decide_eq_true_eq]
    constructor
    · exact fun h => ⟨h.2.2, h.2.1.2.2⟩
    · intro h
      have h1 := he.fit i (by omega)
      have h2 : i < (sizes o).length := lt_of_getD_ne (by omega)
      exact ⟨h2, ⟨h2, by omega, h.2⟩, h.1⟩
  have hos : (subspacesOfOutputGroup st.extra (sizes o) (st.comm o)).Pairwise (· < ·) :=
    List.Pairwise.sublist List.filter_sublist List.pairwise_lt_range
  generalize hsub' : subspacesOfOutputGroup st.extra (sizes o) (st.comm o) = own at ho' hos
  have hol : ∀ i ∈ own, i < levels.length := by
    intro i hi
    rw [← hel]
    exact lt_of_getD_ne (by have := ((ho' i).1 hi).1; omega)
  have hos0 : ∀ i ∈ own, (sizes o).getD i 0 < 2 ^ 31 := fun i hi => hsize o ho i (hol i hi)
  obtain ⟨d1, -⟩ := C33_chunks_partial (fun s => (sizes o).getD s 0) maxChunk (le_of_lt hmax) own hos0
    hos
  have d2 := chunkOk_of_mem (fun s => (sizes o).getD s 0) maxChunk (le_of_lt hmax) own hos0 hos
  generalize hch' : getChunkedSubspaces (fun s => (sizes o).getD s 0) maxChunk own = chunks' at *
  obtain ⟨g', b1, -, b3⟩ := updateRounds_eq hs (hlen o) chunks' (S1 o) p1 (by
      intro c hc
      refine ⟨(d2 c hc).ne, (d2 c hc).sorted, ?_, ?_⟩
      · intro i hi
        apply hol
        rw [← d1]
        exact List.mem_flatten.2 ⟨c, hc, hi⟩
      · have := (d2 c hc).sum_lt (le_of_lt hmax)
        omega)
    (by rw [d1]; exact hos.imp fun h => ne_of_lt h) esz st.extra he
    (by rw [d1]; exact fun i hi => ((ho' i).1 hi).1)
  rw [d1] at b3
  refine ⟨Function.update S1 o g', ?_, ?_⟩
  · unfold distributeChunkedBroadcasts
    simp only [hsub]
    rw [hchunks o ho, if_pos, a1]
    · simp only [Option.bind_eq_bind, Option.bind_some, p1.siz, hsub', hch', b1]
      rfl
    · rw [List.all_eq_true]
      intro g hgm
      rw [hchunks g (List.mem_range.1 hgm), decide_eq_true_eq]
      refine ⟨rfl, fun hne => ?_⟩
      rcases hcomm with h | ⟨h0, h⟩
      · rw [h g (List.mem_range.1 hgm)]; rfl
      · exfalso
        apply hne
        have : subs = [] := by
          rw [List.eq_nil_iff_forall_not_mem]
          intro i hi
          have := ((hb i).1 hi).2
          rw [h0] at this
          simp at this
        rw [← hch, this]
        simp [getChunkedSubspaces]
  · intro g hgn
    by_cases hgo : g = o
    · subst hgo
      rw [Function.update_self]
      refine ((p2.trans hn (hg g ho).ok ?_ b3).congr (hg g ho).ok ?_ (fun _ _ _ _ _ => rfl))
      · exact fun i hi h => ((ho' i).1 h).2 ((hb i).1 hi).2
      · intro i hi hpos
        rw [List.mem_append, hb, ho', List.mem_filter, List.mem_range, decide_eq_true_eq]
        constructor
        · rintro (h | h)
          · exact ⟨hi, h.1, Or.inr rfl⟩
          · exact ⟨hi, h.1, Or.inr rfl⟩
        · intro h
          by_cases hh : i ∈ shared
          · exact Or.inl ⟨h.2.1, hh⟩
          · exact Or.inr ⟨h.2.1, hh⟩
    · rw [Function.update_of_ne hgo]
      refine (a2 g hgn).2.congr (hg g hgn).ok ?_ (fun _ _ _ _ _ => rfl)
      intro i hi hpos
      rw [hb, List.mem_filter, List.mem_range, decide_eq_true_eq]
      constructor
      · exact fun h => ⟨hi, h.1, Or.inl h.2⟩
      · exact fun h => ⟨h.2.1, h.2.2.resolve_right hgo⟩

end Verif

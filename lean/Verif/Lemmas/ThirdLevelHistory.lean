import Verif.Model.ThirdLevelHistory
import Verif.Lemmas.DistributedHistory
import Verif.Lemmas.SystemAtOnce
import Verif.Props.ThirdLevel

/-!
# Lemmas for C103: whole simulations of two systems
-/

namespace Verif

variable {K : Type}

theorem systemHoldsIdx_congr {levels : List (List ℕ)} {n : ℕ} {T T' : ℕ → List (K × List ℕ × (ℕ → K))}
    (hT : ∀ g < n, (T' g).map (fun t => (t.1, t.2.1)) = (T g).map fun t => (t.1, t.2.1)) :
    SystemHoldsIdx levels n T' = SystemHoldsIdx levels n T := by
  funext i
  refine propext ⟨?_, ?_⟩
  · rintro ⟨g, hg, h⟩
    exact ⟨g, hg, (holdsLevel_congr hT hg _).1 h⟩
  · rintro ⟨g, hg, h⟩
    exact ⟨g, hg, (holdsLevel_congr hT hg _).2 h⟩

theorem Inevitable.mono {σ : Type} {step : σ → σ → Prop} {P Q : σ → Prop} {x : σ}
    (h : Inevitable step P x) (hPQ : ∀ x, P x → Q x) : Inevitable step Q x := by
  induction h with
  | here x hP hend => exact .here x (hPQ x hP) hend
  | step x hex _ ih => exact .step x hex ih

/-! ### One position -/

/-- Between combinations: what `Started` says about everything but the tasks. -/
structure Idle [Ring K] (refs : List RefDim) (levels : List (List ℕ)) (n : ℕ) (Q O : ℕ → Prop)
    (st : LinkState K) : Prop where
  ok : ∀ g < n, (st.groups g).dsg.levels = levels ∧
    (st.groups g).dsg.sizes = sizeRow levels.length (countOf refs levels) Q ∧
    CanZero levels.length (st.groups g).dsg
  extra : (∃ e, st.extra = some e ∧ Extra (sizeRow levels.length (countOf refs levels) O)
      (sizeRow levels.length (countOf refs levels) Q) e) ∨
    (st.extra = none ∧ sizeRow levels.length (countOf refs levels) O =
      sizeRow levels.length (countOf refs levels) Q)

section position

variable [Ring K] {refs : List RefDim} {levels : List (List ℕ)}

theorem Started.idle {n : ℕ} {T : ℕ → List (K × List ℕ × (ℕ → K))} {Q O : ℕ → Prop} {st : LinkState K}
    (h : Started refs levels n T Q O st) : Idle refs levels n Q O st :=
  ⟨fun g hg => ⟨(h.ok g hg).1.lev, (h.ok g hg).1.siz, (h.ok g hg).2⟩, h.extra⟩

theorem Idle.started {n : ℕ} {T : ℕ → List (K × List ℕ × (ℕ → K))} (hv : ValidSystem refs levels n T)
    {Q O : ℕ → Prop} (hQ : ∀ i, SystemHoldsIdx levels n T i → Q i) {st st' : LinkState K}
    (h : Idle refs levels n Q O st) (hd : ∀ g < n, (st'.groups g).dsg = (st.groups g).dsg)
    (ht : ∀ g < n, (st'.groups g).tasks = tasksOf refs (T g)) (he : st'.extra = st.extra) :
    Started refs levels n T Q O st' := by
  refine ⟨fun g hg => ?_, ht, by rw [he]; exact h.extra⟩
  rw [hd g hg]
  refine ⟨⟨by rw [hd g hg]; exact (h.ok g hg).1, by rw [hd g hg]; exact (h.ok g hg).2.1, ?_⟩,
    (h.ok g hg).2.2⟩
  rw [ht g hg]
  intro t' ht'
  obtain ⟨t, htm, rfl⟩ := List.mem_map.1 ht'
  refine taskOk_component hv.ref (hv.comp g hg t htm) (hv.first hg htm) _ fun i hi hl => ?_
  rw [getD_sizeRow_pos hi]
  · unfold countOf
    rw [getD_lt hi]
  · refine hQ i ⟨g, hg, ?_⟩
    unfold HoldsIdx
    rw [getD_lt hi]
    exact ⟨t, htm, hl⟩

theorem selOffset_total (sizes : List ℕ) :
    selOffset sizes (List.range sizes.length) sizes.length = sizes.sum := by
  rw [selOffset_length _ _ List.nodup_range (fun i hi => List.mem_range.1 hi)]
  congr 1
  apply List.ext_getElem
  · simp
  · intro i h1 h2
    rw [List.getElem_map, List.getElem_range]
    exact List.getD_eq_getElem _ _ h2

/-- A combination of two systems on one position, with the sparse grids that were set up before. -/
theorem position_round {n o : ℕ → ℕ} {T : ℕ → ℕ → List (K × List ℕ × (ℕ → K))}
    (h : ValidSystems refs levels 2 n T) (ho : ∀ s < 2, o s < n s) {Q : ℕ → ℕ → Prop} {O : ℕ → Prop}
    (hQ : ∀ s < 2, ∀ i, SystemHoldsIdx levels (n s) (T s) i → Q s i)
    (hO : ∀ s < 2, ∀ i, ¬ O i → SystemHoldsIdx levels (n s) (T s) i → ∀ t < 2, t ≠ s →
      ¬ SystemHoldsIdx levels (n t) (T t) i)
    {st : ℕ → LinkState K} (hst : ∀ s < 2, Started refs levels (n s) (T s) (Q s) O (st s))
    {maxChunk : ℕ} (hpos : 0 < maxChunk) (hmax : maxChunk < 2 ^ 31)
    (htotal : (levels.map (subspaceCount refs)).sum < 2 ^ 31 - 1) :
    ∃ (S : ℕ → ℕ → Group K) (x : ℕ → Dsg K), (∀ s < 2,
        linkSend .sparseGridReduce maxChunk (n s) (o s) (st s) = some (S s, x s) ∧
        (x s).data.toList.length = (sizeRow levels.length (countOf refs levels) O).sum) ∧
      ∀ s < 2, ∃ st', linkReceive .sparseGridReduce (n s) (o s) (st s) (S s, x s)
          (List.zipWith (· + ·) (x 0).data.toList (x 1).data.toList) = some st' ∧
        Idle refs levels (n s) (Q s) O st' ∧
        ∀ g < n s, List.Forall₂ (fun t (t' : K × Dfg K) => t'.1 = t.1 ∧
          t'.2.dims = (gridOf refs t.2.1 t.2.2).dims ∧ t'.2.data.len = numLocal refs t.2.1 ∧
          ∀ p < numLocal refs t.2.1,
            t'.2.data.val p = valueOfSystems refs 2 n T (spatialOf refs t.2.1 p))
          (T s g) (st'.groups g).tasks := by
  set m := levels.length with hm
  set N := countOf refs levels with hN
  have h32 : (levels.map (subspaceCount refs)).sum < 2 ^ 32 := lt_trans htotal (by norm_num)
  have hcollect : ∀ s, ∃ (S : ℕ → Group K) (x : Dsg K), s < 2 →
      linkCollect .sparseGridReduce none maxChunk (n s) (st s) = some S ∧
      (∀ g < n s, Ready levels (sizeRow m N (Q s)) (S g) ∧ (S g).tasks = tasksOf refs (T s g)) ∧
      (∀ i, ∀ j < (sizeRow m N (Q s)).getD i 0,
        (S (o s)).dsg.at i j = systemSum refs levels (n s) (T s) i j) ∧
      linkOutgoing (S (o s)).dsg (st s).extra = some x ∧
      Outgoing (sizeRow m N O) (fun i j => systemSum refs levels (n s) (T s) i j) x := by
    intro s
    by_cases hs : s < 2
    · obtain ⟨S, x, q⟩ := started_collect (ho s hs) (h.each s hs) (hst s hs) maxChunk hpos hmax h32 none
        (Or.inl rfl)
      exact ⟨S, x, fun _ => q⟩
    · exact ⟨fun _ => ⟨Dsg.empty levels, []⟩, Dsg.empty levels, fun hc => absurd hc hs⟩
  choose S x hcol using hcollect
  have hxw : ∀ s < 2, Whole (sizeRow m N O) (x s) := fun s hs => (hcol s hs).2.2.2.2.1
  have hlenx : ∀ s < 2, (x s).data.len = (sizeRow m N O).sum := by
    intro s hs
    rw [(hxw s hs).dataLen, selOffset_total]
  have hlenl : ∀ s < 2, (x s).data.toList.length = (sizeRow m N O).sum := by
    intro s hs
    rw [← hlenx s hs]
    simp [Buf.toList]
  refine ⟨S, x, fun s hs => ⟨?_, hlenl s hs⟩, fun s hs => ?_⟩
  · unfold linkSend
    rw [(hcol s hs).1]
    simp only [Option.bind_eq_bind, Option.bind_some]
    rw [(hcol s hs).2.2.2.1]
    rfl
  obtain ⟨c1, c2, c3, c4, c5⟩ := hcol s hs
  set xs := List.zipWith (· + ·) (x 0).data.toList (x 1).data.toList with hxs
  have hlxs : xs.length = (sizeRow m N O).sum := by
    rw [hxs, List.length_zipWith, hlenl 0 (by omega), hlenl 1 (by omega), Nat.min_self]
  set b : Buf K := ⟨xs.length, fun i => xs.getD i 0⟩ with hb
  have hblen : b.len = (x s).data.len := hlxs.trans (hlenx s hs).symm
  have hbval : ∀ i, ∀ j < (sizeRow m N O).getD i 0,
      b.val (selOffset (sizeRow m N O) (List.range (sizeRow m N O).length) i + j) =
        ((List.range 2).map fun t => systemSum refs levels (n t) (T t) i j).sum := by
    intro i j hj
    have e0 := (hcol 0 (by omega)).2.2.2.2.2 i j hj
    have e1 := (hcol 1 (by omega)).2.2.2.2.2 i j hj
    rw [(hxw 0 (by omega)).at_eq] at e0
    rw [(hxw 1 (by omega)).at_eq] at e1
    have hlt := pos_lt_total hj
    rw [selOffset_total] at hlt
    simp only [hb]
    rw [List.getD_eq_getElem _ _ (by rw [hlxs]; exact hlt)]
    simp only [hxs, List.getElem_zipWith, Buf.toList, List.getElem_map, List.getElem_range]
    rw [e0, e1]
    simp [List.range_succ]
  have hdw := (c2 (o s) (ho s hs)).1.whole (length_sizeRow _ _ _)
  obtain ⟨w, w1, w2⟩ : ∃ w : ℕ → K, linkIncoming (S s (o s)).dsg ((st s).extra.map fun _ => x s) b =
      some ((S s (o s)).dsg.withVal w) ∧ ∀ i, ∀ j < (sizeRow m N (Q s)).getD i 0,
      ((S s (o s)).dsg.withVal w).at i j = if (sizeRow m N O).getD i 0 = 0 then
        systemSum refs levels (n s) (T s) i j
      else ((List.range 2).map fun t => systemSum refs levels (n t) (T t) i j).sum := by
    rcases (hst s hs).extra with ⟨e, e1, e2⟩ | ⟨e1, e2⟩
    · obtain ⟨w, w1, w2⟩ := linkIncoming_extra hdw (hxw s hs) (by
          rw [length_sizeRow, length_sizeRow]) e2.fit b hblen _ hbval
      refine ⟨w, by rw [e1]; exact w1, fun i j hj => ?_⟩
      rw [w2 i j hj]
      split
      · exact c3 i j hj
      · rfl
    · have hlen : b.len = (S s (o s)).dsg.data.len := by
        rw [hblen, hdw.dataLen, ← e2, (hxw s hs).dataLen]
      refine ⟨b.val, ?_, fun i j hj => ?_⟩
      · rw [e1]
        unfold linkIncoming Dsg.withVal
        simp only [Option.map_none]
        rw [← hlen]
      · rw [(hdw.withVal b.val).at_eq]
        rw [← e2] at hj ⊢
        change j < (sizeRow m N O).getD i 0 at hj
        rw [if_neg (show (sizeRow m N O).getD i 0 ≠ 0 by omega)]
        exact hbval i j hj
  obtain ⟨R, r1, r2, r3⟩ := started_distribute h hs (ho s hs) (Q := Q s) (O := O) (hQ s hs) (hO s hs)
    htotal (st s).comm c2 w w2
  refine ⟨⟨R, (st s).comm, (st s).extra.map fun _ => { x s with data := b }⟩, ?_, ⟨r3, ?_⟩, r2⟩
  · unfold linkReceive
    simp only [Option.bind_eq_bind]
    rw [← hb, w1, Option.bind_some, r1]
    rfl
  · rcases (hst s hs).extra with ⟨e, e1, e2⟩ | ⟨e1, e2⟩
    · refine Or.inl ⟨{ x s with data := b }, by rw [e1]; rfl, ?_⟩
      have hx : ({ x s with data := b } : Dsg K) = (x s).withVal b.val := by
        unfold Dsg.withVal
        rw [← hblen]
      rw [hx]
      have hw := (hxw s hs).withVal b.val
      refine ⟨hw.placed, hw.sizes, hw.sel, ?_, e2.fit⟩
      have := e2.data
      rw [e2.whole.dataLen] at this
      rw [hw.dataLen]
      exact this
    · exact Or.inr ⟨by rw [e1]; rfl, e2⟩

end position

/-! ### Lists by rank -/

theorem getElem?_rankOf {β : Type} {layout c : List ℕ} (hc : c ∈ groupProcesses layout)
    (F : List ℕ → β) : ((groupProcesses layout).map F)[rankOf layout c]? = some (F c) := by
  obtain ⟨p, hp, rfl⟩ := List.mem_map.1 hc
  have hp' := List.mem_range.1 hp
  unfold rankOf
  rw [(getVectorIndex_spec layout p hp').2, groupProcesses, List.map_map, List.getElem?_map,
    List.getElem?_range hp']
  rfl

theorem zipWith_flatten_map {α β γ ι : Type} (f : α → β → γ) (l : List ι) (A : ι → List α) (B : ι → List β)
    (h : ∀ c ∈ l, (A c).length = (B c).length) :
    List.zipWith f (l.map A).flatten (l.map B).flatten =
      (l.map fun c => List.zipWith f (A c) (B c)).flatten := by
  induction l with
  | nil => rfl
  | cons c l ih =>
    simp only [List.map_cons, List.flatten_cons]
    rw [List.zipWith_append (h c (by simp)), ih fun c hc => h c (by simp [hc])]

theorem scatterSizes_flatten (rows : List (List ℕ)) :
    scatterSizes (rows.map List.length) rows.flatten = rows := by
  induction rows with
  | nil => rfl
  | cons r rows ih =>
    simp only [List.map_cons, List.flatten_cons, scatterSizes]
    rw [List.take_left, List.drop_left, ih]

theorem dsgusInOrder_map {α β ι : Type} (l : List ι) (L : ι → ℕ) (Y : ι → β) (f : β → List α) :
    dsgusInOrder 1 (l.map L) (fun _ p => (((l.map Y)[p]?).map f).getD []) =
      l.map fun c => (L c, f (Y c)) := by
  have h1 : dsgusInOrder 1 (l.map L) (fun _ p => (((l.map Y)[p]?).map f).getD []) =
      (List.range l.length).map fun p => ((l.map L).getD p 0, (((l.map Y)[p]?).map f).getD []) := by
    simp [dsgusInOrder]
  rw [h1]
  apply List.ext_getElem
  · simp
  · intro i h2 h3
    have hi : i < l.length := by simpa using h2
    simp [hi]

/-! ### What two systems hold and exchange -/

/-- The subspaces that the sparse grids of system `s` get. -/
def LinkQ (hasExtra : Bool) (levels : List (List ℕ)) (n : ℕ → ℕ)
    (T : ℕ → ℕ → List (K × List ℕ × (ℕ → K))) (s i : ℕ) : Prop :=
  SystemHoldsIdx levels (n s) (T s) i ∨ (hasExtra = false ∧ SystemHoldsIdx levels (n (1 - s)) (T (1 - s)) i)

/-- The subspaces that are exchanged. -/
def LinkO (hasExtra : Bool) (levels : List (List ℕ)) (n : ℕ → ℕ)
    (T : ℕ → ℕ → List (K × List ℕ × (ℕ → K))) (i : ℕ) : Prop :=
  if hasExtra = true then SystemHoldsIdx levels (n 0) (T 0) i ∧ SystemHoldsIdx levels (n 1) (T 1) i
  else SystemHoldsIdx levels (n 0) (T 0) i ∨ SystemHoldsIdx levels (n 1) (T 1) i

/-- The values that a process at position `c` exchanges. -/
noncomputable def linkCount (refs : List RefDim) (hasExtra : Bool) (levels : List (List ℕ)) (n : ℕ → ℕ)
    (T : ℕ → ℕ → List (K × List ℕ × (ℕ → K))) (c : List ℕ) : ℕ :=
  (sizeRow levels.length (countOf (atProcess refs c) levels) (LinkO hasExtra levels n T)).sum

section

variable {hasExtra : Bool} {refs : List RefDim} {levels : List (List ℕ)} {n o : ℕ → ℕ}
  {T T' : ℕ → ℕ → List (K × List ℕ × (ℕ → K))}

theorem linkQ_congr
    (hT : ∀ s < 2, ∀ g < n s, (T' s g).map (fun t => (t.1, t.2.1)) = (T s g).map fun t => (t.1, t.2.1))
    {s : ℕ} (hs : s < 2) : LinkQ hasExtra levels n T' s = LinkQ hasExtra levels n T s := by
  funext i
  unfold LinkQ
  rw [systemHoldsIdx_congr (hT s hs), systemHoldsIdx_congr (hT (1 - s) (by omega))]

theorem linkO_congr
    (hT : ∀ s < 2, ∀ g < n s, (T' s g).map (fun t => (t.1, t.2.1)) = (T s g).map fun t => (t.1, t.2.1)) :
    LinkO hasExtra levels n T' = LinkO hasExtra levels n T := by
  funext i
  unfold LinkO
  rw [systemHoldsIdx_congr (hT 0 (by omega)), systemHoldsIdx_congr (hT 1 (by omega))]

theorem linkO_other {s : ℕ} (hs : s < 2) {i : ℕ} (hO : ¬ LinkO hasExtra levels n T i)
    (hw : SystemHoldsIdx levels (n s) (T s) i) {t : ℕ} (ht : t < 2) (hts : t ≠ s) :
    ¬ SystemHoldsIdx levels (n t) (T t) i := by
  intro hc
  apply hO
  have h1 : (s = 0 ∧ t = 1) ∨ (s = 1 ∧ t = 0) := by omega
  unfold LinkO
  rcases h1 with ⟨rfl, rfl⟩ | ⟨rfl, rfl⟩
  · split
    · exact ⟨hw, hc⟩
    · exact Or.inl hw
  · split
    · exact ⟨hc, hw⟩
    · exact Or.inl hc

/-- The sizes that the manager of a system computes. -/
theorem sizeOp_rows (m : ℕ) (N : ℕ → ℕ) :
    List.zipWith (sizeOp hasExtra) (sizeRow m N (SystemHoldsIdx levels (n 0) (T 0)))
      (sizeRow m N (SystemHoldsIdx levels (n 1) (T 1))) = sizeRow m N (LinkO hasExtra levels n T) := by
  cases hasExtra with
  | true =>
    have : sizeOp true = min := by
      funext a b
      simp [sizeOp]
    rw [this, zipWith_min_row]
    exact sizeRow_congr fun i _ _ => by simp [LinkO]
  | false =>
    have : sizeOp false = max := by
      funext a b
      simp [sizeOp]
    rw [this, zipWith_max_row]
    exact sizeRow_congr fun i _ _ => by simp [LinkO]

/-- Setting up one position. -/
theorem position_setup [Ring K] (h : ValidSystems refs levels 2 n T) (ho : ∀ s < 2, o s < n s)
    (hconj : ∃ l, 0 < subspaceCount refs l ∧ SystemHolds (n 0) (T 0) l ∧ SystemHolds (n 1) (T 1) l)
    (htotal : (levels.map (subspaceCount refs)).sum < 2 ^ 31 - 1) {s : ℕ} (hs : s < 2) :
    0 < (sizeRow levels.length (countOf refs levels) (LinkO hasExtra levels n T)).sum ∧
    ∃ w : LinkSizes K, linkSizes .sparseGridReduce levels (systemOf refs (n s) (o s) (T s)) = some w ∧
      w.sizes[o s]? = some (sizeRow levels.length (countOf refs levels)
        (SystemHoldsIdx levels (n s) (T s))) ∧
      ∃ st, linkResize hasExtra levels (systemOf refs (n s) (o s) (T s)) w
          (sizeRow levels.length (countOf refs levels) (LinkO hasExtra levels n T)) = some st ∧
        Idle refs levels (n s) (LinkQ hasExtra levels n T s) (LinkO hasExtra levels n T) st := by
  set m := levels.length with hm
  set N := countOf refs levels with hN
  obtain ⟨ic, hic, hNc, hW0, hW1⟩ : ∃ i < m, 0 < N i ∧ SystemHoldsIdx levels (n 0) (T 0) i ∧
      SystemHoldsIdx levels (n 1) (T 1) i := by
    obtain ⟨l, hc, ⟨ga, hga, hha⟩, ⟨gb, hgb, hhb⟩⟩ := hconj
    obtain ⟨t, ht, hl⟩ := hha
    obtain ⟨i, hi, rfl⟩ := List.mem_iff_getElem.1
      (h.mem_of_shared (show 0 < 2 by omega) (show 1 < 2 by omega) (by omega) ⟨ga, hga, t, ht, hl⟩
        ⟨gb, hgb, hhb⟩)
    refine ⟨i, hi, ?_, ⟨ga, hga, ?_⟩, ⟨gb, hgb, ?_⟩⟩
    · rw [hN]
      unfold countOf
      rwa [getD_lt hi]
    · unfold HoldsIdx
      rw [getD_lt hi]
      exact ⟨t, ht, hl⟩
    · unfold HoldsIdx
      rw [getD_lt hi]
      exact hhb
  have hs' : s = 0 ∨ s = 1 := by omega
  refine ⟨?_, ?_⟩
  · have hO : LinkO hasExtra levels n T ic := by
      unfold LinkO
      split
      · exact ⟨hW0, hW1⟩
      · exact Or.inl hW0
    have h1 : N ic ∈ sizeRow m N (LinkO hasExtra levels n T) :=
      List.mem_map.2 ⟨ic, List.mem_range.2 hic, if_pos hO⟩
    exact lt_of_lt_of_le hNc (List.le_sum_of_mem h1)
  obtain ⟨dsgs, d1, d2⟩ := linkSizes_eq (o s) (h.each s hs)
  obtain ⟨st, q1, q2⟩ := linkStart_eq (ho s hs) (h.each s hs) d1
    ((List.range (n s)).map fun _ => none) hasExtra (SystemHoldsIdx levels (n (1 - s)) (T (1 - s)))
    (fun _ => ⟨ic, hic, hNc, by
      rcases hs' with rfl | rfl
      · exact ⟨hW0, hW1⟩
      · exact ⟨hW1, hW0⟩⟩) (lt_trans htotal (by norm_num))
  have hO : (fun i => if hasExtra = true then SystemHoldsIdx levels (n s) (T s) i ∧
        SystemHoldsIdx levels (n (1 - s)) (T (1 - s)) i
      else SystemHoldsIdx levels (n s) (T s) i ∨ SystemHoldsIdx levels (n (1 - s)) (T (1 - s)) i) =
      LinkO hasExtra levels n T := by
    rcases hs' with rfl | rfl
    · rfl
    · funext i
      unfold LinkO
      split
      · exact propext and_comm
      · exact propext or_comm
  rw [hO] at q2
  refine ⟨_, d2, getElem?_sizeTable (ho s hs), st, ?_, q2.idle⟩
  unfold linkStart at q1
  have hso : (systemOf refs (n s) (o s) (T s)).o = o s := rfl
  rw [hso] at q1
  simp only [getElem?_sizeTable (ho s hs), Option.bind_eq_bind, Option.bind_some] at q1
  rw [← q1]
  congr 1
  rw [← hO]
  cases hasExtra with
  | true =>
    rw [if_pos rfl, zipWith_min_row]
    exact sizeRow_congr fun i _ _ => by simp
  | false =>
    rw [if_neg (by simp), zipWith_max_row]
    exact sizeRow_congr fun i _ _ => by simp

end

/-- Two component grids with points on a process have a common subspace with points there. -/
theorem exists_shared {refs : List RefDim} (hr : ∀ r ∈ refs, ValidRef r) {L L' : List ℕ}
    (hL : ValidComponent refs L) (hL' : ValidComponent refs L')
    (h1 : ∀ d ∈ List.zipWith localOf refs L, 0 < d.size)
    (h2 : ∀ d ∈ List.zipWith localOf refs L', 0 < d.size) :
    ∃ l, l ∈ getDownSet L ∧ l ∈ getDownSet L' ∧ 0 < subspaceCount refs l := by
  have e1 := hL.le.length_eq
  have e2 := hL'.le.length_eq
  set M := List.zipWith min L L' with hMdef
  have eM : M.length = refs.length := by simp [hMdef, e1, e2]
  have hget : ∀ i (hi : i < M.length), M[i] = min (L[i]'(by omega)) (L'[i]'(by omega)) := by
    intro i hi
    simp [hMdef]
  have hM : ValidComponent refs M := by
    refine ⟨fun m hm => ?_, List.forall₂_iff_get.2 ⟨eM, fun i a b => ?_⟩⟩
    · obtain ⟨i, hi, rfl⟩ := List.mem_iff_getElem.1 hm
      rw [hget i hi]
      exact le_min (hL.pos _ (List.getElem_mem _)) (hL'.pos _ (List.getElem_mem _))
    · simp only [List.get_eq_getElem]
      rw [hget i a]
      exact le_trans (min_le_left _ _) ((List.forall₂_iff_get.1 hL.le).2 i (by omega) b)
  have hpos : 0 < numLocal refs M := by
    rw [Nat.pos_iff_ne_zero]
    intro h0
    unfold numLocal at h0
    rw [List.prod_eq_zero_iff] at h0
    obtain ⟨d, hd, hd0⟩ := List.mem_map.1 h0
    obtain ⟨i, hi, rfl⟩ := List.mem_iff_getElem.1 hd
    have hi' : i < refs.length := by simp only [List.length_zipWith] at hi; omega
    rw [List.getElem_zipWith, hget i (by omega)] at hd0
    rcases min_choice (L[i]'(by omega)) (L'[i]'(by omega)) with h | h
    · have := h1 (localOf refs[i] (L[i]'(by omega)))
        (List.mem_iff_getElem.2 ⟨i, by simp; omega, by simp⟩)
      rw [h] at hd0
      omega
    · have := h2 (localOf refs[i] (L'[i]'(by omega)))
        (List.mem_iff_getElem.2 ⟨i, by simp; omega, by simp⟩)
      rw [h] at hd0
      omega
  obtain ⟨l, hl, hp⟩ := exists_subspace_of_point hr hM hpos
  have hle := (mem_downSet_iff l M).1 hl
  refine ⟨l, (mem_downSet_iff l L).2 ⟨hle.1, ?_⟩, (mem_downSet_iff l L').2 ⟨hle.1, ?_⟩, ?_⟩
  · have h3 := List.forall₂_iff_get.1 hle.2
    refine List.forall₂_iff_get.2 ⟨by omega, fun i a b => le_trans (h3.2 i a (by omega)) ?_⟩
    simp only [List.get_eq_getElem]
    rw [hget i (by omega)]
    exact min_le_left _ _
  · have h3 := List.forall₂_iff_get.1 hle.2
    refine List.forall₂_iff_get.2 ⟨by omega, fun i a b => le_trans (h3.2 i a (by omega)) ?_⟩
    simp only [List.get_eq_getElem]
    rw [hget i (by omega)]
    exact min_le_right _ _
  · rw [← length_points hr hM hl]
    exact List.length_pos_of_mem hp

/-- If both systems have a task, they have a common subspace on every process. -/
theorem systems_share [One K] {refs : List RefDim} {levels : List (List ℕ)} {n : ℕ → ℕ}
    {T : ℕ → ℕ → List (K × List ℕ × (ℕ → K))} (h : ValidSystems refs levels 2 n T)
    (hne : ∀ s < 2, NonEmptyParts refs (n s) (T s)) (htask : ∀ s < 2, ∃ g < n s, T s g ≠ []) (c : List ℕ)
    (hc : InGroup refs c) : ∃ l, 0 < subspaceCount (atProcess refs c) l ∧
      SystemHolds (n 0) (T 0) l ∧ SystemHolds (n 1) (T 1) l := by
  obtain ⟨g, hg, ht⟩ := htask 0 (by omega)
  obtain ⟨g', hg', ht'⟩ := htask 1 (by omega)
  obtain ⟨t, ht⟩ := List.exists_mem_of_ne_nil _ ht
  obtain ⟨t', ht'⟩ := List.exists_mem_of_ne_nil _ ht'
  have v0 := h.each 0 (by omega)
  have v1 := h.each 1 (by omega)
  obtain ⟨l, a1, a2, a3⟩ := exists_shared (validRef_atProcess v0.ref hc)
    (validComponent_atProcess hc (v0.comp g hg t ht)) (validComponent_atProcess hc (v1.comp g' hg' t' ht'))
    (hne 0 (by omega) g hg t ht c hc) (hne 1 (by omega) g' hg' t' ht' c hc)
  exact ⟨l, a3, ⟨g, hg, t, ht, a1⟩, ⟨g', hg', t', ht', a2⟩⟩

/-! ### All positions -/

/-- What holds between the steps of the simulation. -/
structure LinkInv [Ring K] (hasExtra : Bool) (refs : List RefDim) (levels : List (List ℕ)) (n : ℕ → ℕ)
    (T : ℕ → ℕ → List (K × List ℕ × (ℕ → K))) (sims : Bool → LinkSim K) : Prop where
  valid : ValidSystems refs levels 2 n T
  ne : ∀ s < 2, NonEmptyParts refs (n s) (T s)
  hold : ∀ s : Bool, ∀ g < n s.toNat, List.Forall₂ (HoldsParts refs) (T s.toNat g) ((sims s).tasks g)
  states : ∃ st : Bool → List ℕ → LinkState K, ∀ s : Bool,
    (sims s).states = (groupProcesses (refs.map fun r => r.dec.length)).map (st s) ∧
    ∀ c, InGroup refs c → Idle (atProcess refs c) levels (n s.toNat) (LinkQ hasExtra levels n T s.toNat)
      (LinkO hasExtra levels n T) (st s c)
  per : ∀ s : Bool, (sims s).perWorker =
    (groupProcesses (refs.map fun r => r.dec.length)).map (linkCount refs hasExtra levels n T)

theorem LinkInv.change [Ring K] {hasExtra : Bool} {refs : List RefDim} {levels : List (List ℕ)} {n : ℕ → ℕ}
    {T T' : ℕ → ℕ → List (K × List ℕ × (ℕ → K))} {sims sims' : Bool → LinkSim K}
    (h : LinkInv hasExtra refs levels n T sims)
    (hT : ∀ s < 2, ∀ g < n s, (T' s g).map (fun t => (t.1, t.2.1)) = (T s g).map fun t => (t.1, t.2.1))
    (hh : ∀ s : Bool, ∀ g < n s.toNat, List.Forall₂ (HoldsParts refs) (T' s.toNat g) ((sims' s).tasks g))
    (hst : ∃ st : Bool → List ℕ → LinkState K, ∀ s : Bool,
      (sims' s).states = (groupProcesses (refs.map fun r => r.dec.length)).map (st s) ∧
      ∀ c, InGroup refs c → Idle (atProcess refs c) levels (n s.toNat)
        (LinkQ hasExtra levels n T s.toNat) (LinkO hasExtra levels n T) (st s c))
    (hp : ∀ s, (sims' s).perWorker = (sims s).perWorker) : LinkInv hasExtra refs levels n T' sims' := by
  refine ⟨retask_systems h.valid hT, fun s hs => nonEmptyParts_of_levels (h.ne s hs) (hT s hs), hh, ?_, ?_⟩
  · obtain ⟨st, e⟩ := hst
    refine ⟨st, fun s => ⟨(e s).1, fun c hc => ?_⟩⟩
    rw [linkQ_congr hT (Bool.toNat_lt s), linkO_congr hT]
    exact (e s).2 c hc
  · intro s
    rw [hp, h.per]
    unfold linkCount
    rw [linkO_congr hT]

section steps

variable [Field K] [CharZero K] {R : Type} {refs : List RefDim} {prm : CombineParams} {levels : List (List ℕ)}
  {n o : ℕ → ℕ} {maxChunk sz cap : ℕ} {hasExtra : Bool} {H D : List ℕ → (ℕ → K) → ℕ → K}
  {P : TLState K R → Prop}

/-- The two systems in the theorems. -/
def linkSetting (refs : List RefDim) (prm : CombineParams) (hasExtra : Bool) (maxChunk : ℕ)
    (levels : List (List ℕ)) (n o : ℕ → ℕ) (sz : ℕ) (s : Bool) : LinkSetting :=
  ⟨refs.map fun r => r.dec.length, prm, .sparseGridReduce, hasExtra, maxChunk, levels, n s.toNat, o s.toNat, sz⟩

omit [CharZero K] in
theorem onProcess_systemOf {s : Bool} {T : ℕ → ℕ → List (K × List ℕ × (ℕ → K))}
    (h : ValidSystems refs levels 2 n T) {S : Bool → ℕ → List (GroupTask K)}
    (hS : ∀ s : Bool, ∀ g < n s.toNat, List.Forall₂ (HoldsParts refs) (T s.toNat g) (S s g))
    (hS0 : ∀ s : Bool, ∀ g, n s.toNat ≤ g → S s g = []) {c : List ℕ} (hc : InGroup refs c) :
    (⟨n s.toNat, o s.toNat, S s⟩ : GroupSystem K).onProcess c =
      systemOf (atProcess refs c) (n s.toNat) (o s.toNat) fun g =>
        localTasks c (T s.toNat g) (S s g) := by
  unfold GroupSystem.onProcess systemOf
  congr 1
  funext g
  by_cases hg : g < n s.toNat
  · exact (localTasks_spec hc (hS s g hg) ((h.each _ (Bool.toNat_lt s)).comp g hg)).1
  · simp only
    rw [hS0 s g (by omega)]
    simp [localTasks, tasksOf]

/-- Number `s` of two systems. -/
def sysOf (s : ℕ) : Bool := decide (s = 1)

theorem sysOf_toNat (s : Bool) : sysOf s.toNat = s := by cases s <;> rfl

theorem toNat_sysOf {s : ℕ} (hs : s < 2) : (sysOf s).toNat = s := by
  have : s = 0 ∨ s = 1 := by omega
  rcases this with rfl | rfl <;> rfl

omit [CharZero K] in
/-- The sum of the sizes on all processes. -/
theorem sum_rows_le (l : List (List ℕ)) (Q : ℕ → Prop) :
    (l.map fun c => sizeRow levels.length (countOf (atProcess refs c) levels) Q).flatten.sum ≤
      (l.map fun c => (levels.map (subspaceCount (atProcess refs c))).sum).sum := by
  induction l with
  | nil => simp
  | cons c l ih =>
    simp only [List.map_cons, List.flatten_cons, List.sum_append, List.sum_cons]
    exact Nat.add_le_add (sum_sizeRow_le _) ih

omit [CharZero K] in
theorem link_setup (hcap : 0 < cap) {T : ℕ → ℕ → List (K × List ℕ × (ℕ → K))}
    (h : ValidSystems refs levels 2 n T) (ho : ∀ s < 2, o s < n s)
    (hne : ∀ s < 2, NonEmptyParts refs (n s) (T s))
    (hconj : ∀ c, InGroup refs c → ∃ l, 0 < subspaceCount (atProcess refs c) l ∧
      SystemHolds (n 0) (T 0) l ∧ SystemHolds (n 1) (T 1) l)
    (htotal : ∀ c, InGroup refs c → (levels.map (subspaceCount (atProcess refs c))).sum < 2 ^ 31 - 1)
    (hall : ((groupProcesses (refs.map fun r => r.dec.length)).map fun c =>
      (levels.map (subspaceCount (atProcess refs c))).sum).sum < 2 ^ 31)
    {S : Bool → ℕ → List (GroupTask K)}
    (hS : ∀ s : Bool, ∀ g < n s.toNat, List.Forall₂ (HoldsParts refs) (T s.toNat g) (S s g))
    (hS0 : ∀ s : Bool, ∀ g, n s.toNat ≤ g → S s g = [])
    (k : Bool → LinkSim K → SysProg K R)
    (hk : ∀ sims, LinkInv hasExtra refs levels n T sims →
      Inevitable (TLStep cap sz) P ⟨fun s => k s (sims s), .loop [false, true], fun _ => [], fun _ => []⟩) :
    Inevitable (TLStep cap sz) P ⟨fun s => linkSetup
      (linkSetting refs prm hasExtra maxChunk levels n o sz s) (S s) (k s), .loop [false, true],
      fun _ => [], fun _ => []⟩ := by
  set layout := refs.map fun r => r.dec.length with hlay
  -- one position
  have hone : ∀ c, ∃ (w : Bool → LinkSizes K) (st : Bool → LinkState K), InGroup refs c → ∀ s,
      linkSizes .sparseGridReduce levels
        ((⟨n s.toNat, o s.toNat, S s⟩ : GroupSystem K).onProcess c) = some (w s) ∧
      (w s).sizes[o s.toNat]? = some (sizeRow levels.length (countOf (atProcess refs c) levels)
        (SystemHoldsIdx levels (n s.toNat) (T s.toNat))) ∧
      linkResize hasExtra levels ((⟨n s.toNat, o s.toNat, S s⟩ : GroupSystem K).onProcess c) (w s)
        (sizeRow levels.length (countOf (atProcess refs c) levels) (LinkO hasExtra levels n T)) =
          some (st s) ∧
      Idle (atProcess refs c) levels (n s.toNat) (LinkQ hasExtra levels n T s.toNat)
        (LinkO hasExtra levels n T) (st s) := by
    intro c
    by_cases hc : InGroup refs c
    · have hlev : ∀ s < 2, ∀ g < n s, (localTasks c (T s g) (S (sysOf s) g)).map (fun t => (t.1, t.2.1)) =
          (T s g).map fun t => (t.1, t.2.1) := by
        intro s hs g hg
        have := hS (sysOf s) g (by rw [toNat_sysOf hs]; exact hg)
        rw [toNat_sysOf hs] at this
        exact localTasks_levels hc this ((h.each s hs).comp g hg)
      have hv := retask_systems (validSystems_atProcess h hc) hlev
      have hcj : ∃ l, 0 < subspaceCount (atProcess refs c) l ∧
          SystemHolds (n 0) (fun g => localTasks c (T 0 g) (S (sysOf 0) g)) l ∧
          SystemHolds (n 1) (fun g => localTasks c (T 1 g) (S (sysOf 1) g)) l := by
        obtain ⟨l, a1, a2, a3⟩ := hconj c hc
        exact ⟨l, a1, (systemHolds_congr (hlev 0 (by omega)) l).2 a2,
          (systemHolds_congr (hlev 1 (by omega)) l).2 a3⟩
      have := fun s : Bool => (position_setup (hasExtra := hasExtra) hv ho hcj (htotal c hc)
        (Bool.toNat_lt s)).2
      choose w w1 w2 st w3 w4 using this
      refine ⟨w, st, fun _ s => ?_⟩
      have hsys := onProcess_systemOf (o := o) (s := s) h hS hS0 hc
      have e := systemHoldsIdx_congr (levels := levels) (hlev s.toNat (Bool.toNat_lt s))
      have e1 := w1 s
      have e2 := w2 s
      have e3 := w3 s
      have e4 := w4 s
      rw [linkO_congr hlev] at e3 e4
      rw [linkQ_congr hlev (Bool.toNat_lt s)] at e4
      rw [e] at e2
      simp only [sysOf_toNat] at e1 e3
      rw [hsys]
      exact ⟨e1, e2, e3, e4⟩
    · exact ⟨fun _ => ⟨[], [], []⟩, fun _ => ⟨fun _ => ⟨Dsg.empty levels, []⟩, fun _ => none, none⟩,
        fun hcc => absurd hcc hc⟩
  choose w st hws using hone
  let row : List ℕ → (ℕ → Prop) → List ℕ := fun c Q =>
    sizeRow levels.length (countOf (atProcess refs c) levels) Q
  let W : Bool → ℕ → Prop := fun s => SystemHoldsIdx levels (n s.toNat) (T s.toNat)
  let workers : Bool → List (List ℕ) := fun s => (groupProcesses layout).map fun c => row c (W s)
  have hin : ∀ c ∈ groupProcesses layout, InGroup refs c := fun c hc => mem_groupProcesses.1 hc
  let reduced : List (List ℕ) := (groupProcesses layout).map fun c => row c (LinkO hasExtra levels n T)
  have hcounts : ∀ s, (workers s).map List.length = reduced.map List.length := by
    intro s
    simp only [workers, reduced, List.map_map]
    refine List.map_congr_left fun c _ => ?_
    simp [row, length_sizeRow]
  -- the program up to the exchange of the sizes
  have hprog : (fun s => linkSetup (linkSetting refs prm hasExtra maxChunk levels n o sz s) (S s) (k s)) =
      fun s => unifyProg sz hasExtra (workers s) fun r => match r with
        | .sizes reduced _ =>
          orFail ((groupProcesses layout).mapM fun c => do
            let w ← ((groupProcesses layout).map fun c => w c s)[rankOf layout c]?
            let mine ← (scatterSizes ((workers s).map List.length) reduced)[rankOf layout c]?
            linkResize hasExtra levels ((⟨n s.toNat, o s.toNat, S s⟩ : GroupSystem K).onProcess c) w mine)
            fun states => k s ⟨S s, states, sizesPerWorker ((workers s).map List.length) reduced⟩
        | _ => .fail := by
    funext s
    have m1 : (groupProcesses layout).mapM (fun c => linkSizes .sparseGridReduce levels
        ((⟨n s.toNat, o s.toNat, S s⟩ : GroupSystem K).onProcess c)) =
        some ((groupProcesses layout).map fun c => w c s) :=
      mapM_some_map _ _ _ fun c hc => (hws c (hin c hc) s).1
    have m2 : ((groupProcesses layout).map fun c => w c s).mapM
        (fun w : LinkSizes K => w.sizes[o s.toNat]?) = some (workers s) := by
      rw [List.mapM_map]
      exact mapM_some_map _ _ _ fun c hc => (hws c (hin c hc) s).2.1
    simp only [linkSetup, linkSetting, ← hlay, m1, m2, orFail]
    rfl
  rw [hprog]
  have hlen : (workers false).flatten.length = (workers true).flatten.length := by
    rw [List.length_flatten, List.length_flatten, hcounts, hcounts]
  have hred : reduced.flatten = List.zipWith (sizeOp hasExtra) (workers false).flatten
      (workers true).flatten := by
    simp only [workers, reduced]
    rw [zipWith_flatten_map _ _ _ _ fun c _ => by simp [row, length_sizeRow]]
    congr 1
    exact List.map_congr_left fun c _ => (sizeOp_rows _ _).symm
  have hsum : ∀ Q : ℕ → Prop, ((groupProcesses layout).map fun c => row c Q).flatten.sum < 2 ^ 31 :=
    fun Q => lt_of_le_of_lt (sum_rows_le _ _) hall
  have hper : ∀ s, sizesPerWorker ((workers s).map List.length) reduced.flatten = reduced.map List.sum :=
    fun s => sizesPerWorker_eq _ _ (hcounts s) (hsum _)
  refine tl_unify hcap hasExtra workers hlen ?_ reduced.flatten hred ?_ _ ?_
  · intro p hp
    rw [List.zip_eq_zipWith] at hp
    simp only [workers] at hp
    rw [zipWith_flatten_map _ _ _ _ fun c _ => by simp [row, length_sizeRow]] at hp
    obtain ⟨l, hl, hpl⟩ := List.mem_flatten.1 hp
    obtain ⟨c, -, rfl⟩ := List.mem_map.1 hl
    obtain ⟨i, hi, rfl⟩ := List.mem_iff_getElem.1 hpl
    simp only [row, sizeRow, List.getElem_zipWith, List.getElem_map, List.getElem_range]
    split_ifs
    · exact Or.inl rfl
    · exact Or.inr (Or.inr rfl)
    · exact Or.inr (Or.inl rfl)
    · exact Or.inl rfl
  · intro s
    have hc1 : ((workers s).map List.length).sum = (workers s).flatten.length :=
      (List.length_flatten ..).symm
    have hc2 : ((workers s).map List.length).sum = reduced.flatten.length := by
      rw [hcounts]
      exact (List.length_flatten ..).symm
    simp only
    rw [accumulateInt_sizesPerWorker _ _ hc1 (hsum _), accumulateInt_sizesPerWorker _ _ hc2 (hsum _), hred]
    cases hasExtra with
    | false =>
      have hop : sizeOp false = max := by
        funext a b
        simp [sizeOp]
      rw [hop]
      simp only [Bool.false_eq_true, false_and, not_false_eq_true, true_and, not_lt]
      have h1 := le_sum_zipWith_max _ _ hlen
      have h2 := le_sum_zipWith_max _ _ hlen.symm
      rw [List.zipWith_comm_of_comm (f := max) max_comm] at h2
      cases s
      · exact_mod_cast h1
      · exact_mod_cast h2
    | true =>
      have hop : sizeOp true = min := by
        funext a b
        simp [sizeOp]
      rw [hop]
      simp only [true_and, not_true_eq_false, false_and, not_false_eq_true, and_true, not_lt]
      have h1 := sum_zipWith_min_le (workers false).flatten (workers true).flatten
      have h2 := sum_zipWith_min_le (workers true).flatten (workers false).flatten
      rw [List.zipWith_comm_of_comm (f := min) min_comm] at h2
      cases s
      · exact_mod_cast h1
      · exact_mod_cast h2
  · have hnext : ∀ s, (groupProcesses layout).mapM (fun c => do
            let w ← ((groupProcesses layout).map fun c => w c s)[rankOf layout c]?
            let mine ← (scatterSizes ((workers s).map List.length) reduced.flatten)[rankOf layout c]?
            linkResize hasExtra levels ((⟨n s.toNat, o s.toNat, S s⟩ : GroupSystem K).onProcess c) w mine) =
        some ((groupProcesses layout).map fun c => st c s) := by
      intro s
      refine mapM_some_map _ _ _ fun c hc => ?_
      rw [hcounts, scatterSizes_flatten]
      simp only [reduced, Option.bind_eq_bind]
      rw [getElem?_rankOf hc, Option.bind_some, getElem?_rankOf hc, Option.bind_some]
      exact (hws c (hin c hc) s).2.2.1
    simp only [hnext, orFail, hper]
    refine hk (fun s => ⟨S s, (groupProcesses layout).map fun c => st c s, reduced.map List.sum⟩)
      ⟨h, hne, hS, ⟨fun s c => st c s, fun s => ⟨rfl, fun c hc => (hws c hc s).2.2.2⟩⟩, fun s => ?_⟩
    simp only [reduced, List.map_map]
    rfl

omit [CharZero K] in
/-- A combination at one position. -/
theorem link_position {T : ℕ → ℕ → List (K × List ℕ × (ℕ → K))} (h : ValidSystems refs levels 2 n T)
    (ho : ∀ s < 2, o s < n s) (hpos : 0 < maxChunk) (hmax : maxChunk < 2 ^ 31)
    {hs : Bool → ℕ → List (GroupTask K)}
    (hS : ∀ s : Bool, ∀ g < n s.toNat, List.Forall₂ (HoldsParts refs) (T s.toNat g) (hs s g))
    {c : List ℕ} (hc : InGroup refs c)
    (htotal : (levels.map (subspaceCount (atProcess refs c))).sum < 2 ^ 31 - 1) {st : Bool → LinkState K}
    (hst : ∀ s : Bool, Idle (atProcess refs c) levels (n s.toNat) (LinkQ hasExtra levels n T s.toNat)
      (LinkO hasExtra levels n T) (st s)) :
    ∃ (y : Bool → (ℕ → Verif.Group K) × Dsg K) (st' : Bool → LinkState K), ∀ s : Bool,
      linkSend .sparseGridReduce maxChunk (n s.toNat) (o s.toNat) (loadLink c (hs s) (st s)) = some (y s) ∧
      (y s).2.data.toList.length = linkCount refs hasExtra levels n T c ∧
      linkReceive .sparseGridReduce (n s.toNat) (o s.toNat) (st s) (y s)
        (List.zipWith (· + ·) (y false).2.data.toList (y true).2.data.toList) = some (st' s) ∧
      Idle (atProcess refs c) levels (n s.toNat) (LinkQ hasExtra levels n T s.toNat)
        (LinkO hasExtra levels n T) (st' s) ∧
      ∀ g < n s.toNat, List.Forall₂ (fun t (t' : K × Dfg K) =>
          t'.2.data.len = numLocal (atProcess refs c) t.2.1 ∧
          ∀ p < numLocal (atProcess refs c) t.2.1, t'.2.data.val p =
            valueOfSystems (oneProcess refs) 2 n T
              (spatialOf (oneProcess refs) t.2.1 (globalOf refs c t.2.1 p)))
        (T s.toNat g) ((st' s).groups g).tasks := by
  have hS' : ∀ s < 2, ∀ g < n s, List.Forall₂ (HoldsParts refs) (T s g) (hs (sysOf s) g) := by
    intro s hs' g hg
    have := hS (sysOf s) g (by rw [toNat_sysOf hs']; exact hg)
    rwa [toNat_sysOf hs'] at this
  have hspec := fun s (hs' : s < 2) g (hg : g < n s) =>
    localTasks_spec hc (hS' s hs' g hg) ((h.each s hs').comp g hg)
  have hlev : ∀ s < 2, ∀ g < n s, (localTasks c (T s g) (hs (sysOf s) g)).map (fun t => (t.1, t.2.1)) =
      (T s g).map fun t => (t.1, t.2.1) :=
    fun s hs' g hg => localTasks_levels hc (hS' s hs' g hg) ((h.each s hs').comp g hg)
  have hv := retask_systems (validSystems_atProcess h hc) hlev
  have hidle : ∀ s < 2, Started (atProcess refs c) levels (n s)
      (fun g => localTasks c (T s g) (hs (sysOf s) g)) (LinkQ hasExtra levels n T s)
      (LinkO hasExtra levels n T) (loadLink c (hs (sysOf s)) (st (sysOf s))) := by
    intro s hs'
    have hi := hst (sysOf s)
    rw [toNat_sysOf hs'] at hi
    refine hi.started (hv.each s hs') ?_ (fun _ _ => rfl) (fun g hg => (hspec s hs' g hg).1) rfl
    intro i hw
    rw [systemHoldsIdx_congr (hlev s hs')] at hw
    exact Or.inl hw
  obtain ⟨S, x, r1, r2⟩ := position_round hv ho
    (Q := LinkQ hasExtra levels n T) (O := LinkO hasExtra levels n T) (by
      intro s hs' i hw
      rw [systemHoldsIdx_congr (hlev s hs')] at hw
      exact Or.inl hw) (by
      intro s hs' i hO hw t ht hts
      rw [systemHoldsIdx_congr (hlev s hs')] at hw
      rw [systemHoldsIdx_congr (hlev t ht)]
      exact linkO_other hs' hO hw ht hts) hidle hpos hmax htotal
  have r2' := fun s : Bool => r2 s.toNat (Bool.toNat_lt s)
  choose st' q1 q2 q3 using r2'
  refine ⟨fun s => (S s.toNat, x s.toNat), st', fun s => ⟨?_, ?_, ?_, q2 s, fun g hg => ?_⟩⟩
  · have := (r1 s.toNat (Bool.toNat_lt s)).1
    rwa [sysOf_toNat] at this
  · exact (r1 s.toNat (Bool.toNat_lt s)).2
  · have := q1 s
    rw [sysOf_toNat] at this
    exact this
  · have hTr := (hspec s.toNat (Bool.toNat_lt s) g hg).2
    have hr2 := q3 s g hg
    unfold Transformed at hTr
    beta_reduce at hr2
    rw [List.forall₂_iff_get] at hTr hr2 ⊢
    refine ⟨by rw [hTr.1, hr2.1], fun i h1 h2 => ?_⟩
    obtain ⟨-, e2, -⟩ := hTr.2 i h1 (by rw [← hTr.1]; exact h1)
    obtain ⟨-, -, e3, e4⟩ := hr2.2 i (by rw [← hTr.1]; exact h1) h2
    rw [e2] at e3 e4
    refine ⟨e3, fun p hp => ?_⟩
    rw [e4 p hp]
    unfold valueOfSystems
    congr 1
    apply List.map_congr_left
    intro s' hs'
    have hs'' := List.mem_range.1 hs'
    rw [valueAtPlace_congr (fun g hg => (hspec s' hs'' g hg).2)]
    exact valueAtPlace_atProcess (h.each _ (Bool.toNat_lt s)).ref
      ((h.each _ (Bool.toNat_lt s)).comp g hg _ (List.get_mem _ ⟨i, h1⟩)) hc hp (h.each s' hs'').comp

/-- The values after a complete combination of two systems. -/
def combinedSystems (refs : List RefDim) (n : ℕ → ℕ) (H D : List ℕ → (ℕ → K) → ℕ → K)
    (T : ℕ → ℕ → List (K × List ℕ × (ℕ → K))) (s g : ℕ) : List (K × List ℕ × (ℕ → K)) :=
  (T s g).map fun t => (t.1, t.2.1, D t.2.1 fun q =>
    valueOfSystems (oneProcess refs) 2 n (fun s => hierVals H (T s)) (spatialOf (oneProcess refs) t.2.1 q))

theorem link_combine (hcap : 0 < cap) (hsz : 0 < sz) (hP : ParamsOk refs prm)
    (hm : ∀ L, ValidComponent refs L →
      GridMaps (compDims (oneProcess refs) prm L) (selectedDims prm.sel) (H L) (D L))
    (ho : ∀ s < 2, o s < n s) (hpos : 0 < maxChunk) (hmax : maxChunk < 2 ^ 31)
    (htotal : ∀ c, InGroup refs c → (levels.map (subspaceCount (atProcess refs c))).sum < 2 ^ 31 - 1)
    {T : ℕ → ℕ → List (K × List ℕ × (ℕ → K))}
    (hsome : ∀ c, InGroup refs c → 0 < linkCount refs hasExtra levels n T c) {sims : Bool → LinkSim K}
    (h : LinkInv hasExtra refs levels n T sims) (junk : Bool → Scratch K)
    (k : Bool → LinkSim K → SysProg K R)
    (hk : ∀ sims', LinkInv hasExtra refs levels n (combinedSystems refs n H D T) sims' →
      Inevitable (TLStep cap sz) P ⟨fun s => k s (sims' s), .loop [false, true], fun _ => [], fun _ => []⟩) :
    Inevitable (TLStep cap sz) P ⟨fun s => linkCombineProg
      (linkSetting refs prm hasExtra maxChunk levels n o sz s) (junk s) (sims s) (k s),
      .loop [false, true], fun _ => [], fun _ => []⟩ := by
  set layout := refs.map fun r => r.dec.length with hlay
  have hin : ∀ c ∈ groupProcesses layout, InGroup refs c := fun c hc => mem_groupProcesses.1 hc
  have ha := fun s : Bool => (groups_transform (h.valid.each _ (Bool.toNat_lt s)).ref hP hm
    (h.valid.each _ (Bool.toNat_lt s)).comp (h.ne _ (Bool.toNat_lt s)) (h.hold s) (junk s).hier).1
  choose hs a1 a2 _ using ha
  have hl1 : ∀ s < 2, ∀ g < n s, (hierVals H (T s) g).map (fun t => (t.1, t.2.1)) =
      (T s g).map fun t => (t.1, t.2.1) := fun s _ g _ => hierVals_levels H (T s) g
  have hv1 : ValidSystems refs levels 2 n fun s => hierVals H (T s) := retask_systems h.valid hl1
  obtain ⟨st, hst⟩ := h.states
  -- one position
  have hone : ∀ c, ∃ (y : Bool → (ℕ → Verif.Group K) × Dsg K) (st' : Bool → LinkState K),
      InGroup refs c → ∀ s : Bool,
      linkSend .sparseGridReduce maxChunk (n s.toNat) (o s.toNat) (loadLink c (hs s) (st s c)) =
        some (y s) ∧
      (y s).2.data.toList.length = linkCount refs hasExtra levels n T c ∧
      linkReceive .sparseGridReduce (n s.toNat) (o s.toNat) (st s c) (y s)
        (List.zipWith (· + ·) (y false).2.data.toList (y true).2.data.toList) = some (st' s) ∧
      Idle (atProcess refs c) levels (n s.toNat) (LinkQ hasExtra levels n T s.toNat)
        (LinkO hasExtra levels n T) (st' s) ∧
      ∀ g < n s.toNat, List.Forall₂ (fun t (t' : K × Dfg K) =>
          t'.2.data.len = numLocal (atProcess refs c) t.2.1 ∧
          ∀ p < numLocal (atProcess refs c) t.2.1, t'.2.data.val p =
            valueOfSystems (oneProcess refs) 2 n (fun s => hierVals H (T s))
              (spatialOf (oneProcess refs) t.2.1 (globalOf refs c t.2.1 p)))
        (hierVals H (T s.toNat) g) ((st' s).groups g).tasks := by
    intro c
    by_cases hc : InGroup refs c
    · have := link_position (hasExtra := hasExtra) hv1 ho hpos hmax a2 hc (htotal c hc)
        (st := fun s => st s c) (by
          intro s
          rw [linkQ_congr hl1 (Bool.toNat_lt s), linkO_congr hl1]
          exact (hst s).2 c hc)
      obtain ⟨y, st', e⟩ := this
      refine ⟨y, st', fun _ s => ?_⟩
      have e' := e s
      rw [linkQ_congr hl1 (Bool.toNat_lt s), linkO_congr hl1] at e'
      unfold linkCount at e' ⊢
      rw [linkO_congr hl1] at e'
      exact e'
    · exact ⟨fun _ => (fun _ => ⟨Dsg.empty levels, []⟩, Dsg.empty levels), fun s => st s c,
        fun hcc => absurd hcc hc⟩
  choose y st' hys using hone
  -- the program up to the exchange
  have hprog : (fun s => linkCombineProg (linkSetting refs prm hasExtra maxChunk levels n o sz s) (junk s)
        (sims s) (k s)) =
      fun s => combineThirdLevelProg sz (· + ·) 1
        ((groupProcesses layout).map (linkCount refs hasExtra levels n T))
        (fun _ p => ((((groupProcesses layout).map fun c => y c s)[p]?).map
          fun y => y.2.data.toList).getD []) fun r => match r with
        | .dsgus sums =>
          orFail ((groupProcesses layout).mapM fun c => do
            let st ← (sims s).states[rankOf layout c]?
            let y ← ((groupProcesses layout).map fun c => y c s)[rankOf layout c]?
            let received ← sums[rankOf layout c]?
            linkReceive .sparseGridReduce (n s.toNat) (o s.toNat) st y received) fun states =>
          orFail (onProcessGroups (n s.toNat) fun g =>
              groupDehierarchize prm ((junk s).dehier g) (receivedTasks layout states (hs s) g)) fun ts =>
          k s ⟨ts, states, (sims s).perWorker⟩
        | _ => .fail := by
    funext s
    have m1 : (groupProcesses layout).mapM (fun c => do
        let st ← (sims s).states[rankOf layout c]?
        linkSend .sparseGridReduce maxChunk (n s.toNat) (o s.toNat) (loadLink c (hs s) st)) =
        some ((groupProcesses layout).map fun c => y c s) := by
      refine mapM_some_map _ _ _ fun c hc => ?_
      rw [(hst s).1]
      simp only [Option.bind_eq_bind]
      rw [getElem?_rankOf hc, Option.bind_some]
      exact (hys c (hin c hc) s).1
    simp only [linkCombineProg, linkSetting, ← hlay, a1, m1, orFail, h.per]
    rfl
  rw [hprog]
  refine tl_combine hcap hsz (· + ·) add_comm (fun _ => 1)
    (fun _ => (groupProcesses layout).map (linkCount refs hasExtra levels n T))
    (fun s _ p => ((((groupProcesses layout).map fun c => y c s)[p]?).map
      fun y => y.2.data.toList).getD []) ?_ _ ?_
  · rw [dsgusInOrder_map, dsgusInOrder_map, List.forall₂_map_left_iff, List.forall₂_map_right_iff,
      List.forall₂_same]
    intro c hc
    exact ⟨rfl, hsome c (hin c hc), (hys c (hin c hc) false).2.1, (hys c (hin c hc) true).2.1⟩
  · have hsums : List.zipWith (fun p q : ℕ × List K => List.zipWith (· + ·) p.2 q.2)
        (dsgusInOrder 1 ((groupProcesses layout).map (linkCount refs hasExtra levels n T)) fun _ p =>
          ((((groupProcesses layout).map fun c => y c false)[p]?).map fun y => y.2.data.toList).getD [])
        (dsgusInOrder 1 ((groupProcesses layout).map (linkCount refs hasExtra levels n T)) fun _ p =>
          ((((groupProcesses layout).map fun c => y c true)[p]?).map fun y => y.2.data.toList).getD []) =
        (groupProcesses layout).map fun c =>
          List.zipWith (· + ·) (y c false).2.data.toList (y c true).2.data.toList := by
      rw [dsgusInOrder_map, dsgusInOrder_map, List.zipWith_map, List.zipWith_self]
    simp only [hsums]
    have hnext : ∀ s, (groupProcesses layout).mapM (fun c => do
            let st ← (sims s).states[rankOf layout c]?
            let z ← ((groupProcesses layout).map fun c => y c s)[rankOf layout c]?
            let received ← ((groupProcesses layout).map fun c => List.zipWith (· + ·)
              (y c false).2.data.toList (y c true).2.data.toList)[rankOf layout c]?
            linkReceive .sparseGridReduce (n s.toNat) (o s.toNat) st z received) =
        some ((groupProcesses layout).map fun c => st' c s) := by
      intro s
      refine mapM_some_map _ _ _ fun c hc => ?_
      rw [(hst s).1]
      simp only [Option.bind_eq_bind]
      rw [getElem?_rankOf hc, Option.bind_some, getElem?_rankOf hc, Option.bind_some,
        getElem?_rankOf hc, Option.bind_some]
      exact (hys c (hin c hc) s).2.2.1
    -- the data of the tasks after it
    have hts : ∀ s : Bool, ∀ g < n s.toNat, List.Forall₂ (HoldsParts refs)
        ((hierVals H (T s.toNat) g).map fun t => (t.1, t.2.1, fun q =>
          valueOfSystems (oneProcess refs) 2 n (fun s => hierVals H (T s))
            (spatialOf (oneProcess refs) t.2.1 q)))
        (receivedTasks layout ((groupProcesses layout).map fun c => st' c s) (hs s) g) := by
      intro s g hg
      have h1 := a2 s g hg
      unfold receivedTasks
      rw [List.forall₂_map_left_iff]
      refine forall₂_of_getElem (by simp [h1.length_eq]) ?_
      intro i h2 h3
      have h4 : i < (hs s g).length := by rw [← h1.length_eq]; exact h2
      obtain ⟨b1, b2, -⟩ := (List.forall₂_iff_get.1 h1).2 i h2 h4
      simp only [List.get_eq_getElem] at b1 b2
      rw [List.getElem_map, List.getElem_zipIdx]
      refine ⟨b1, b2, fun c hc => ?_⟩
      have e2 := (hys c hc s).2.2.2.2 g hg
      have h5 : i < ((st' c s).groups g).tasks.length := by rw [← e2.length_eq]; exact h2
      obtain ⟨d1, d2⟩ := (List.forall₂_iff_get.1 e2).2 i h2 h5
      simp only [receivedData]
      rw [getElem?_rankOf (mem_groupProcesses.2 hc)]
      simp only [Option.bind_some, zero_add, List.getElem?_eq_getElem h5, dataOf, Option.map_some,
        Option.getD_some]
      exact ⟨d1, d2⟩
    have hlev : ∀ s : Bool, ∀ g < n s.toNat, ((hierVals H (T s.toNat) g).map fun t => (t.1, t.2.1, fun q =>
          valueOfSystems (oneProcess refs) 2 n (fun s => hierVals H (T s))
            (spatialOf (oneProcess refs) t.2.1 q))).map (fun t => (t.1, t.2.1)) =
        (T s.toNat g).map fun t => (t.1, t.2.1) := by
      intro s g _
      simp only [hierVals, List.map_map]
      rfl
    have hd := fun s : Bool => (groups_transform (h.valid.each _ (Bool.toNat_lt s)).ref hP hm
      (T := fun g => (hierVals H (T s.toNat) g).map fun t => (t.1, t.2.1, fun q =>
        valueOfSystems (oneProcess refs) 2 n (fun s => hierVals H (T s))
          (spatialOf (oneProcess refs) t.2.1 q)))
      (retask_valid (h.valid.each _ (Bool.toNat_lt s)) (hlev s)).comp
      (nonEmptyParts_of_levels (h.ne _ (Bool.toNat_lt s)) (hlev s)) (hts s) (junk s).dehier).2
    choose ts c1 c2 _ using hd
    simp only [hnext, orFail, c1]
    refine hk (fun s => ⟨ts s, (groupProcesses layout).map fun c => st' c s, (sims s).perWorker⟩)
      (h.change ?_ ?_ ⟨fun s c => st' c s, fun s => ⟨rfl, fun c hc => (hys c hc s).2.2.2.1⟩⟩ fun _ => rfl)
    · intro s _ g _
      unfold combinedSystems
      rw [List.map_map]
      rfl
    · intro s g hg
      have := c2 s g hg
      unfold hierVals at this
      simp only [List.map_map] at this
      unfold combinedSystems hierVals
      exact this

end steps

end Verif

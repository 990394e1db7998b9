import Verif.Model.SystemCombine
import Verif.Lemmas.WideSizes

/-!
# Lemmas on the combination of several systems with allocated sparse grids
-/

namespace Verif

variable {K : Type}

/-! ### Copies -/

/-- All subspaces of the sparse grid are allocated. -/
structure Whole (sz : List ℕ) (d : Dsg K) : Prop where
  placed : Placed d
  sizes : d.sizes = sz
  sel : d.sel = List.range sz.length

theorem Whole.withVal {sizes : List ℕ} {d : Dsg K} (h : Whole sizes d) (v : ℕ → K) :
    Whole sizes (d.withVal v) := ⟨h.placed.withVal v, h.sizes, h.sel⟩

theorem Extra.whole {esz osz : List ℕ} {e : Dsg K} (h : Extra esz osz e) : Whole esz e :=
  ⟨h.placed, h.sizes, h.sel⟩

theorem Whole.dataLen {sizes : List ℕ} {d : Dsg K} (h : Whole sizes d) :
    d.data.len = selOffset sizes (List.range sizes.length) sizes.length := by
  rw [h.placed.dataLen, h.sizes, h.sel]

theorem Whole.at_eq {sizes : List ℕ} {d : Dsg K} (h : Whole sizes d) (i j : ℕ) :
    d.at i j = d.data.val (selOffset sizes (List.range sizes.length) i + j) := by
  unfold Dsg.at
  rw [h.sizes, h.sel]

theorem Whole.allocated {sizes : List ℕ} {d : Dsg K} (h : Whole sizes d) (i : ℕ) :
    d.allocatedDataSize i = sizes.getD i 0 := by
  unfold Dsg.allocatedDataSize
  rw [h.sel, h.sizes]
  split
  · rfl
  · rename_i hi
    rw [List.mem_range] at hi
    rw [List.getD_eq_default _ _ (by omega)]

theorem foldlM_filter_skip {α β : Type} (f : β → α → Option β) (p : α → Bool) (l : List α)
    (h : ∀ b, ∀ x ∈ l, p x = false → f b x = some b) (b : β) :
    l.foldlM f b = (l.filter p).foldlM f b := by
  induction l generalizing b with
  | nil => rfl
  | cons x l ih =>
    rw [List.foldlM_cons, List.filter_cons]
    cases hp : p x with
    | false =>
      rw [h b x (by simp) hp]
      simp only [Bool.false_eq_true, if_false]
      exact ih (fun b y hy => h b y (by simp [hy])) b
    | true =>
      simp only [if_true, List.foldlM_cons]
      cases f b x with
      | none => rfl
      | some b' => exact ih (fun b y hy => h b y (by simp [hy])) b'

theorem foldlM_congr_mem {α β : Type} (f g : β → α → Option β) (l : List α)
    (h : ∀ b, ∀ x ∈ l, f b x = g b x) (b : β) : l.foldlM f b = l.foldlM g b := by
  induction l generalizing b with
  | nil => rfl
  | cons x l ih =>
    rw [List.foldlM_cons, List.foldlM_cons, h b x (by simp)]
    cases g b x with
    | none => rfl
    | some b' => exact ih (fun b y hy => h b y (by simp [hy])) b'

/-- a copy of the whole grid: the subspaces that both have -/
theorem copyAll_eq {dsz ssz : List ℕ} {dst src : Dsg K} (hd : Whole dsz dst) (hs : Whole ssz src)
    (hlen : dsz.length = ssz.length)
    (hfit : ∀ i, dsz.getD i 0 ≠ 0 → ssz.getD i 0 ≠ 0 → dsz.getD i 0 = ssz.getD i 0) :
    ∃ w, dst.copyAll src = some (dst.withVal w) ∧
      (∀ i, ssz.getD i 0 ≠ 0 → ∀ j < dsz.getD i 0, (dst.withVal w).at i j = src.at i j) ∧
      ∀ i, ssz.getD i 0 = 0 → ∀ j < dsz.getD i 0, (dst.withVal w).at i j = dst.at i j := by
  let both : ℕ → Bool := fun i => decide (dsz.getD i 0 ≠ 0 ∧ ssz.getD i 0 ≠ 0)
  have hboth : ∀ i, both i = true ↔ dsz.getD i 0 ≠ 0 ∧ ssz.getD i 0 ≠ 0 := by
    intro i
    exact decide_eq_true_iff
  have hmem : ∀ i, i ∈ (List.range dsz.length).filter both ↔ dsz.getD i 0 ≠ 0 ∧ ssz.getD i 0 ≠ 0 := by
    intro i
    rw [List.mem_filter, hboth, List.mem_range]
    exact ⟨fun h => h.2, fun h => ⟨lt_of_getD_ne h.1, h⟩⟩
  obtain ⟨w, a1, a2, a3⟩ := copyDataFrom_eq dst src hs.placed hd.placed
    ((List.range dsz.length).filter both) (List.nodup_range.filter _)
    (fun i hi => by
      rw [hs.sel, List.mem_range]
      exact lt_of_getD_ne ((hmem i).1 hi).2)
    (fun i hi => by
      rw [hd.sel, List.mem_range]
      exact lt_of_getD_ne ((hmem i).1 hi).1)
    (fun i hi => by
      rw [hs.sizes, hd.sizes]
      exact (hfit i ((hmem i).1 hi).1 ((hmem i).1 hi).2).symm)
  rw [hd.sizes] at a2 a3
  have hptr : ∀ i < dsz.length, (∃ p, src.ptr[i]? = some p) ∧ ∃ q, dst.ptr[i]? = some q := by
    intro i hi
    exact ⟨⟨_, hs.placed.ptr i (by rw [hs.sizes]; omega)⟩, ⟨_, hd.placed.ptr i (by rw [hd.sizes]; omega)⟩⟩
  refine ⟨w, ?_, ?_, ?_⟩
  · have hfold : (List.range dst.sizes.length).foldlM (copyAllocatedSubspace src dst) dst.data =
        ((List.range dsz.length).filter both).foldlM (copySubspace src dst) dst.data := by
      rw [hd.sizes, foldlM_filter_skip _ both]
      · refine foldlM_congr_mem _ _ _ (fun b i hi => ?_) _
        have h1 := (hmem i).1 hi
        have l1 := lt_of_getD_ne h1.1
        unfold copyAllocatedSubspace copySubspace
        rw [hs.allocated, hd.allocated, hs.sizes, hd.sizes,
          List.getElem?_eq_getElem (show i < ssz.length by omega), List.getElem?_eq_getElem l1,
          List.getD_eq_getElem _ _ l1, List.getD_eq_getElem _ _ (show i < ssz.length by omega)]
        rfl
      · intro b i hi hno
        obtain ⟨⟨p, hp⟩, q, hq⟩ := hptr i (List.mem_range.1 hi)
        unfold copyAllocatedSubspace
        rw [hp, hq, hs.allocated, hd.allocated]
        have hz : min (ssz.getD i 0) (dsz.getD i 0) = 0 := by
          by_contra hc
          have : both i = true := (hboth i).2 ⟨by omega, by omega⟩
          rw [this] at hno
          exact absurd hno (by simp)
        rw [hz]
        rfl
    unfold Dsg.copyAll
    rw [hfold]
    exact a1
  · intro i hi j hj
    exact a2 i ((hmem i).2 ⟨by omega, hi⟩) j hj
  · intro i hi j hj
    refine a3 i ?_ (fun hc => ((hmem i).1 hc).2 hi) j hj
    rw [hd.sel, List.mem_range]
    exact lt_of_getD_ne (by omega)

/-! ### Collecting -/

/-- Groups with allocated sparse grids. -/
def Ready [Zero K] (levels : List (List ℕ)) (sizes : List ℕ) (g : Group K) : Prop :=
  GroupOk levels sizes g ∧ WellAllocated g.dsg ∧ g.dsg.sel = List.range levels.length

theorem Ready.whole [Zero K] {levels : List (List ℕ)} {sizes : List ℕ} {g : Group K}
    (h : Ready levels sizes g) (hlen : sizes.length = levels.length) : Whole sizes g.dsg :=
  ⟨h.2.1.placed, h.1.siz, by rw [hlen]; exact h.2.2⟩

theorem Ready.withVal [Zero K] {levels : List (List ℕ)} {sizes : List ℕ} {g : Group K}
    (h : Ready levels sizes g) (v : ℕ → K) :
    Ready levels sizes { g with dsg := g.dsg.withVal v } :=
  ⟨⟨h.1.lev, h.1.siz, h.1.ok⟩, h.2.1.withVal v, h.2.2⟩

theorem setData_eq (g : Group K) (b : Buf K) (h : b.len = g.dsg.data.len) :
    g.setData b = { g with dsg := g.dsg.withVal b.val } := by
  unfold Group.setData Dsg.withVal
  rw [← h]

theorem pos_lt_total {sizes : List ℕ} {i j : ℕ} (hj : j < sizes.getD i 0) :
    selOffset sizes (List.range sizes.length) i + j <
      selOffset sizes (List.range sizes.length) sizes.length := by
  have hi := lt_of_getD_ne (l := sizes) (i := i) (by omega)
  have h1 := storage_le (sizes := sizes) (sel := List.range sizes.length) (i := i) hi
  rw [selSize_of_mem (List.mem_range.2 hi)] at h1
  omega

/-- zeroing, adding and reducing the whole sparse grids: the group that communicates with other systems
has the sum over all groups -/
theorem linkCollect_sparseGridReduce [Ring K] {levels : List (List ℕ)} (hs : levels.Pairwise (· < ·))
    (n o : ℕ) (ho : o < n) (sizes : List ℕ) (hlen : sizes.length = levels.length) (maxChunk : ℕ)
    (hpos : 0 < maxChunk) (hmax : maxChunk < 2 ^ 31) (hlt : sizes.sum < 2 ^ 32) (root : Option ℕ)
    (hroot : root = none ∨ root = some o) (st : LinkState K)
    (hg : ∀ g < n, GroupOk levels sizes (st.groups g) ∧ CanZero levels.length (st.groups g).dsg) :
    ∃ S', linkCollect .sparseGridReduce root maxChunk n st = some S' ∧
      (∀ g < n, Ready levels sizes (S' g) ∧ (S' g).tasks = (st.groups g).tasks) ∧
      ∀ i, ∀ j < sizes.getD i 0, (S' o).dsg.at i j =
        ((List.range n).map fun m => localSum levels (st.groups m).tasks i j).sum := by
  obtain ⟨S1, a1, a2⟩ := collectGroups_eq hs n (fun _ => sizes) (fun _ => hlen)
    (fun _ _ => hlt) st.groups hg
  have hr : ∀ g < n, Ready levels sizes (S1 g) := fun g hg => (a2 g hg).1
  set len := selOffset sizes (List.range sizes.length) sizes.length with hlend
  have hl1 : ∀ g < n, (S1 g).dsg.data.len = len := fun g hg => ((hr g hg).whole hlen).dataLen
  have hbufs : ∀ d ∈ (List.range n).map (fun g => (S1 g).dsg.data), d.len = len := by
    intro d hd
    obtain ⟨g, hg, rfl⟩ := List.mem_map.1 hd
    exact hl1 g (List.mem_range.1 hg)
  obtain ⟨bs, b1, b2, b3⟩ : ∃ bs : List (Buf K), reduceWhole root (maxChunk : ℤ)
      ((List.range n).map fun g => (S1 g).dsg.data) = some bs ∧ bs.length = n ∧
      ∀ g (hg : g < bs.length), bs[g].len = len ∧
        (g = o → ∀ i < len, bs[g].val i = ((List.range n).map fun m => (S1 m).dsg.data.val i).sum) := by
    rcases hroot with rfl | rfl
    · obtain ⟨rs, r1, -, r3, r4⟩ := C31_allreduce len maxChunk hpos hmax _ hbufs
      refine ⟨rs, r1, by simpa using r3, fun g hg => ?_⟩
      have := r4 _ (List.getElem_mem hg)
      refine ⟨this.1, fun _ i hi => ?_⟩
      rw [this.2 i hi, List.map_map]
      rfl
    · obtain ⟨rs, r1, -, r3, r4⟩ := C31_reduce o len maxChunk hpos hmax _ hbufs
      refine ⟨rs, r1, by simpa using r3, fun g hg => ?_⟩
      have := r4 g hg (by rw [← r3]; exact hg)
      refine ⟨this.1, fun hgo i hi => ?_⟩
      rw [this.2 i hi, if_pos hgo, List.map_map]
      rfl
  let S2 : ℕ → Group K := fun g => (bs[g]?).elim (S1 g) (S1 g).setData
  have hS2 : ∀ g (hg : g < n), S2 g =
      { S1 g with dsg := (S1 g).dsg.withVal (bs[g]'(by omega)).val } := by
    intro g hg
    change (bs[g]?).elim (S1 g) (S1 g).setData = _
    rw [List.getElem?_eq_getElem (by omega)]
    exact setData_eq _ _ (by rw [(b3 g (by omega)).1, hl1 g hg])
  refine ⟨S2, ?_, ?_, ?_⟩
  · unfold linkCollect sparseGridReduceTo
    rw [a1]
    simp only [Option.bind_eq_bind, Option.bind_some]
    rw [b1]
    rfl
  · intro g hg
    rw [hS2 g hg]
    exact ⟨(hr g hg).withVal _, (a2 g hg).2.1⟩
  · intro i j hj
    have hw := ((hr o ho).withVal (bs[o]'(by omega)).val).whole hlen
    rw [hS2 o ho]
    rw [hw.at_eq]
    change (bs[o]'(by omega)).val _ = _
    rw [(b3 o (by omega)).2 rfl _ (pos_lt_total hj)]
    congr 1
    apply List.map_congr_left
    intro m hm
    have hm' := List.mem_range.1 hm
    rw [← ((hr m hm').whole hlen).at_eq]
    exact (a2 m hm').2.2 i (by rw [← hlen]; exact lt_of_getD_ne (by omega)) j hj

/-! ### Exchange with the other systems -/

/-- What a system sends: all subspaces of `sizes`, with values `F`. -/
def Outgoing (sizes : List ℕ) (F : ℕ → ℕ → K) (d : Dsg K) : Prop :=
  Whole sizes d ∧ ∀ i, ∀ j < sizes.getD i 0, d.at i j = F i j

theorem linkOutgoing_extra {dsz esz : List ℕ} {d e : Dsg K} (hd : Whole dsz d) (he : Extra esz dsz e)
    (hlen : dsz.length = esz.length) :
    ∃ x, linkOutgoing d (some e) = some x ∧ Outgoing esz (fun i j => d.at i j) x := by
  obtain ⟨w, a1, a2, -⟩ := copyAll_eq he.whole hd hlen.symm (fun i h1 _ => (he.fit i h1).symm)
  refine ⟨_, a1, he.whole.withVal w, fun i j hj => ?_⟩
  exact a2 i (by rw [he.fit i (by omega)]; omega) j hj

theorem linkIncoming_extra {dsz esz : List ℕ} {d e : Dsg K} (hd : Whole dsz d) (he : Whole esz e)
    (hlen : dsz.length = esz.length) (hfit : ∀ i, esz.getD i 0 ≠ 0 → dsz.getD i 0 = esz.getD i 0)
    (b : Buf K) (hb : b.len = e.data.len) (F : ℕ → ℕ → K)
    (hF : ∀ i, ∀ j < esz.getD i 0,
      b.val (selOffset esz (List.range esz.length) i + j) = F i j) :
    ∃ w, linkIncoming d (some e) b = some (d.withVal w) ∧
      ∀ i, ∀ j < dsz.getD i 0, (d.withVal w).at i j = if esz.getD i 0 = 0 then d.at i j else F i j := by
  have he' : ({ e with data := b } : Dsg K) = e.withVal b.val := by
    unfold Dsg.withVal
    rw [← hb]
  obtain ⟨w, a1, a2, a3⟩ := copyAll_eq hd (he.withVal b.val) hlen (fun i _ h2 => hfit i h2)
  refine ⟨w, ?_, fun i j hj => ?_⟩
  · unfold linkIncoming
    simp only
    rw [he']
    exact a1
  · split
    · rename_i h0
      exact a3 i h0 j hj
    · rename_i h0
      rw [a2 i h0 j hj, (he.withVal b.val).at_eq]
      exact hF i j (by rw [← hfit i h0]; exact hj)

/-- reading files, with a copy to the sparse grid after each of them -/
theorem readAndReduce_eq [AddCommMonoid K] {dsz esz : List ℕ} (hlen : dsz.length = esz.length)
    (hfit : ∀ i, esz.getD i 0 ≠ 0 → dsz.getD i 0 = esz.getD i 0) (files : List (Buf K))
    {d e : Dsg K} (hd : Whole dsz d) (he : Whole esz e) (hne : d.data.len ≠ 0)
    (hb : ∀ f ∈ files, f.len = e.data.len) (hf : files ≠ []) :
    ∃ w w', files.foldlM readAndReduce (e, d) = some (e.withVal w', d.withVal w) ∧
      ∀ i, ∀ j < dsz.getD i 0, (d.withVal w).at i j = if esz.getD i 0 = 0 then d.at i j else
        e.at i j + (files.map fun f => f.val (selOffset esz (List.range esz.length) i + j)).sum := by
  induction files generalizing d e with
  | nil => exact absurd rfl hf
  | cons f fs ih =>
    have h1 : addFile e.data f = some ⟨e.data.len, fun i => e.data.val i + f.val i⟩ := by
      unfold addFile
      rw [if_pos (hb f (by simp))]
    obtain ⟨w, a1, a2⟩ := linkIncoming_extra hd he hlen hfit
      ⟨e.data.len, fun i => e.data.val i + f.val i⟩ rfl
      (fun i j => e.at i j + f.val (selOffset esz (List.range esz.length) i + j))
      (fun i j _ => by rw [he.at_eq])
    have hstep : readAndReduce (e, d) f =
        some (e.withVal fun i => e.data.val i + f.val i, d.withVal w) := by
      unfold readAndReduce
      simp only [h1, Option.bind_eq_bind, Option.bind_some]
      rw [if_neg hne]
      unfold linkIncoming at a1
      simp only at a1
      rw [a1]
      rfl
    rw [List.foldlM_cons, hstep]
    by_cases hfs : fs = []
    · subst hfs
      refine ⟨w, _, rfl, fun i j hj => ?_⟩
      rw [a2 i j hj]
      simp
    · obtain ⟨v, v', b1, b2⟩ := ih (hd.withVal w) (he.withVal fun i => e.data.val i + f.val i) hne
        (fun f' h' => hb f' (by simp [h'])) hfs
      refine ⟨v, v', b1, fun i j hj => ?_⟩
      have := b2 i j hj
      rw [Dsg.withVal_withVal] at this
      rw [this]
      split
      · rename_i h0
        rw [a2 i j hj, if_pos h0]
      · rw [(he.withVal _).at_eq, List.map_cons, List.sum_cons, he.at_eq, ← add_assoc]
        rfl

/-! ### Distribution -/

/-- broadcast of the whole sparse grid, and extraction -/
theorem linkDistribute_whole [Ring K] {levels : List (List ℕ)} (n o : ℕ) (ho : o < n) (sizes : List ℕ)
    (hlen : sizes.length = levels.length) (hlt : sizes.sum < 2 ^ 31 - 1) (comm : ℕ → Option (List ℕ))
    (S : ℕ → Group K) (hr : ∀ g < n, Ready levels sizes (S g)) :
    ∃ S', linkDistribute .sparseGridReduce n o comm S = some S' ∧
      (∀ g < n, ExtractedAll levels sizes (List.range levels.length)
        (fun i j => (S o).dsg.at i j) (S g).tasks (S' g).tasks) ∧
      ∀ g < n, (S' g).dsg = (S g).dsg.withVal (S o).dsg.data.val := by
  have hl : ∀ g < n, (S g).dsg.data.len = selOffset sizes (List.range sizes.length) sizes.length :=
    fun g hg => ((hr g hg).whole hlen).dataLen
  have hsum : selOffset sizes (List.range sizes.length) sizes.length = sizes.sum := by
    rw [selOffset_length _ _ List.nodup_range (fun i hi => List.mem_range.1 hi)]
    congr 1
    apply List.ext_getElem
    · simp
    · intro i h1 h2
      rw [List.getElem_map, List.getElem_range]
      exact List.getD_eq_getElem _ _ h2
  let S1 : ℕ → Group K := fun g => if g < n then (S g).setData (S o).dsg.data else S g
  have hS1 : ∀ g < n, S1 g = { S g with dsg := (S g).dsg.withVal (S o).dsg.data.val } := by
    intro g hg
    change (if g < n then _ else _) = _
    rw [if_pos hg]
    exact setData_eq _ _ (by rw [hl o ho, hl g hg])
  have hr1 : ∀ g < n, Ready levels sizes (S1 g) := by
    intro g hg
    rw [hS1 g hg]
    exact (hr g hg).withVal _
  obtain ⟨S2, c1, c2⟩ := extractGroups_eq n (fun _ => sizes) (fun _ _ => hlen) S1 hr1
  refine ⟨S2, ?_, fun g hg => ?_, fun g hg => by rw [(c2 g hg).2, hS1 g hg]⟩
  · unfold linkDistribute bcastWhole
    simp only
    rw [if_pos]
    · exact c1
    · refine ⟨by rw [hl o ho, hsum]; exact hlt, ?_⟩
      rw [List.all_eq_true]
      intro g hg
      rw [decide_eq_true_iff, hl o ho, hl g (List.mem_range.1 hg)]
  · have := (c2 g hg).1
    have hat : ∀ i j, (S1 g).dsg.at i j = (S o).dsg.at i j := by
      intro i j
      rw [((hr1 g hg).whole hlen).at_eq, ((hr o ho).whole hlen).at_eq, hS1 g hg]
      rfl
    simp only [hat] at this
    rw [hS1 g hg] at this
    exact this

end Verif

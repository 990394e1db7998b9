import Verif.Model.Combine
import Verif.Lemmas.Transfer
import Verif.Props.Reduce

/-!
# Lemmas on the combination step
-/

namespace Verif

variable {K : Type}

/-! ### One group -/

/-- A grid that fits into a sparse grid with the given levels and sizes. -/
structure TaskOk (levels : List (List ℕ)) (sizes : List ℕ) (t : Dfg K) : Prop where
  first : Reachable levels (getDownSet t.levels)
  size : ∀ i (hi : i < levels.length), levels[i] ∈ getDownSet t.levels → 0 < sizes.getD i 0 →
    sizes.getD i 0 = (getFGPointsOfSubspace t.dims levels[i]).length
  range : ∀ l ∈ getDownSet t.levels, ∀ p ∈ getFGPointsOfSubspace t.dims l, p < t.data.len
  nodup : ∀ l ∈ getDownSet t.levels, (getFGPointsOfSubspace t.dims l).Nodup
  disj : ∀ l ∈ getDownSet t.levels, ∀ l' ∈ getDownSet t.levels, ∀ p,
    p ∈ getFGPointsOfSubspace t.dims l → p ∈ getFGPointsOfSubspace t.dims l' → l = l'

theorem TaskOk.congr {levels : List (List ℕ)} {sizes : List ℕ} {t t' : Dfg K}
    (h : TaskOk levels sizes t) (hd : t'.dims = t.dims) (hl : t'.data.len = t.data.len) :
    TaskOk levels sizes t' := by
  have e : t'.levels = t.levels := by unfold Dfg.levels; rw [hd]
  constructor
  · rw [e]; exact h.first
  · rw [e, hd]; exact h.size
  · rw [e, hd, hl]; exact h.range
  · rw [e, hd]; exact h.nodup
  · rw [e, hd]; exact h.disj

theorem TaskOk.fits [Zero K] {t : Dfg K} {d : Dsg K} (h : TaskOk d.levels d.sizes t) :
    Fits d t (getDownSet t.levels) := ⟨h.first, h.size, h.range⟩

/-- The values of subspaces `sel` were replaced by `F`. -/
structure Extracted (levels : List (List ℕ)) (sizes sel : List ℕ) (F : ℕ → ℕ → K)
    (t t' : Dfg K) : Prop where
  dims : t'.dims = t.dims
  len : t'.data.len = t.data.len
  hit : ∀ i (hi : i < levels.length), levels[i] ∈ getDownSet t.levels → i ∈ sel →
    0 < sizes.getD i 0 → ∀ j (hj : j < (getFGPointsOfSubspace t.dims levels[i]).length),
      t'.data.val (getFGPointsOfSubspace t.dims levels[i])[j] = F i j
  miss : ∀ p, (∀ i (hi : i < levels.length), levels[i] ∈ getDownSet t.levels → i ∈ sel →
    0 < sizes.getD i 0 → p ∉ getFGPointsOfSubspace t.dims levels[i]) → t'.data.val p = t.data.val p

/-- the same for all tasks -/
def ExtractedAll (levels : List (List ℕ)) (sizes sel : List ℕ) (F : ℕ → ℕ → K)
    (ts ts' : List (K × Dfg K)) : Prop :=
  List.Forall₂ (fun t t' => t'.1 = t.1 ∧ Extracted levels sizes sel F t.2 t'.2) ts ts'

/-- What the tasks contribute to position `j` of subspace `i`. -/
def localSum [Ring K] (levels : List (List ℕ)) (ts : List (K × Dfg K)) (i j : ℕ) : K :=
  (ts.map fun t => if levels.getD i [] ∈ getDownSet t.2.levels then
    t.1 * t.2.data.val ((getFGPointsOfSubspace t.2.dims (levels.getD i [])).getD j 0) else 0).sum

/-- Value of the sparse grid at position `j` of subspace `i`. -/
def Dsg.at (d : Dsg K) (i j : ℕ) : K := d.data.val (selOffset d.sizes d.sel i + j)

theorem Extracted.levels_eq {levels : List (List ℕ)} {sizes sel : List ℕ} {F : ℕ → ℕ → K}
    {t t' : Dfg K} (h : Extracted levels sizes sel F t t') : t'.levels = t.levels := by
  unfold Dfg.levels
  rw [h.dims]

theorem extracted_refl (levels : List (List ℕ)) (sizes : List ℕ) (F : ℕ → ℕ → K)
    (ts : List (K × Dfg K)) : ExtractedAll levels sizes [] F ts ts :=
  List.forall₂_same.2 fun _ _ => ⟨rfl, rfl, rfl, by simp, fun _ _ => rfl⟩

theorem Extracted.trans {levels : List (List ℕ)} (hs : levels.Nodup) {sizes a b : List ℕ}
    {F : ℕ → ℕ → K} {t t' t'' : Dfg K} (hok : TaskOk levels sizes t)
    (hab : ∀ i ∈ a, i ∉ b) (h1 : Extracted levels sizes a F t t')
    (h2 : Extracted levels sizes b F t' t'') : Extracted levels sizes (a ++ b) F t t'' := by
  have e := h1.levels_eq
  refine ⟨h2.dims.trans h1.dims, h2.len.trans h1.len, ?_, ?_⟩
  · intro i hi hl hm hp j hj
    rcases List.mem_append.1 hm with hm | hm
    · rw [h2.miss, h1.hit i hi hl hm hp j hj]
      intro i' hi' hl' hm' _ hcon
      rw [e] at hl'
      rw [h1.dims] at hcon
      have := hok.disj _ hl _ hl' _ (List.getElem_mem hj) hcon
      rw [hs.getElem_inj_iff] at this
      subst this
      exact hab _ hm hm'
    · have := h2.hit i hi (by rw [e]; exact hl) hm hp j (by rw [h1.dims]; exact hj)
      simp only [h1.dims] at this
      exact this
  · intro p hp
    rw [h2.miss, h1.miss]
    · intro i hi hl hm hpos
      exact hp i hi hl (by simp [hm]) hpos
    · intro i hi hl hm hpos
      rw [h1.dims]
      exact hp i hi (by rw [← e]; exact hl) (by simp [hm]) hpos

theorem ExtractedAll.trans {levels : List (List ℕ)} (hs : levels.Nodup) {sizes a b : List ℕ}
    {F : ℕ → ℕ → K} {ts ts' ts'' : List (K × Dfg K)} (hok : ∀ t ∈ ts, TaskOk levels sizes t.2)
    (hab : ∀ i ∈ a, i ∉ b) (h1 : ExtractedAll levels sizes a F ts ts')
    (h2 : ExtractedAll levels sizes b F ts' ts'') : ExtractedAll levels sizes (a ++ b) F ts ts'' := by
  induction h1 generalizing ts'' with
  | nil => cases h2; exact List.Forall₂.nil
  | cons h1 _ ih =>
    cases h2 with
    | cons h2 h2' =>
      exact List.Forall₂.cons ⟨h2.1.trans h1.1, h1.2.trans hs (hok _ (by simp)) hab h2.2⟩
        (ih (fun t ht => hok t (by simp [ht])) h2')

theorem ExtractedAll.ok {levels : List (List ℕ)} {sizes a : List ℕ}
    {F : ℕ → ℕ → K} {ts ts' : List (K × Dfg K)} (hok : ∀ t ∈ ts, TaskOk levels sizes t.2)
    (h1 : ExtractedAll levels sizes a F ts ts') : ∀ t ∈ ts', TaskOk levels sizes t.2 := by
  induction h1 with
  | nil => simp
  | cons h1 _ ih =>
    intro t ht
    rcases List.mem_cons.1 ht with rfl | ht
    · exact (hok _ (by simp)).congr h1.2.dims h1.2.len
    · exact ih (fun t ht => hok t (by simp [ht])) t ht

theorem Extracted.congr {levels : List (List ℕ)} {sizes a b : List ℕ} {F G : ℕ → ℕ → K}
    {t t' : Dfg K} (hok : TaskOk levels sizes t)
    (hab : ∀ i < levels.length, 0 < sizes.getD i 0 → (i ∈ a ↔ i ∈ b))
    (hFG : ∀ i < levels.length, i ∈ b → ∀ j < sizes.getD i 0, F i j = G i j)
    (h : Extracted levels sizes a F t t') : Extracted levels sizes b G t t' := by
  refine ⟨h.dims, h.len, ?_, ?_⟩
  · intro i hi hl hm hp j hj
    rw [h.hit i hi hl ((hab i hi hp).2 hm) hp j hj, hFG i hi hm j]
    rw [hok.size i hi hl hp]
    exact hj
  · intro p hp
    apply h.miss
    intro i hi hl hm hpos
    exact hp i hi hl ((hab i hi hpos).1 hm) hpos

theorem ExtractedAll.congr {levels : List (List ℕ)} {sizes a b : List ℕ} {F G : ℕ → ℕ → K}
    {ts ts' : List (K × Dfg K)} (hok : ∀ t ∈ ts, TaskOk levels sizes t.2)
    (hab : ∀ i < levels.length, 0 < sizes.getD i 0 → (i ∈ a ↔ i ∈ b))
    (hFG : ∀ i < levels.length, i ∈ b → ∀ j < sizes.getD i 0, F i j = G i j)
    (h : ExtractedAll levels sizes a F ts ts') : ExtractedAll levels sizes b G ts ts' := by
  induction h with
  | nil => exact List.Forall₂.nil
  | cons h1 _ ih =>
    exact List.Forall₂.cons ⟨h1.1, h1.2.congr (hok _ (by simp)) hab hFG⟩
      (ih fun t ht => hok t (by simp [ht]))

/-- contributions to other subspaces are unchanged -/
theorem localSum_extracted [Ring K] {levels : List (List ℕ)} (hs : levels.Nodup)
    {sizes a : List ℕ} {F : ℕ → ℕ → K} {ts ts' : List (K × Dfg K)}
    (hok : ∀ t ∈ ts, TaskOk levels sizes t.2) (h : ExtractedAll levels sizes a F ts ts')
    {i j : ℕ} (hi : i < levels.length) (hia : i ∉ a) (hj : j < sizes.getD i 0) :
    localSum levels ts' i j = localSum levels ts i j := by
  induction h with
  | nil => rfl
  | cons h1 _ ih =>
    rename_i t t' ts ts' _
    have ih := ih fun t ht => hok t (by simp [ht])
    unfold localSum at ih ⊢
    rw [List.map_cons, List.map_cons, List.sum_cons, List.sum_cons, ih, h1.2.levels_eq, h1.2.dims,
      h1.1]
    congr 1
    split
    · rename_i hl
      congr 1
      apply h1.2.miss
      intro i' hi' hl' ha' hp' hcon
      have hok' := hok t (by simp)
      rw [List.getD_eq_getElem _ _ hi] at hl hcon
      have hlen := hok'.size i hi hl (by omega)
      rw [List.getD_eq_getElem _ _ (by omega)] at hcon
      have := hok'.disj _ hl _ hl' _ (List.getElem_mem (by omega)) hcon
      rw [hs.getElem_inj_iff] at this
      subst this
      exact hia ha'
    · rfl

/-! ### Operations of a group -/

/-- Allocating a selection. -/
theorem allocate_eq [Ring K] (d : Dsg K) (hs : d.levels.Pairwise (· < ·))
    (hlen : d.sizes.length = d.levels.length) (sel : List ℕ) (hne : sel ≠ [])
    (hsel : sel.Pairwise (· < ·)) (hselr : ∀ i ∈ sel, i < d.levels.length)
    (hlt : (sel.map fun i => d.sizes.getD i 0).sum < 2 ^ 32) :
    ∃ d2, d.allocateDifferentSubspaces sel = some d2 ∧ WellAllocated d2 ∧ d2.levels = d.levels ∧
      d2.sizes = d.sizes ∧ d2.sel = sel ∧ d2.data.val = fun _ => 0 := by
  have hS : selected sel d.sizes.length = sel := by
    unfold selected
    rw [if_neg hne]
  have hr : ∀ i ∈ sel, i < d.sizes.length := by rw [hlen]; exact hselr
  have hlt' : selOffset d.sizes sel d.sizes.length < 2 ^ 32 := by
    rw [selOffset_length _ _ (hsel.imp fun h => ne_of_lt h) hr]
    exact hlt
  have e : d.allocateDifferentSubspaces sel = some { d with
      sel := sel
      data := ⟨selOffset d.sizes sel d.sizes.length, fun _ => 0⟩
      ptr := pointersLoop sel 0 0 d.sizes
      kahan := ⟨selOffset d.sizes sel d.sizes.length, fun _ => 0⟩
      kptr := pointersLoop sel 0 0 d.sizes } := by
    unfold Dsg.allocateDifferentSubspaces
    rw [createData_eq _ hsel hr]
    simp only [hS, Option.bind_eq_bind, Option.bind_some]
    rw [createKahan_eq _ hsel hr]
    simp only [hS]
  refine ⟨_, e, ⟨hs, hlen, hr, ?_, ?_, rfl, rfl, rfl⟩, rfl, rfl, rfl, rfl⟩
  · exact fun i hi => pointersLoop_getElem? _ _ hlt' i hi
  · exact fun i hi => pointersLoop_getElem? _ _ hlt' i hi

/-- Allocating everything. -/
theorem createOrZero_eq [Ring K] (d : Dsg K) (hs : d.levels.Pairwise (· < ·))
    (hlen : d.sizes.length = d.levels.length) (hd : d.data.len = 0) (hk : d.kahan.len = 0)
    (hsel : d.sel = [] ∨ d.sel = List.range d.sizes.length) (hlt : d.sizes.sum < 2 ^ 32) :
    ∃ d2, d.createOrZero = some d2 ∧ WellAllocated d2 ∧ d2.levels = d.levels ∧
      d2.sizes = d.sizes ∧ d2.sel = List.range d.sizes.length ∧ d2.data.val = fun _ => 0 := by
  have hS : selected d.sel d.sizes.length = List.range d.sizes.length := by
    unfold selected
    split
    · rfl
    · rename_i h
      exact hsel.resolve_left h
  have h1 : d.sel.Pairwise (· < ·) := by
    rcases hsel with h | h
    · rw [h]; exact List.Pairwise.nil
    · rw [h]; exact List.pairwise_lt_range
  have hr : ∀ i ∈ d.sel, i < d.sizes.length := by
    rcases hsel with h | h
    · rw [h]; simp
    · rw [h]; simp
  have hlt' : selOffset d.sizes (List.range d.sizes.length) d.sizes.length < 2 ^ 32 := by
    apply lt_of_le_of_lt ?_ hlt
    have hh : ∀ n ≤ d.sizes.length,
        selOffset d.sizes (List.range d.sizes.length) n ≤ (d.sizes.take n).sum := by
      intro n hn
      induction n with
      | zero => simp [selOffset]
      | succ n ih =>
        rw [selOffset_succ, List.take_succ_eq_append_getElem (by omega), List.sum_append]
        have := ih (by omega)
        have h2 : selSize d.sizes (List.range d.sizes.length) n ≤ d.sizes[n] := by
          unfold selSize
          split
          · rw [List.getD_eq_getElem _ _ (by omega)]
          · omega
        simp only [List.sum_singleton]
        omega
    have := hh d.sizes.length (le_refl _)
    rwa [List.take_length] at this
  have e : d.createOrZero = some { d with
      sel := List.range d.sizes.length
      data := ⟨selOffset d.sizes (List.range d.sizes.length) d.sizes.length, fun _ => 0⟩
      ptr := pointersLoop (List.range d.sizes.length) 0 0 d.sizes
      kahan := ⟨selOffset d.sizes (List.range d.sizes.length) d.sizes.length, fun _ => 0⟩
      kptr := pointersLoop (List.range d.sizes.length) 0 0 d.sizes } := by
    unfold Dsg.createOrZero
    rw [if_pos hd, createData_eq _ h1 hr]
    simp only [hS, hk, if_true, Option.bind_eq_bind, Option.bind_some]
    rfl
  refine ⟨_, e, ⟨hs, hlen, by simp, ?_, ?_, rfl, rfl, rfl⟩, rfl, rfl, rfl, rfl⟩
  · exact fun i hi => pointersLoop_getElem? _ _ hlt' i hi
  · exact fun i hi => pointersLoop_getElem? _ _ hlt' i hi

/-- A sparse grid with `m` subspaces that is ready for `createOrZero`: nothing is allocated, or all
subspaces are. -/
def CanZero [Zero K] (m : ℕ) (d : Dsg K) : Prop :=
  (d.data.len = 0 ∧ d.kahan.len = 0 ∧ (d.sel = [] ∨ d.sel = List.range m)) ∨
    (WellAllocated d ∧ d.sel = List.range m)

/-- Allocating everything, or zeroing what has been allocated before. -/
theorem createOrZero_again [Ring K] (d : Dsg K) (hs : d.levels.Pairwise (· < ·))
    (hlen : d.sizes.length = d.levels.length) (hz : CanZero d.sizes.length d)
    (hlt : d.sizes.sum < 2 ^ 32) :
    ∃ d2, d.createOrZero = some d2 ∧ WellAllocated d2 ∧ d2.levels = d.levels ∧
      d2.sizes = d.sizes ∧ d2.sel = List.range d.sizes.length ∧ d2.data.val = fun _ => 0 := by
  rcases hz with ⟨hd, hk, hsel⟩ | ⟨hw, hsel⟩
  · exact createOrZero_eq d hs hlen hd hk hsel hlt
  · by_cases hd : d.data.len = 0
    · exact createOrZero_eq d hs hlen hd (by rw [hw.kahanLen, ← hw.dataLen, hd]) (Or.inr hsel) hlt
    · refine ⟨{ d with data := ⟨d.data.len, fun _ => 0⟩, kahan := ⟨d.kahan.len, fun _ => 0⟩ }, ?_,
        ⟨hw.sorted, hw.len, hw.selRange, hw.ptr, hw.kptr, hw.dataLen, hw.kahanLen, rfl⟩, rfl, rfl,
        hsel, rfl⟩
      unfold Dsg.createOrZero
      rw [if_neg hd]
      rfl

/-- A sparse grid with given levels and sizes where all subspaces are allocated and have the values
`F`. -/
structure Holding [Zero K] (levels : List (List ℕ)) (sizes : List ℕ) (F : ℕ → ℕ → K) (d : Dsg K) :
    Prop where
  lev : d.levels = levels
  siz : d.sizes = sizes
  well : WellAllocated d
  sel : d.sel = List.range levels.length
  val : ∀ i j, d.at i j = F i j

/-- a sparse grid with other data -/
def Dsg.withVal (d : Dsg K) (v : ℕ → K) : Dsg K := { d with data := ⟨d.data.len, v⟩ }

theorem WellAllocated.withVal [Zero K] {d : Dsg K} (h : WellAllocated d) (v : ℕ → K) :
    WellAllocated (d.withVal v) :=
  ⟨h.sorted, h.len, h.selRange, h.ptr, h.kptr, h.dataLen, h.kahanLen, h.kahanZero⟩

theorem addTasks_eq [Ring K] (fully : Bool) (g : Group K) (hd : WellAllocated g.dsg)
    (hf : fully = true → ∀ i < g.dsg.sizes.length, i ∈ g.dsg.sel)
    (hok : ∀ t ∈ g.tasks, TaskOk g.dsg.levels g.dsg.sizes t.2)
    (h0 : g.dsg.data.val = fun _ => 0) :
    ∃ v, g.addTasks fully = some ⟨g.dsg.withVal v, g.tasks⟩ ∧
      ∀ i ∈ g.dsg.sel, ∀ j < g.dsg.sizes.getD i 0,
        (g.dsg.withVal v).at i j = localSum g.dsg.levels g.tasks i j := by
  obtain ⟨v, e1, e2⟩ := addAll_eq fully g.tasks hd hf fun t ht => (hok t ht).fits
  refine ⟨v, ?_, ?_⟩
  · unfold Group.addTasks
    unfold addAll at e1
    rw [e1]
    rfl
  · intro i hi j hj
    have := e2 i hi j (by rw [selSize_of_mem hi]; exact hj)
    unfold Dsg.at Dsg.withVal
    simp only
    rw [this, h0, zero_add]
    rfl

theorem extract_eq [Ring K] (fully : Bool) (d : Dsg K) (hd : WellAllocated d)
    (hf : fully = true → ∀ i < d.sizes.length, i ∈ d.sel) (t : Dfg K)
    (hok : TaskOk d.levels d.sizes t) :
    ∃ t', extractFromUniformSG fully t d = some t' ∧
      Extracted d.levels d.sizes d.sel (fun i j => d.at i j) t t' := by
  obtain ⟨v, h', e1, e2, e3⟩ := extractLoop_eq fully d hd.allocated hf (getDownSet t.levels)
    (C01_downSet _).2 t hok.fits hok.nodup hok.disj 0 (HintOk.zero _ _)
  refine ⟨{ t with data := ⟨t.data.len, v⟩ }, ?_, rfl, rfl, e2, e3⟩
  unfold extractFromUniformSG
  rw [e1]
  rfl

theorem extractTasks_eq [Ring K] (fully : Bool) (g : Group K) (hd : WellAllocated g.dsg)
    (hf : fully = true → ∀ i < g.dsg.sizes.length, i ∈ g.dsg.sel)
    (hok : ∀ t ∈ g.tasks, TaskOk g.dsg.levels g.dsg.sizes t.2) :
    ∃ ts', g.extractTasks fully = some ⟨g.dsg, ts'⟩ ∧
      ExtractedAll g.dsg.levels g.dsg.sizes g.dsg.sel (fun i j => g.dsg.at i j) g.tasks ts' := by
  obtain ⟨d, ts⟩ := g
  simp only at hd hf hok ⊢
  suffices H : ∃ ts', ts.mapM (fun t => (extractFromUniformSG fully t.2 d).map fun x => (t.1, x)) =
      some ts' ∧ ExtractedAll d.levels d.sizes d.sel (fun i j => d.at i j) ts ts' by
    obtain ⟨ts', e1, e2⟩ := H
    refine ⟨ts', ?_, e2⟩
    unfold Group.extractTasks
    simp only [e1]
    rfl
  induction ts with
  | nil => exact ⟨[], rfl, List.Forall₂.nil⟩
  | cons t ts ih =>
    obtain ⟨ts', e1, e2⟩ := ih fun t ht => hok t (by simp [ht])
    obtain ⟨t', f1, f2⟩ := extract_eq fully d hd hf t.2 (hok t (by simp))
    refine ⟨(t.1, t') :: ts', ?_, List.Forall₂.cons ⟨rfl, f2⟩ e2⟩
    rw [List.mapM_cons, e1, f1]
    rfl

/-! ### All groups -/

theorem forGroups_eq (f : ℕ → Group K → Option (Group K)) (members : List ℕ) (hn : members.Nodup)
    (S : ℕ → Group K) (r : ℕ → Group K) (h : ∀ m ∈ members, f m (S m) = some (r m)) :
    forGroups f members S = some fun g => if g ∈ members then r g else S g := by
  induction members generalizing S with
  | nil => simp [forGroups]
  | cons m ms ih =>
    rw [List.nodup_cons] at hn
    rw [forGroups, h m (by simp), Option.bind_some, ih hn.2]
    · congr 1
      funext g
      by_cases hg : g = m
      · subst hg
        simp [hn.1]
      · simp [hg]
    · intro m' hm'
      have : m' ≠ m := fun h => hn.1 (h ▸ hm')
      rw [Function.update_of_ne this]
      exact h m' (by simp [hm'])

theorem forGroups_spec (f : ℕ → Group K → Option (Group K)) (members : List ℕ) (hn : members.Nodup)
    (S : ℕ → Group K) (P : ℕ → Group K → Prop)
    (h : ∀ m ∈ members, ∃ r, f m (S m) = some r ∧ P m r) :
    ∃ S', forGroups f members S = some S' ∧ (∀ m ∈ members, P m (S' m)) ∧
      ∀ g, g ∉ members → S' g = S g := by
  classical
  have hr : ∀ m, ∃ r, m ∈ members → f m (S m) = some r ∧ P m r := by
    intro m
    by_cases hm : m ∈ members
    · obtain ⟨r, hr⟩ := h m hm
      exact ⟨r, fun _ => hr⟩
    · exact ⟨S m, fun h => absurd h hm⟩
  choose r hr using hr
  refine ⟨_, forGroups_eq f members hn S r fun m hm => (hr m hm).1, ?_, ?_⟩
  · intro m hm
    simp only [hm, if_true]
    exact (hr m hm).2
  · intro g hg
    simp only [hg, if_false]

/-! ### The subspace reduction -/

/-- positions of the subspaces of a chunk -/
def posOf (d : Dsg K) (chunk : List ℕ) : List ℕ :=
  chunk.flatMap fun s => (List.range (d.sizes.getD s 0)).map fun k => selOffset d.sizes d.sel s + k

theorem bmod_eq {x : ℤ} (h0 : 0 ≤ x) (h1 : x < 2 ^ 31) : Int.bmod x (2 ^ 32) = x := by
  apply Int.bmod_eq_of_le <;> omega

theorem datatypePositions_eq [Ring K] (d : Dsg K) (hd : WellAllocated d) (chunk : List ℕ)
    (hne : chunk ≠ []) (hsort : chunk.Pairwise (· < ·)) (hsel : ∀ s ∈ chunk, s ∈ d.sel)
    (hsize : ∀ s ∈ chunk, d.sizes.getD s 0 < 2 ^ 31)
    (hfit : ∀ s ∈ chunk, ∀ s0 ∈ chunk,
      selOffset d.sizes d.sel s < selOffset d.sizes d.sel s0 + 2 ^ 31) :
    datatypePositions d chunk = some (posOf d chunk) := by
  cases chunk with
  | nil => exact absurd rfl hne
  | cons s0 ss =>
    have h0 : s0 < d.sizes.length := hd.selRange s0 (hsel s0 (by simp))
    have hle : ∀ s ∈ s0 :: ss, s0 ≤ s := by
      intro s hs
      rcases List.mem_cons.1 hs with rfl | hs
      · exact le_refl _
      · exact le_of_lt ((List.pairwise_cons.1 hsort).1 s hs)
    have hblock : ∀ s ∈ s0 :: ss, datatypeBlock d (selOffset d.sizes d.sel s0) s =
        some ((selOffset d.sizes d.sel s : ℤ) - selOffset d.sizes d.sel s0,
          (d.sizes.getD s 0 : ℤ)) := by
      intro s hs
      have hs' : s < d.sizes.length := hd.selRange s (hsel s hs)
      have hm := selOffset_mono d.sizes d.sel (hle s hs)
      have hf := hfit s hs s0 (by simp)
      have hsz := hsize s hs
      unfold datatypeBlock
      rw [hd.ptr s hs', List.getElem?_eq_getElem hs']
      rw [List.getD_eq_getElem _ _ hs'] at hsz ⊢
      simp only [Option.bind_eq_bind, Option.bind_some]
      rw [bmod_eq (by omega) (by omega), bmod_eq (by omega) (by omega)]
      rfl
    have hmap : ∀ (l : List ℕ), (∀ s ∈ l, s ∈ s0 :: ss) →
        l.mapM (datatypeBlock d (selOffset d.sizes d.sel s0)) =
        some (l.map fun s => ((selOffset d.sizes d.sel s : ℤ) - selOffset d.sizes d.sel s0,
          (d.sizes.getD s 0 : ℤ))) := by
      intro l
      induction l with
      | nil => intro _; rfl
      | cons s l ih =>
        intro hl
        rw [List.mapM_cons, hblock s (hl s (by simp)), ih fun s hs => hl s (by simp [hs])]
        rfl
    unfold datatypePositions
    simp only [List.head?_cons, Option.bind_eq_bind, Option.bind_some, hd.ptr s0 h0]
    rw [hmap _ fun s hs => hs]
    simp only [Option.bind_some]
    rw [if_pos]
    · congr 1
      unfold posOf
      rw [List.flatMap_map]
      apply List.flatMap_congr
      intro s hs
      simp only [Int.toNat_natCast]
      congr 1
      funext k
      congr 1
      omega
    · rw [List.all_eq_true]
      intro b hb
      obtain ⟨s, hs, rfl⟩ := List.mem_map.1 hb
      have hs' : s < d.sizes.length := hd.selRange s (hsel s hs)
      have := storage_le (sel := d.sel) hs'
      rw [selSize_of_mem (hsel s hs)] at this
      rw [decide_eq_true_eq, hd.dataLen]
      refine ⟨?_, ?_, ?_⟩ <;> simp only <;> omega

theorem mem_posOf {d : Dsg K} {chunk : List ℕ} {p : ℕ} :
    p ∈ posOf d chunk ↔ ∃ s ∈ chunk, ∃ j < d.sizes.getD s 0, p = selOffset d.sizes d.sel s + j := by
  unfold posOf
  simp only [List.mem_flatMap, List.mem_map, List.mem_range]
  constructor
  · rintro ⟨s, hs, j, hj, rfl⟩
    exact ⟨s, hs, j, hj, rfl⟩
  · rintro ⟨s, hs, j, hj, rfl⟩
    exact ⟨s, hs, j, hj, rfl⟩

/-- elements of a chunk: subspace and position -/
def keysOf (size : ℕ → ℕ) (chunk : List ℕ) : List (ℕ × ℕ) :=
  chunk.flatMap fun s => (List.range (size s)).map fun k => (s, k)

theorem posOf_eq_keys (d : Dsg K) (size : ℕ → ℕ) (chunk : List ℕ)
    (h : ∀ s ∈ chunk, d.sizes.getD s 0 = size s) :
    posOf d chunk = (keysOf size chunk).map fun q => selOffset d.sizes d.sel q.1 + q.2 := by
  unfold posOf keysOf
  rw [List.map_flatMap]
  apply List.flatMap_congr
  intro s hs
  rw [h s hs, List.map_map]
  rfl

theorem mem_keysOf {size : ℕ → ℕ} {chunk : List ℕ} {q : ℕ × ℕ} :
    q ∈ keysOf size chunk ↔ q.1 ∈ chunk ∧ q.2 < size q.1 := by
  unfold keysOf
  simp only [List.mem_flatMap, List.mem_map, List.mem_range]
  constructor
  · rintro ⟨s, hs, j, hj, rfl⟩
    exact ⟨hs, hj⟩
  · rintro ⟨h1, h2⟩
    exact ⟨q.1, h1, q.2, h2, rfl⟩

/-- index of an element in an injectively mapped list -/
theorem getD_idxOf_map {α : Type} [DecidableEq α] (l : List α) (f g : α → ℕ) (x : α) (hx : x ∈ l)
    (hf : ∀ a ∈ l, f a = f x → a = x) :
    (l.map g).getD ((l.map f).idxOf (f x)) 0 = g x := by
  induction l with
  | nil => simp at hx
  | cons a l ih =>
    by_cases h : f a = f x
    · have := hf a (by simp) h
      subst this
      simp
    · have hne : a ≠ x := fun e => h (by rw [e])
      rw [List.map_cons, List.map_cons, List.idxOf_cons_ne _ h, List.getD_cons_succ]
      exact ih ((List.mem_cons.1 hx).resolve_left fun e => hne e.symm)
        fun b hb => hf b (by simp [hb])

theorem lookup_zip_map (members : List ℕ) (f : ℕ → List ℕ) (g : ℕ) :
    (members.zip (members.map f)).lookup g = if g ∈ members then some (f g) else none := by
  induction members with
  | nil => rfl
  | cons m ms ih =>
    rw [List.map_cons, List.zip_cons_cons, List.lookup_cons, ih]
    by_cases h : g = m
    · subst h
      simp
    · have : (g == m) = false := by simpa using h
      rw [this]
      simp [h]

theorem zip_map_self {β : Type} (l : List ℕ) (f : ℕ → β) :
    l.zip (l.map f) = l.map fun a => (a, f a) := by
  induction l with
  | nil => rfl
  | cons a l ih => simp [ih]

/-- State of the groups that take part in a reduction. -/
structure Reducible [Zero K] (members subs : List ℕ) (size : ℕ → ℕ) (S : ℕ → Group K) : Prop where
  well : ∀ g ∈ members, WellAllocated (S g).dsg
  sel : ∀ g ∈ members, ∀ s ∈ subs, s ∈ (S g).dsg.sel
  size : ∀ g ∈ members, ∀ s ∈ subs, (S g).dsg.sizes.getD s 0 = size s

/-- `S'` is `S` after the reduction of `subs`. -/
structure Reduced [AddCommMonoid K] (members subs : List ℕ) (size : ℕ → ℕ) (S S' : ℕ → Group K) :
    Prop where
  other : ∀ g, g ∉ members → S' g = S g
  same : ∀ g ∈ members, ∃ v, S' g = ⟨(S g).dsg.withVal v, (S g).tasks⟩
  hit : ∀ g ∈ members, ∀ i ∈ subs, ∀ j < size i,
    (S' g).dsg.at i j = (members.map fun m => (S m).dsg.at i j).sum
  miss : ∀ g ∈ members, ∀ i ∈ (S g).dsg.sel, i ∉ subs → ∀ j < (S g).dsg.sizes.getD i 0,
    (S' g).dsg.at i j = (S g).dsg.at i j

theorem allreduceIndexed_eq [Ring K] (members chunk : List ℕ) (size : ℕ → ℕ) (S : ℕ → Group K)
    (h : Reducible members chunk size S) :
    ∃ S', allreduceIndexed members (members.map fun g => posOf (S g).dsg chunk) S = some S' ∧
      Reduced members chunk size S S' := by
  have hpos : ∀ g ∈ members, posOf (S g).dsg chunk = (keysOf size chunk).map fun q =>
      selOffset (S g).dsg.sizes (S g).dsg.sel q.1 + q.2 :=
    fun g hg => posOf_eq_keys _ _ _ (h.size g hg)
  have hlen : ((members.map fun g => posOf (S g).dsg chunk).all fun p => decide (p.length =
      ((members.map fun g => posOf (S g).dsg chunk).headD []).length)) = true := by
    rw [List.all_eq_true]
    intro p hp
    obtain ⟨g, hg, rfl⟩ := List.mem_map.1 hp
    cases members with
    | nil => simp at hg
    | cons m ms =>
      rw [List.map_cons, List.headD_cons, hpos g hg, hpos m (by simp)]
      simp
  unfold allreduceIndexed
  rw [if_pos hlen]
  refine ⟨_, rfl, ?_⟩
  generalize hS' : (fun g => ((members.zip (members.map fun g => posOf (S g).dsg chunk)).lookup g).elim
    (S g) _ : ℕ → Group K) = S'
  have hother : ∀ g, g ∉ members → S' g = S g := by
    intro g hg
    rw [← hS']
    simp only [lookup_zip_map, if_neg hg, Option.elim_none]
  have hval : ∀ g ∈ members, S' g = ⟨(S g).dsg.withVal fun i =>
          if i ∈ posOf (S g).dsg chunk then
            (members.map fun m => (S m).dsg.data.val
              ((posOf (S m).dsg chunk).getD ((posOf (S g).dsg chunk).idxOf i) 0)).sum
          else (S g).dsg.data.val i, (S g).tasks⟩ := by
    intro g hg
    rw [← hS']
    simp only [lookup_zip_map, if_pos hg, Option.elim_some]
    simp only [zip_map_self, List.map_map]
    rfl
  constructor
  · exact hother
  · intro g hg
    exact ⟨_, hval g hg⟩
  · intro g hg i hi j hj
    rw [hval g hg]
    unfold Dsg.at Dsg.withVal
    simp only
    have hsz := h.size g hg i hi
    rw [if_pos (mem_posOf.2 ⟨i, hi, j, by rw [hsz]; exact hj, rfl⟩)]
    congr 1
    apply List.map_congr_left
    intro m hm
    congr 1
    rw [hpos g hg, hpos m hm]
    refine getD_idxOf_map (keysOf size chunk)
      (fun q => selOffset (S g).dsg.sizes (S g).dsg.sel q.1 + q.2) _ (i, j)
      (mem_keysOf.2 ⟨hi, hj⟩) ?_
    intro q hq he
    rw [mem_keysOf] at hq
    have e := storage_inj (sizes := (S g).dsg.sizes) (sel := (S g).dsg.sel) (i := q.1) (i' := i)
      (j := q.2) (j' := j)
      (by rw [selSize_of_mem (h.sel g hg _ hq.1), h.size g hg _ hq.1]; exact hq.2)
      (by rw [selSize_of_mem (h.sel g hg _ hi), hsz]; exact hj) he
    exact Prod.ext e.1 e.2
  · intro g hg i hi hni j hj
    rw [hval g hg]
    unfold Dsg.at Dsg.withVal
    simp only
    rw [if_neg]
    rw [mem_posOf]
    rintro ⟨s, hs, k, hk, he⟩
    have e := storage_inj (sizes := (S g).dsg.sizes) (sel := (S g).dsg.sel) (i := i) (i' := s)
      (j := j) (j' := k) (by rw [selSize_of_mem hi]; exact hj)
      (by rw [selSize_of_mem (h.sel g hg _ hs)]; exact hk) he
    exact hni (e.1 ▸ hs)

theorem Reduced.sizes_eq [AddCommMonoid K] {members subs : List ℕ} {size : ℕ → ℕ}
    {S S' : ℕ → Group K} (h : Reduced members subs size S S') (g : ℕ) :
    (S' g).dsg.sizes = (S g).dsg.sizes ∧ (S' g).dsg.sel = (S g).dsg.sel ∧
      (S' g).dsg.levels = (S g).dsg.levels ∧ (S' g).tasks = (S g).tasks := by
  by_cases hg : g ∈ members
  · obtain ⟨v, e⟩ := h.same g hg
    rw [e]
    exact ⟨rfl, rfl, rfl, rfl⟩
  · rw [h.other g hg]
    exact ⟨rfl, rfl, rfl, rfl⟩

theorem Reduced.well [Ring K] {members subs : List ℕ} {size : ℕ → ℕ}
    {S S' : ℕ → Group K} (h : Reduced members subs size S S') (g : ℕ)
    (hw : WellAllocated (S g).dsg) : WellAllocated (S' g).dsg := by
  by_cases hg : g ∈ members
  · obtain ⟨v, e⟩ := h.same g hg
    rw [e]
    exact hw.withVal v
  · rw [h.other g hg]
    exact hw

theorem foldlM_range_getD {α β : Type} (l : List α) (d : α) (f : β → α → Option β) (b : β) :
    (List.range l.length).foldlM (fun b k => f b (l.getD k d)) b = l.foldlM f b := by
  have H : ∀ k ≤ l.length, ∀ b, (List.range' k (l.length - k)).foldlM
      (fun b k => f b (l.getD k d)) b = (l.drop k).foldlM f b := by
    intro k hk
    induction h : l.length - k generalizing k with
    | zero =>
      intro b
      rw [List.drop_eq_nil_of_le (by omega)]
      rfl
    | succ m ih =>
      intro b
      rw [List.drop_eq_getElem_cons (by omega), List.range'_succ, List.foldlM_cons,
        List.foldlM_cons, List.getD_eq_getElem _ _ (by omega)]
      congr 1
      funext b'
      exact ih (k + 1) (by omega) (by omega) b'
  have := H 0 (by omega) b
  rwa [Nat.sub_zero, List.drop_zero, ← List.range_eq_range'] at this

/-- reducing chunk after chunk -/
theorem chunks_reduce_eq [Ring K] (members : List ℕ) (size : ℕ → ℕ) (chunks : List (List ℕ))
    (hnd : chunks.flatten.Nodup) (S : ℕ → Group K)
    (h : Reducible members chunks.flatten size S) (P : ℕ → List ℕ → List ℕ)
    (hP : ∀ g ∈ members, ∀ c ∈ chunks, P g c = posOf (S g).dsg c) :
    ∃ S', chunks.foldlM (fun S c => allreduceIndexed members (members.map fun g => P g c) S) S =
      some S' ∧ Reduced members chunks.flatten size S S' := by
  induction chunks generalizing S with
  | nil =>
    refine ⟨S, rfl, fun _ _ => rfl, fun g _ => ⟨(S g).dsg.data.val, rfl⟩, by simp, ?_⟩
    exact fun _ _ _ _ _ _ _ => rfl
  | cons c cs ih =>
    rw [List.flatten_cons] at hnd h ⊢
    rw [List.nodup_append] at hnd
    obtain ⟨S1, e1, r1⟩ := allreduceIndexed_eq members c size S
      ⟨h.well, fun g hg s hs => h.sel g hg s (by simp [hs]),
        fun g hg s hs => h.size g hg s (by simp only [List.mem_append]; exact Or.inl hs)⟩
    obtain ⟨S2, e2, r2⟩ := ih hnd.2.1 S1
      ⟨fun g hg => r1.well g (h.well g hg), fun g hg s hs => by
          rw [(r1.sizes_eq g).2.1]
          exact h.sel g hg s (by rw [List.mem_append]; exact Or.inr hs),
        fun g hg s hs => by
          rw [(r1.sizes_eq g).1]
          exact h.size g hg s (by rw [List.mem_append]; exact Or.inr hs)⟩ (by
        intro g hg c' hc'
        rw [hP g hg c' (by simp [hc'])]
        unfold posOf
        rw [(r1.sizes_eq g).1, (r1.sizes_eq g).2.1])
    refine ⟨S2, ?_, ?_, ?_, ?_, ?_⟩
    · rw [List.foldlM_cons]
      have : (members.map fun g => P g c) = members.map fun g => posOf (S g).dsg c :=
        List.map_congr_left fun g hg => hP g hg c (by simp)
      rw [this, e1]
      exact e2
    · intro g hg
      rw [r2.other g hg, r1.other g hg]
    · intro g hg
      obtain ⟨v1, q1⟩ := r1.same g hg
      obtain ⟨v2, q2⟩ := r2.same g hg
      refine ⟨v2, ?_⟩
      rw [q2, q1]
      rfl
    · intro g hg i hi j hj
      rcases List.mem_append.1 hi with hi | hi
      · rw [r2.miss g hg i (by
            rw [(r1.sizes_eq g).2.1]
            exact h.sel g hg i (by simp [hi])) (fun hc => hnd.2.2 i hi i hc rfl) j (by
            rw [(r1.sizes_eq g).1, h.size g hg i (by simp only [List.mem_append]; exact Or.inl hi)]
            exact hj)]
        exact r1.hit g hg i hi j hj
      · rw [r2.hit g hg i hi j hj]
        congr 1
        apply List.map_congr_left
        intro m hm
        apply r1.miss m hm i (h.sel m hm i (by simp only [List.mem_append]; exact Or.inr hi))
        · exact fun hc => hnd.2.2 i hc i hi rfl
        · rw [h.size m hm i (by simp only [List.mem_append]; exact Or.inr hi)]
          exact hj
    · intro g hg i hi hni j hj
      rw [List.mem_append, not_or] at hni
      rw [r2.miss g hg i (by rw [(r1.sizes_eq g).2.1]; exact hi) hni.2 j (by
        rw [(r1.sizes_eq g).1]; exact hj)]
      exact r1.miss g hg i hi hni.1 j hj

theorem mapM_some_map {α β : Type} (l : List α) (f : α → Option β) (g : α → β)
    (h : ∀ a ∈ l, f a = some (g a)) : l.mapM f = some (l.map g) := by
  induction l with
  | nil => rfl
  | cons a l ih =>
    rw [List.mapM_cons, h a (by simp), ih fun b hb => h b (by simp [hb])]
    rfl

/-- The subspace reduction on one communicator. -/
theorem subspaceReduce_eq [Ring K] (maxChunk : ℕ) (hmax : maxChunk ≤ 2 ^ 31) (members subs : List ℕ)
    (size : ℕ → ℕ) (hsort : subs.Pairwise (· < ·)) (hsize : ∀ s ∈ subs, size s < 2 ^ 31)
    (subsOf : Group K → List ℕ) (S : ℕ → Group K) (hsub : ∀ g ∈ members, subsOf (S g) = subs)
    (h : Reducible members subs size S)
    (hfit : ∀ g ∈ members, ∀ c ∈ getChunkedSubspaces size maxChunk subs, ∀ s ∈ c, ∀ s0 ∈ c,
      selOffset (S g).dsg.sizes (S g).dsg.sel s < selOffset (S g).dsg.sizes (S g).dsg.sel s0 + 2 ^ 31) :
    ∃ S', subspaceReduce maxChunk members subsOf S = some S' ∧ Reduced members subs size S S' := by
  obtain ⟨hc1, hc2⟩ := C33_chunks_partial size maxChunk hmax subs hsize hsort
  generalize hch : getChunkedSubspaces size maxChunk subs = chunks at *
  have hdt : ∀ g ∈ members, getReductionDatatypes (S g).dsg maxChunk (subsOf (S g)) =
      some (chunks.map (posOf (S g).dsg)) := by
    intro g hg
    unfold getReductionDatatypes
    rw [hsub g hg, C33_same_chunks _ size maxChunk subs (fun s hs => h.size g hg s hs), hch]
    apply mapM_some_map
    intro c hc
    have hcs : ∀ s ∈ c, s ∈ subs := fun s hs => by
      rw [← hc1]; exact List.mem_flatten.2 ⟨c, hc, hs⟩
    apply datatypePositions_eq _ (h.well g hg) _ (hc2 c hc).1
    · have hsub : c.Sublist subs := by
        rw [← hc1]
        exact List.sublist_flatten_of_mem hc
      exact List.Pairwise.sublist hsub hsort
    · exact fun s hs => h.sel g hg s (hcs s hs)
    · exact fun s hs => by rw [h.size g hg s (hcs s hs)]; exact hsize s (hcs s hs)
    · exact hfit g hg c hc
  have hnd : chunks.flatten.Nodup := by rw [hc1]; exact hsort.imp fun h => ne_of_lt h
  unfold subspaceReduce
  rw [mapM_some_map _ _ _ hdt]
  simp only [Option.bind_eq_bind, Option.bind_some]
  rw [if_pos (by
    rw [List.all_eq_true]
    intro d hd
    obtain ⟨g, hg, rfl⟩ := List.mem_map.1 hd
    cases members with
    | nil => simp at hg
    | cons m ms => simp)]
  obtain ⟨S', e, r⟩ := chunks_reduce_eq members size chunks hnd S (by rw [hc1]; exact h)
    (fun g c => posOf (S g).dsg c) (fun _ _ _ _ => rfl)
  rw [hc1] at r
  cases hm : members with
  | nil =>
    subst hm
    refine ⟨S, rfl, fun _ _ => rfl, ?_, ?_, ?_⟩ <;> simp
  | cons m ms =>
    refine ⟨S', ?_, by rw [← hm]; exact r⟩
    rw [← hm]
    have hlen : ((members.map fun g => chunks.map (posOf (S g).dsg)).headD []).length =
        chunks.length := by rw [hm]; simp
    rw [hlen, ← e]
    have := foldlM_range_getD chunks [] (fun (T : ℕ → Group K) c =>
      allreduceIndexed members (members.map fun g => posOf (S g).dsg c) T) S
    rw [← this]
    have hext : ∀ (l : List ℕ), (∀ k ∈ l, k < chunks.length) → ∀ T : ℕ → Group K,
        l.foldlM (fun T k => allreduceIndexed members
          ((members.map fun g => chunks.map (posOf (S g).dsg)).map fun d => d.getD k []) T) T =
        l.foldlM (fun T k => allreduceIndexed members
          (members.map fun g => posOf (S g).dsg (chunks.getD k [])) T) T := by
      intro l
      induction l with
      | nil => intro _ T; rfl
      | cons k l ih =>
        intro hl T
        have hk := hl k (by simp)
        rw [List.foldlM_cons, List.foldlM_cons]
        have e1 : ((members.map fun g => chunks.map (posOf (S g).dsg)).map fun d => d.getD k []) =
            members.map fun g => posOf (S g).dsg (chunks.getD k []) := by
          rw [List.map_map]
          apply List.map_congr_left
          intro g _
          simp only [Function.comp]
          rw [List.getD_eq_getElem _ _ (by simpa using hk), List.getD_eq_getElem _ _ hk,
            List.getElem_map]
        rw [e1]
        congr 1
        funext T'
        exact ih (fun k hk => hl k (by simp [hk])) T'
    exact hext _ (fun k hk => List.mem_range.1 hk) S

end Verif

import Verif.Model.SystemAtOnce
import Verif.Props.DistributedCombine
import Verif.Props.SystemCombine
import Verif.Props.SystemOutgroup
import Verif.Props.WideCombine

/-!
# Lemmas on complete combinations of several systems
-/

namespace Verif

variable {K : Type}

/-! ### Systems with other values -/

theorem systemHolds_congr {n : ℕ} {T T' : ℕ → List (K × List ℕ × (ℕ → K))}
    (hT : ∀ g < n, (T' g).map (fun t => (t.1, t.2.1)) = (T g).map fun t => (t.1, t.2.1))
    (l : List ℕ) : SystemHolds n T' l ↔ SystemHolds n T l := by
  unfold SystemHolds
  constructor
  · rintro ⟨g, hg, h⟩
    exact ⟨g, hg, (holdsLevel_congr hT hg l).1 h⟩
  · rintro ⟨g, hg, h⟩
    exact ⟨g, hg, (holdsLevel_congr hT hg l).2 h⟩

section

variable {refs : List RefDim} {levels : List (List ℕ)} {k : ℕ} {n o : ℕ → ℕ}
  {T T' : ℕ → ℕ → List (K × List ℕ × (ℕ → K))}

theorem retask_systems [Ring K] (h : ValidSystems refs levels k n T)
    (hT : ∀ s < k, ∀ g < n s, (T' s g).map (fun t => (t.1, t.2.1)) = (T s g).map fun t => (t.1, t.2.1)) :
    ValidSystems refs levels k n T' := by
  refine ⟨fun s hs => retask_valid (h.each s hs) (hT s hs), fun s hs l hl => ?_⟩
  rcases h.own s hs l ((systemHolds_congr (hT s hs) l).1 hl) with a | a
  · exact Or.inl a
  · exact Or.inr fun s' hs' hne hc => a s' hs' hne ((systemHolds_congr (hT s' hs') l).1 hc)

theorem validSystems_oneProcess [One K] (h : ValidSystems refs levels k n T) :
    ValidSystems (oneProcess refs) levels k n T :=
  ⟨fun s hs => validSystem_oneProcess (h.each s hs), h.own⟩

theorem validSystems_atProcess [One K] (h : ValidSystems refs levels k n T) {c : List ℕ}
    (hc : InGroup refs c) : ValidSystems (atProcess refs c) levels k n T :=
  ⟨fun s hs => validSystem_atProcess (h.each s hs) hc, h.own⟩

/-- The component grids of all groups of all systems. -/
def allTasks (k : ℕ) (n : ℕ → ℕ) (T : ℕ → ℕ → List (K × List ℕ × (ℕ → K))) :
    List (K × List ℕ × (ℕ → K)) :=
  (List.range k).flatMap fun s => (List.range (n s)).flatMap (T s)

theorem mem_allTasks {t : K × List ℕ × (ℕ → K)} :
    t ∈ allTasks k n T ↔ ∃ s < k, ∃ g < n s, t ∈ T s g := by
  simp [allTasks, List.mem_flatMap]

theorem sum_flatMap_map [AddCommMonoid K] {α β : Type} (l : List α) (f : α → List β) (F : β → K) :
    ((l.flatMap f).map F).sum = (l.map fun a => ((f a).map F).sum).sum := by
  induction l with
  | nil => rfl
  | cons a l ih => simp [List.flatMap_cons, ih]

theorem valueOfSystems_flat [Ring K] (z : List ℕ) :
    valueOfSystems refs k n T z = ((allTasks k n T).map fun t =>
      t.1 * ∑ q ∈ Finset.range (numLocal refs t.2.1) with spatialOf refs t.2.1 q = z, t.2.2 q).sum := by
  unfold valueOfSystems valueAtPlace allTasks
  rw [sum_flatMap_map]
  congr 1
  apply List.map_congr_left
  intro s _
  rw [sum_flatMap_map]

theorem valueAtPlace_flat [Ring K] {N : ℕ} {T1 : ℕ → List (K × List ℕ × (ℕ → K))} (z : List ℕ) :
    valueAtPlace refs N T1 z = (((List.range N).flatMap T1).map fun t =>
      t.1 * ∑ q ∈ Finset.range (numLocal refs t.2.1) with spatialOf refs t.2.1 q = z, t.2.2 q).sum := by
  unfold valueAtPlace
  rw [sum_flatMap_map]

/-- The combination only depends on the tasks, not on where they are. -/
theorem valueOfSystems_perm [Ring K] {N : ℕ} {T1 : ℕ → List (K × List ℕ × (ℕ → K))}
    (hp : ((List.range N).flatMap T1).Perm (allTasks k n T)) (z : List ℕ) :
    valueAtPlace refs N T1 z = valueOfSystems refs k n T z := by
  rw [valueAtPlace_flat, valueOfSystems_flat]
  exact (hp.map _).sum_eq

theorem hierVals_flat (F : List ℕ → (ℕ → K) → ℕ → K) (N : ℕ)
    (T1 : ℕ → List (K × List ℕ × (ℕ → K))) :
    (List.range N).flatMap (hierVals F T1) =
      ((List.range N).flatMap T1).map fun t => (t.1, t.2.1, F t.2.1 t.2.2) := by
  rw [List.map_flatMap]
  rfl

theorem hierVals_all (F : List ℕ → (ℕ → K) → ℕ → K) :
    allTasks k n (fun s => hierVals F (T s)) =
      (allTasks k n T).map fun t => (t.1, t.2.1, F t.2.1 t.2.2) := by
  unfold allTasks
  rw [List.map_flatMap]
  congr 1
  funext s
  exact hierVals_flat F (n s) (T s)

theorem length_holders_flat {N : ℕ} {T1 : ℕ → List (K × List ℕ × (ℕ → K))}
    (hp : ((List.range N).flatMap T1).Perm (allTasks k n T)) (l : List ℕ) :
    (holders N T1 l).length = ((List.range k).map fun s => (holders (n s) (T s) l).length).sum := by
  unfold holders
  rw [(hp.filter _).length_eq]
  unfold allTasks
  rw [List.filter_flatMap, List.length_flatMap]

/-- All tasks on the groups of one system. -/
theorem joined_valid [Ring K] (hk : 0 < k) (h : ValidSystems refs levels k n T) {N : ℕ}
    {T1 : ℕ → List (K × List ℕ × (ℕ → K))} (hp : ((List.range N).flatMap T1).Perm (allTasks k n T)) :
    ValidSystem refs levels N T1 := by
  have hmem : ∀ g < N, ∀ t ∈ T1 g, ∃ s < k, ∃ g' < n s, t ∈ T s g' := by
    intro g hg t ht
    exact mem_allTasks.1 (hp.mem_iff.1 (List.mem_flatMap.2 ⟨g, List.mem_range.2 hg, ht⟩))
  refine ⟨(h.each 0 hk).ref, (h.each 0 hk).sorted, ?_, ?_, ?_⟩
  · intro g hg t ht
    obtain ⟨s, hs, g', hg', ht'⟩ := hmem g hg t ht
    exact (h.each s hs).comp g' hg' t ht'
  · intro g hg t ht
    obtain ⟨s, hs, g', hg', ht'⟩ := hmem g hg t ht
    exact (h.each s hs).low g' hg' t ht'
  · intro g hg t ht l hl
    obtain ⟨s, hs, g', hg', ht'⟩ := hmem g hg t ht
    by_cases hm : l ∈ levels
    · exact Or.inl hm
    obtain ⟨h1, h2⟩ := ((h.each s hs).mem g' hg' t ht' l hl).resolve_left hm
    have hno := (h.own s hs l ⟨g', hg', t, ht', hl⟩).resolve_left hm
    refine Or.inr ⟨h1, ?_⟩
    rw [length_holders_flat hp, ← h2]
    refine sum_range_single hs (fun s' => (holders (n s') (T s') l).length) ?_
    intro s' hs' hne
    have := hno s' hs' hne
    rw [List.length_eq_zero_iff, List.eq_nil_iff_forall_not_mem]
    intro t' ht''
    unfold holders at ht''
    rw [List.mem_filter, List.mem_flatMap] at ht''
    obtain ⟨⟨a, ha, hta⟩, hla⟩ := ht''
    exact this ⟨a, List.mem_range.1 ha, t', hta, by simpa using hla⟩

end

/-! ### The combination on one position -/

/-- Under these conditions C85, C86 and C87 hold on a process: there is a subspace with points on the process
that two systems hold, numbers fit, and, unless the groups keep whole sparse grids, groups share subspaces.
Over the third-level manager the groups have to keep whole sparse grids (`C86_violated`). -/
structure ExchangeUsable (refs : List RefDim) (levels : List (List ℕ)) (k : ℕ) (n o : ℕ → ℕ)
    (T : ℕ → ℕ → List (K × List ℕ × (ℕ → K))) (variant : CombinationVariant)
    (exchange : SystemExchange) (maxChunk : ℕ) : Prop where
  out : ∀ s < k, o s < n s
  conj : ∃ l, 0 < subspaceCount refs l ∧ ∃ a < k, ∃ b < k, a ≠ b ∧
    SystemHolds (n a) (T a) l ∧ SystemHolds (n b) (T b) l
  pos : 0 < maxChunk
  max : maxChunk < 2 ^ 31
  small : ∀ l ∈ levels, subspaceCount refs l < 2 ^ 30
  total : (levels.map (subspaceCount refs)).sum < 2 ^ 31 - 1
  kind : match exchange with
    | .manager _ _ => k = 2 ∧ variant = .sparseGridReduce
    | .files order => (k = 2 ∨ k = 3) ∧
      (∀ s < k, (order s).Perm ((List.range k).filter fun t => t ≠ s)) ∧
      (variant = .sparseGridReduce ∨
        (variant = .outgroupSparseGridReduce ∨ variant = .chunkedOutgroupSparseGridReduce) ∧
          (∀ s < k, n s ≤ 256) ∧ ∀ s < k, n s = 1 ∨ ∀ g < n s, Shares refs (n s) (T s) g)

section

variable {refs : List RefDim} {levels : List (List ℕ)} {k : ℕ} {n o : ℕ → ℕ}
  {T T' : ℕ → ℕ → List (K × List ℕ × (ℕ → K))} {variant : CombinationVariant}
  {exchange : SystemExchange} {maxChunk : ℕ}

theorem exchangeUsable_congr
    (hT : ∀ s < k, ∀ g < n s, (T' s g).map (fun t => (t.1, t.2.1)) = (T s g).map fun t => (t.1, t.2.1))
    (h : ExchangeUsable refs levels k n o T variant exchange maxChunk) :
    ExchangeUsable refs levels k n o T' variant exchange maxChunk := by
  refine ⟨h.out, ?_, h.pos, h.max, h.small, h.total, ?_⟩
  · obtain ⟨l, h0, a, ha, b, hb, hab, h1, h2⟩ := h.conj
    exact ⟨l, h0, a, ha, b, hb, hab, (systemHolds_congr (hT a ha) l).2 h1,
      (systemHolds_congr (hT b hb) l).2 h2⟩
  · have := h.kind
    cases exchange with
    | manager e f => exact this
    | files order =>
      obtain ⟨a, b, c⟩ := this
      refine ⟨a, b, ?_⟩
      rcases c with c | ⟨c1, c2, c3⟩
      · exact Or.inl c
      · refine Or.inr ⟨c1, c2, fun s hs => ?_⟩
        rcases c3 s hs with d | d
        · exact Or.inl d
        · exact Or.inr fun g hg => (shares_congr (hT s hs) hg).2 (d g hg)

/-- C85, C86 and C87 in one statement. -/
theorem combineSystems_combined [Ring K] (h : ValidSystems refs levels k n T)
    (hu : ExchangeUsable refs levels k n o T variant exchange maxChunk) :
    ∃ R : ℕ → ℕ → Group K,
      combineSystems variant exchange maxChunk levels k (fun s => systemOf refs (n s) (o s) (T s)) =
        some ((List.range k).map R) ∧ AllCombined refs k n T R := by
  have hkind := hu.kind
  cases exchange with
  | manager e f =>
    obtain ⟨rfl, rfl⟩ := hkind
    obtain ⟨l, h0, a, ha, b, hb, hab, h1, h2⟩ := hu.conj
    have hconj : ∃ l, 0 < subspaceCount refs l ∧ SystemHolds (n 0) (T 0) l ∧
        SystemHolds (n 1) (T 1) l := by
      refine ⟨l, h0, ?_⟩
      have h3 : (a = 0 ∧ b = 1) ∨ (a = 1 ∧ b = 0) := by omega
      rcases h3 with ⟨rfl, rfl⟩ | ⟨rfl, rfl⟩
      · exact ⟨h1, h2⟩
      · exact ⟨h2, h1⟩
    exact C86_manager_partial refs levels n o T h hu.out e f hconj maxChunk hu.pos hu.max hu.total
  | files order =>
    obtain ⟨hk, hord, hv⟩ := hkind
    rcases hv with rfl | ⟨rfl | rfl, hn, hsh⟩
    · exact C86_files_partial refs levels k hk n o T h hu.out hu.conj order hord maxChunk hu.pos hu.max
        hu.small hu.total
    · exact C87_files_partial refs levels k hk n o T h hu.out hn hsh hu.conj order hord maxChunk
        hu.max.le hu.small hu.total
    · exact C85_files_partial refs levels k hk n o T h hu.out hn hsh hu.conj order hord maxChunk hu.max
        hu.small (lt_trans hu.total (by norm_num))

/-- Combining on one position. -/
theorem systems_position [Ring K] (h : ValidSystems refs levels k n T) {S : ℕ → ℕ → List (GroupTask K)}
    (hS : ∀ s < k, ∀ g < n s, List.Forall₂ (HoldsParts refs) (T s g) (S s g))
    (hS0 : ∀ s g, k ≤ s ∨ n s ≤ g → S s g = []) {c : List ℕ} (hc : InGroup refs c)
    (hu : ExchangeUsable (atProcess refs c) levels k n o T variant exchange maxChunk) :
    ∃ R : ℕ → ℕ → Group K, combineSystems variant exchange maxChunk levels k
        (fun s => (⟨n s, o s, S s⟩ : GroupSystem K).onProcess c) = some ((List.range k).map R) ∧
      ∀ s < k, ∀ g < n s,
        List.Forall₂ (fun t (t' : K × Dfg K) => t'.2.data.len = numLocal (atProcess refs c) t.2.1 ∧
          ∀ p < numLocal (atProcess refs c) t.2.1, t'.2.data.val p =
            valueOfSystems (oneProcess refs) k n T
              (spatialOf (oneProcess refs) t.2.1 (globalOf refs c t.2.1 p))) (T s g) (R s g).tasks := by
  have htasks : (fun s => (⟨n s, o s, S s⟩ : GroupSystem K).onProcess c) =
      fun s => systemOf (atProcess refs c) (n s) (o s) fun g => localTasks c (T s g) (S s g) := by
    funext s
    unfold GroupSystem.onProcess systemOf
    congr 1
    funext g
    by_cases hg : s < k ∧ g < n s
    · exact (localTasks_spec hc (hS s hg.1 g hg.2) ((h.each s hg.1).comp g hg.2)).1
    · simp only
      rw [hS0 s g (by omega)]
      simp [localTasks, tasksOf]
  have hlev : ∀ s < k, ∀ g < n s, (localTasks c (T s g) (S s g)).map (fun t => (t.1, t.2.1)) =
      (T s g).map fun t => (t.1, t.2.1) :=
    fun s hs g hg => localTasks_levels hc (hS s hs g hg) ((h.each s hs).comp g hg)
  obtain ⟨R, r1, r2⟩ := combineSystems_combined
    (retask_systems (validSystems_atProcess h hc) hlev) (exchangeUsable_congr hlev hu)
  refine ⟨R, by rw [htasks]; exact r1, fun s hs g hg => ?_⟩
  have hTr := (localTasks_spec hc (hS s hs g hg) ((h.each s hs).comp g hg)).2
  have hr2 := r2 s hs g hg
  unfold Transformed at hTr
  beta_reduce at hr2
  rw [List.forall₂_iff_get] at hTr hr2 ⊢
  refine ⟨by rw [hTr.1, hr2.1], fun i h1 h2 => ?_⟩
  obtain ⟨-, e2, -⟩ := hTr.2 i h1 (by rw [← hTr.1]; exact h1)
  obtain ⟨-, -, e3, e4⟩ := hr2.2 i (by rw [← hTr.1]; exact h1) h2
  rw [e2] at e3 e4
  refine ⟨e3, fun p hp => ?_⟩
  rw [e4 p hp]
  unfold valueOfSystems
  congr 1
  apply List.map_congr_left
  intro s' hs'
  have hs'' := List.mem_range.1 hs'
  rw [valueAtPlace_congr (fun g hg =>
    (localTasks_spec hc (hS s' hs'' g hg) ((h.each s' hs'').comp g hg)).2)]
  exact valueAtPlace_atProcess (h.each s hs).ref
    ((h.each s hs).comp g hg _ (List.get_mem _ ⟨i, h1⟩)) hc hp (h.each s' hs'').comp

/-- Combining on all positions. -/
theorem systems_combine [Ring K] (h : ValidSystems refs levels k n T)
    (hu : ∀ c, InGroup refs c →
      ExchangeUsable (atProcess refs c) levels k n o T variant exchange maxChunk)
    {S : ℕ → ℕ → List (GroupTask K)}
    (hS : ∀ s < k, ∀ g < n s, List.Forall₂ (HoldsParts refs) (T s g) (S s g))
    (hS0 : ∀ s g, k ≤ s ∨ n s ≤ g → S s g = []) :
    ∃ S', combineSystemPositions (refs.map fun r => r.dec.length) variant exchange maxChunk levels k
        (fun s => ⟨n s, o s, S s⟩) = some S' ∧
      ∀ s < k, ∀ g < n s, List.Forall₂ (HoldsParts refs) ((T s g).map fun t => (t.1, t.2.1, fun q =>
        valueOfSystems (oneProcess refs) k n T (spatialOf (oneProcess refs) t.2.1 q))) (S' s g) := by
  have hone := fun c (hc : InGroup refs c) => systems_position h hS hS0 hc (hu c hc)
  refine ⟨_, if_pos ?_, fun s hs g hg => ?_⟩
  · rw [List.all_eq_true]
    intro c hc
    obtain ⟨R, e, -⟩ := hone c (mem_groupProcesses.1 hc)
    beta_reduce
    rw [e]
    rfl
  · have h1 := hS s hs g hg
    rw [List.forall₂_map_left_iff]
    refine forall₂_of_getElem (by simp [h1.length_eq]) ?_
    intro i h2 h3
    have h4 : i < (S s g).length := by rw [← h1.length_eq]; exact h2
    obtain ⟨a1, a2, -⟩ := (List.forall₂_iff_get.1 h1).2 i h2 h4
    simp only [List.get_eq_getElem] at a1 a2
    rw [List.getElem_map, List.getElem_zipIdx]
    refine ⟨a1, a2, fun c hc => ?_⟩
    obtain ⟨R, e1, e2⟩ := hone c hc
    have h5 : i < (R s g).tasks.length := by rw [← (e2 s hs g hg).length_eq]; exact h2
    obtain ⟨b1, b2⟩ := (List.forall₂_iff_get.1 (e2 s hs g hg)).2 i h2 h5
    have h6 : ((List.range k).map R)[s]? = some (R s) := by
      rw [List.getElem?_map, List.getElem?_range hs]
      rfl
    simp only [resultData, e1, Option.bind_some, h6, zero_add, List.getElem?_eq_getElem h5, Option.map_some,
      Option.getD_some]
    exact ⟨b1, b2⟩

theorem onSystems_some {f : ℕ → Option (ℕ → List (GroupTask K))}
    {Q : ℕ → (ℕ → List (GroupTask K)) → Prop} (h : ∀ s < k, ∃ r, f s = some r ∧ Q s r) :
    ∃ R, onSystems k f = some R ∧ (∀ s < k, Q s (R s)) ∧ ∀ s, k ≤ s → R s = fun _ => [] := by
  have : ∀ s, ∃ r, s < k → f s = some r ∧ Q s r := by
    intro s
    by_cases hs : s < k
    · obtain ⟨r, hr⟩ := h s hs
      exact ⟨r, fun _ => hr⟩
    · exact ⟨fun _ => [], fun h => absurd h hs⟩
  choose r hr using this
  refine ⟨fun s => ((List.range k).map r).getD s fun _ => [], ?_, ?_, ?_⟩
  · unfold onSystems
    rw [mapM_some_map _ _ r fun s hs => (hr s (List.mem_range.1 hs)).1]
    rfl
  · intro s hs
    beta_reduce
    rw [List.getD_eq_getElem _ _ (by simpa using hs), List.getElem_map, List.getElem_range]
    exact (hr s hs).2
  · intro s hs
    beta_reduce
    rw [List.getD_eq_default _ _ (by simpa using hs)]

end

/-- What a complete combination of several systems computes. -/
theorem systems_formula [Field K] [CharZero K] {refs : List RefDim} {levels : List (List ℕ)} {k : ℕ}
    {n o : ℕ → ℕ} {T : ℕ → ℕ → List (K × List ℕ × (ℕ → K))} (h : ValidSystems refs levels k n T)
    {P : CombineParams} (hP : ParamsOk refs P) (hne : ∀ s < k, NonEmptyParts refs (n s) (T s))
    {variant : CombinationVariant} {exchange : SystemExchange} {maxChunk : ℕ}
    (hu : ∀ c, InGroup refs c →
      ExchangeUsable (atProcess refs c) levels k n o T variant exchange maxChunk)
    {H D : List ℕ → (ℕ → K) → ℕ → K}
    (hm : ∀ L, ValidComponent refs L →
      GridMaps (compDims (oneProcess refs) P L) (selectedDims P.sel) (H L) (D L))
    (junk junk' : ℕ → ℕ → ℕ → List ℕ → ℕ → ℕ → ℕ → K)
    {S : ℕ → ℕ → List (GroupTask K)}
    (hS : ∀ s < k, ∀ g < n s, List.Forall₂ (HoldsParts refs) (T s g) (S s g)) :
    ∃ S', systemsCombineAtOnce (refs.map fun r => r.dec.length) P variant exchange maxChunk levels k
        junk junk' (fun s => ⟨n s, o s, S s⟩) = some S' ∧
      ∀ s < k, ∀ g < n s, List.Forall₂ (HoldsParts refs) ((T s g).map fun t => (t.1, t.2.1,
        D t.2.1 fun q => valueOfSystems (oneProcess refs) k n (fun s => hierVals H (T s))
          (spatialOf (oneProcess refs) t.2.1 q))) (S' s g) := by
  obtain ⟨S1, a1, a2, a3⟩ := onSystems_some (k := k)
    (f := fun s => onProcessGroups (n s) fun g => groupHierarchize P (junk s g) (S s g))
    (Q := fun s r => (∀ g < n s, List.Forall₂ (HoldsParts refs) (hierVals H (T s) g) (r g)) ∧
      ∀ g, n s ≤ g → r g = []) fun s hs =>
    (groups_transform (h.each s hs).ref hP hm (h.each s hs).comp (hne s hs) (hS s hs) (junk s)).1
  have hl1 : ∀ s < k, ∀ g < n s, (hierVals H (T s) g).map (fun t => (t.1, t.2.1)) =
      (T s g).map fun t => (t.1, t.2.1) := by
    intro s _ g _
    unfold hierVals
    rw [List.map_map]
    rfl
  have h1 := retask_systems h hl1
  obtain ⟨S2, b1, b2⟩ := systems_combine h1 (fun c hc => exchangeUsable_congr hl1 (hu c hc))
    (fun s hs => (a2 s hs).1) (fun s g hsg => by
      by_cases hs : s < k
      · exact (a2 s hs).2 g (by omega)
      · rw [a3 s (by omega)])
  have hmem : ∀ s g t', t' ∈ (hierVals H (T s) g).map (fun t => (t.1, t.2.1, fun q =>
        valueOfSystems (oneProcess refs) k n (fun s => hierVals H (T s))
          (spatialOf (oneProcess refs) t.2.1 q))) → ∃ t ∈ T s g, t'.2.1 = t.2.1 := by
    intro s g t' ht'
    obtain ⟨t1, ht1, rfl⟩ := List.mem_map.1 ht'
    obtain ⟨t, ht, rfl⟩ := List.mem_map.1 ht1
    exact ⟨t, ht, rfl⟩
  obtain ⟨S3, c1, c2, -⟩ := onSystems_some (k := k)
    (f := fun s => onProcessGroups (n s) fun g => groupDehierarchize P (junk' s g) (S2 s g))
    (Q := fun s r => (∀ g < n s, List.Forall₂ (HoldsParts refs) (hierVals D (fun g =>
        (hierVals H (T s) g).map fun t => (t.1, t.2.1, fun q =>
          valueOfSystems (oneProcess refs) k n (fun s => hierVals H (T s))
            (spatialOf (oneProcess refs) t.2.1 q))) g) (r g)) ∧ ∀ g, n s ≤ g → r g = []) fun s hs =>
    (groups_transform (h.each s hs).ref hP hm
      (fun g hg t' ht' => by
        obtain ⟨t, ht, e⟩ := hmem s g t' ht'
        rw [e]
        exact (h.each s hs).comp g hg t ht)
      (fun g hg t' ht' => by
        obtain ⟨t, ht, e⟩ := hmem s g t' ht'
        rw [e]
        exact hne s hs g hg t ht) (b2 s hs) (junk' s)).2
  refine ⟨S3, ?_, fun s hs g hg => ?_⟩
  · unfold systemsCombineAtOnce
    rw [a1, Option.bind_some, b1, Option.bind_some, c1]
  · have := (c2 s hs).1 g hg
    unfold hierVals at this ⊢
    simp only [List.map_map] at this
    exact this

/-- The same component grids with another layout of the groups. -/
theorem validSystem_relayout [One K] {refs refs1 : List RefDim} {levels : List (List ℕ)} {n : ℕ}
    {T : ℕ → List (K × List ℕ × (ℕ → K))} (hrefs : oneProcess refs1 = oneProcess refs)
    (hr1 : ∀ r ∈ refs1, ValidRef r) (h : ValidSystem refs levels n T) :
    ValidSystem refs1 levels n T := by
  have hlen : refs1.length = refs.length := by
    have := congrArg List.length hrefs
    simpa [oneProcess] using this
  refine ⟨hr1, h.sorted, fun g hg t ht => ?_, fun g hg t ht => ?_, h.mem⟩
  · rw [← validComponent_oneProcess, hrefs, validComponent_oneProcess]
    exact h.comp g hg t ht
  · rw [hlen]
    exact h.low g hg t ht

/-- If all component grids together have consistent coefficients and agreeing hierarchical values, a complete
combination of several systems computes the old values. -/
theorem systems_unchanged [Field K] [CharZero K] {refs : List RefDim} {levels : List (List ℕ)} {k : ℕ}
    {n : ℕ → ℕ} {T : ℕ → ℕ → List (K × List ℕ × (ℕ → K))} (hk : 0 < k)
    (h : ValidSystems refs levels k n T) {P : CombineParams} (hP : ParamsOk refs P)
    (hc : Consistent 1 fun _ => allTasks k n T) {H D : List ℕ → (ℕ → K) → ℕ → K}
    (hm : ∀ L, ValidComponent (oneProcess refs) L →
      GridMaps (compDims (oneProcess refs) P L) (selectedDims P.sel) (H L) (D L))
    {v : List ℕ → K}
    (hv : ∀ s < k, Agrees (oneProcess refs) (n s) (hierVals H (T s)) v) {s : ℕ} (hs : s < k) {g : ℕ}
    (hg : g < n s) {t : K × List ℕ × (ℕ → K)} (ht : t ∈ T s g) {p : ℕ}
    (hp : p < numLocal (oneProcess refs) t.2.1) :
    D t.2.1 (fun q => valueOfSystems (oneProcess refs) k n (fun s => hierVals H (T s))
      (spatialOf (oneProcess refs) t.2.1 q)) p = t.2.2 p := by
  have hperm : ((List.range 1).flatMap fun _ => allTasks k n T).Perm (allTasks k n T) := by simp
  have h1 := joined_valid hk (validSystems_oneProcess h) hperm
  have hv1 : Agrees (oneProcess refs) 1 (hierVals H fun _ => allTasks k n T) v := by
    intro g hg t ht q hq
    obtain ⟨t', ht', rfl⟩ := List.mem_map.1 ht
    obtain ⟨s', hs', g', hg', ht''⟩ := mem_allTasks.1 ht'
    exact hv s' hs' g' hg' _ (List.mem_map.2 ⟨t', ht'', rfl⟩) q hq
  rw [← formula_unchanged h1 (serial_oneProcess refs) (paramsOk_oneProcess hP) hc hm hv1
    (show 0 < 1 by omega) (mem_allTasks.2 ⟨s, hs, g, hg, ht⟩) hp]
  congr 1
  funext q
  symm
  apply valueOfSystems_perm
  rw [hierVals_flat, hierVals_all]
  exact hperm.map _

end Verif

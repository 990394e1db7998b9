import Verif.Props.DistributedCombine
import Verif.Model.DistributedHistory
import Verif.Props.History

/-!
# Lemmas for C95: whole simulations on process groups
-/

namespace Verif

variable {K : Type}

/-! ### The invariant of C88 under other values -/

theorem unchanged_tasksOf {refs : List RefDim} {n : ℕ} {T : ℕ → List (K × List ℕ × (ℕ → K))}
    {S : ℕ → Group K} (h : ∀ g < n, (S g).tasks = tasksOf refs (T g)) : Unchanged refs n T S := by
  intro g hg
  rw [h g hg]
  unfold tasksOf
  rw [List.forall₂_map_right_iff]
  exact List.forall₂_same.2 fun t _ => ⟨rfl, rfl, rfl, fun _ _ => rfl⟩

theorem HistoryInv.change [Ring K] {variant : CombinationVariant} {refs : List RefDim}
    {levels : List (List ℕ)} {n : ℕ} {T0 T T' : ℕ → List (K × List ℕ × (ℕ → K))} {sizes : ℕ → List ℕ}
    {fresh : Prop} {S S' : ℕ → Group K} (h : HistoryInv variant refs levels n T0 sizes fresh T S)
    (hT : SameOn refs n T T') (hd : ∀ g < n, (S' g).dsg = (S g).dsg) (hS : Unchanged refs n T' S') :
    HistoryInv variant refs levels n T0 sizes fresh T' S' := by
  have hl : ∀ g < n, (T' g).map (fun t => (t.1, t.2.1)) = (T g).map fun t => (t.1, t.2.1) :=
    fun g hg => hT.levels hg
  refine ⟨retask_valid h.valid hl, h.comp.congr hl, hS, fun g hg => by rw [hd g hg]; exact h.lev g hg,
    fun g hg => by rw [hd g hg]; exact h.siz g hg, fun hv g hg => by rw [hd g hg]; exact h.zero hv g hg,
    fun hf hv => ?_⟩
  obtain ⟨Tc, F, a, b, c, d⟩ := h.full hf hv
  refine ⟨Tc, F, a, fun g hg => by rw [hd g hg]; exact b g hg, c, fun g hg t' ht' p hp => ?_⟩
  obtain ⟨i, hi, rfl⟩ := List.getElem_of_mem ht'
  have e := List.forall₂_iff_get.1 (hT g hg)
  have hi' : i < (T g).length := by rw [e.1]; exact hi
  obtain ⟨-, e2, e3⟩ := e.2 i hi' hi
  simp only [List.get_eq_getElem] at e2 e3
  rw [e2] at hp ⊢
  rw [e3 p hp]
  exact d g hg _ (List.getElem_mem hi') p hp

theorem HistoryInv.rerun [Ring K] {variant : CombinationVariant} {refs : List RefDim}
    {levels : List (List ℕ)} {n : ℕ} {T0 T T' : ℕ → List (K × List ℕ × (ℕ → K))} {sizes : ℕ → List ℕ}
    {fresh : Prop} {S S' : ℕ → Group K} (h : HistoryInv variant refs levels n T0 sizes fresh T S)
    (hl : ∀ g < n, (T' g).map (fun t => (t.1, t.2.1)) = (T g).map fun t => (t.1, t.2.1))
    (hd : ∀ g < n, (S' g).dsg = (S g).dsg) (hS : Unchanged refs n T' S') :
    HistoryInv variant refs levels n T0 sizes False T' S' :=
  ⟨retask_valid h.valid hl, h.comp.congr hl, hS, fun g hg => by rw [hd g hg]; exact h.lev g hg,
    fun g hg => by rw [hd g hg]; exact h.siz g hg, fun hv g hg => by rw [hd g hg]; exact h.zero hv g hg,
    fun hf => hf.elim⟩

/-! ### Parts of grids -/

/-- What the processes at position `c` have of the grids `T`. -/
def localPart (refs : List RefDim) (c : List ℕ) (T : ℕ → List (K × List ℕ × (ℕ → K))) (g : ℕ) :
    List (K × List ℕ × (ℕ → K)) :=
  (T g).map fun t => (t.1, t.2.1, fun q => t.2.2 (globalOf refs c t.2.1 q))

theorem localPart_levels (refs : List RefDim) (c : List ℕ) (T : ℕ → List (K × List ℕ × (ℕ → K)))
    (g : ℕ) : (localPart refs c T g).map (fun t => (t.1, t.2.1)) = (T g).map fun t => (t.1, t.2.1) := by
  unfold localPart
  rw [List.map_map]
  rfl

theorem hierVals_levels (H : List ℕ → (ℕ → K) → ℕ → K) (T : ℕ → List (K × List ℕ × (ℕ → K)))
    (g : ℕ) : (hierVals H T g).map (fun t => (t.1, t.2.1)) = (T g).map fun t => (t.1, t.2.1) := by
  unfold hierVals
  rw [List.map_map]
  rfl

theorem unchanged_onProcess {refs : List RefDim} {n : ℕ} {c : List ℕ} (hc : InGroup refs c)
    {T : ℕ → List (K × List ℕ × (ℕ → K))} (hT : ∀ g < n, ∀ t ∈ T g, ValidComponent refs t.2.1)
    {G : ℕ → List (GroupTask K)} (hG : ∀ g < n, List.Forall₂ (HoldsParts refs) (T g) (G g))
    {S : ℕ → Group K} (hS : ∀ g < n, (S g).tasks = (G g).map fun t => t.onProcess c) :
    Unchanged (atProcess refs c) n (localPart refs c T) S := by
  intro g hg
  rw [hS g hg]
  unfold localPart
  rw [List.forall₂_map_left_iff, List.forall₂_map_right_iff]
  have h := List.forall₂_iff_get.1 (hG g hg)
  rw [List.forall₂_iff_get]
  refine ⟨h.1, fun i h1 h2 => ?_⟩
  obtain ⟨a1, a2, a3⟩ := h.2 i h1 h2
  obtain ⟨b1, b2⟩ := a3 c hc
  refine ⟨a1, ?_, b1, b2⟩
  have hL := hT g hg _ (List.get_mem _ ⟨i, h1⟩)
  simp only [GroupTask.onProcess, a2, gridOf]
  exact onProcess_compGrid hc hL.le.length_eq

/-- With nodal values `T` between the steps, the sparse grids at position `c` are in a state in which
the hierarchical values of `T` can be combined. -/
def PositionInv [Ring K] (variant : CombinationVariant) (refs : List RefDim) (levels : List (List ℕ))
    (n maxChunk : ℕ) (H : List ℕ → (ℕ → K) → ℕ → K) (fresh : Prop)
    (T : ℕ → List (K × List ℕ × (ℕ → K))) (c : List ℕ) (s : Setup K) : Prop :=
  ∃ (T0 : ℕ → List (K × List ℕ × (ℕ → K))) (s0 : Setup K) (sizes : ℕ → List ℕ),
    Works variant (atProcess refs c) levels n maxChunk T0 s0 sizes ∧
    s = { s0 with groups := s.groups } ∧
    HistoryInv variant (atProcess refs c) levels n T0 sizes fresh (localPart refs c (hierVals H T))
      fun g => ⟨(s.groups g).dsg, tasksOf (atProcess refs c) (localPart refs c (hierVals H T) g)⟩

/-- What holds between the steps of a simulation. -/
structure SimulationInv [Ring K] (variant : CombinationVariant) (refs : List RefDim)
    (levels : List (List ℕ)) (n maxChunk : ℕ) (H : List ℕ → (ℕ → K) → ℕ → K) (fresh : Prop)
    (T : ℕ → List (K × List ℕ × (ℕ → K))) (s : Simulation K) : Prop where
  valid : ValidSystem refs levels n T
  ne : NonEmptyParts refs n T
  hold : ∀ g < n, List.Forall₂ (HoldsParts refs) (T g) (s.tasks g)
  pos : ∀ c, InGroup refs c → PositionInv variant refs levels n maxChunk H fresh T c (s.setups c)

theorem nonEmptyParts_of_levels {refs : List RefDim} {n : ℕ}
    {T T' : ℕ → List (K × List ℕ × (ℕ → K))} (h : NonEmptyParts refs n T)
    (hT : ∀ g < n, (T' g).map (fun t => (t.1, t.2.1)) = (T g).map fun t => (t.1, t.2.1)) :
    NonEmptyParts refs n T' := by
  intro g hg t' ht'
  obtain ⟨t, ht, -, e⟩ := mem_levels (hT g hg) ht'
  rw [← e]
  exact h g hg t ht

/-! ### The steps -/

section steps

variable [Field K] [CharZero K] {refs : List RefDim} {P : CombineParams} {levels : List (List ℕ)}
  {n maxChunk : ℕ} {variant : CombinationVariant} {H D : List ℕ → (ℕ → K) → ℕ → K}

omit [CharZero K] in
theorem setUp_sim (hn : n ≤ 256) {T : ℕ → List (K × List ℕ × (ℕ → K))}
    (h : ValidSystem refs levels n T) (hne : NonEmptyParts refs n T)
    (htotal : ∀ c, InGroup refs c → (levels.map (subspaceCount (atProcess refs c))).sum < 2 ^ 31)
    (hu : ∀ c, InGroup refs c → Usable (atProcess refs c) n T variant maxChunk)
    {S : ℕ → List (GroupTask K)} (hS : ∀ g < n, List.Forall₂ (HoldsParts refs) (T g) (S g))
    (hS0 : ∀ g, n ≤ g → S g = []) :
    ∃ s, setUpPositions (refs.map fun r => r.dec.length) variant levels n S = some s ∧
      SimulationInv variant refs levels n maxChunk H False T s := by
  have hone : ∀ c, InGroup refs c → ∃ s, setUp variant levels n
      (fun g => (S g).map fun t => t.onProcess c) = some s ∧
        PositionInv variant refs levels n maxChunk H False T c s := by
    intro c hc
    have htasks : (fun g => (S g).map fun t => t.onProcess c) =
        fun g => tasksOf (atProcess refs c) (localTasks c (T g) (S g)) := by
      funext g
      by_cases hg : g < n
      · exact (localTasks_spec hc (hS g hg) (h.comp g hg)).1
      · rw [hS0 g (by omega)]
        simp [localTasks, tasksOf]
    have hlev : ∀ g < n, (localTasks c (T g) (S g)).map (fun t => (t.1, t.2.1)) =
        (T g).map fun t => (t.1, t.2.1) := fun g hg => localTasks_levels hc (hS g hg) (h.comp g hg)
    have hvalid : ValidSystem (atProcess refs c) levels n T := validSystem_atProcess h hc
    obtain ⟨s, sizes, e1, e2, e3⟩ := setUp_works hn (retask_valid hvalid hlev) (htotal c hc)
      (usable_congr hlev (hu c hc))
    refine ⟨s, by rw [htasks]; exact e1, _, s, sizes, e2, rfl, ?_⟩
    have hinv : HistoryInv variant (atProcess refs c) levels n (fun g => localTasks c (T g) (S g))
        sizes False (fun g => localTasks c (T g) (S g)) s.groups :=
      ⟨retask_valid hvalid hlev, Or.inl fun _ _ => rfl, unchanged_tasksOf e3.tasks, e3.lev, e3.siz,
        e3.zero, fun hf => hf.elim⟩
    refine hinv.rerun ?_ (fun _ _ => rfl) (unchanged_tasksOf fun _ _ => rfl)
    intro g hg
    rw [localPart_levels, hierVals_levels, hlev g hg]
  refine ⟨_, if_pos ?_, h, hne, hS, fun c hc => ?_⟩
  · rw [List.all_eq_true]
    intro c hc
    obtain ⟨s, e, -⟩ := hone c (mem_groupProcesses.1 hc)
    beta_reduce
    rw [e]
    rfl
  · obtain ⟨s, e1, e2⟩ := hone c hc
    simp only [e1, Option.getD_some]
    exact e2

omit [CharZero K] in
theorem run_sim {fresh : Prop} {T T' : ℕ → List (K × List ℕ × (ℕ → K))} {s : Simulation K}
    (h : SimulationInv variant refs levels n maxChunk H fresh T s)
    (solve : ℕ → ℕ → GroupTask K → List ℕ → Buf K)
    (hl : ∀ g < n, (T' g).map (fun t => (t.1, t.2.1)) = (T g).map fun t => (t.1, t.2.1))
    (hT : ∀ g < n, List.Forall₂ (HoldsParts refs) (T' g) ((s.run solve).tasks g)) :
    SimulationInv variant refs levels n maxChunk H False T' (s.run solve) := by
  refine ⟨retask_valid h.valid hl, nonEmptyParts_of_levels h.ne hl, hT, fun c hc => ?_⟩
  obtain ⟨T0, s0, sizes, a, b, e⟩ := h.pos c hc
  refine ⟨T0, s0, sizes, a, b, e.rerun ?_ (fun _ _ => rfl) (unchanged_tasksOf fun _ _ => rfl)⟩
  intro g hg
  rw [localPart_levels, hierVals_levels, localPart_levels, hierVals_levels, hl g hg]

/-- The values after a complete combination. -/
def combinedGrids (refs : List RefDim) (n : ℕ) (H D : List ℕ → (ℕ → K) → ℕ → K)
    (T : ℕ → List (K × List ℕ × (ℕ → K))) (g : ℕ) : List (K × List ℕ × (ℕ → K)) :=
  (T g).map fun t => (t.1, t.2.1, D t.2.1 fun q =>
    valueAtPlace (oneProcess refs) n (hierVals H T) (spatialOf (oneProcess refs) t.2.1 q))

omit [CharZero K] in
theorem combinedGrids_levels (refs : List RefDim) (n : ℕ) (H D : List ℕ → (ℕ → K) → ℕ → K)
    (T : ℕ → List (K × List ℕ × (ℕ → K))) (g : ℕ) :
    (combinedGrids refs n H D T g).map (fun t => (t.1, t.2.1)) = (T g).map fun t => (t.1, t.2.1) := by
  unfold combinedGrids
  rw [List.map_map]
  rfl

theorem compDims_prod (hP : ParamsOk refs P) {L : List ℕ} (hL : ValidComponent refs L) :
    ((compDims (oneProcess refs) P L).map fun s => nodal s.lmax s.b).prod =
      numLocal (oneProcess refs) L := by
  rw [compDims_sizes (serial_oneProcess refs) (paramsOk_oneProcess hP)
    (validComponent_oneProcess.2 hL).le.length_eq]
  rfl

theorem combine_sim (hP : ParamsOk refs P)
    (hm : ∀ L, ValidComponent refs L →
      GridMaps (compDims (oneProcess refs) P L) (selectedDims P.sel) (H L) (D L))
    {fresh : Prop} {T : ℕ → List (K × List ℕ × (ℕ → K))} {s : Simulation K}
    (h : SimulationInv variant refs levels n maxChunk H fresh T s)
    (junk junk' : ℕ → ℕ → List ℕ → ℕ → ℕ → ℕ → K) :
    ∃ s', s.combine (refs.map fun r => r.dec.length) P variant maxChunk n junk junk' = some s' ∧
      SimulationInv variant refs levels n maxChunk H True (combinedGrids refs n H D T) s' := by
  obtain ⟨hs, a1, a2, -⟩ := (groups_transform h.valid.ref hP hm h.valid.comp h.ne h.hold junk).1
  have hcomp : ∀ g < n, ∀ t ∈ hierVals H T g, ValidComponent refs t.2.1 :=
    (retask_valid h.valid fun g _ => hierVals_levels H T g).comp
  -- the combination at one position
  have hone : ∀ c, InGroup refs c → ∃ s', (loadTasks c hs (s.setups c)).combine variant maxChunk n =
      some s' ∧ PositionInv variant refs levels n maxChunk H True (combinedGrids refs n H D T) c s' ∧
      ∀ g < n, List.Forall₂ (fun t (t' : K × Dfg K) => t'.2.data.len = numLocal (atProcess refs c) t.2.1 ∧
          ∀ p < numLocal (atProcess refs c) t.2.1, t'.2.data.val p =
            valueAtPlace (oneProcess refs) n (hierVals H T)
              (spatialOf (oneProcess refs) t.2.1 (globalOf refs c t.2.1 p)))
        (hierVals H T g) (s'.groups g).tasks := by
    intro c hc
    obtain ⟨T0, s0, sizes, w, b, e⟩ := h.pos c hc
    have e' : HistoryInv variant (atProcess refs c) levels n T0 sizes fresh
        (localPart refs c (hierVals H T)) (loadTasks c hs (s.setups c)).groups :=
      e.change (fun g _ => List.forall₂_same.2 fun t _ => ⟨rfl, rfl, fun _ _ => rfl⟩)
        (fun _ _ => rfl) (unchanged_onProcess hc hcomp a2 fun _ _ => rfl)
    obtain ⟨S', c1, c2⟩ := combine_inv w e'
    have hload : loadTasks c hs (s.setups c) =
        { s0 with groups := (loadTasks c hs (s.setups c)).groups } := by
      unfold loadTasks
      rw [b]
    refine ⟨{ s0 with groups := S' }, by rw [hload]; exact c1, ⟨T0, s0, sizes, w, rfl, ?_⟩, ?_⟩
    · refine c2.change ?_ (fun _ _ => rfl) (unchanged_tasksOf fun _ _ => rfl)
      intro g hg
      simp only [specStep, localPart, hierVals, combinedGrids, List.map_map]
      rw [List.forall₂_map_left_iff, List.forall₂_map_right_iff]
      refine List.forall₂_same.2 fun t ht => ⟨rfl, rfl, fun p hp => ?_⟩
      have hL := h.valid.comp g hg t ht
      simp only [Function.comp] at hp ⊢
      have hv := valueAtPlace_atProcess (K := K) h.valid.ref hL hc hp (n := n) (T := hierVals H T) hcomp
      refine Eq.trans ?_ hv.symm
      refine ((hm _ hL).inv _ _ ?_).2
      rw [compDims_prod hP hL]
      exact (globalOf_spec h.valid.ref hL hc hp).1
    · intro g hg
      have hu := c2.same g hg
      simp only [specStep, localPart, List.map_map] at hu
      rw [List.forall₂_map_left_iff] at hu
      rw [List.forall₂_iff_get] at hu ⊢
      refine ⟨hu.1, fun i h1 h2 => ?_⟩
      obtain ⟨-, -, u1, u2⟩ := hu.2 i h1 h2
      refine ⟨u1, fun p hp => ?_⟩
      rw [u2 p hp]
      exact valueAtPlace_atProcess (K := K) h.valid.ref (hcomp g hg _ (List.get_mem _ ⟨i, h1⟩)) hc hp
        (n := n) (T := hierVals H T) hcomp
  -- the data of the tasks after it
  have hts : ∀ g < n, List.Forall₂ (HoldsParts refs) ((hierVals H T g).map fun t => (t.1, t.2.1,
        fun q => valueAtPlace (oneProcess refs) n (hierVals H T) (spatialOf (oneProcess refs) t.2.1 q)))
      ((hs g).zipIdx.map fun x => ⟨x.1.coeff, x.1.dims, fun c => dataOf
        (((loadTasks c hs (s.setups c)).combine variant maxChunk n).bind fun S =>
          (S.groups g).tasks[x.2]?)⟩) := by
    intro g hg
    have h1 := a2 g hg
    rw [List.forall₂_map_left_iff]
    refine forall₂_of_getElem (by simp [h1.length_eq]) ?_
    intro i h2 h3
    have h4 : i < (hs g).length := by rw [← h1.length_eq]; exact h2
    obtain ⟨b1, b2, -⟩ := (List.forall₂_iff_get.1 h1).2 i h2 h4
    simp only [List.get_eq_getElem] at b1 b2
    rw [List.getElem_map, List.getElem_zipIdx]
    refine ⟨b1, b2, fun c hc => ?_⟩
    obtain ⟨s', e1, -, e2⟩ := hone c hc
    have h5 : i < (s'.groups g).tasks.length := by rw [← (e2 g hg).length_eq]; exact h2
    obtain ⟨d1, d2⟩ := (List.forall₂_iff_get.1 (e2 g hg)).2 i h2 h5
    simp only [e1, Option.bind_some, zero_add, List.getElem?_eq_getElem h5, dataOf, Option.map_some,
      Option.getD_some]
    exact ⟨d1, d2⟩
  have hlev : ∀ g < n, ((hierVals H T g).map fun t => (t.1, t.2.1,
        fun q => valueAtPlace (oneProcess refs) n (hierVals H T)
          (spatialOf (oneProcess refs) t.2.1 q))).map (fun t => (t.1, t.2.1)) =
      (T g).map fun t => (t.1, t.2.1) := by
    intro g _
    simp only [hierVals, List.map_map]
    rfl
  obtain ⟨ts, c1, c2, -⟩ := (groups_transform h.valid.ref hP hm
    (T := fun g => (hierVals H T g).map fun t => (t.1, t.2.1, fun q =>
      valueAtPlace (oneProcess refs) n (hierVals H T) (spatialOf (oneProcess refs) t.2.1 q)))
    (retask_valid h.valid hlev).comp (nonEmptyParts_of_levels h.ne hlev) hts junk').2
  have hall : ((groupProcesses (refs.map fun r => r.dec.length)).all fun c =>
      ((loadTasks c hs (s.setups c)).combine variant maxChunk n).isSome) = true := by
    rw [List.all_eq_true]
    intro c hc
    obtain ⟨s', e, -⟩ := hone c (mem_groupProcesses.1 hc)
    rw [e]
    rfl
  refine ⟨⟨ts, fun c => ((loadTasks c hs (s.setups c)).combine variant maxChunk n).getD (s.setups c)⟩,
    ?_, retask_valid h.valid fun g _ => combinedGrids_levels refs n H D T g,
    nonEmptyParts_of_levels h.ne fun g _ => combinedGrids_levels refs n H D T g, ?_, fun c hc => ?_⟩
  · unfold Simulation.combine
    rw [a1, Option.bind_some]
    simp only
    rw [if_pos hall, c1]
    rfl
  · intro g hg
    have := c2 g hg
    unfold hierVals at this
    simp only [List.map_map] at this
    unfold combinedGrids hierVals
    exact this
  · obtain ⟨s', e1, e2, -⟩ := hone c hc
    simp only [e1, Option.getD_some]
    exact e2

/-- The values after task `k` of group `a` was moved to group `b`. -/
def movedGrids (a k b : ℕ) (T : ℕ → List (K × List ℕ × (ℕ → K))) (g : ℕ) :
    List (K × List ℕ × (ℕ → K)) :=
  (if g = a then (T g).eraseIdx k else T g) ++ if g = b then ((T a)[k]?).toList else []

omit [CharZero K] in
theorem movedGrids_local (c : List ℕ) (T : ℕ → List (K × List ℕ × (ℕ → K))) (a k b : ℕ) :
    localPart refs c (hierVals H (movedGrids a k b T)) =
      specStep (atProcess refs c) n (localPart refs c (hierVals H T)) (.move a k b) := by
  funext g
  simp only [specStep, localPart, hierVals, movedGrids, List.map_map, List.map_append]
  congr 1
  · split
    · rw [List.eraseIdx_map]
    · rfl
  · split
    · rw [List.getElem?_map]
      cases (T a)[k]? <;> rfl
    · rfl

omit [Field K] [CharZero K] in
theorem mem_movedGrids {a k b : ℕ} {T : ℕ → List (K × List ℕ × (ℕ → K))} (ha : a < n) {g : ℕ}
    (hg : g < n) {t : K × List ℕ × (ℕ → K)} (ht : t ∈ movedGrids a k b T g) : ∃ g0 < n, t ∈ T g0 := by
  unfold movedGrids at ht
  rw [List.mem_append] at ht
  rcases ht with ht | ht
  · refine ⟨g, hg, ?_⟩
    split at ht
    · exact List.mem_of_mem_eraseIdx ht
    · exact ht
  · split at ht
    · rw [Option.mem_toList] at ht
      exact ⟨a, ha, List.mem_of_getElem? ht⟩
    · simp at ht

omit [CharZero K] in
theorem addMoved_some {t : K × Dfg K} {G G' : Verif.Group K} (h : G.addMoved t = some G') :
    ∃ d x, G' = ⟨d, G.tasks ++ [(t.1, x)]⟩ ∧
      ∀ (t' : K × Dfg K) (ts : List (K × Dfg K)), t'.2.dims = t.2.dims →
        t'.2.data.len = t.2.data.len →
        Group.addMoved t' ⟨G.dsg, ts⟩ = some ⟨d, ts ++ [(t'.1, x)]⟩ := by
  unfold Group.addMoved at h
  simp only [Option.bind_eq_bind, Option.bind_eq_some_iff] at h
  obtain ⟨d, h1, x, h2, h3⟩ := h
  refine ⟨d, x, (Option.some.inj h3).symm, fun t' ts e1 e2 => ?_⟩
  unfold Group.addMoved
  have e : ({ t'.2 with data := ⟨t'.2.data.len, fun _ => (0 : K)⟩ } : Dfg K) =
      { t.2 with data := ⟨t.2.data.len, fun _ => (0 : K)⟩ } := by
    rw [e2]
    obtain ⟨_, ⟨_, _⟩⟩ := t'
    obtain ⟨_, ⟨_, _⟩⟩ := t
    simp only at e1
    rw [e1]
  simp only [h1, e, h2, Option.bind_eq_bind, Option.bind_some]
  rfl

theorem move_sim (hP : ParamsOk refs P)
    (hm : ∀ L, ValidComponent refs L →
      GridMaps (compDims (oneProcess refs) P L) (selectedDims P.sel) (H L) (D L))
    {fresh : Prop} {T : ℕ → List (K × List ℕ × (ℕ → K))} {s : Simulation K}
    (h : SimulationInv .sparseGridReduce refs levels n maxChunk H fresh T s) (hf : fresh)
    {a k b : ℕ} (ha : a < n) (hb : b < n) (hk : k < (T a).length)
    (hmem : ∀ l ∈ getDownSet (T a)[k].2.1, l ∈ levels)
    (junk : List ℕ → ℕ → ℕ → ℕ → K) :
    ∃ s', s.move (refs.map fun r => r.dec.length) P junk a k b = some s' ∧
      SimulationInv .sparseGridReduce refs levels n maxChunk H fresh (movedGrids a k b T) s' := by
  have hka : k < (s.tasks a).length := by rw [← (h.hold a ha).length_eq]; exact hk
  have htm : (T a)[k] ∈ T a := List.getElem_mem hk
  have hL := h.valid.comp a ha _ htm
  have hpart := (List.forall₂_iff_get.1 (h.hold a ha)).2 k hk hka
  simp only [List.get_eq_getElem] at hpart
  -- what happens at one position
  have hone : ∀ c, InGroup refs c → ∃ d x,
      Group.addMoved ((s.tasks a)[k].onProcess c) ⟨((s.setups c).groups b).dsg, []⟩ =
        some ⟨d, [((s.tasks a)[k].coeff, x)]⟩ ∧
      (x.data.len = numLocal (atProcess refs c) (T a)[k].2.1 ∧
        ∀ p < numLocal (atProcess refs c) (T a)[k].2.1,
          x.data.val p = H (T a)[k].2.1 (T a)[k].2.2 (globalOf refs c (T a)[k].2.1 p)) ∧
      ∀ G : Verif.Group K, G.dsg = d →
        PositionInv .sparseGridReduce refs levels n maxChunk H fresh (movedGrids a k b T) c
          ⟨Function.update (s.setups c).groups b G, (s.setups c).comms, (s.setups c).outgroup⟩ := by
    intro c hc
    obtain ⟨T0, s0, sizes, w, hs, e⟩ := h.pos c hc
    have hkl : k < (localPart refs c (hierVals H T) a).length := by
      simpa [localPart, hierVals] using hk
    obtain ⟨S', m1, m2⟩ := move_inv w e hf ha hb hkl (by
      simpa only [localPart, hierVals, List.getElem_map] using hmem)
    have hkt : k < (tasksOf (atProcess refs c) (localPart refs c (hierVals H T) a)).length := by
      simpa [tasksOf] using hkl
    unfold Setup.move at m1
    simp only [List.getElem?_eq_getElem hkt, Option.bind_eq_bind, Option.bind_some,
      Option.bind_eq_some_iff] at m1
    obtain ⟨G', m3, m4⟩ := m1
    obtain ⟨d, x, rfl, m5⟩ := addMoved_some m3
    have hS' := congrArg Setup.groups (Option.some.inj m4)
    simp only at hS'
    have hdsg : ∀ g, (Function.update (fun g => (⟨((s.setups c).groups g).dsg,
        tasksOf (atProcess refs c) (localPart refs c (hierVals H T) g)⟩ : Verif.Group K)) a
        ((⟨((s.setups c).groups a).dsg,
        tasksOf (atProcess refs c) (localPart refs c (hierVals H T) a)⟩ : Verif.Group K).removeTask k)
          g).dsg = ((s.setups c).groups g).dsg := by
      intro g
      by_cases hg : g = a
      · subst hg
        rw [Function.update_self]
        rfl
      · rw [Function.update_of_ne hg]
    have hu := (unchanged_onProcess (S := fun g => (loadTasks c s.tasks (s.setups c)).groups g) hc
      h.valid.comp h.hold fun _ _ => rfl) a ha
    have hu1 := (List.forall₂_iff_get.1 hu).2 k (by simpa [localPart] using hk)
      (by simpa [loadTasks] using hka)
    simp only [loadTasks, List.get_eq_getElem, List.getElem_map, localPart] at hu1
    obtain ⟨-, u2, u3, -⟩ := hu1
    have hadd := m5 ((s.tasks a)[k].onProcess c) [] (by
      rw [u2]
      simp only [tasksOf, localPart, hierVals, List.getElem_map, gridOf]) (by
      rw [u3]
      simp only [tasksOf, localPart, hierVals, List.getElem_map, gridOf]
      rfl)
    rw [hdsg] at hadd
    refine ⟨d, x, hadd, ?_, fun G hG => ⟨T0, s0, sizes, w, by rw [hs], ?_⟩⟩
    · have hlast := m2.same b hb
      rw [← hS', Function.update_self] at hlast
      simp only [specStep, if_pos, List.getElem?_eq_getElem hkl, Option.toList_some] at hlast
      rw [← List.forall₂_reverse_iff] at hlast
      simp only [List.reverse_append, List.reverse_singleton, List.singleton_append,
        List.forall₂_cons] at hlast
      obtain ⟨⟨-, -, l1, l2⟩, -⟩ := hlast
      simp only [localPart, hierVals, List.getElem_map] at l1 l2
      exact ⟨l1, l2⟩
    · rw [movedGrids_local (n := n)]
      refine m2.change (fun g _ => List.forall₂_same.2 fun t _ => ⟨rfl, rfl, fun _ _ => rfl⟩) ?_
        (unchanged_tasksOf fun _ _ => rfl)
      intro g _
      rw [← hS']
      by_cases hg : g = b
      · subst hg
        simp only [Function.update_self, hG]
      · rw [Function.update_of_ne hg]
        simp only [Function.update_of_ne hg]
        rw [hdsg]
  -- the grid of the task on its new group
  have hdata : HoldsParts refs ((T a)[k].1, (T a)[k].2.1, H (T a)[k].2.1 (T a)[k].2.2)
      ⟨(s.tasks a)[k].coeff, (s.tasks a)[k].dims, fun c => dataOf ((Group.addMoved
        ((s.tasks a)[k].onProcess c) ⟨((s.setups c).groups b).dsg, []⟩).bind fun G => G.tasks[0]?)⟩ := by
    refine ⟨hpart.1, hpart.2.1, fun c hc => ?_⟩
    obtain ⟨d, x, e1, e2, -⟩ := hone c hc
    simp only [e1, Option.bind_some, dataOf]
    exact e2
  obtain ⟨c1, -, d, c2, c3⟩ := transform_dist h.valid.ref hP hm
    (t := ((T a)[k].1, (T a)[k].2.1, H (T a)[k].2.1 (T a)[k].2.2)) hL (h.ne a ha (T a)[k] htm) hdata junk
  have hnew : HoldsParts refs (T a)[k] ⟨(s.tasks a)[k].coeff, (s.tasks a)[k].dims, d⟩ := by
    refine holdsParts_congr h.valid.ref c3 rfl rfl hL fun q hq => ?_
    refine ((hm _ hL).inv _ _ ?_).1
    rw [compDims_prod hP hL]
    exact hq
  have hall : ((groupProcesses (refs.map fun r => r.dec.length)).all fun c => (Group.addMoved
      ((s.tasks a)[k].onProcess c) ⟨((s.setups c).groups b).dsg, []⟩).isSome) = true := by
    rw [List.all_eq_true]
    intro c hc
    obtain ⟨d, x, e, -⟩ := hone c (mem_groupProcesses.1 hc)
    rw [e]
    rfl
  have heq : s.move (refs.map fun r => r.dec.length) P junk a k b =
      some ⟨Function.update (Function.update s.tasks a ((s.tasks a).eraseIdx k)) b
        (Function.update s.tasks a ((s.tasks a).eraseIdx k) b ++
          [⟨(s.tasks a)[k].coeff, (s.tasks a)[k].dims, d⟩]),
        fun c => ⟨Function.update (s.setups c).groups b ((Group.addMoved
          ((s.tasks a)[k].onProcess c) ⟨((s.setups c).groups b).dsg, []⟩).getD
            ((s.setups c).groups b)), (s.setups c).comms, (s.setups c).outgroup⟩⟩ := by
    unfold Simulation.move
    rw [List.getElem?_eq_getElem hka, Option.bind_some]
    simp only
    rw [if_pos hall, if_pos c1, c2]
    rfl
  refine ⟨_, heq, h.valid.moved ha hb hk, ?_, ?_, ?_⟩
  · intro g hg t ht
    obtain ⟨g0, hg0, ht0⟩ := mem_movedGrids ha hg ht
    exact h.ne g0 hg0 t ht0
  · have herase : ∀ g < n, List.Forall₂ (HoldsParts refs) (if g = a then (T g).eraseIdx k else T g)
        (Function.update s.tasks a ((s.tasks a).eraseIdx k) g) := by
      intro g hg
      by_cases hga : g = a
      · subst hga
        rw [if_pos rfl, Function.update_self]
        exact forall₂_eraseIdx (h.hold g hg) k
      · rw [if_neg hga, Function.update_of_ne hga]
        exact h.hold g hg
    intro g hg
    unfold movedGrids
    by_cases hgb : g = b
    · subst hgb
      simp only [Function.update_self, if_pos, List.getElem?_eq_getElem hk, Option.toList_some]
      exact List.rel_append (herase g hg) (.cons hnew .nil)
    · simp only [Function.update_of_ne hgb, if_neg hgb, List.append_nil]
      exact herase g hg
  · intro c hc
    obtain ⟨d', x, e1, -, e2⟩ := hone c hc
    simp only [e1, Option.getD_some]
    exact e2 _ rfl

end steps

end Verif

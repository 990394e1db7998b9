import Verif.Lemmas.AdvectionExample
import Verif.Props.DistributedHistory
import Verif.Props.CombinedMass

/-!
# C115: the advection example conserves mass

* `C115_values_partial`: after any number of combinations, all processes have their parts of the grids that follow
  from the initial function, the upwind scheme on whole grids, and the combination formula; no assertion
  fails and nothing undefined is done.
* `C115_mass_partial`: hence, with bases that conserve mass, the mass of every component grid is the combination of
  the means of the initial function over the points of the grids, for any number of combinations and time steps.
* `C115_hat_violated`: with hat functions the mass changes.
* `C115_time_violated`: the time that is printed with the norms is not the time of the solution.
-/

namespace Verif.Advection

variable {K : Type}

/-! ### The history of whole grids -/

/-- The initial grids: coefficient, level, and the values of `f` at the coordinates of the points. -/
def initialGrids [Field K] (refs : List RefDim) (f : List K → K) (G : ℕ → List (K × List ℕ)) (g : ℕ) :
    List (K × List ℕ × (ℕ → K)) :=
  (G g).map fun t => (t.1, t.2, fun q => f (pointCoords t.2 (getVectorIndex (wholeSizes refs t.2) q)))

/-- `nsteps` steps of the upwind scheme on every grid, and a combination. -/
def period [Field K] (refs : List RefDim) (n : ℕ) (H D : List ℕ → (ℕ → K) → ℕ → K) (dt : K) (nsteps : ℕ)
    (T : ℕ → List (K × List ℕ × (ℕ → K))) : ℕ → List (K × List ℕ × (ℕ → K)) :=
  gridStep refs n H D
    (gridStep refs n H D T (.run fun _ _ t => advected refs dt nsteps t.2.1 t.2.2)) .combine

/-- The example and the grids fit to each other: one layout for all groups, periodic dimensions, and a time step that
`init` accepts for all grids. -/
structure ExampleOk [Field K] [LinearOrder K] [IsStrictOrderedRing K] (refs : List RefDim) (E : Example K)
    (G : ℕ → List (K × List ℕ)) : Prop where
  dims : refs ≠ []
  layout : E.layout = refs.map fun r => r.dec.length
  periodic : ∀ r ∈ refs, r.boundary = 1
  cfl : ∀ g < E.n, ∀ t ∈ G g, cflCondition t.2 E.dt = true
  groups : E.n ≤ 256
  system : ValidSystem refs E.levels E.n (initialGrids refs E.f G)
  params : ParamsOk refs E.P
  parts : NonEmptyParts refs E.n (initialGrids refs E.f G)
  total : ∀ c, InGroup refs c → (E.levels.map (subspaceCount (atProcess refs c))).sum < 2 ^ 31
  usable : ∀ c, InGroup refs c → Usable (atProcess refs c) E.n (initialGrids refs E.f G) E.variant E.maxChunk

/-! ### Proofs -/

section

variable [Field K]

/-- The grids after a run. -/
def afterRun (refs : List RefDim) (dt : K) (nsteps : ℕ) (T : ℕ → List (K × List ℕ × (ℕ → K))) (g : ℕ) :
    List (K × List ℕ × (ℕ → K)) :=
  (T g).map fun t => (t.1, t.2.1, advected refs dt nsteps t.2.1 t.2.2)

theorem period_eq (refs : List RefDim) (n : ℕ) (H D : List ℕ → (ℕ → K) → ℕ → K) (dt : K) (nsteps : ℕ)
    (T : ℕ → List (K × List ℕ × (ℕ → K))) :
    period refs n H D dt nsteps T = combinedGrids refs n H D (afterRun refs dt nsteps T) := by
  have e : gridStep refs n H D T (.run fun _ _ t => advected refs dt nsteps t.2.1 t.2.2) =
      afterRun refs dt nsteps T := by
    funext g
    simp only [gridStep, afterRun]
    apply List.ext_getElem
    · simp
    · intro i h1 h2
      simp
  unfold period
  rw [e]
  rfl

theorem afterRun_levels (refs : List RefDim) (dt : K) (nsteps : ℕ) (T : ℕ → List (K × List ℕ × (ℕ → K)))
    (g : ℕ) : (afterRun refs dt nsteps T g).map (fun t => (t.1, t.2.1)) = (T g).map fun t => (t.1, t.2.1) := by
  unfold afterRun
  rw [List.map_map]
  rfl

theorem runAll_holds {refs : List RefDim} (h0 : refs ≠ []) {levels : List (List ℕ)} {n : ℕ}
    {T : ℕ → List (K × List ℕ × (ℕ → K))} (h : ValidSystem refs levels n T) (hne : NonEmptyParts refs n T)
    (v : Variant) (dt : K) (nsteps : ℕ) {S : ℕ → List (GroupTask K)}
    (hS : ∀ g < n, List.Forall₂ (HoldsParts refs) (T g) (S g)) :
    ∃ S', runAll v (refs.map fun r => r.dec.length) dt nsteps n S = some S' ∧
      (∀ g < n, List.Forall₂ (HoldsParts refs) (afterRun refs dt nsteps T g) (S' g)) ∧
      ∀ g, n ≤ g → S' g = [] := by
  refine onProcessGroups_some
    (Q := fun g r => List.Forall₂ (HoldsParts refs) (afterRun refs dt nsteps T g) r) fun g hg => ?_
  obtain ⟨r, e1, e2⟩ := mapGroupTasks_some (hS g hg) 0
    (f := fun _ t => runTaskData v (refs.map fun r => r.dec.length) dt nsteps t)
    (Q := fun t gt => HoldsParts refs (t.1, t.2.1, advected refs dt nsteps t.2.1 t.2.2) gt)
    fun _ t ht gt hgt => runTask_holds h0 h.ref (h.comp g hg t ht) (hne g hg t ht) v dt nsteps hgt
  refine ⟨r, e1, ?_⟩
  unfold afterRun
  rw [List.forall₂_map_left_iff]
  exact e2

/-- The invariant of a simulation does not depend on how the tasks were run. -/
theorem simulationInv_tasks {variant : CombinationVariant} {refs : List RefDim} {levels : List (List ℕ)}
    {n maxChunk : ℕ} {H : List ℕ → (ℕ → K) → ℕ → K} {fresh : Prop} {T T' : ℕ → List (K × List ℕ × (ℕ → K))}
    {s : Simulation K} (h : SimulationInv variant refs levels n maxChunk H fresh T s)
    (S : ℕ → List (GroupTask K))
    (hl : ∀ g < n, (T' g).map (fun t => (t.1, t.2.1)) = (T g).map fun t => (t.1, t.2.1))
    (hT : ∀ g < n, List.Forall₂ (HoldsParts refs) (T' g) (S g)) :
    SimulationInv variant refs levels n maxChunk H False T' { s with tasks := S } := by
  refine ⟨retask_valid h.valid hl, nonEmptyParts_of_levels h.ne hl, hT, fun c hc => ?_⟩
  obtain ⟨T0, s0, sizes, a, b, e⟩ := h.pos c hc
  refine ⟨T0, s0, sizes, a, b, e.rerun ?_ (fun _ _ => rfl) (unchanged_tasksOf fun _ _ => rfl)⟩
  intro g hg
  rw [localPart_levels, hierVals_levels, localPart_levels, hierVals_levels, hl g hg]

end

section

variable [Field K] [LinearOrder K] [IsStrictOrderedRing K]

theorem combineAndRun_holds {refs : List RefDim} {E : Example K} (h0 : refs ≠ [])
    (hlay : E.layout = refs.map fun r => r.dec.length) (hP : ParamsOk refs E.P)
    {H D : List ℕ → (ℕ → K) → ℕ → K}
    (hm : ∀ L, ValidComponent refs L →
      GridMaps (compDims (oneProcess refs) E.P L) (selectedDims E.P.sel) (H L) (D L))
    (junk : ℕ → Scratch K) (rounds : ℕ) {fresh : Prop} {T : ℕ → List (K × List ℕ × (ℕ → K))} {s : Simulation K}
    (h : SimulationInv E.variant refs E.levels E.n E.maxChunk H fresh (afterRun refs E.dt E.nsteps T) s) :
    ∃ s', combineAndRun E junk rounds s = some s' ∧
      ∀ g < E.n, List.Forall₂ (HoldsParts refs) ((period refs E.n H D E.dt E.nsteps)^[rounds + 1] T g)
        (s'.tasks g) := by
  induction rounds generalizing fresh T s with
  | zero =>
    obtain ⟨s', e1, e2⟩ := combine_sim hP hm h (junk 0).hier (junk 0).dehier
    refine ⟨s', by rw [combineAndRun, hlay]; exact e1, ?_⟩
    rw [Function.iterate_one, period_eq]
    exact e2.hold
  | succ rounds ih =>
    obtain ⟨s1, e1, e2⟩ := combine_sim hP hm h (junk (rounds + 1)).hier (junk (rounds + 1)).dehier
    obtain ⟨S, f1, f2, -⟩ := runAll_holds h0 e2.valid e2.ne E.v E.dt E.nsteps e2.hold
    rw [← period_eq] at e2 f2
    obtain ⟨s', a1, a2⟩ := ih (simulationInv_tasks e2 S (fun g _ => afterRun_levels refs E.dt E.nsteps _ g) f2)
    refine ⟨s', ?_, by rw [Function.iterate_succ_apply]; exact a2⟩
    rw [combineAndRun, hlay, e1, Option.bind_some, f1, Option.bind_some]
    exact a1

theorem createTasks_holds {refs : List RefDim} {E : Example K} {G : ℕ → List (K × List ℕ)}
    (h : ExampleOk refs E G) :
    ∃ S, (onProcessGroups E.n fun g => ((G g).map fun t => (t.1, compGrid refs t.2)).mapM
        (createTask E.f E.dt)) = some S ∧
      ∀ g < E.n, List.Forall₂ (HoldsParts refs) (initialGrids refs E.f G g) (S g) := by
  obtain ⟨S, e1, e2, -⟩ := onProcessGroups_some (n := E.n)
    (f := fun g => ((G g).map fun t => (t.1, compGrid refs t.2)).mapM (createTask E.f E.dt))
    (Q := fun g r => List.Forall₂ (HoldsParts refs) (initialGrids refs E.f G g) r) (by
      intro g hg
      have hall : ∀ t ∈ G g, ∃ gt, createTask E.f E.dt (t.1, compGrid refs t.2) = some gt ∧
          HoldsParts refs (t.1, t.2, fun q =>
            E.f (pointCoords t.2 (getVectorIndex (wholeSizes refs t.2) q))) gt := by
        intro t ht
        have hmem : (t.1, t.2, fun q => E.f (pointCoords t.2 (getVectorIndex (wholeSizes refs t.2) q))) ∈
            initialGrids refs E.f G g := List.mem_map.2 ⟨t, ht, rfl⟩
        exact createTask_holds h.dims h.system.ref h.periodic (h.system.comp g hg _ hmem)
          (h.parts g hg _ hmem) E.f (h.cfl g hg t ht) t.1
      unfold initialGrids
      generalize G g = ts at hall ⊢
      induction ts with
      | nil => exact ⟨[], rfl, .nil⟩
      | cons t ts ih =>
        obtain ⟨gt, a1, a2⟩ := hall t (by simp)
        obtain ⟨r, b1, b2⟩ := ih fun t ht => hall t (by simp [ht])
        refine ⟨gt :: r, ?_, .cons a2 b2⟩
        rw [List.map_cons, List.mapM_cons, a1]
        simp only [Option.bind_eq_bind, Option.bind_some, b1]
        rfl)
  exact ⟨S, e1, e2⟩

/-- C115 (partial: sizes in the range of `int`, no empty parts): the example ends with every process storing its
part of the grids that follow from the initial function, the upwind scheme on whole grids and the combination
formula. `H` and `D` are the hierarchization and dehierarchization of whole grids. -/
theorem C115_values_partial (refs : List RefDim) (E : Example K) (G : ℕ → List (K × List ℕ))
    (h : ExampleOk refs E G) (H D : List ℕ → (ℕ → K) → ℕ → K)
    (hm : ∀ L, ValidComponent refs L →
      GridMaps (compDims (oneProcess refs) E.P L) (selectedDims E.P.sel) (H L) (D L))
    (junk : ℕ → Scratch K) (rounds : ℕ) :
    ∃ s, runExample E junk rounds (fun g => (G g).map fun t => (t.1, compGrid refs t.2)) = some s ∧
      ∀ g < E.n, List.Forall₂ (HoldsParts refs)
        ((period refs E.n H D E.dt E.nsteps)^[rounds + 1] (initialGrids refs E.f G) g) (s.tasks g) := by
  obtain ⟨S, a1, a2⟩ := createTasks_holds h
  obtain ⟨S1, b1, b2, b3⟩ := runAll_holds h.dims h.system h.parts E.v E.dt E.nsteps a2
  have hlev : ∀ g < E.n, (afterRun refs E.dt E.nsteps (initialGrids refs E.f G) g).map (fun t => (t.1, t.2.1)) =
      (initialGrids refs E.f G g).map fun t => (t.1, t.2.1) := fun g _ => afterRun_levels _ _ _ _ g
  obtain ⟨s, c1, c2⟩ := setUp_sim (H := H) h.groups (retask_valid h.system hlev)
    (nonEmptyParts_of_levels h.parts hlev) h.total (fun c hc => usable_congr hlev (h.usable c hc)) b2 b3
  obtain ⟨s', d1, d2⟩ := combineAndRun_holds h.dims h.layout h.params hm junk rounds c2
  refine ⟨s', ?_, d2⟩
  unfold runExample
  rw [a1, Option.bind_some, h.layout, b1, Option.bind_some, c1, Option.bind_some]
  exact d1

/-! ### Mass -/

/-- The mean of a function over the points of the periodic grid of level `L`. -/
def gridMean : List ℕ → (List K → K) → K
  | [], f => f []
  | l :: L, f => (∑ i ∈ Finset.range (2 ^ l), gridMean L fun x => f ((i : K) / 2 ^ l :: x)) / 2 ^ l

theorem mass_initial {refs : List RefDim} (hb : ∀ r ∈ refs, r.boundary = 1) {L : List ℕ}
    (hL : L.length = refs.length) (f : List K → K) :
    mass refs L (fun x => f (pointCoords L x)) = gridMean L f := by
  induction refs generalizing L f with
  | nil =>
    obtain rfl := List.length_eq_zero_iff.1 hL
    rfl
  | cons r refs ih =>
    cases L with
    | nil => simp at hL
    | cons l L =>
      unfold mass gridMean
      rw [hb r (by simp), trapOf_one]
      congr 1
      refine Finset.sum_congr rfl fun i _ => ?_
      rw [← ih (fun r h => hb r (by simp [h])) (by simpa using hL)]
      rfl

theorem massOf_initial {refs : List RefDim} (hb : ∀ r ∈ refs, r.boundary = 1) {L : List ℕ}
    (hL : L.length = refs.length) (f : List K → K) (c : K) :
    massOf refs (c, L, fun q => f (pointCoords L (getVectorIndex (wholeSizes refs L) q))) = gridMean L f := by
  rw [← mass_initial hb hL f]
  unfold massOf
  simp only
  refine mass_congr (fun r h => by rw [hb r h]; decide) hL fun x hx => ?_
  rw [getVectorIndex_sequentialIndex _ _ hx]

omit [LinearOrder K] [IsStrictOrderedRing K] in
theorem combinedMass_same {refs : List RefDim} {n : ℕ} {T : ℕ → List (K × List ℕ × (ℕ → K))} {m : K}
    (h : ∀ g < n, ∀ t ∈ T g, massOf refs t = m) :
    combinedMass refs n T = ((List.range n).map fun g => ((T g).map fun t => t.1).sum).sum * m := by
  unfold combinedMass
  rw [← List.sum_map_mul_right]
  congr 1
  refine List.map_congr_left fun g hg => ?_
  rw [← List.sum_map_mul_right]
  congr 1
  refine List.map_congr_left fun t ht => ?_
  rw [h g (List.mem_range.1 hg) t ht]

theorem combinedMass_afterRun {refs : List RefDim} (hb : ∀ r ∈ refs, r.boundary = 1) {n : ℕ}
    {T : ℕ → List (K × List ℕ × (ℕ → K))} (hL : ∀ g < n, ∀ t ∈ T g, t.2.1.length = refs.length) (dt : K)
    (nsteps : ℕ) : combinedMass refs n (afterRun refs dt nsteps T) = combinedMass refs n T := by
  unfold combinedMass
  congr 1
  refine List.map_congr_left fun g hg => ?_
  unfold afterRun
  rw [List.map_map]
  congr 1
  refine List.map_congr_left fun t ht => ?_
  simp only [Function.comp]
  rw [massOf_advected hb (hL g (List.mem_range.1 hg) t ht)]

/-- C115 (partial as `C115_values_partial`): if the bases conserve mass, the mass of every component grid after
`rounds + 1` combinations is the combination of the means of the initial function over the points of the component grids,
times the sum of the coefficients to the power of `rounds`: with coefficients whose sum is one, the mass is the same
after every combination, for any number of time steps. No component grid is below the minimum level, and in
dimensions that are not hierarchized all component grids have the same level. -/
theorem C115_mass_partial (refs : List RefDim) (E : Example K) (G : ℕ → List (K × List ℕ))
    (h : ExampleOk refs E G)
    (hmc : ∀ k, E.P.sel.getD k false = true → ∀ β, E.P.bases[k]? = some β → β.massConserving = true)
    (hmin : ∀ g < E.n, ∀ t ∈ G g, List.Forall₂ (· ≤ ·) (effectiveLMin E.P.boundary E.P.lmin) t.2)
    (hsel : ∀ g < E.n, ∀ t ∈ G g, ∀ g' < E.n, ∀ t' ∈ G g', ∀ k < refs.length,
      E.P.sel.getD k false = false → t.2.getD k 0 = t'.2.getD k 0)
    (junk : ℕ → Scratch K) (rounds : ℕ) :
    ∃ s, ∃ T' : ℕ → List (K × List ℕ × (ℕ → K)),
      runExample E junk rounds (fun g => (G g).map fun t => (t.1, compGrid refs t.2)) = some s ∧
      (∀ g < E.n, List.Forall₂ (HoldsParts refs) (T' g) (s.tasks g)) ∧
      (∀ g < E.n, (T' g).map (fun t => (t.1, t.2.1)) = G g) ∧
      ∀ g < E.n, ∀ t ∈ T' g, massOf refs t =
        ((List.range E.n).map fun g => ((G g).map fun t => t.1).sum).sum ^ rounds *
          ((List.range E.n).map fun g => ((G g).map fun t => t.1 * gridMean t.2 E.f).sum).sum := by
  have h1 := validSystem_oneProcess h.system
  obtain ⟨H, D, hm⟩ := compMaps (K := K) h1.ref (serial_oneProcess refs) (paramsOk_oneProcess h.params)
  have hm' := fun L (hL : ValidComponent refs L) => hm L (validComponent_oneProcess.2 hL)
  obtain ⟨s, a1, a2⟩ := C115_values_partial refs E G h H D hm' junk rounds
  refine ⟨s, _, a1, a2, ?_⟩
  clear a1 a2 s
  set T0 := initialGrids refs E.f G with hT0
  have hG : ∀ g, (T0 g).map (fun t => (t.1, t.2.1)) = G g := by
    intro g
    rw [hT0, initialGrids, List.map_map]
    simp [Function.comp_def]
  -- one period
  have hlev : ∀ T g, (period refs E.n H D E.dt E.nsteps T g).map (fun t => (t.1, t.2.1)) =
      (T g).map fun t => (t.1, t.2.1) := by
    intro T g
    rw [period_eq, combinedGrids_levels, afterRun_levels]
  have hmass : ∀ T : ℕ → List (K × List ℕ × (ℕ → K)), (∀ g, (T g).map (fun t => (t.1, t.2.1)) = G g) →
      ∀ g < E.n, ∀ t ∈ period refs E.n H D E.dt E.nsteps T g, massOf refs t = combinedMass refs E.n T := by
    intro T hT g hg t ht
    have hback : ∀ g, ∀ t ∈ afterRun refs E.dt E.nsteps T g, (t.1, t.2.1) ∈ G g := by
      intro g t ht
      rw [← hT g, ← afterRun_levels refs E.dt E.nsteps T g]
      exact List.mem_map.2 ⟨t, ht, rfl⟩
    have hvalid : ValidSystem refs E.levels E.n (afterRun refs E.dt E.nsteps T) :=
      retask_valid h.system fun g _ => by rw [afterRun_levels, hT, ← hG g]
    have hvalidT : ValidSystem refs E.levels E.n T := retask_valid h.system fun g _ => by rw [hT, ← hG g]
    rw [period_eq] at ht
    rw [← combinedMass_afterRun h.periodic (fun g hg t ht => (hvalidT.comp g hg t ht).le.length_eq) E.dt E.nsteps]
    exact mass_after h.system.ref h.params hmc hvalid.comp hm'
      (fun g hg t ht => hmin g hg _ (hback g t ht))
      (fun g hg t ht g' hg' t' ht' => hsel g hg _ (hback g t ht) g' hg' _ (hback g' t' ht')) hg ht
  have hsum : ∀ T : ℕ → List (K × List ℕ × (ℕ → K)), (∀ g, (T g).map (fun t => (t.1, t.2.1)) = G g) →
      ((List.range E.n).map fun g => ((T g).map fun t => t.1).sum).sum =
        ((List.range E.n).map fun g => ((G g).map fun t => t.1).sum).sum := by
    intro T hT
    congr 1
    refine List.map_congr_left fun g _ => ?_
    rw [← hT g, List.map_map]
    rfl
  have h00 : combinedMass refs E.n T0 =
      ((List.range E.n).map fun g => ((G g).map fun t => t.1 * gridMean t.2 E.f).sum).sum := by
    unfold combinedMass
    congr 1
    refine List.map_congr_left fun g hg => ?_
    rw [hT0, initialGrids, List.map_map]
    congr 1
    refine List.map_congr_left fun t ht => ?_
    simp only [Function.comp]
    rw [massOf_initial h.periodic]
    exact (h.system.comp g (List.mem_range.1 hg) _ (List.mem_map.2 ⟨t, ht, rfl⟩)).le.length_eq
  rw [← h00]
  generalize T0 = T at hG
  clear h00 hT0
  induction rounds generalizing T with
  | zero =>
    rw [pow_zero, one_mul, Function.iterate_one]
    exact ⟨fun g _ => by rw [hlev, hG], hmass T hG⟩
  | succ rounds ih =>
    have hG1 : ∀ g, (period refs E.n H D E.dt E.nsteps T g).map (fun t => (t.1, t.2.1)) = G g := fun g => by
      rw [hlev, hG]
    obtain ⟨b1, b2⟩ := ih _ hG1
    rw [Function.iterate_succ_apply]
    refine ⟨b1, fun g hg t ht => ?_⟩
    rw [b2 g hg t ht, combinedMass_same (hmass T hG), hsum _ hG1, pow_succ, mul_assoc]

end

/-! ### Violations -/

/-- A task that is run `i` times, as in the example before combination `i`. -/
def runTimes [Field K] (v : Variant) (cs : List (List ℕ)) : ℕ → Worker K → Outcome (Worker K)
  | 0, W => .ok W
  | i + 1, W => (runTask v cs W 0).bind (runTimes v cs i)

theorem runTimes_steps [Field K] (v : Variant) (cs : List (List ℕ)) (i : ℕ) (W : Worker K) (t : AdvTask K)
    (hW : W.tasks = [t]) {W' : Worker K} (h : runTimes v cs i W = .ok W') :
    ∃ t', W'.tasks = [t'] ∧ t'.dt = t.dt ∧ t'.nsteps = t.nsteps ∧
      t'.stepsTotal = t.stepsTotal + i * t.nsteps := by
  induction i generalizing W t with
  | zero =>
    obtain rfl : W = W' := by simpa [runTimes] using h
    exact ⟨t, hW, rfl, rfl, by omega⟩
  | succ i ih =>
    rw [runTimes, runTask, hW] at h
    simp only [List.getElem?_cons_zero] at h
    split at h
    · cases ht : timeSteps v t.grid cs (inverseGridSpacing t.levels) t.dt t.nsteps t.data with
      | none =>
        rw [ht] at h
        simp [Outcome.bind] at h
      | some data =>
        rw [ht] at h
        simp only [Outcome.bind] at h
        obtain ⟨t', h1, h2, h3, h4⟩ := ih _ _ rfl h
        refine ⟨t', h1, h2, h3, ?_⟩
        rw [h4]
        ring
    · simp [Outcome.bind] at h

/-- C115 is violated by the time that is printed with the norms in the loop: with more than one time step per
combination it is not the time of the tasks (`getCurrentTime`) after the `i` runs before the combination. The time
that is printed after the last combination is. -/
theorem C115_time_violated [Field K] [CharZero K] (E : Example K) (hdt : E.dt ≠ 0) (hn : 2 ≤ E.nsteps) (i : ℕ)
    (hi : 0 < i) (cs : List (List ℕ)) (W W' : Worker K) (t : AdvTask K) (hW : W.tasks = [t]) (h0 : t.stepsTotal = 0)
    (h1 : t.dt = E.dt) (h2 : t.nsteps = E.nsteps) (h : runTimes E.v cs i W = .ok W') :
    ∃ t', W'.tasks = [t'] ∧ printedTime E i ≠ currentTime t' ∧ lastPrintedTime E i = currentTime t' := by
  obtain ⟨t', a1, a2, -, a4⟩ := runTimes_steps E.v cs i W t hW h
  have e : currentTime t' = ((i * E.nsteps : ℕ) : K) * E.dt := by
    unfold currentTime
    rw [a4, a2, h0, h1, h2, Nat.zero_add]
  refine ⟨t', a1, ?_, by rw [e]; rfl⟩
  rw [e]
  unfold printedTime
  intro hc
  have := Nat.cast_injective (R := K) (mul_right_cancel₀ hdt hc)
  have h3 : i * 2 ≤ i * E.nsteps := Nat.mul_le_mul_left _ hn
  omega

/-- The example with two dimensions on one process, one time step per run, and one group, with the basis `β`; the initial
function is 1 at one point. -/
def smallExample (β : Basis) : Example ℚ where
  v := .serial
  layout := [1, 1]
  P := ⟨[1, 1], [true, true], [β, β], [1, 1]⟩
  variant := .sparseGridReduce
  maxChunk := 5
  levels := [[1, 1], [1, 2], [2, 1]]
  n := 1
  f := fun x => if x = [1 / 4, 1 / 2] then 1 else 0
  dt := 1 / 16
  nsteps := 1

/-- The grids of the example. -/
def smallGrids (refs : List RefDim) : ℕ → List (ℚ × List CompDim) := fun g =>
  if g = 0 then [(-1, compGrid refs [1, 1]), (1, compGrid refs [1, 2]), (1, compGrid refs [2, 1])] else []

/-- One process. -/
def smallRefs : List RefDim := [⟨2, 1, [0], 0⟩, ⟨2, 1, [0], 0⟩]

/-- The masses of the component grids after `rounds + 1` combinations. -/
def exampleMasses (β : Basis) (rounds : ℕ) : Option (List ℚ) :=
  (runExample (smallExample β) (fun _ => ⟨fun _ _ _ _ _ _ => 0, fun _ _ _ _ _ _ => 0⟩) rounds
    (smallGrids smallRefs)).map fun s => (s.tasks 0).map fun t =>
      mass smallRefs (t.dims.map (·.level)) fun x =>
        (t.data [0, 0]).val (sequentialIndex (wholeSizes smallRefs (t.dims.map (·.level))) x)

/-- C115 is violated with hat functions: the masses of the component grids change with the combinations and differ from each
other, while they stay the same with full weighting and biorthogonal bases. -/
theorem C115_hat_violated :
    exampleMasses .hatPeriodic 0 = some [1 / 16, 1 / 16, 1 / 8] ∧
    exampleMasses .hatPeriodic 1 = some [3 / 32, 3 / 32, 1 / 8] ∧
    exampleMasses .fullWeightingPeriodic 1 = some [1 / 8, 1 / 8, 1 / 8] ∧
    exampleMasses .biorthogonalPeriodic 1 = some [1 / 8, 1 / 8, 1 / 8] := by
  decide +kernel

/-! ### The hypotheses can be met -/

/-- Two processes along the first dimension. -/
def pairRefs : List RefDim := [⟨2, 1, [0, 2], 0⟩, ⟨2, 1, [0], 0⟩]

theorem pairRefs_group {c : List ℕ} (h : InGroup pairRefs c) : c = [0, 0] ∨ c = [1, 0] := by
  unfold InGroup pairRefs at h
  cases h with
  | cons h1 h2 =>
    cases h2 with
    | cons h3 h4 =>
      cases h4
      simp only [List.length_cons, List.length_nil] at h1 h3
      rename_i a b
      interval_cases a <;> interval_cases b <;> simp

/-- The grids: two in the first group and one in the second. -/
def pairGrids (g : ℕ) : List (ℚ × List ℕ) :=
  if g = 0 then [(-1, [1, 1]), (1, [1, 2])] else if g = 1 then [(1, [2, 1])] else []

/-- Two groups with two processes each, and three time steps per run. -/
def pairExample (f : List ℚ → ℚ) : Example ℚ where
  v := .threads
  layout := [2, 1]
  P := ⟨[1, 1], [true, true], [.biorthogonalPeriodic, .fullWeightingPeriodic], [1, 0]⟩
  variant := .sparseGridReduce
  maxChunk := 5
  levels := [[1, 1], [1, 2], [2, 1]]
  n := 2
  f := f
  dt := 1 / 8
  nsteps := 3

theorem pairGrids_mem {g : ℕ} {t : ℚ × List ℕ} (h : t ∈ pairGrids g) :
    t.2 = [1, 1] ∨ t.2 = [1, 2] ∨ t.2 = [2, 1] := by
  unfold pairGrids at h
  split at h
  · simp only [List.mem_cons, List.not_mem_nil, or_false] at h
    rcases h with rfl | rfl <;> simp
  · split at h
    · simp only [List.mem_cons, List.not_mem_nil, or_false] at h
      subst h
      simp
    · simp at h

theorem pairExample_ok (f : List ℚ → ℚ) : ExampleOk pairRefs (pairExample f) pairGrids := by
  have hlev : ∀ g, ∀ t ∈ initialGrids pairRefs f pairGrids g,
      t.2.1 = [1, 1] ∨ t.2.1 = [1, 2] ∨ t.2.1 = [2, 1] := by
    intro g t ht
    obtain ⟨u, hu, rfl⟩ := List.mem_map.1 ht
    exact pairGrids_mem hu
  have href : ∀ r ∈ pairRefs, ValidRef r := by
    intro r hr
    simp only [pairRefs, List.mem_cons, List.not_mem_nil, or_false] at hr
    rcases hr with rfl | rfl <;> exact ⟨by decide, ⟨rfl, by decide, by decide⟩, by decide⟩
  refine ⟨by simp [pairRefs], rfl, by simp [pairRefs], ?_, by simp [pairExample], ?_, ⟨rfl, rfl, rfl, ?_⟩, ?_, ?_,
    fun c _ => ⟨by simp [pairExample], by simp [pairExample], Or.inl rfl⟩⟩
  · intro g _ t ht
    rcases pairGrids_mem ht with h | h | h <;> rw [h] <;> simp only [pairExample] <;> decide +kernel
  · refine .of_full href (by simp only [pairExample]; decide) ?_ ?_
    · intro g hg t ht
      rcases hlev g t ht with h | h | h <;> rw [h] <;> exact ⟨by decide, by simp [pairRefs]⟩
    · intro g hg t ht
      rcases hlev g t ht with h | h | h <;> rw [h] <;> simp only [pairExample] <;> decide +kernel
  · exact .cons (Or.inr (by decide)) (.cons (Or.inr (by decide)) .nil)
  · intro g hg t ht c hc
    rcases pairRefs_group hc with rfl | rfl <;> rcases hlev g t ht with h | h | h <;> rw [h] <;> decide +kernel
  · intro c hc
    simp only [pairExample]
    rcases pairRefs_group hc with rfl | rfl <;> decide +kernel

/-- The hypotheses of `C115_mass_partial` hold for this example, with coefficients whose sum is one; so the masses are the
same after any number of combinations. -/
example (f : List ℚ → ℚ) (junk : ℕ → Scratch ℚ) (rounds : ℕ) :
    ∃ s, ∃ T' : ℕ → List (ℚ × List ℕ × (ℕ → ℚ)),
      runExample (pairExample f) junk rounds (fun g => (pairGrids g).map fun t => (t.1, compGrid pairRefs t.2)) =
        some s ∧ (∀ g < 2, List.Forall₂ (HoldsParts pairRefs) (T' g) (s.tasks g)) ∧
      ∀ g < 2, ∀ t ∈ T' g, massOf pairRefs t =
        gridMean [1, 2] f + gridMean [2, 1] f - gridMean [1, 1] f := by
  obtain ⟨s, T', h1, h2, -, h4⟩ := C115_mass_partial pairRefs (pairExample f) pairGrids (pairExample_ok f)
    (by
      intro k _ β hβ
      have h1 : β ∈ (pairExample f).P.bases := List.mem_of_getElem? hβ
      simp only [pairExample, List.mem_cons, List.not_mem_nil, or_false] at h1
      rcases h1 with rfl | rfl <;> rfl)
    (by
      intro g _ t ht
      rcases pairGrids_mem ht with h | h | h <;> rw [h] <;> simp only [pairExample] <;> decide +kernel)
    (by
      intro g _ t _ g' _ t' _ k hk h
      have : k = 0 ∨ k = 1 := by simp [pairRefs] at hk; omega
      rcases this with rfl | rfl <;> simp [pairExample] at h) junk rounds
  refine ⟨s, T', h1, h2, fun g hg t ht => ?_⟩
  rw [h4 g hg t ht]
  simp [pairExample, pairGrids, List.range_succ]
  ring

/-- A task on two processes that was initialised, with two time steps per run. -/
def readyTask : AdvTask ℚ := { exampleTask with data := initialData exampleGrid [2, 1] fun x => x.sum }

/-- The hypotheses of `C115_time_violated`: the task is run. -/
example : readyTask.stepsTotal = 0 ∧ readyTask.nsteps = 2 ∧
    ∃ W', runTimes .threads [[0, 0], [1, 0]] 1 ⟨true, [readyTask]⟩ = .ok W' := by
  refine ⟨rfl, rfl, ?_⟩
  have h : (timeSteps .threads readyTask.grid [[0, 0], [1, 0]] (inverseGridSpacing readyTask.levels) readyTask.dt
      readyTask.nsteps readyTask.data).isSome = true := by decide +kernel
  obtain ⟨data, hd⟩ := Option.isSome_iff_exists.1 h
  rw [runTimes, runTask]
  simp only [List.getElem?_cons_zero, if_true, hd, Outcome.bind, runTimes]
  exact ⟨_, rfl⟩

end Verif.Advection

import Verif.Lemmas.InterpolationOutput
import Verif.Props.CombinedValues

/-!
# C100: the manager and the files get the interpolated values

`combinedAt refs n T xs` is the combination of the interpolants of all component grids at `xs`,
`componentAt refs t xs` the interpolant of one of them.
-/

namespace Verif

open Interpolation

variable {K : Type} [Field K] [LinearOrder K] [FloorRing K] [IsStrictOrderedRing K]

/-- C100, the manager: for every number of groups, layout, distribution of the tasks and list of
coordinates, the manager gets the combination at every coordinate, in the order of the coordinates. -/
theorem C100_manager_partial {refs : List RefDim} (hr : ∀ r ∈ refs, ValidRef r) {n : ℕ} (hn : 0 < n)
    {T : ℕ → List (K × List ℕ × (ℕ → K))} (hc : ∀ g < n, ∀ t ∈ T g, ValidComponent refs t.2.1)
    (hne : NonEmptyParts refs n T) {S : ℕ → List (GroupTask K)}
    (hS : ∀ g < n, List.Forall₂ (HoldsParts refs) (T g) (S g)) {p : ℕ} {cart : ℕ → List ℕ}
    (hg : ProcGrid p cart (refs.map fun r => r.dec.length)) {coords : List (List K)}
    (hx : CoordsOk refs coords) (nan : K) :
    managerInterpolateValues nan n p cart S refs.length coords = .ok (coords.map (combinedAt refs n T)) :=
  manager_eq hx nan hn cart S (groupInterpolateValues_eq hr hc hne hS hg hx.length_lt hx.cube) (by simp)

/-- C100 with C99: what the manager gets is the same before and after a complete combination. -/
theorem C100_unchanged_partial (refs : List RefDim) (levels : List (List ℕ)) (n : ℕ) (hn : 0 < n)
    (hn' : n ≤ 256) (T : ℕ → List (K × List ℕ × (ℕ → K))) (h : ValidSystem refs levels n T)
    (P : CombineParams) (hP : ParamsOk refs P) (hnest : ∀ β ∈ P.bases, NestedBasis β)
    (hne : NonEmptyParts refs n T)
    (htotal : ∀ c, InGroup refs c → (levels.map (subspaceCount (atProcess refs c))).sum < 2 ^ 31)
    (hc : Consistent n T) (variant : CombinationVariant) (maxChunk : ℕ)
    (hu : ∀ c, InGroup refs c → Usable (atProcess refs c) n T variant maxChunk)
    (hmin : ∀ g < n, ∀ t ∈ T g, List.Forall₂ (· ≤ ·) (effectiveLMin P.boundary P.lmin) t.2.1)
    (hsel : ∀ g < n, ∀ t ∈ T g, ∀ g' < n, ∀ t' ∈ T g', ∀ k < refs.length,
      P.sel.getD k false = false → t.2.1.getD k 0 = t'.2.1.getD k 0)
    (S : ℕ → List (GroupTask K)) (hS : ∀ g < n, List.Forall₂ (HoldsParts refs) (T g) (S g))
    (junk junk' : ℕ → ℕ → List ℕ → ℕ → ℕ → ℕ → K)
    (p : ℕ) (cart : ℕ → List ℕ) (hg : ProcGrid p cart (refs.map fun r => r.dec.length))
    (coords : List (List K)) (hx : CoordsOk refs coords) (nan : K) :
    ∃ R vals, distributedCombineAtOnce (refs.map fun r => r.dec.length) P variant maxChunk levels n
        junk junk' S = some R ∧
      managerInterpolateValues nan n p cart S refs.length coords = .ok vals ∧
      managerInterpolateValues nan n p cart R refs.length coords = .ok vals := by
  obtain ⟨R, vals, h1, h2, h3⟩ := C99_unchanged_partial refs levels n hn' T h P hP hnest hne htotal hc
    variant maxChunk hu hmin hsel S hS junk junk' p cart hg coords hx.length_lt hx.cube
  have hv := groupInterpolateValues_eq h.ref h.comp hne hS hg hx.length_lt hx.cube
  have hl : vals.length = coords.length := by
    rw [hv] at h2
    injection h2 with h2
    rw [← h2, List.length_map]
  exact ⟨R, vals, h1, manager_eq hx nan hn cart S h2 hl, manager_eq hx nan hn cart R h3 hl⟩

/-- The name of the file with the combined values of a step. -/
def singleFileName (filenamePrefix : String) (step : ℕ) : String :=
  filenamePrefix ++ "_values_" ++ Nat.repr step ++ ".h5"

/-- The name of the file of a task. -/
def perGridFileName (filenamePrefix : String) (id : ℕ) : String :=
  filenamePrefix ++ "_task_" ++ Nat.repr id ++ ".h5"

/-- C100, one file: with and without a manager, exactly one file is written, by the last group, and reading
it gives the combination at every coordinate. It carries the time of a task. Files of other steps keep what
they hold. -/
theorem C100_singleFile_partial {refs : List RefDim} (hr : ∀ r ∈ refs, ValidRef r) {n : ℕ} (hn : 0 < n)
    {T : ℕ → List (K × List ℕ × (ℕ → K))} (hc : ∀ g < n, ∀ t ∈ T g, ValidComponent refs t.2.1)
    (hne : NonEmptyParts refs n T) {O : ℕ → List (OutputTask K)}
    (hO : ∀ g < n, List.Forall₂ (fun t o => HoldsParts refs t o.task) (T g) (O g)) {p : ℕ} (hp : 0 < p)
    {cart : ℕ → List ℕ} (hg : ProcGrid p cart (refs.map fun r => r.dec.length)) {coords : List (List K)}
    (hx : CoordsOk refs coords) {filenamePrefix : String} (hf : filenamePrefix ≠ "") (step : ℕ)
    {t0 : OutputTask K} {ts : List (OutputTask K)} (hlast : O (n - 1) = t0 :: ts) :
    ∃ w : String × H5File K,
      managerWriteSingleFile n p cart O refs.length coords filenamePrefix step = .ok [w] ∧
      workersWriteSingleFile n p cart O coords filenamePrefix step = .ok [w] ∧
      w.2.map (fun a => a.2.map (·.time)) = [[t0.time]] ∧
      ∀ fs : H5Files K,
        h5Read (h5WriteAll fs [w]) (singleFileName filenamePrefix step) =
          .ok (coords.map (combinedAt refs n T)) ∧
        ∀ step', step' ≠ step →
          h5WriteAll fs [w] (singleFileName filenamePrefix step') = fs (singleFileName filenamePrefix step') := by
  have hS : ∀ g < n, List.Forall₂ (HoldsParts refs) (T g) (plainTasks O g) := by
    intro g hgn
    unfold plainTasks
    rw [List.forall₂_map_right_iff]
    exact hO g hgn
  have hv := groupInterpolateValues_eq hr hc hne hS hg hx.length_lt hx.cube
  have hl : (coords.map (combinedAt refs n T)).length ≠ 0 := by
    simp [hx.nonempty]
  have hw : singleFileWrite n (n - 1) 0 (O (n - 1)) (coords.map (combinedAt refs n T)) filenamePrefix step =
      .ok [(singleFileName filenamePrefix step, h5Content "all_grids" ("interpolated_" ++ Nat.repr step)
        (coords.map (combinedAt refs n T)) t0.time)] := by
    unfold singleFileWrite
    rw [if_pos ⟨rfl, rfl⟩, if_neg hl, hlast]
    rfl
  have hw' : ∀ g r, ¬(g = n - 1 ∧ r = 0) → singleFileWrite n g r (O g) (coords.map (combinedAt refs n T))
      filenamePrefix step = .ok [] := by
    intro g r h
    unfold singleFileWrite
    rw [if_neg h]
  refine ⟨(singleFileName filenamePrefix step, h5Content "all_grids" ("interpolated_" ++ Nat.repr step)
    (coords.map (combinedAt refs n T)) t0.time), ?_, ?_, ?_, fun fs => ⟨?_, fun step' hs => ?_⟩⟩
  · have hgc : groupCommand coords.flatten 0 false filenamePrefix =
        .ok (.singleFile coords.flatten filenamePrefix) := by
      unfold groupCommand
      have := hx.serial
      rw [if_neg (by rw [coordsInRange_flatten hx.cube, not_or]; exact ⟨by omega, by simp⟩)]
      simp [hf]
    unfold managerWriteSingleFile
    rw [serialize_eq coords hx.nonempty]
    simp only [Outcome.bind]
    rw [commandsFor_eq hx.serial (coordsInRange_flatten hx.cube) hn hgc]
    simp only
    rw [interpolateCommands_eq hx.cube hx.nonempty hx.dim hx.dim' hn (by simp; omega), hv]
    · simp only
      refine gatherAll_single hn hp (w := [_]) ?_ fun g hgn r hrp h => ?_
      · rw [List.getElem?_append_right (by simp)]
        simp only [List.length_replicate, Nat.sub_self, List.getElem?_cons_zero]
        exact hw
      · by_cases hgl : g = n - 1
        · subst hgl
          rw [List.getElem?_append_right (by simp)]
          simp only [List.length_replicate, Nat.sub_self, List.getElem?_cons_zero]
          exact hw' _ r h
        · rw [List.getElem?_append_left (by simp; omega), List.getElem?_replicate, if_pos (by omega)]
    · intro c hcm
      rcases List.mem_append.1 hcm with hcm | hcm
      · rw [(List.mem_replicate.1 hcm).2]; rfl
      · rw [List.mem_singleton.1 hcm]; rfl
  · unfold workersWriteSingleFile
    rw [hv]
    simp only [Outcome.bind]
    exact gatherAll_single hn hp hw fun g _ r _ h => hw' g r h
  · rfl
  · exact h5Read_content (h5WriteAll_mem fs [_] (by simp) (List.mem_singleton.2 rfl))
  · refine h5Write_ne fs _ fun h => hs ?_
    exact name_injective h

/-- C100, files per task: every task is written once, by one process, and reading its file gives the
interpolant of its component grid at every coordinate, in whatever order the processes write. -/
theorem C100_perGrid_partial {refs : List RefDim} (hr : ∀ r ∈ refs, ValidRef r) {n : ℕ}
    {T : ℕ → List (K × List ℕ × (ℕ → K))} (hc : ∀ g < n, ∀ t ∈ T g, ValidComponent refs t.2.1)
    (hne : NonEmptyParts refs n T) {O : ℕ → List (OutputTask K)}
    (hO : ∀ g < n, List.Forall₂ (fun t o => HoldsParts refs t o.task) (T g) (O g))
    (hid : (((List.range n).flatMap O).map (·.id)).Nodup) {p : ℕ} (hp : 0 < p)
    {cart : ℕ → List ℕ} (hg : ProcGrid p cart (refs.map fun r => r.dec.length)) {coords : List (List K)}
    (hx : CoordsOk refs coords) (filenamePrefix : String) (step : ℕ) :
    ∃ ws, managerWritePerGrid n p cart O refs.length coords filenamePrefix step = .ok ws ∧
      (ws.map (·.1)).Perm (((List.range n).flatMap O).map fun o => perGridFileName filenamePrefix o.id) ∧
      (ws.map (·.1)).Nodup ∧
      ∀ ws', ws.Perm ws' → ∀ fs : H5Files K, ∀ g < n, ∀ a ∈ (T g).zip (O g),
        h5Read (h5WriteAll fs ws') (perGridFileName filenamePrefix a.2.id) =
          .ok (coords.map (componentAt refs a.1)) := by
  have hvals : ∀ g < n, ∀ o ∈ O g, ∃ V, taskValues p cart o.task coords = .ok V := by
    intro g hgn o ho
    obtain ⟨k, hk, rfl⟩ := List.mem_iff_getElem.1 ho
    have hkT : k < (T g).length := by rw [(hO g hgn).length_eq]; exact hk
    have := (List.forall₂_iff_get.1 (hO g hgn)).2 k hkT hk
    simp only [List.get_eq_getElem] at this
    exact ⟨_, taskValues_eq hr (hc g hgn _ (List.getElem_mem hkT)) this
      (hne g hgn _ (List.getElem_mem hkT)) hg hx.length_lt hx.cube⟩
  let V : OutputTask K → List K := fun o => match taskValues p cart o.task coords with
    | .ok v => v
    | _ => []
  have hV : ∀ g < n, ∀ o ∈ O g, taskValues p cart o.task coords = .ok (V o) := by
    intro g hgn o ho
    obtain ⟨v, hv⟩ := hvals g hgn o ho
    simp only [V, hv]
  have hperm : ((List.range n).flatMap fun g => (List.range p).flatMap fun r =>
      (((O g).zipIdx 0).filter fun a => a.2 % p = r).map fun a =>
        taskFile filenamePrefix step V a.1).Perm
      (((List.range n).flatMap O).map (taskFile filenamePrefix step V)) := by
    rw [List.map_flatMap]
    refine List.Perm.flatMap_left _ fun g _ => ?_
    exact perm_ranks hp (taskFile filenamePrefix step V) (O g) 0
  have hnames : (((List.range n).flatMap O).map (taskFile filenamePrefix step V)).map (·.1) =
      ((List.range n).flatMap O).map fun o => perGridFileName filenamePrefix o.id := by
    rw [List.map_map]
    rfl
  have hnodup : (((List.range n).flatMap O).map fun o => perGridFileName filenamePrefix o.id).Nodup := by
    have := hid.map (f := fun i => perGridFileName filenamePrefix i) fun i j h => name_injective h
    rwa [List.map_map] at this
  refine ⟨_, ?_, (hperm.map (·.1)).trans (by rw [hnames]), ?_, ?_⟩
  rotate_left
  · rw [(hperm.map _).nodup_iff, hnames]
    exact hnodup
  · intro ws' hws' fs g hgn a ha
    have hnd : (ws'.map (·.1)).Nodup := by
      rw [← (hws'.map _).nodup_iff, (hperm.map _).nodup_iff, hnames]
      exact hnodup
    have ho : a.2 ∈ O g := (List.of_mem_zip ha).2
    have hmem : taskFile filenamePrefix step V a.2 ∈ ws' := by
      refine (hperm.symm.trans hws').mem_iff.1 (List.mem_map.2 ⟨a.2, ?_, rfl⟩)
      exact List.mem_flatMap.2 ⟨g, List.mem_range.2 hgn, ho⟩
    have hval : V a.2 = coords.map (componentAt refs a.1) := by
      obtain ⟨k, hk, rfl⟩ := List.mem_iff_getElem.1 ha
      have hk' := hk
      rw [List.length_zip] at hk'
      have hh := (List.forall₂_iff_get.1 (hO g hgn)).2 k (by omega) (by omega)
      simp only [List.get_eq_getElem] at hh
      have h1 := taskValues_eq hr (hc g hgn _ (List.getElem_mem (by omega))) hh
        (hne g hgn _ (List.getElem_mem (by omega))) hg hx.length_lt hx.cube
      have h2 := hV g hgn _ (List.getElem_mem (l := O g) (n := k) (by omega))
      rw [h1] at h2
      rw [List.getElem_zip]
      exact (Outcome.ok.inj h2).symm
    rw [← hval]
    exact h5Read_content (h5WriteAll_mem fs ws' hnd hmem)
  · unfold managerWritePerGrid
    rw [serialize_eq coords hx.nonempty]
    simp only [Outcome.bind]
    rw [if_neg (by have := hx.serial; omega)]
    refine gatherAll_eq _ fun g hgn r hrp => ?_
    rw [receiveCoords_eq hx.cube hx.nonempty hx.dim hx.dim']
    exact perGridLoop_eq (O g) (hV g hgn) 0

/-! ### The hypotheses can be met -/

/-- The tasks of `layoutTasks` with numbers and a time. -/
def layoutOutput (v : List ℕ → ℚ) (g : ℕ) : List (OutputTask ℚ) :=
  (layoutTasks v g).zipIdx.map fun a => ⟨10 * g + a.2, some (1 / 2), a.1⟩

theorem layoutOutput_holds (v : List ℕ → ℚ) (g : ℕ) :
    List.Forall₂ (fun t o => HoldsParts layoutRefs t o.task) (serialSystem v g) (layoutOutput v g) := by
  have h : List.Forall₂ (HoldsParts layoutRefs) (serialSystem v g) (layoutTasks v g) := by
    unfold layoutTasks
    rw [List.forall₂_map_right_iff]
    exact List.forall₂_same.2 fun t _ => ⟨rfl, rfl, fun c _ => ⟨rfl, fun _ _ => rfl⟩⟩
  refine List.forall₂_iff_get.2 ⟨by simpa [layoutOutput] using h.length_eq, fun k h1 h2 => ?_⟩
  have h3 := (List.forall₂_iff_get.1 h).2 k h1 (by rw [← h.length_eq]; exact h1)
  simp only [List.get_eq_getElem, layoutOutput, List.getElem_map, List.getElem_zipIdx] at h3 ⊢
  exact h3

theorem layoutOutput_ids (v : List ℕ → ℚ) : ((List.range 2).flatMap (layoutOutput v)).map (·.id) = [0, 1, 10] :=
  rfl

theorem layoutOutput_coords : CoordsOk layoutRefs [[(1 : ℚ) / 3, 3 / 8], [1, 0]] where
  nonempty := by simp
  dim := by decide
  dim' := by decide
  cube := by
    intro xs hxs
    simp only [List.mem_cons, List.not_mem_nil, or_false] at hxs
    rcases hxs with rfl | rfl
    · exact .cons (by norm_num) (.cons (by norm_num) .nil)
    · exact .cons ⟨by norm_num, by norm_num, by decide⟩ (.cons (by norm_num) .nil)
  size := by decide

example (v : List ℕ → ℚ) : (∀ r ∈ layoutRefs, ValidRef r) ∧
    (∀ g < 2, ∀ t ∈ serialSystem v g, ValidComponent layoutRefs t.2.1) ∧
    NonEmptyParts layoutRefs 2 (serialSystem v) ∧
    (∀ g < 2, List.Forall₂ (fun t o => HoldsParts layoutRefs t o.task) (serialSystem v g)
      (layoutOutput v g)) ∧
    (((List.range 2).flatMap (layoutOutput v)).map (·.id)).Nodup ∧
    ProcGrid 2 (fun r => [r, 0]) (layoutRefs.map fun r => r.dec.length) ∧
    CoordsOk layoutRefs [[(1 : ℚ) / 3, 3 / 8], [1, 0]] ∧
    (∃ t ts, layoutOutput v 1 = t :: ts) ∧
    ((List.range 2).flatMap (layoutOutput v)).length = 3 :=
  ⟨(layoutRefs_valid v).ref, (layoutRefs_valid v).comp, layoutRefs_nonEmpty v,
    fun g _ => layoutOutput_holds v g, by rw [layoutOutput_ids]; decide, procGrid_two, layoutOutput_coords, ⟨_, _, rfl⟩, rfl⟩

/-! ### Where the code does something else -/

omit [IsStrictOrderedRing K] in
/-- Without coordinates the code reads a first coordinate that does not exist. -/
theorem C100_noCoordinates_violated (nan : K) (n p : ℕ) (cart : ℕ → List ℕ) (S : ℕ → List (GroupTask K))
    (O : ℕ → List (OutputTask K)) (dim : ℕ) (filenamePrefix : String) (step : ℕ) :
    managerInterpolateValues nan n p cart S dim [] = .stuck ∧
      managerWriteSingleFile n p cart O dim [] filenamePrefix step = .stuck ∧
      managerWritePerGrid n p cart O dim [] filenamePrefix step = .stuck :=
  ⟨rfl, rfl, rfl⟩

/-- With an empty prefix, the manager has nothing written at all. -/
theorem C100_noPrefix_violated {refs : List RefDim} (hr : ∀ r ∈ refs, ValidRef r) {n : ℕ} (hn : 0 < n)
    {T : ℕ → List (K × List ℕ × (ℕ → K))} (hc : ∀ g < n, ∀ t ∈ T g, ValidComponent refs t.2.1)
    (hne : NonEmptyParts refs n T) {O : ℕ → List (OutputTask K)}
    (hO : ∀ g < n, List.Forall₂ (fun t o => HoldsParts refs t o.task) (T g) (O g)) {p : ℕ}
    {cart : ℕ → List ℕ} (hg : ProcGrid p cart (refs.map fun r => r.dec.length)) {coords : List (List K)}
    (hx : CoordsOk refs coords) (step : ℕ) :
    managerWriteSingleFile n p cart O refs.length coords "" step = .ok [] := by
  have hS : ∀ g < n, List.Forall₂ (HoldsParts refs) (T g) (plainTasks O g) := by
    intro g hgn
    unfold plainTasks
    rw [List.forall₂_map_right_iff]
    exact hO g hgn
  have hv := groupInterpolateValues_eq hr hc hne hS hg hx.length_lt hx.cube
  have hgc : groupCommand coords.flatten 0 false "" = .ok (.values coords.flatten) := by
    unfold groupCommand
    have := hx.serial
    rw [if_neg (by rw [coordsInRange_flatten hx.cube, not_or]; exact ⟨by omega, by simp⟩)]
    simp
  have hcmd : List.replicate (n - 1) (InterpCommand.values coords.flatten) ++
      [InterpCommand.values coords.flatten] = List.replicate n (.values coords.flatten) := by
    rw [← List.replicate_succ']
    congr 1
    omega
  unfold managerWriteSingleFile
  rw [serialize_eq coords hx.nonempty]
  simp only [Outcome.bind]
  rw [commandsFor_eq hx.serial (coordsInRange_flatten hx.cube) hn hgc, hcmd]
  simp only
  rw [interpolateCommands_eq hx.cube hx.nonempty hx.dim hx.dim' hn (by simp), hv]
  · simp only
    rw [gatherAll_eq (fun _ _ => []) fun g hgn r hrp => ?_]
    · congr 1
      simp [List.flatMap_eq_nil_iff]
    · rw [List.getElem?_replicate, if_pos hgn]
  · intro c hcm
    rw [(List.mem_replicate.1 hcm).2]
    rfl

/-- If the last group has no tasks, the time of the first of its tasks is read although there is none. -/
theorem C100_lastGroup_violated {refs : List RefDim} (hr : ∀ r ∈ refs, ValidRef r) {n : ℕ} (hn : 0 < n)
    {T : ℕ → List (K × List ℕ × (ℕ → K))} (hc : ∀ g < n, ∀ t ∈ T g, ValidComponent refs t.2.1)
    (hne : NonEmptyParts refs n T) {O : ℕ → List (OutputTask K)}
    (hO : ∀ g < n, List.Forall₂ (fun t o => HoldsParts refs t o.task) (T g) (O g)) {p : ℕ} (hp : 0 < p)
    {cart : ℕ → List ℕ} (hg : ProcGrid p cart (refs.map fun r => r.dec.length)) {coords : List (List K)}
    (hx : CoordsOk refs coords) (filenamePrefix : String) (step : ℕ) (hlast : O (n - 1) = []) :
    workersWriteSingleFile n p cart O coords filenamePrefix step = .stuck := by
  have hS : ∀ g < n, List.Forall₂ (HoldsParts refs) (T g) (plainTasks O g) := by
    intro g hgn
    unfold plainTasks
    rw [List.forall₂_map_right_iff]
    exact hO g hgn
  have hv := groupInterpolateValues_eq hr hc hne hS hg hx.length_lt hx.cube
  have hl : (coords.map (combinedAt refs n T)).length ≠ 0 := by
    simp [hx.nonempty]
  unfold workersWriteSingleFile
  rw [hv]
  simp only [Outcome.bind]
  refine gatherAll_stuck hn hp ?_ fun g _ r _ h => ⟨[], ?_⟩
  · unfold singleFileWrite
    rw [if_pos ⟨rfl, rfl⟩, if_neg hl, hlast]
  · unfold singleFileWrite
    rw [if_neg h]

omit [IsStrictOrderedRing K] in
/-- The files of the tasks are overwritten: after the values of a second step were written, no data set of
the first step is left, although the data sets are named after their step. -/
theorem C100_history_violated {n p : ℕ} {cart : ℕ → List ℕ} {O O' : ℕ → List (OutputTask K)} {dim : ℕ}
    {coords : List (List K)} {filenamePrefix : String} {step step' : ℕ} (hs : step ≠ step')
    {ws ws' : List (String × H5File K)}
    (_h : managerWritePerGrid n p cart O dim coords filenamePrefix step = .ok ws)
    (h' : managerWritePerGrid n p cart O' dim coords filenamePrefix step' = .ok ws')
    (hsame : ∀ name ∈ ws.map (·.1), name ∈ ws'.map (·.1)) (fs : H5Files K) :
    ∀ name ∈ ws.map (·.1), ∀ f, h5WriteAll (h5WriteAll fs ws) ws' name = some f →
      ∀ grp ∈ f, ∀ d ∈ grp.2, d.name ≠ "interpolated_" ++ Nat.repr step := by
  intro name hname f hf grp hgrp d hd hdn
  obtain ⟨w, hw, hwf⟩ := h5WriteAll_some _ ws' (hsame name hname) hf
  obtain ⟨vals, time, e⟩ := managerWritePerGrid_content h' hw
  rw [hwf] at e
  subst e
  rw [h5Content, List.mem_singleton] at hgrp
  subst hgrp
  rw [List.mem_singleton] at hd
  subst hd
  exact hs (by simpa using hdn.symm)

example (v : List ℕ → ℚ) : ∃ ws ws', managerWritePerGrid 2 2 (fun r => [r, 0]) (layoutOutput v) 2
    [[(1 : ℚ) / 3, 3 / 8], [1, 0]] "out" 3 = .ok ws ∧
    managerWritePerGrid 2 2 (fun r => [r, 0]) (layoutOutput v) 2
      [[(1 : ℚ) / 3, 3 / 8], [1, 0]] "out" 4 = .ok ws' ∧ ws.length = 3 ∧
    ∀ name ∈ ws.map (·.1), name ∈ ws'.map (·.1) := by
  have h := fun step => C100_perGrid_partial (layoutRefs_valid v).ref (layoutRefs_valid v).comp
    (layoutRefs_nonEmpty v) (fun g _ => layoutOutput_holds v g) (by rw [layoutOutput_ids]; decide) (by decide) procGrid_two
    layoutOutput_coords "out" step
  obtain ⟨ws, h1, h2, -, -⟩ := h 3
  obtain ⟨ws', h1', h2', -, -⟩ := h 4
  refine ⟨ws, ws', h1, h1', ?_, fun name hn => (h2.trans h2'.symm).mem_iff.1 hn⟩
  have := h2.length_eq
  rw [List.length_map, List.length_map] at this
  exact this

/-- A group without tasks at the end. -/
example (v : List ℕ → ℚ) :
    workersWriteSingleFile 3 2 (fun r => [r, 0]) (fun g => if g < 2 then layoutOutput v g else [])
      [[(1 : ℚ) / 3, 3 / 8], [1, 0]] "out" 3 = .stuck := by
  refine C100_lastGroup_violated (layoutRefs_valid v).ref (by decide)
    (T := fun g => if g < 2 then serialSystem v g else []) ?_ ?_ ?_ (by decide) procGrid_two
    layoutOutput_coords _ _ rfl
  · intro g _ t ht
    split at ht
    · next hg => exact (layoutRefs_valid v).comp g hg t ht
    · simp at ht
  · intro g _ t ht
    beta_reduce at ht
    split at ht
    · next hg => exact layoutRefs_nonEmpty v g hg t ht
    · simp at ht
  · intro g _
    split
    · exact layoutOutput_holds v g
    · exact .nil

end Verif

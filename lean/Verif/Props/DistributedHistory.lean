import Verif.Lemmas.DistributedHistory

/-!
# C95: a whole simulation on process groups of any size

Every group has several processes, each of which stores a part of every component grid of the group
(`HoldsParts`). Runs, complete combinations and moves of tasks follow each other in any number. The
claim: the processes store, after all steps, parts of grids that are described without processes, sparse
grids, sizes, communicators and hierarchical values.
-/

namespace Verif

variable {K : Type}

/-- A step on whole component grids. A run computes any new values from the old ones. -/
inductive GridStep (K : Type)
  | run (V : ℕ → ℕ → K × List ℕ × (ℕ → K) → ℕ → K)
  | combine
  | move (source k target : ℕ)

/-- A step on the grids (coefficient, level, nodal values) of the groups. `H` and `D` are the
hierarchization and dehierarchization of grids of a level. -/
def gridStep [Ring K] (refs : List RefDim) (n : ℕ) (H D : List ℕ → (ℕ → K) → ℕ → K)
    (T : ℕ → List (K × List ℕ × (ℕ → K))) : GridStep K → ℕ → List (K × List ℕ × (ℕ → K))
  | .run V => fun g => (T g).mapIdx fun k t => (t.1, t.2.1, V g k t)
  | .combine => fun g => (T g).map fun t => (t.1, t.2.1, D t.2.1 fun q =>
      valueAtPlace (oneProcess refs) n (fun m => (T m).map fun u => (u.1, u.2.1, H u.2.1 u.2.2))
        (spatialOf (oneProcess refs) t.2.1 q))
  | .move source k target => fun g =>
      (if g = source then (T g).eraseIdx k else T g) ++
        if g = target then ((T source)[k]?).toList else []

/-- Tasks are moved only between a combination and the next run, from and to existing groups, only if
all groups have the whole sparse grid, and only if the sparse grid has all subspaces of the task. -/
def MovesAllowed [Ring K] (variant : CombinationVariant) (refs : List RefDim)
    (levels : List (List ℕ)) (n : ℕ) (H D : List ℕ → (ℕ → K) → ℕ → K) :
    (fresh : Prop) → (T : ℕ → List (K × List ℕ × (ℕ → K))) → List (GridStep K) → Prop
  | _, _, [] => True
  | _, T, .run V :: steps =>
      MovesAllowed variant refs levels n H D False (gridStep refs n H D T (.run V)) steps
  | _, T, .combine :: steps =>
      MovesAllowed variant refs levels n H D True (gridStep refs n H D T .combine) steps
  | fresh, T, .move source k target :: steps =>
      (fresh ∧ variant = .sparseGridReduce ∧ source < n ∧ target < n ∧ k < (T source).length ∧
        ∀ t ∈ (T source)[k]?, ∀ l ∈ getDownSet t.2.1, l ∈ levels) ∧
        MovesAllowed variant refs levels n H D fresh (gridStep refs n H D T (.move source k target)) steps

/-- A solver of the processes of a group computes the values `V` on their parts. -/
def Solves (refs : List RefDim) (V : K × List ℕ × (ℕ → K) → ℕ → K)
    (solve : GroupTask K → List ℕ → Buf K) : Prop :=
  ∀ t gt, ValidComponent refs t.2.1 → HoldsParts refs t gt →
    HoldsParts refs (t.1, t.2.1, V t) ⟨gt.coeff, gt.dims, solve gt⟩

/-- A step of the processes and the step on whole grids. -/
def SameStep (refs : List RefDim) : GridStep K → GroupStep K × Scratch K → Prop
  | .run V, (.run solve, _) => ∀ g k, Solves refs (V g k) (solve g k)
  | .combine, (.combine, _) => True
  | .move source k target, (.move source' k' target', _) =>
      source' = source ∧ k' = k ∧ target' = target
  | _, _ => False

/-! ### Proof -/

theorem simulation_steps [Field K] [CharZero K] {refs : List RefDim} {P : CombineParams}
    (hP : ParamsOk refs P) {levels : List (List ℕ)} {n maxChunk : ℕ} {variant : CombinationVariant}
    {H D : List ℕ → (ℕ → K) → ℕ → K}
    (hm : ∀ L, ValidComponent refs L →
      GridMaps (compDims (oneProcess refs) P L) (selectedDims P.sel) (H L) (D L))
    {gsteps : List (GridStep K)} {steps : List (GroupStep K × Scratch K)}
    (hsteps : List.Forall₂ (SameStep refs) gsteps steps) :
    ∀ {fresh : Prop} {T : ℕ → List (K × List ℕ × (ℕ → K))} {s : Simulation K},
    MovesAllowed variant refs levels n H D fresh T gsteps →
    SimulationInv variant refs levels n maxChunk H fresh T s →
    ∃ s', steps.foldlM (Simulation.step (refs.map fun r => r.dec.length) P variant maxChunk n) s =
        some s' ∧
      ∃ fresh', SimulationInv variant refs levels n maxChunk H fresh'
        (gsteps.foldl (gridStep refs n H D) T) s' := by
  induction hsteps with
  | nil =>
    intro fresh T s _ h
    exact ⟨s, rfl, fresh, h⟩
  | @cons a b gsteps steps hab _ ih =>
    intro fresh T s ha h
    rw [List.foldl_cons, List.foldlM_cons]
    obtain ⟨b, junk⟩ := b
    cases a with
    | run V =>
      cases b with
      | run solve =>
        refine ih (s := s.run solve) ha (run_sim h solve ?_ ?_)
        · intro g _
          simp only [gridStep]
          apply List.ext_getElem
          · simp
          · intro i h1 h2
            simp
        · intro g hg
          have hh := List.forall₂_iff_get.1 (h.hold g hg)
          refine forall₂_of_getElem (by simpa [gridStep, Simulation.run] using hh.1) ?_
          intro i h1 h2
          have h1' : i < (T g).length := by simpa [gridStep] using h1
          have h2' : i < (s.tasks g).length := by simpa [Simulation.run] using h2
          have := hab g i _ _ (h.valid.comp g hg _ (List.getElem_mem h1')) (hh.2 i h1' h2')
          simpa [gridStep, Simulation.run] using this
      | combine => exact hab.elim
      | move => exact hab.elim
    | combine =>
      cases b with
      | run => exact hab.elim
      | combine =>
        obtain ⟨s1, e1, e2⟩ := combine_sim hP hm h junk.hier junk.dehier
        obtain ⟨s', e3, e4⟩ := ih ha e2
        refine ⟨s', ?_, e4⟩
        simp only [Simulation.step, e1, Option.bind_eq_bind, Option.bind_some]
        exact e3
      | move => exact hab.elim
    | move x k y =>
      cases b with
      | run => exact hab.elim
      | combine => exact hab.elim
      | move x' k' y' =>
        obtain ⟨rfl, rfl, rfl⟩ := hab
        obtain ⟨⟨hf, rfl, h1, h2, h3, h4⟩, ha⟩ := ha
        obtain ⟨s1, e1, e2⟩ := move_sim hP hm h hf h1 h2 h3
          (h4 _ (List.getElem?_eq_getElem h3)) (junk.dehier y' 0)
        obtain ⟨s', e3, e4⟩ := ih ha e2
        refine ⟨s', ?_, e4⟩
        simp only [Simulation.step, e1, Option.bind_eq_bind, Option.bind_some]
        exact e3

/-! ### The property -/

/-- C95 (partial: tasks are moved only if all groups have the whole sparse grid, and only before they
run again; sizes in the range of `int`): a simulation of any length on groups of any layout ends with
every process storing its part of the grids that follow from the solvers and the combination formula
alone. The sparse grids are set up once, for the tasks the groups have at the beginning. -/
theorem C95_history_partial [Field K] [CharZero K] (refs : List RefDim) (levels : List (List ℕ))
    (n : ℕ) (hn : n ≤ 256) (T : ℕ → List (K × List ℕ × (ℕ → K))) (h : ValidSystem refs levels n T)
    (P : CombineParams) (hP : ParamsOk refs P) (hne : NonEmptyParts refs n T)
    (htotal : ∀ c, InGroup refs c → (levels.map (subspaceCount (atProcess refs c))).sum < 2 ^ 31)
    (variant : CombinationVariant) (maxChunk : ℕ)
    (hu : ∀ c, InGroup refs c → Usable (atProcess refs c) n T variant maxChunk)
    (H D : List ℕ → (ℕ → K) → ℕ → K)
    (hm : ∀ L, ValidComponent refs L →
      GridMaps (compDims (oneProcess refs) P L) (selectedDims P.sel) (H L) (D L))
    (S : ℕ → List (GroupTask K)) (hS : ∀ g < n, List.Forall₂ (HoldsParts refs) (T g) (S g))
    (hS0 : ∀ g, n ≤ g → S g = [])
    (gsteps : List (GridStep K)) (ha : MovesAllowed variant refs levels n H D False T gsteps)
    (steps : List (GroupStep K × Scratch K)) (hsteps : List.Forall₂ (SameStep refs) gsteps steps) :
    ∃ s, simulate (refs.map fun r => r.dec.length) P variant maxChunk levels n S steps = some s ∧
      ∀ g < n, List.Forall₂ (HoldsParts refs) (gsteps.foldl (gridStep refs n H D) T g)
        (s.tasks g) := by
  obtain ⟨s, e1, e2⟩ := setUp_sim (H := H) hn h hne htotal hu hS hS0
  obtain ⟨s', e3, fr, e4⟩ := simulation_steps hP hm hsteps ha e2
  refine ⟨s', ?_, e4.hold⟩
  unfold simulate
  rw [e1]
  exact e3

theorem gridStep_refs [Ring K] {refs refs' : List RefDim} (hrefs : oneProcess refs = oneProcess refs')
    (n : ℕ) (H D : List ℕ → (ℕ → K) → ℕ → K) : gridStep refs n H D = gridStep refs' n H D := by
  funext T s
  cases s <;> simp only [gridStep, hrefs]

theorem movesAllowed_refs [Ring K] {refs refs' : List RefDim}
    (hrefs : oneProcess refs = oneProcess refs') (variant : CombinationVariant)
    (levels : List (List ℕ)) (n : ℕ)
    (H D : List ℕ → (ℕ → K) → ℕ → K) (steps : List (GridStep K)) :
    ∀ (fresh : Prop) (T : ℕ → List (K × List ℕ × (ℕ → K))),
      MovesAllowed variant refs levels n H D fresh T steps →
      MovesAllowed variant refs' levels n H D fresh T steps := by
  induction steps with
  | nil => exact fun _ _ _ => trivial
  | cons s steps ih =>
    intro fresh T h
    cases s with
    | run V =>
      unfold MovesAllowed at h ⊢
      rw [← gridStep_refs hrefs]
      exact ih _ _ h
    | combine =>
      unfold MovesAllowed at h ⊢
      rw [← gridStep_refs hrefs]
      exact ih _ _ h
    | move a k b =>
      unfold MovesAllowed at h ⊢
      rw [← gridStep_refs hrefs]
      exact ⟨h.1, ih _ _ h.2⟩

/-- C95: the same simulation on groups of two layouts for the same reference grid ends with processes
that store parts of the same grids. -/
theorem C95_layout_independent_partial [Field K] [CharZero K] (refs refs' : List RefDim)
    (hrefs : oneProcess refs = oneProcess refs') (levels : List (List ℕ))
    (n : ℕ) (hn : n ≤ 256) (T : ℕ → List (K × List ℕ × (ℕ → K))) (h : ValidSystem refs levels n T)
    (h' : ValidSystem refs' levels n T)
    (P : CombineParams) (hP : ParamsOk refs P) (hP' : ParamsOk refs' P)
    (hne : NonEmptyParts refs n T) (hne' : NonEmptyParts refs' n T)
    (htotal : ∀ c, InGroup refs c → (levels.map (subspaceCount (atProcess refs c))).sum < 2 ^ 31)
    (htotal' : ∀ c, InGroup refs' c → (levels.map (subspaceCount (atProcess refs' c))).sum < 2 ^ 31)
    (variant : CombinationVariant) (maxChunk maxChunk' : ℕ)
    (hu : ∀ c, InGroup refs c → Usable (atProcess refs c) n T variant maxChunk)
    (hu' : ∀ c, InGroup refs' c → Usable (atProcess refs' c) n T variant maxChunk')
    (S S' : ℕ → List (GroupTask K)) (hS : ∀ g < n, List.Forall₂ (HoldsParts refs) (T g) (S g))
    (hS' : ∀ g < n, List.Forall₂ (HoldsParts refs') (T g) (S' g))
    (hS0 : ∀ g, n ≤ g → S g = []) (hS0' : ∀ g, n ≤ g → S' g = [])
    (gsteps : List (GridStep K)) (ha : ∀ H D, MovesAllowed variant refs levels n H D False T gsteps)
    (steps steps' : List (GroupStep K × Scratch K))
    (hsteps : List.Forall₂ (SameStep refs) gsteps steps)
    (hsteps' : List.Forall₂ (SameStep refs') gsteps steps') :
    ∃ (T' : ℕ → List (K × List ℕ × (ℕ → K))) (s s' : Simulation K),
      simulate (refs.map fun r => r.dec.length) P variant maxChunk levels n S steps = some s ∧
      simulate (refs'.map fun r => r.dec.length) P variant maxChunk' levels n S' steps' = some s' ∧
      (∀ g < n, List.Forall₂ (HoldsParts refs) (T' g) (s.tasks g)) ∧
      ∀ g < n, List.Forall₂ (HoldsParts refs') (T' g) (s'.tasks g) := by
  have h1 := validSystem_oneProcess h
  obtain ⟨H, D, hm⟩ := compMaps (K := K) h1.ref (serial_oneProcess refs) (paramsOk_oneProcess hP)
  obtain ⟨s, a1, a2⟩ := C95_history_partial refs levels n hn T h P hP hne htotal variant maxChunk hu H D
    (fun L hL => hm L (validComponent_oneProcess.2 hL)) S hS hS0 gsteps (ha H D) steps hsteps
  obtain ⟨s', b1, b2⟩ := C95_history_partial refs' levels n hn T h' P hP' hne' htotal' variant maxChunk'
    hu' H D (fun L hL => by
      rw [← hrefs]
      exact hm L (by rw [hrefs]; exact validComponent_oneProcess.2 hL)) S' hS' hS0' gsteps
    (movesAllowed_refs hrefs _ _ _ _ _ _ _ _ (ha H D)) steps' hsteps'
  refine ⟨_, s, s', a1, b1, a2, ?_⟩
  rw [gridStep_refs hrefs]
  exact b2

/-! ### Solutions that all grids represent exactly -/

/-- A step takes grids with the values of a function of the place to grids with the values of the
function `E f`. -/
def Evolves (refs : List RefDim) : GridStep K → ((List ℕ → K) → List ℕ → K) → Prop
  | .run V, E => ∀ g k t f, ValidComponent refs t.2.1 →
      (∀ p < numLocal refs t.2.1, t.2.2 p = f (spatialOf refs t.2.1 p)) →
      ∀ p < numLocal refs t.2.1, V g k t p = E f (spatialOf refs t.2.1 p)
  | .combine, E => E = id
  | .move _ _ _, E => E = id

theorem coeffAbove_moved [Ring K] {n a k b : ℕ} {T : ℕ → List (K × List ℕ × (ℕ → K))} (ha : a < n)
    (hb : b < n) (hk : k < (T a).length) (l : List ℕ) :
    coeffAbove n (movedGrids a k b T) l = coeffAbove n T l := by
  set x : K := if VecLe l (T a)[k].2.1 then (T a)[k].1 else 0 with hx
  have hpt : ∀ m, ((movedGrids a k b T m).map fun t => if VecLe l t.2.1 then t.1 else 0).sum +
      (if m = a then x else 0) =
        ((T m).map fun t => if VecLe l t.2.1 then t.1 else 0).sum + if m = b then x else 0 := by
    intro m
    unfold movedGrids
    rw [List.map_append, List.sum_append, List.getElem?_eq_getElem hk]
    have e1 : ((if m = a then (T m).eraseIdx k else T m).map
        fun t => if VecLe l t.2.1 then t.1 else 0).sum + (if m = a then x else 0) =
        ((T m).map fun t => if VecLe l t.2.1 then t.1 else 0).sum := by
      by_cases hm : m = a
      · subst hm
        rw [if_pos rfl, if_pos rfl]
        have := ((List.getElem_cons_eraseIdx_perm hk).map
          fun t : K × List ℕ × (ℕ → K) => if VecLe l t.2.1 then t.1 else 0).sum_eq
        rw [← this, List.map_cons, List.sum_cons, add_comm, ← hx]
      · rw [if_neg hm, if_neg hm, add_zero]
    have e2 : ((if m = b then (some (T a)[k]).toList else []).map
        fun t => if VecLe l t.2.1 then t.1 else 0).sum = if m = b then x else 0 := by
      by_cases hm : m = b
      · rw [if_pos hm, if_pos hm]
        simp [hx]
      · rw [if_neg hm, if_neg hm]
        rfl
    rw [e2, add_right_comm, e1]
  have hsum := congrArg List.sum (List.map_congr_left (l := List.range n) fun m _ => hpt m)
  simp only [List.sum_map_add, sum_range_ite, if_pos ha, if_pos hb] at hsum
  exact add_right_cancel hsum

theorem samples_steps [Field K] [CharZero K] {refs : List RefDim} {levels : List (List ℕ)} {n : ℕ}
    (hs : Serial refs) (hone : oneProcess refs = refs)
    {P : CombineParams} (hP : ParamsOk refs P) (hhat : ∀ β ∈ P.bases, β = .hat)
    {H D : List ℕ → (ℕ → K) → ℕ → K}
    (hm : ∀ L, ValidComponent refs L →
      GridMaps (compDims refs P L) (selectedDims P.sel) (H L) (D L))
    {variant : CombinationVariant} {gsteps : List (GridStep K)} {Es : List ((List ℕ → K) → List ℕ → K)}
    (hE : List.Forall₂ (Evolves refs) gsteps Es) :
    ∀ {fresh : Prop} {T : ℕ → List (K × List ℕ × (ℕ → K))} {f : List ℕ → K},
    ValidSystem refs levels n T → Consistent n T → Agrees refs n T f →
    MovesAllowed variant refs levels n H D fresh T gsteps →
    Agrees refs n (gsteps.foldl (gridStep refs n H D) T) (Es.foldl (fun f E => E f) f) := by
  induction hE with
  | nil => exact fun _ _ h _ => h
  | @cons a E gsteps Es hab _ ih =>
    intro fresh T f h hc hf ha
    rw [List.foldl_cons, List.foldl_cons]
    cases a with
    | run V =>
      have hl : ∀ g < n, (gridStep refs n H D T (.run V) g).map (fun t => (t.1, t.2.1)) =
          (T g).map fun t => (t.1, t.2.1) := by
        intro g _
        simp only [gridStep]
        apply List.ext_getElem
        · simp
        · intro i h1 h2
          simp
      refine ih (retask_valid h hl) (retask_consistent hc hl) ?_ ha
      intro g hg t ht p hp
      obtain ⟨i, hi, rfl⟩ := List.mem_mapIdx.1 ht
      exact hab g i _ f (h.comp g hg _ (List.getElem_mem hi))
        (fun q hq => hf g hg _ (List.getElem_mem hi) q hq) p hp
    | combine =>
      have hE : E = id := hab
      subst hE
      have hl : ∀ g < n, (gridStep refs n H D T .combine g).map (fun t => (t.1, t.2.1)) =
          (T g).map fun t => (t.1, t.2.1) := by
        intro g _
        simp only [gridStep, List.map_map]
        rfl
      refine ih (retask_valid h hl) (retask_consistent hc hl) ?_ ha
      obtain ⟨v, hv⟩ := hier_samples h.ref hs hP hhat hm f
      have hv' : Agrees refs n (hierVals H T) v := by
        intro g hg t ht p hp
        obtain ⟨t', ht', rfl⟩ := List.mem_map.1 ht
        exact hv _ (h.comp g hg t' ht') _ (fun q hq => hf g hg t' ht' q hq) p hp
      intro g hg t ht p hp
      simp only [gridStep, hone] at ht
      obtain ⟨t', ht', rfl⟩ := List.mem_map.1 ht
      exact (formula_unchanged h hs hP hc hm hv' hg ht' hp).trans (hf g hg t' ht' p hp)
    | move x k y =>
      have hE : E = id := hab
      subst hE
      obtain ⟨⟨-, -, h1, h2, h3, -⟩, ha⟩ := ha
      refine ih (T := movedGrids x k y T) (h.moved h1 h2 h3) ?_ ?_ ha
      · intro g hg t ht l hl
        obtain ⟨g0, hg0, ht0⟩ := mem_movedGrids h1 hg ht
        rw [coeffAbove_moved h1 h2 h3]
        exact hc g0 hg0 t ht0 l hl
      · intro g hg t ht
        obtain ⟨g0, hg0, ht0⟩ := mem_movedGrids h1 hg ht
        exact hf g0 hg0 t ht0

/-- C95: with hat functions and consistent coefficients, if every solver takes the values of a function
on its grid to the values of the evolved function, then after any number of runs, combinations and moves
all processes of all groups store values of the evolved function: combinations and moves change
nothing. -/
theorem C95_exact_partial [Field K] [CharZero K] (refs : List RefDim) (levels : List (List ℕ))
    (n : ℕ) (hn : n ≤ 256) (T : ℕ → List (K × List ℕ × (ℕ → K))) (h : ValidSystem refs levels n T)
    (P : CombineParams) (hP : ParamsOk refs P) (hhat : ∀ β ∈ P.bases, β = .hat)
    (hne : NonEmptyParts refs n T)
    (htotal : ∀ c, InGroup refs c → (levels.map (subspaceCount (atProcess refs c))).sum < 2 ^ 31)
    (hc : Consistent n T) (f : List ℕ → K) (hf : Agrees (oneProcess refs) n T f)
    (variant : CombinationVariant) (maxChunk : ℕ)
    (hu : ∀ c, InGroup refs c → Usable (atProcess refs c) n T variant maxChunk)
    (S : ℕ → List (GroupTask K)) (hS : ∀ g < n, List.Forall₂ (HoldsParts refs) (T g) (S g))
    (hS0 : ∀ g, n ≤ g → S g = [])
    (gsteps : List (GridStep K)) (ha : ∀ H D, MovesAllowed variant refs levels n H D False T gsteps)
    (steps : List (GroupStep K × Scratch K)) (hsteps : List.Forall₂ (SameStep refs) gsteps steps)
    (Es : List ((List ℕ → K) → List ℕ → K)) (hE : List.Forall₂ (Evolves (oneProcess refs)) gsteps Es) :
    ∃ s, simulate (refs.map fun r => r.dec.length) P variant maxChunk levels n S steps = some s ∧
      ∀ g < n, ∀ t ∈ s.tasks g, ∃ L, ValidComponent refs L ∧ t.dims = compGrid refs L ∧
        ∀ c, InGroup refs c → (t.data c).len = numLocal (atProcess refs c) L ∧
          ∀ q < numLocal (atProcess refs c) L, (t.data c).val q =
            Es.foldl (fun f E => E f) f (spatialOf (oneProcess refs) L (globalOf refs c L q)) := by
  have hs := serial_oneProcess refs
  have hP1 := paramsOk_oneProcess hP
  have h1 := validSystem_oneProcess h
  obtain ⟨H, D, hm⟩ := compMaps (K := K) h1.ref hs hP1
  have h11 : oneProcess (oneProcess refs) = oneProcess refs := by
    simp [oneProcess]
  obtain ⟨s, e1, e2⟩ := setUp_sim (H := H) hn h hne htotal hu hS hS0
  obtain ⟨s', e3, fr, e4⟩ := simulation_steps hP
    (fun L (hL : ValidComponent refs L) => hm L (validComponent_oneProcess.2 hL)) hsteps (ha H D) e2
  have hsamp := samples_steps (T := T) (f := f) hs h11 hP1 hhat hm hE h1 hc hf
    (movesAllowed_refs h11.symm _ _ _ _ _ _ _ _ (ha H D))
  rw [gridStep_refs h11] at hsamp
  refine ⟨s', ?_, fun g hg t ht => ?_⟩
  · unfold simulate
    rw [e1]
    exact e3
  · obtain ⟨i, hi, rfl⟩ := List.getElem_of_mem ht
    have hh := List.forall₂_iff_get.1 (e4.hold g hg)
    have hi' := hi
    rw [← hh.1] at hi'
    obtain ⟨-, b2, b3⟩ := hh.2 i hi' hi
    have hmem := List.get_mem (gsteps.foldl (gridStep refs n H D) T g) ⟨i, hi'⟩
    have hL := e4.valid.comp g hg _ hmem
    refine ⟨_, hL, b2, fun c hc => ⟨(b3 c hc).1, fun q hq => ?_⟩⟩
    exact ((b3 c hc).2 q hq).trans (hsamp g hg _ hmem _ (globalOf_spec h.ref hL hc hq).1)

/-! ### Example and violations -/

/-- The tasks of the two groups of C92, and none beyond. -/
def historyTasks (v : List ℕ → ℚ) (g : ℕ) : List (GroupTask ℚ) := if g < 2 then layoutTasks v g else []

/-- Every process doubles its values. -/
def doubleOnGroup (_ _ : ℕ) (t : GroupTask ℚ) (c : List ℕ) : Buf ℚ :=
  ⟨(t.data c).len, fun q => 2 * (t.data c).val q⟩

/-- All values of a grid are doubled. -/
def doubleOnGrid (_ _ : ℕ) (t : ℚ × List ℕ × (ℕ → ℚ)) (q : ℕ) : ℚ := 2 * t.2.2 q

def noScratch : Scratch ℚ := ⟨fun _ _ _ _ _ _ => 0, fun _ _ _ _ _ _ => 0⟩

/-- the hypotheses of C95 about the steps hold for a history on two groups with two processes each, in
which tasks are moved twice (the other hypotheses are those of C92) -/
example (v : List ℕ → ℚ) :
    (∀ H D, MovesAllowed .sparseGridReduce layoutRefs [[1, 1], [1, 2], [2, 1]] 2 H D False (serialSystem v)
      [.run doubleOnGrid, .combine, .move 0 1 1, .run doubleOnGrid, .combine, .move 1 0 0]) ∧
    List.Forall₂ (SameStep layoutRefs)
      [.run doubleOnGrid, .combine, .move 0 1 1, .run doubleOnGrid, .combine, .move 1 0 0]
      [(.run doubleOnGroup, noScratch), (.combine, noScratch), (.move 0 1 1, noScratch),
        (.run doubleOnGroup, noScratch), (.combine, noScratch), (.move 1 0 0, noScratch)] ∧
    List.Forall₂ (Evolves (oneProcess layoutRefs))
      [.run doubleOnGrid, .combine, .move 0 1 1, .run doubleOnGrid, .combine, .move 1 0 0]
      [fun f z => 2 * f z, id, id, fun f z => 2 * f z, id, id] ∧
    (∀ g < 2, List.Forall₂ (HoldsParts layoutRefs) (serialSystem v g) (historyTasks v g)) ∧
    (∀ g, 2 ≤ g → historyTasks v g = []) := by
  have hsolve : ∀ g k, Solves layoutRefs (doubleOnGrid g k) (doubleOnGroup g k) := by
    intro g k t gt _ h
    refine ⟨h.1, h.2.1, fun c hc => ⟨(h.2.2 c hc).1, fun q hq => ?_⟩⟩
    exact congrArg (2 * ·) ((h.2.2 c hc).2 q hq)
  have hevolve : Evolves (oneProcess layoutRefs) (.run doubleOnGrid) fun f z => 2 * f z := by
    intro g k t f _ h p hp
    exact congrArg (2 * ·) (h p hp)
  refine ⟨fun H D => ⟨⟨trivial, rfl, by decide, by decide, by simp [gridStep, serialSystem], by
      simp [gridStep, serialSystem]; decide +kernel⟩,
    ⟨trivial, rfl, by decide, by decide, by simp [gridStep, serialSystem], by
      simp [gridStep, serialSystem]; decide +kernel⟩, trivial⟩,
    .cons hsolve (.cons trivial (.cons ⟨rfl, rfl, rfl⟩ (.cons hsolve (.cons trivial
      (.cons ⟨rfl, rfl, rfl⟩ .nil))))),
    .cons hevolve (.cons rfl (.cons rfl (.cons hevolve (.cons rfl (.cons rfl .nil))))), ?_, ?_⟩
  · intro g hg
    unfold historyTasks layoutTasks
    rw [if_pos hg, List.forall₂_map_right_iff]
    exact List.forall₂_same.2 fun t _ => ⟨rfl, rfl, fun c _ => ⟨rfl, fun _ _ => rfl⟩⟩
  · intro g hg
    exact if_neg (by omega)

/-- One dimension with five points, on two processes. -/
def splitRefs : List RefDim := [⟨2, 2, [0, 3], 0⟩]

/-- A fine grid on the first group and a coarse one on the second, both on two processes. -/
def splitTasks (g : ℕ) : List (GroupTask ℚ) :=
  if g = 0 then [⟨1, compGrid splitRefs [2], fun c =>
    if c = [0] then ⟨3, fun q => [1, 5, 2].getD q 0⟩ else ⟨2, fun q => [7, 3].getD q 0⟩⟩]
  else if g = 1 then [⟨0, compGrid splitRefs [1], fun c =>
    if c = [0] then ⟨2, fun q => [1, 2].getD q 0⟩ else ⟨1, fun q => [3].getD q 0⟩⟩] else []

/-- The values on the processes of two groups. -/
def partValues (s : Simulation ℚ) : List (List (List (List ℚ))) :=
  (List.range 2).map fun g => (s.tasks g).map fun t => [[0], [1]].map fun c =>
    (List.range (t.data c).len).map (t.data c).val

/-- C95 is violated by variants where a group has only the subspaces of the tasks it had at
initialisation: after a move the processes of the new group have lost the values at the points of the
other subspaces and store interpolated ones (3/2 for 5 and 5/2 for 7). With the variant in which all
groups have everything the values are kept. -/
theorem C95_violated :
    (simulate [2] ⟨[2], [true], [.hat], [1]⟩ .sparseGridReduce 5 [[1], [2]] 2 splitTasks
      [(.combine, noScratch), (.move 0 0 1, noScratch)]).map partValues =
      some [[], [[[1, 2], [3]], [[1, 5, 2], [7, 3]]]] ∧
    (simulate [2] ⟨[2], [true], [.hat], [1]⟩ .subspaceReduce 5 [[1], [2]] 2 splitTasks
      [(.combine, noScratch), (.move 0 0 1, noScratch)]).map partValues =
      some [[], [[[1, 2], [3]], [[1, 3 / 2, 2], [5 / 2, 3]]]] := by
  refine ⟨by decide +kernel, by decide +kernel⟩

/-- C95 is violated if a task is moved after it has run: it goes back to the last combination. -/
theorem C95_run_violated :
    (simulate [2] ⟨[2], [true], [.hat], [1]⟩ .sparseGridReduce 5 [[1], [2]] 2 splitTasks
      [(.combine, noScratch), (.run doubleOnGroup, noScratch), (.move 0 0 1, noScratch)]).map
        partValues = some [[], [[[2, 4], [6]], [[1, 5, 2], [7, 3]]]] := by
  decide +kernel

end Verif

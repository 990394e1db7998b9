import Verif.Lemmas.ThirdLevelHistory
import Verif.Props.DistributedHistory
import Verif.Props.SystemAtOnce

/-!
# C103: a whole simulation of two systems with a third-level manager

Two systems, each with process groups of several processes and a process manager, connect to the third-level
manager, agree on the sizes of the subspaces, then run their tasks and combine with each other any number of
times, and log off. The claim: whatever the order in which the two systems and the third-level manager take
their steps, everything comes to an end, and then all processes of both systems store parts of grids that are
described without processes, messages, sparse grids and hierarchical values.
-/

namespace Verif

variable {K : Type}

/-- A step on the whole component grids of two systems. A run is a run of one system, which computes any new
values from the old ones; a combination is a combination of both. -/
inductive SystemsStep (K : Type)
  | run (s : Bool) (V : ℕ → ℕ → K × List ℕ × (ℕ → K) → ℕ → K)
  | combine

/-- A step on the grids (coefficient, level, nodal values) of the groups of two systems. `H` and `D` are the
hierarchization and dehierarchization of grids of a level. -/
def systemsStep [Ring K] (refs : List RefDim) (n : ℕ → ℕ) (H D : List ℕ → (ℕ → K) → ℕ → K)
    (T : ℕ → ℕ → List (K × List ℕ × (ℕ → K))) : SystemsStep K → ℕ → ℕ → List (K × List ℕ × (ℕ → K))
  | .run s V => fun s' g =>
      if s' = s.toNat then (T s' g).mapIdx fun k t => (t.1, t.2.1, V g k t) else T s' g
  | .combine => fun s' g => (T s' g).map fun t => (t.1, t.2.1, D t.2.1 fun q =>
      valueOfSystems (oneProcess refs) 2 n
        (fun s m => (T s m).map fun u => (u.1, u.2.1, H u.2.1 u.2.2))
        (spatialOf (oneProcess refs) t.2.1 q))

/-- The steps of the processes of system `s` are those of the history: its own runs and all combinations. The
systems may run differently often between two combinations. -/
inductive SameSteps (refs : List RefDim) (s : Bool) :
    List (SystemsStep K) → List (LinkStep K × Scratch K) → Prop
  | nil : SameSteps refs s [] []
  | run {V solve junk gsteps steps} (h : ∀ g k, Solves refs (V g k) (solve g k))
      (t : SameSteps refs s gsteps steps) :
      SameSteps refs s (.run s V :: gsteps) ((.run solve, junk) :: steps)
  | other {V gsteps steps} (t : SameSteps refs s gsteps steps) :
      SameSteps refs s (.run (!s) V :: gsteps) steps
  | combine {junk gsteps steps} (t : SameSteps refs s gsteps steps) :
      SameSteps refs s (.combine :: gsteps) ((.combine, junk) :: steps)

/-- Both systems have logged off with the results `sims`, the third-level manager has left its loop, and no
message is left. -/
def LoggedOff {R : Type} (sims : Bool → R) (x : TLState K R) : Prop :=
  x.sys = (fun s => .done (sims s)) ∧ x.mgr = .loop [] ∧ (∀ s, x.up s = []) ∧ ∀ s, x.down s = []

/-! ### Proof -/

theorem systemsStep_levels [Ring K] (refs : List RefDim) (n : ℕ → ℕ) (H D : List ℕ → (ℕ → K) → ℕ → K)
    (T : ℕ → ℕ → List (K × List ℕ × (ℕ → K))) (a : SystemsStep K) (s g : ℕ) :
    (systemsStep refs n H D T a s g).map (fun t => (t.1, t.2.1)) =
      (T s g).map fun t => (t.1, t.2.1) := by
  cases a with
  | run s0 V =>
    simp only [systemsStep]
    split
    · apply List.ext_getElem
      · simp
      · intro i h1 h2
        simp
    · rfl
  | combine =>
    simp only [systemsStep, List.map_map]
    rfl

section

variable [Field K] [CharZero K] {refs : List RefDim} {prm : CombineParams} {levels : List (List ℕ)}
  {n o : ℕ → ℕ} {maxChunk sz cap : ℕ} {hasExtra : Bool} {H D : List ℕ → (ℕ → K) → ℕ → K}

omit [CharZero K] in
/-- A run of one system. -/
theorem link_run {T : ℕ → ℕ → List (K × List ℕ × (ℕ → K))} {sims : Bool → LinkSim K}
    (h : LinkInv hasExtra refs levels n T sims) {s0 : Bool} {V : ℕ → ℕ → K × List ℕ × (ℕ → K) → ℕ → K}
    {solve : ℕ → ℕ → GroupTask K → List ℕ → Buf K} (hs : ∀ g k, Solves refs (V g k) (solve g k)) :
    LinkInv hasExtra refs levels n (systemsStep refs n H D T (.run s0 V))
      (Function.update sims s0 ((sims s0).run solve)) := by
  refine h.change (fun s _ g _ => systemsStep_levels refs n H D T _ s g) ?_ ?_ ?_
  · intro s g hg
    by_cases e : s = s0
    · subst e
      rw [Function.update_self]
      have hh := List.forall₂_iff_get.1 (h.hold s g hg)
      refine forall₂_of_getElem (by simpa [systemsStep, LinkSim.run] using hh.1) ?_
      intro i h1 h2
      have h1' : i < (T s.toNat g).length := by simpa [systemsStep] using h1
      have h2' : i < ((sims s).tasks g).length := by simpa [LinkSim.run] using h2
      have := hs g i _ _ ((h.valid.each _ (Bool.toNat_lt s)).comp g hg _ (List.getElem_mem h1'))
        (hh.2 i h1' h2')
      simpa [systemsStep, LinkSim.run] using this
    · rw [Function.update_of_ne e]
      have : s.toNat ≠ s0.toNat := fun hc => e (by rw [← sysOf_toNat s, hc, sysOf_toNat])
      simp only [systemsStep, if_neg this]
      exact h.hold s g hg
  · obtain ⟨st, e⟩ := h.states
    refine ⟨st, fun s => ⟨?_, (e s).2⟩⟩
    rw [← (e s).1]
    by_cases e : s = s0
    · subst e
      rw [Function.update_self]
      rfl
    · rw [Function.update_of_ne e]
  · intro s
    by_cases e : s = s0
    · subst e
      rw [Function.update_self]
      rfl
    · rw [Function.update_of_ne e]

theorem link_history (hcap : 0 < cap) (hsz : 0 < sz) (hP : ParamsOk refs prm)
    (hm : ∀ L, ValidComponent refs L →
      GridMaps (compDims (oneProcess refs) prm L) (selectedDims prm.sel) (H L) (D L))
    (ho : ∀ s < 2, o s < n s) (hpos : 0 < maxChunk) (hmax : maxChunk < 2 ^ 31)
    (htotal : ∀ c, InGroup refs c → (levels.map (subspaceCount (atProcess refs c))).sum < 2 ^ 31 - 1)
    (gsteps : List (SystemsStep K)) :
    ∀ {steps : Bool → List (LinkStep K × Scratch K)}, (∀ s, SameSteps refs s gsteps (steps s)) →
    ∀ {T : ℕ → ℕ → List (K × List ℕ × (ℕ → K))} {sims : Bool → LinkSim K},
    (∀ c, InGroup refs c → 0 < linkCount refs hasExtra levels n T c) →
    LinkInv hasExtra refs levels n T sims →
    Inevitable (TLStep cap sz) (fun x => ∃ sims', LoggedOff sims' x ∧
        LinkInv hasExtra refs levels n (gsteps.foldl (systemsStep refs n H D) T) sims')
      ⟨fun s => linkSteps (linkSetting refs prm hasExtra maxChunk levels n o sz s) (steps s) (sims s),
        .loop [false, true], fun _ => [], fun _ => []⟩ := by
  induction gsteps with
  | nil =>
    intro steps hsteps T sims hsome h
    have e : ∀ s, steps s = [] := fun s => by
      have := hsteps s
      revert this
      generalize steps s = l
      intro this
      cases this
      rfl
    simp only [e, linkSteps]
    exact tl_finish hcap sims ⟨sims, ⟨rfl, rfl, fun _ => rfl, fun _ => rfl⟩, h⟩
  | cons a gsteps ih =>
    intro steps hsteps T sims hsome h
    rw [List.foldl_cons]
    have hsome' : ∀ c, InGroup refs c →
        0 < linkCount refs hasExtra levels n (systemsStep refs n H D T a) c := by
      intro c hc
      have := hsome c hc
      unfold linkCount at this ⊢
      rwa [linkO_congr (T := T) fun s _ g _ => systemsStep_levels refs n H D T a s g]
    cases a with
    | run s0 V =>
      have e0 : ∃ solve junk rest, steps s0 = (.run solve, junk) :: rest ∧
          (∀ g k, Solves refs (V g k) (solve g k)) ∧ SameSteps refs s0 gsteps rest := by
        have := hsteps s0
        revert this
        generalize steps s0 = l
        intro this
        generalize hx : SystemsStep.run s0 V = x at this
        cases this with
        | run h t =>
          cases hx
          exact ⟨_, _, _, rfl, h, t⟩
        | other t =>
          exfalso
          injection hx with h1 h2
          cases s0 <;> simp at h1
        | combine t => cases hx
      obtain ⟨solve, junk, rest, e1, e2, e3⟩ := e0
      have e4 : SameSteps refs (!s0) gsteps (steps (!s0)) := by
        have := hsteps (!s0)
        revert this
        generalize steps (!s0) = l
        intro this
        generalize hx : SystemsStep.run s0 V = x at this
        cases this with
        | run h t =>
          exfalso
          injection hx with h1 h2
          cases s0 <;> simp at h1
        | other t => exact t
        | combine t => cases hx
      have key := ih (steps := Function.update steps s0 rest) (by
        intro s
        by_cases e : s = s0
        · subst e
          rwa [Function.update_self]
        · rw [Function.update_of_ne e]
          have : s = !s0 := by cases s <;> cases s0 <;> simp_all
          rw [this]
          exact e4) hsome' (link_run (H := H) (D := D) h (s0 := s0) e2)
      have hsame : (fun s => linkSteps (linkSetting refs prm hasExtra maxChunk levels n o sz s) (steps s)
            (sims s)) =
          fun s => linkSteps (linkSetting refs prm hasExtra maxChunk levels n o sz s)
            (Function.update steps s0 rest s) (Function.update sims s0 ((sims s0).run solve) s) := by
        funext s
        by_cases e : s = s0
        · subst e
          rw [Function.update_self, Function.update_self, e1]
          rfl
        · rw [Function.update_of_ne e, Function.update_of_ne e]
      rw [hsame]
      exact key
    | combine =>
      have e0 : ∀ s, ∃ junk rest, steps s = (.combine, junk) :: rest ∧ SameSteps refs s gsteps rest := by
        intro s
        have := hsteps s
        revert this
        generalize steps s = l
        intro this
        cases this with
        | combine t => exact ⟨_, _, rfl, t⟩
      choose junk rest e1 e2 using e0
      simp only [e1, linkSteps]
      refine link_combine hcap hsz hP hm ho hpos hmax htotal hsome h junk
        (fun s => linkSteps (linkSetting refs prm hasExtra maxChunk levels n o sz s) (rest s)) ?_
      intro sims' h'
      exact ih e2 hsome' h'

/-- The whole program. -/
theorem link_simulation (hcap : 0 < cap) (hsz : 0 < sz) (hP : ParamsOk refs prm)
    (hm : ∀ L, ValidComponent refs L →
      GridMaps (compDims (oneProcess refs) prm L) (selectedDims prm.sel) (H L) (D L))
    (ho : ∀ s < 2, o s < n s) (hpos : 0 < maxChunk) (hmax : maxChunk < 2 ^ 31)
    {T : ℕ → ℕ → List (K × List ℕ × (ℕ → K))} (h : ValidSystems refs levels 2 n T)
    (hne : ∀ s < 2, NonEmptyParts refs (n s) (T s)) (htask : ∀ s < 2, ∃ g < n s, T s g ≠ [])
    (htotal : ∀ c, InGroup refs c → (levels.map (subspaceCount (atProcess refs c))).sum < 2 ^ 31 - 1)
    (hall : ((groupProcesses (refs.map fun r => r.dec.length)).map fun c =>
      (levels.map (subspaceCount (atProcess refs c))).sum).sum < 2 ^ 31)
    {S : Bool → ℕ → List (GroupTask K)}
    (hS : ∀ s : Bool, ∀ g < n s.toNat, List.Forall₂ (HoldsParts refs) (T s.toNat g) (S s g))
    (hS0 : ∀ s : Bool, ∀ g, n s.toNat ≤ g → S s g = []) (gsteps : List (SystemsStep K))
    {steps : Bool → List (LinkStep K × Scratch K)} (hsteps : ∀ s, SameSteps refs s gsteps (steps s)) :
    Inevitable (TLStep cap sz) (fun x => ∃ sims', LoggedOff sims' x ∧
        LinkInv hasExtra refs levels n (gsteps.foldl (systemsStep refs n H D) T) sims')
      ⟨fun s => linkSetup (linkSetting refs prm hasExtra maxChunk levels n o sz s) (S s)
          (linkSteps (linkSetting refs prm hasExtra maxChunk levels n o sz s) (steps s)),
        .loop [false, true], fun _ => [], fun _ => []⟩ := by
  have hconj := systems_share h hne htask
  refine link_setup hcap h ho hne hconj htotal hall hS hS0
    (fun s => linkSteps (linkSetting refs prm hasExtra maxChunk levels n o sz s) (steps s)) ?_
  intro sims hi
  refine link_history hcap hsz hP hm ho hpos hmax htotal gsteps hsteps (fun c hc => ?_) hi
  exact (position_setup (validSystems_atProcess h hc) ho (hconj c hc) (htotal c hc)
    (show 0 < 2 by omega)).1

end

/-! ### The property -/

/-- **C103** (partial: variant `sparseGridReduce`, sums of sizes in the range of `int`, tasks stay where they
are; `C86_violated` and `C102_violated` show the other variants). Two systems with any numbers of groups and
processes set up their sparse grids, agree on sizes over the third-level manager, with or without extra sparse
grids, and then run and combine any number of times. In every order of the steps of the systems and the
third-level manager both log off, no message is left, and every process of both systems stores its part of the
grids that follow from the solvers and the combination formula over both systems alone. -/
theorem C103_history_partial [Field K] [CharZero K] (refs : List RefDim) (levels : List (List ℕ))
    (n o : ℕ → ℕ) (T : ℕ → ℕ → List (K × List ℕ × (ℕ → K))) (h : ValidSystems refs levels 2 n T)
    (P : CombineParams) (hP : ParamsOk refs P) (hne : ∀ s < 2, NonEmptyParts refs (n s) (T s))
    (ho : ∀ s < 2, o s < n s) (htask : ∀ s < 2, ∃ g < n s, T s g ≠ [])
    (htotal : ∀ c, InGroup refs c → (levels.map (subspaceCount (atProcess refs c))).sum < 2 ^ 31 - 1)
    (hall : ((groupProcesses (refs.map fun r => r.dec.length)).map fun c =>
      (levels.map (subspaceCount (atProcess refs c))).sum).sum < 2 ^ 31)
    (hasExtra : Bool) (maxChunk : ℕ) (hpos : 0 < maxChunk) (hmax : maxChunk < 2 ^ 31)
    (cap : ℕ) (hcap : 0 < cap) (bytes : ℕ) (hbytes : 0 < bytes)
    (H D : List ℕ → (ℕ → K) → ℕ → K)
    (hm : ∀ L, ValidComponent refs L →
      GridMaps (compDims (oneProcess refs) P L) (selectedDims P.sel) (H L) (D L))
    (S : Bool → ℕ → List (GroupTask K))
    (hS : ∀ s : Bool, ∀ g < n s.toNat, List.Forall₂ (HoldsParts refs) (T s.toNat g) (S s g))
    (hS0 : ∀ s : Bool, ∀ g, n s.toNat ≤ g → S s g = []) (gsteps : List (SystemsStep K))
    (steps : Bool → List (LinkStep K × Scratch K)) (hsteps : ∀ s, SameSteps refs s gsteps (steps s)) :
    Inevitable (TLStep cap bytes)
      (fun x => ∃ sims : Bool → LinkSim K, LoggedOff sims x ∧
        ∀ s : Bool, ∀ g < n s.toNat, List.Forall₂ (HoldsParts refs)
          (gsteps.foldl (systemsStep refs n H D) T s.toNat g) ((sims s).tasks g))
      (linkStartState (fun s => ⟨refs.map fun r => r.dec.length, P, .sparseGridReduce, hasExtra, maxChunk,
        levels, n s.toNat, o s.toNat, bytes⟩) bytes S steps) := by
  refine (link_simulation (prm := P) (maxChunk := maxChunk) (hasExtra := hasExtra) hcap hbytes hP hm ho hpos
    hmax h hne htask htotal hall hS hS0 gsteps hsteps).mono ?_
  rintro x ⟨sims, h1, h2⟩
  exact ⟨sims, h1, h2.hold⟩

/-! ### Solutions that all grids represent exactly -/

/-- A history takes component grids that hold values of the functions `f s` of the place, `s` being the system,
to grids with values of `f' s`. The systems combine only if their functions are the same. -/
inductive Follows (refs : List RefDim) :
    List (SystemsStep K) → (Bool → List ℕ → K) → (Bool → List ℕ → K) → Prop
  | nil {f} : Follows refs [] f f
  | run {s V gsteps f f'} (f1 : List ℕ → K)
      (h : ∀ g k t, ValidComponent refs t.2.1 →
        (∀ p < numLocal refs t.2.1, t.2.2 p = f s (spatialOf refs t.2.1 p)) →
        ∀ p < numLocal refs t.2.1, V g k t p = f1 (spatialOf refs t.2.1 p))
      (t : Follows refs gsteps (Function.update f s f1) f') : Follows refs (.run s V :: gsteps) f f'
  | combine {gsteps f f'} (h : f false = f true) (t : Follows refs gsteps f f') :
      Follows refs (.combine :: gsteps) f f'

theorem follows_steps [Field K] [CharZero K] {refs : List RefDim} {levels : List (List ℕ)} {n : ℕ → ℕ}
    {P : CombineParams} (hP : ParamsOk refs P) (hhat : ∀ β ∈ P.bases, β = .hat)
    {H D : List ℕ → (ℕ → K) → ℕ → K}
    (hm : ∀ L, ValidComponent (oneProcess refs) L →
      GridMaps (compDims (oneProcess refs) P L) (selectedDims P.sel) (H L) (D L))
    {gsteps : List (SystemsStep K)} {f f' : Bool → List ℕ → K}
    (hE : Follows (oneProcess refs) gsteps f f') :
    ∀ {T : ℕ → ℕ → List (K × List ℕ × (ℕ → K))}, ValidSystems refs levels 2 n T →
    Consistent 1 (fun _ => allTasks 2 n T) →
    (∀ s : Bool, Agrees (oneProcess refs) (n s.toNat) (T s.toNat) (f s)) →
    ∀ s : Bool, Agrees (oneProcess refs) (n s.toNat)
      (gsteps.foldl (systemsStep refs n H D) T s.toNat) (f' s) := by
  have hs1 := serial_oneProcess refs
  have hP1 := paramsOk_oneProcess hP
  have hcons : ∀ {T T' : ℕ → ℕ → List (K × List ℕ × (ℕ → K))},
      (∀ s g, (T' s g).map (fun t => (t.1, t.2.1)) = (T s g).map fun t => (t.1, t.2.1)) →
      Consistent 1 (fun _ => allTasks 2 n T) → Consistent 1 (fun _ => allTasks 2 n T') := by
    intro T T' hl hc
    refine retask_consistent hc fun _ _ => ?_
    unfold allTasks
    simp only [List.map_flatMap]
    exact List.flatMap_congr fun s _ => List.flatMap_congr fun g _ => hl s g
  induction hE with
  | nil => exact fun _ _ h => h
  | @run s0 V gsteps f f' f1 hV _ ih =>
    intro T h hc hf
    rw [List.foldl_cons]
    refine ih (retask_systems h fun s _ g _ => systemsStep_levels refs n H D T _ s g)
      (hcons (fun s g => systemsStep_levels refs n H D T _ s g) hc) ?_
    intro s g hg t ht p hp
    by_cases e : s = s0
    · subst e
      rw [Function.update_self]
      simp only [systemsStep, if_true] at ht
      obtain ⟨i, hi, rfl⟩ := List.mem_mapIdx.1 ht
      exact hV g i _ (validComponent_oneProcess.2
          ((h.each _ (Bool.toNat_lt s)).comp g hg _ (List.getElem_mem hi)))
        (fun q hq => hf s g hg _ (List.getElem_mem hi) q hq) p hp
    · rw [Function.update_of_ne e]
      have : s.toNat ≠ s0.toNat := fun hc => e (by rw [← sysOf_toNat s, hc, sysOf_toNat])
      simp only [systemsStep, if_neg this] at ht
      exact hf s g hg t ht p hp
  | @combine gsteps f f' hff _ ih =>
    intro T h hc hf
    rw [List.foldl_cons]
    refine ih (retask_systems h fun s _ g _ => systemsStep_levels refs n H D T _ s g)
      (hcons (fun s g => systemsStep_levels refs n H D T _ s g) hc) ?_
    have hr1 := (validSystem_oneProcess (h.each 0 (by omega))).ref
    obtain ⟨v, hv⟩ := hier_samples hr1 hs1 hP1 hhat hm (f false)
    have hsame : ∀ s : Bool, f s = f false := by
      intro s
      cases s
      · rfl
      · exact hff.symm
    have hv' : ∀ s < 2, Agrees (oneProcess refs) (n s) (hierVals H (T s)) v := by
      intro s hs g hg t ht p hp
      obtain ⟨t', ht', rfl⟩ := List.mem_map.1 ht
      refine hv _ (validComponent_oneProcess.2 ((h.each s hs).comp g hg t' ht')) _ (fun q hq => ?_) p hp
      have := hf (sysOf s)
      rw [toNat_sysOf hs, hsame] at this
      exact this g hg t' ht' q hq
    intro s g hg t ht p hp
    obtain ⟨t', ht', rfl⟩ := List.mem_map.1 ht
    exact (systems_unchanged (show 0 < 2 by omega) h hP hc hm hv' (Bool.toNat_lt s) hg ht' hp).trans
      (hf s g hg t' ht' p hp)

/-- **C103** (partial: as above). With hat functions and coefficients that are consistent over both systems, if
every solver takes the values of a function on its grid to the values of the evolved function, and both systems
have the same function whenever they combine, then at the end all processes of both systems store values of the
evolved functions: combinations change nothing. -/
theorem C103_exact_partial [Field K] [CharZero K] (refs : List RefDim) (levels : List (List ℕ))
    (n o : ℕ → ℕ) (T : ℕ → ℕ → List (K × List ℕ × (ℕ → K))) (h : ValidSystems refs levels 2 n T)
    (P : CombineParams) (hP : ParamsOk refs P) (hhat : ∀ β ∈ P.bases, β = .hat)
    (hne : ∀ s < 2, NonEmptyParts refs (n s) (T s))
    (ho : ∀ s < 2, o s < n s) (htask : ∀ s < 2, ∃ g < n s, T s g ≠ [])
    (htotal : ∀ c, InGroup refs c → (levels.map (subspaceCount (atProcess refs c))).sum < 2 ^ 31 - 1)
    (hall : ((groupProcesses (refs.map fun r => r.dec.length)).map fun c =>
      (levels.map (subspaceCount (atProcess refs c))).sum).sum < 2 ^ 31)
    (hc : Consistent 1 fun _ => (List.range 2).flatMap fun s => (List.range (n s)).flatMap (T s))
    (hasExtra : Bool) (maxChunk : ℕ) (hpos : 0 < maxChunk) (hmax : maxChunk < 2 ^ 31)
    (cap : ℕ) (hcap : 0 < cap) (bytes : ℕ) (hbytes : 0 < bytes)
    (S : Bool → ℕ → List (GroupTask K))
    (hS : ∀ s : Bool, ∀ g < n s.toNat, List.Forall₂ (HoldsParts refs) (T s.toNat g) (S s g))
    (hS0 : ∀ s : Bool, ∀ g, n s.toNat ≤ g → S s g = []) (gsteps : List (SystemsStep K))
    (steps : Bool → List (LinkStep K × Scratch K)) (hsteps : ∀ s, SameSteps refs s gsteps (steps s))
    (f f' : Bool → List ℕ → K)
    (hf : ∀ s : Bool, Agrees (oneProcess refs) (n s.toNat) (T s.toNat) (f s))
    (hE : Follows (oneProcess refs) gsteps f f') :
    Inevitable (TLStep cap bytes)
      (fun x => ∃ sims : Bool → LinkSim K, LoggedOff sims x ∧
        ∀ s : Bool, ∀ g < n s.toNat, List.Forall₂ (fun t gt =>
            HoldsParts refs (t.1, t.2.1, fun q => f' s (spatialOf (oneProcess refs) t.2.1 q)) gt)
          (T s.toNat g) ((sims s).tasks g))
      (linkStartState (fun s => ⟨refs.map fun r => r.dec.length, P, .sparseGridReduce, hasExtra, maxChunk,
        levels, n s.toNat, o s.toNat, bytes⟩) bytes S steps) := by
  have hs1 := serial_oneProcess refs
  obtain ⟨H, D, hm⟩ := compMaps (K := K) (validSystem_oneProcess (h.each 0 (by omega))).ref hs1
    (paramsOk_oneProcess hP)
  refine (link_simulation (prm := P) (maxChunk := maxChunk) (hasExtra := hasExtra) hcap hbytes hP
    (fun L hL => hm L (validComponent_oneProcess.2 hL)) ho hpos hmax h hne htask htotal hall hS hS0 gsteps
    hsteps).mono ?_
  rintro x ⟨sims, h1, h2⟩
  refine ⟨sims, h1, fun s g hg => ?_⟩
  have hfin := follows_steps hP hhat hm hE h hc hf s
  have hlev : (gsteps.foldl (systemsStep refs n H D) T s.toNat g).map (fun t => (t.1, t.2.1)) =
      (T s.toNat g).map fun t => (t.1, t.2.1) := by
    clear h2 hfin hE hsteps hc hf hS h hne htask
    induction gsteps generalizing T with
    | nil => rfl
    | cons a gsteps ih =>
      rw [List.foldl_cons, ih, systemsStep_levels]
  have hh := h2.hold s g hg
  have hlen : (gsteps.foldl (systemsStep refs n H D) T s.toNat g).length = (T s.toNat g).length := by
    simpa using congrArg List.length hlev
  rw [List.forall₂_iff_get] at hh ⊢
  refine ⟨hlen ▸ hh.1, fun i h3 h4 => ?_⟩
  have h3' : i < (gsteps.foldl (systemsStep refs n H D) T s.toNat g).length := by omega
  have e : ((gsteps.foldl (systemsStep refs n H D) T s.toNat g)[i].1,
      (gsteps.foldl (systemsStep refs n H D) T s.toNat g)[i].2.1) =
      ((T s.toNat g)[i].1, (T s.toNat g)[i].2.1) := by
    have e1 := List.getElem_of_eq hlev (i := i) (by simpa using h3')
    simpa using e1
  have e2 := congrArg Prod.fst e
  have e3 := congrArg Prod.snd e
  simp only at e2 e3
  have hmem := List.get_mem (gsteps.foldl (systemsStep refs n H D) T s.toNat g) ⟨i, h3'⟩
  refine holdsParts_congr (h.each _ (Bool.toNat_lt s)).ref (hh.2 i h3' h4) e2 e3 ?_ fun q hq => ?_
  · exact (h2.valid.each _ (Bool.toNat_lt s)).comp g hg _ hmem
  · have := hfin g hg _ hmem q hq
    simp only [List.get_eq_getElem] at this ⊢
    rw [this, e3]

/-! ### The hypotheses can be met -/

/-- The tasks of the two systems of C102, one group each. -/
def linkTasks (v : List ℕ → ℚ) (s : Bool) (g : ℕ) : List (GroupTask ℚ) :=
  if g < 1 then layoutTasks v s.toNat else []

/-- Both systems double their values, combine, and the second system doubles its values twice more. -/
def linkHistory : List (SystemsStep ℚ) :=
  [.run false doubleOnGrid, .run true doubleOnGrid, .combine, .run true doubleOnGrid, .run true doubleOnGrid]

/-- What the processes of the systems do. -/
def linkHistoryOf (s : Bool) : List (LinkStep ℚ × Scratch ℚ) :=
  [(.run doubleOnGroup, noScratch), (.combine, noScratch)] ++
    if s = true then [(.run doubleOnGroup, noScratch), (.run doubleOnGroup, noScratch)] else []

/-- The hypotheses of C103 hold for two systems with one group of two processes each (see also the example of
C102, where hypotheses about the same systems are shown). -/
example (v : List ℕ → ℚ) :
    ValidSystems layoutRefs [[1, 1], [1, 2], [2, 1]] 2 (fun _ => 1) (twoSystems v) ∧
    (∀ s < 2, NonEmptyParts layoutRefs 1 (twoSystems v s)) ∧
    (∀ s < 2, ∃ g < 1, twoSystems v s g ≠ []) ∧
    (∀ c, InGroup layoutRefs c →
      (([[1, 1], [1, 2], [2, 1]] : List (List ℕ)).map (subspaceCount (atProcess layoutRefs c))).sum <
        2 ^ 31 - 1) ∧
    ((groupProcesses (layoutRefs.map fun r => r.dec.length)).map fun c =>
      (([[1, 1], [1, 2], [2, 1]] : List (List ℕ)).map
        (subspaceCount (atProcess layoutRefs c))).sum).sum < 2 ^ 31 ∧
    (∀ s : Bool, ∀ g < 1, List.Forall₂ (HoldsParts layoutRefs) (twoSystems v s.toNat g)
      (linkTasks v s g)) ∧
    (∀ s : Bool, ∀ g, 1 ≤ g → linkTasks v s g = []) ∧
    (∀ s, SameSteps layoutRefs s linkHistory (linkHistoryOf s)) ∧
    (∀ s : Bool, Agrees (oneProcess layoutRefs) 1 (twoSystems v s.toNat) v) ∧
    Follows (oneProcess layoutRefs) linkHistory (fun _ => v)
      (fun s p => if s = true then 8 * v p else 2 * v p) := by
  have hdouble : ∀ g k, Solves layoutRefs (doubleOnGrid g k) (doubleOnGroup g k) := by
    intro g k t gt _ h
    refine ⟨h.1, h.2.1, fun c hc => ⟨(h.2.2 c hc).1, fun q hq => ?_⟩⟩
    simp only [doubleOnGroup, doubleOnGrid]
    rw [(h.2.2 c hc).2 q hq]
  refine ⟨twoSystems_valid v, ?_, ?_, ?_, ?_, ?_, ?_, ?_, ?_, ?_⟩
  · intro s hs g _ t ht
    exact layoutRefs_nonEmpty v s hs t ht
  · intro s hs
    refine ⟨0, by decide, ?_⟩
    unfold twoSystems serialSystem
    split <;> simp
  · intro c hc
    rcases layoutRefs_group hc with rfl | rfl <;> decide +kernel
  · decide +kernel
  · intro s g hg
    unfold linkTasks layoutTasks twoSystems
    rw [if_pos hg, List.forall₂_map_right_iff]
    exact List.forall₂_same.2 fun t _ => ⟨rfl, rfl, fun c _ => ⟨rfl, fun _ _ => rfl⟩⟩
  · intro s g hg
    unfold linkTasks
    rw [if_neg (by omega)]
  · intro s
    cases s
    · exact .run hdouble (.other (.combine (.other (.other .nil))))
    · exact .other (.run hdouble (.combine (.run hdouble (.run hdouble .nil))))
  · intro s g _ t ht p _
    exact (serialSystem_mem ht).2 p
  · refine .run (fun p => 2 * v p) ?_ (.run (fun p => 2 * v p) ?_ (.combine ?_ (.run (fun p => 4 * v p) ?_
      (.run (fun p => 8 * v p) ?_ ?_))))
    · intro g k t _ h p hp
      simp only [doubleOnGrid, h p hp]
    · intro g k t _ h p hp
      simp only [doubleOnGrid, h p hp]
      simp
    · simp
    · intro g k t _ h p hp
      simp only [doubleOnGrid, h p hp]
      simp
      ring
    · intro g k t _ h p hp
      simp only [doubleOnGrid, h p hp]
      simp
      ring
    · have : (fun (s : Bool) (p : List ℕ) => if s = true then 8 * v p else 2 * v p) =
          Function.update (Function.update (Function.update (Function.update (fun _ => v) false
            fun p => 2 * v p) true fun p => 2 * v p) true fun p => 4 * v p) true fun p => 8 * v p := by
        funext s p
        cases s <;> simp
      rw [this]
      exact .nil

end Verif

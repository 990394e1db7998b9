import Verif.Lemmas.History

/-!
# Property C88: a whole simulation with many combinations and moved tasks

The sparse grids and communicators are set up once. Then tasks are run and combined any number of
times, and between a combination and the next run tasks are moved to other groups. The claim: all
this has the same effect as steps on the component grids alone, where a combination replaces every
value by the combination formula and a task that is moved keeps its values. Sparse grids, sizes and
communicators do not occur in that description.
-/

namespace Verif

variable {K : Type}

/-- A step on the component grids (coefficient, level and values) of the groups alone. -/
def specStep [Ring K] (refs : List RefDim) (n : ℕ) (T : ℕ → List (K × List ℕ × (ℕ → K))) :
    Step K → ℕ → List (K × List ℕ × (ℕ → K))
  | .run v => fun g => (T g).mapIdx fun k t => (t.1, t.2.1, v g k)
  | .combine => fun g => (T g).map fun t =>
      (t.1, t.2.1, fun p => valueAtPlace refs n T (spatialOf refs t.2.1 p))
  | .move source k target => fun g =>
      (if g = source then (T g).eraseIdx k else T g) ++
        if g = target then ((T source)[k]?).toList else []

/-- Histories where tasks are moved only between a combination and the next run, from and to existing
groups, only if all groups have the whole sparse grid, and only if the sparse grid has all subspaces of
the task. -/
def Allowed [Ring K] (variant : CombinationVariant) (refs : List RefDim) (levels : List (List ℕ))
    (n : ℕ) :
    (fresh : Prop) → (T : ℕ → List (K × List ℕ × (ℕ → K))) → List (Step K) → Prop
  | _, _, [] => True
  | _, T, .run v :: steps => Allowed variant refs levels n False (specStep refs n T (.run v)) steps
  | _, T, .combine :: steps => Allowed variant refs levels n True (specStep refs n T .combine) steps
  | fresh, T, .move source k target :: steps =>
      (fresh ∧ variant = .sparseGridReduce ∧ source < n ∧ target < n ∧ k < (T source).length ∧
        ∀ t ∈ (T source)[k]?, ∀ l ∈ getDownSet t.2.1, l ∈ levels) ∧
        Allowed variant refs levels n fresh (specStep refs n T (.move source k target)) steps

/-! ### Proof -/

theorem sum_range_ite [AddCommMonoid K] (x : K) (a : ℕ) : ∀ n,
    ((List.range n).map fun m => if m = a then x else 0).sum = if a < n then x else 0 := by
  intro n
  induction n with
  | zero => simp
  | succ n ih =>
    rw [List.range_succ, List.map_append, List.sum_append, ih]
    simp only [List.map_cons, List.map_nil, List.sum_cons, List.sum_nil, add_zero]
    by_cases h1 : a < n
    · rw [if_pos h1, if_neg (by omega), if_pos (by omega), add_zero]
    · rw [if_neg h1, zero_add]
      by_cases h2 : n = a
      · rw [if_pos h2, if_pos (by omega)]
      · rw [if_neg h2, if_neg (by omega)]

/-- The number of grids with a subspace does not change if a task is moved. -/
theorem holders_moved {n a k b : ℕ} {T : ℕ → List (K × List ℕ × (ℕ → K))} (ha : a < n) (hb : b < n)
    (hk : k < (T a).length) (l : List ℕ) :
    (holders n (fun g => (if g = a then (T g).eraseIdx k else T g) ++
      if g = b then ((T a)[k]?).toList else []) l).length = (holders n T l).length := by
  set f : K × List ℕ × (ℕ → K) → ℕ := fun t => if l ∈ getDownSet t.2.1 then 1 else 0 with hf
  have key : ∀ U : ℕ → List (K × List ℕ × (ℕ → K)), (holders n U l).length =
      ((List.range n).map fun g => ((U g).map f).sum).sum := by
    intro U
    unfold holders
    rw [List.filter_flatMap, List.length_flatMap]
    congr 1
    refine List.map_congr_left fun g _ => ?_
    induction U g with
    | nil => rfl
    | cons t ts ih =>
      rw [List.map_cons, List.sum_cons, ← ih, hf]
      by_cases h : l ∈ getDownSet t.2.1
      · simp only [List.filter_cons, h, decide_true, if_true, List.length_cons]
        omega
      · simp only [List.filter_cons, h, decide_false, if_false, Bool.false_eq_true, zero_add]
  rw [key, key]
  have hpt : ∀ m, (((if m = a then (T m).eraseIdx k else T m) ++
      if m = b then ((T a)[k]?).toList else []).map f).sum + (if m = a then f (T a)[k] else 0) =
        ((T m).map f).sum + if m = b then f (T a)[k] else 0 := by
    intro m
    rw [List.map_append, List.sum_append, List.getElem?_eq_getElem hk]
    have e1 : ((if m = a then (T m).eraseIdx k else T m).map f).sum +
        (if m = a then f (T a)[k] else 0) = ((T m).map f).sum := by
      by_cases hm : m = a
      · subst hm
        rw [if_pos rfl, if_pos rfl, ← ((List.getElem_cons_eraseIdx_perm hk).map f).sum_eq,
          List.map_cons, List.sum_cons, add_comm]
      · rw [if_neg hm, if_neg hm, add_zero]
    have e2 : ((if m = b then (some (T a)[k]).toList else []).map f).sum =
        if m = b then f (T a)[k] else 0 := by
      by_cases hm : m = b
      · rw [if_pos hm, if_pos hm]
        simp
      · rw [if_neg hm, if_neg hm]
        rfl
    rw [e2, add_right_comm, e1]
  have hsum := congrArg List.sum (List.map_congr_left (l := List.range n) fun m _ => hpt m)
  simp only [List.sum_map_add, sum_range_ite, if_pos ha, if_pos hb] at hsum
  exact add_right_cancel hsum

theorem ValidSystem.moved [One K] {refs : List RefDim} {levels : List (List ℕ)} {n a k b : ℕ}
    {T : ℕ → List (K × List ℕ × (ℕ → K))} (h : ValidSystem refs levels n T) (ha : a < n) (hb : b < n)
    (hk : k < (T a).length) :
    ValidSystem refs levels n fun g => (if g = a then (T g).eraseIdx k else T g) ++
      if g = b then ((T a)[k]?).toList else [] := by
  have hmem : ∀ g < n, ∀ t ∈ (if g = a then (T g).eraseIdx k else T g) ++
      (if g = b then ((T a)[k]?).toList else []), ∃ g0 < n, t ∈ T g0 := by
    intro g hg t ht
    simp only [List.getElem?_eq_getElem hk, Option.toList_some, List.mem_append] at ht
    rcases ht with ht | ht
    · refine ⟨g, hg, ?_⟩
      split at ht
      · exact List.mem_of_mem_eraseIdx ht
      · exact ht
    · split at ht
      · rw [List.mem_singleton] at ht
        exact ⟨a, ha, ht ▸ List.getElem_mem hk⟩
      · simp at ht
  refine ⟨h.ref, h.sorted, ?_, ?_, ?_⟩
  · intro g hg t ht
    obtain ⟨g0, hg0, ht0⟩ := hmem g hg t ht
    exact h.comp g0 hg0 t ht0
  · intro g hg t ht
    obtain ⟨g0, hg0, ht0⟩ := hmem g hg t ht
    exact h.low g0 hg0 t ht0
  · intro g hg t ht l hl
    obtain ⟨g0, hg0, ht0⟩ := hmem g hg t ht
    rw [holders_moved ha hb hk]
    exact h.mem g0 hg0 t ht0 l hl

/-- What holds between the steps. -/
structure HistoryInv [Ring K] (variant : CombinationVariant) (refs : List RefDim)
    (levels : List (List ℕ)) (n : ℕ) (T0 : ℕ → List (K × List ℕ × (ℕ → K))) (sizes : ℕ → List ℕ)
    (fresh : Prop) (T : ℕ → List (K × List ℕ × (ℕ → K))) (S : ℕ → Group K) : Prop where
  valid : ValidSystem refs levels n T
  comp : Compatible variant n T0 T
  same : Unchanged refs n T S
  lev : ∀ g < n, (S g).dsg.levels = levels
  siz : ∀ g < n, (S g).dsg.sizes = sizes g
  zero : variant ≠ .chunkedOutgroupSparseGridReduce → ∀ g < n, CanZero levels.length (S g).dsg
  full : fresh → variant = .sparseGridReduce → ∃ (Tc : ℕ → List (K × List ℕ × (ℕ → K)))
    (F : ℕ → ℕ → ℕ → K), ValidSystem refs levels n Tc ∧
    (∀ g < n, Holding levels (sizes g) (F g) (S g).dsg) ∧
    (∀ g < n, ∀ i < levels.length, ∀ j < (sizes g).getD i 0,
      F g i j = ((List.range n).map fun m => localSum levels (tasksOf refs (Tc m)) i j).sum) ∧
    ∀ g < n, ∀ t ∈ T g, ∀ p < numLocal refs t.2.1,
      t.2.2 p = valueAtPlace refs n Tc (spatialOf refs t.2.1 p)

theorem Compatible.congr {variant : CombinationVariant} {n : ℕ}
    {T0 T T' : ℕ → List (K × List ℕ × (ℕ → K))} (h : Compatible variant n T0 T)
    (hT : ∀ g < n, (T' g).map (fun t => (t.1, t.2.1)) = (T g).map fun t => (t.1, t.2.1)) :
    Compatible variant n T0 T' := by
  rcases h with h | ⟨hv, h⟩
  · exact Or.inl fun g hg => (hT g hg).trans (h g hg)
  · refine Or.inr ⟨hv, fun g hg t' ht' => ?_⟩
    obtain ⟨t, ht, -, e⟩ := mem_levels (hT g hg) ht'
    rw [← e]
    exact h g hg t ht

theorem forall₂_eraseIdx {α β : Type} {R : α → β → Prop} {l : List α} {l' : List β}
    (h : List.Forall₂ R l l') (k : ℕ) : List.Forall₂ R (l.eraseIdx k) (l'.eraseIdx k) := by
  induction h generalizing k with
  | nil => exact List.Forall₂.nil
  | cons h1 h2 ih =>
    cases k with
    | zero => exact h2
    | succ k => exact List.Forall₂.cons h1 (ih k)

theorem run_inv [Ring K] {variant : CombinationVariant} {refs : List RefDim}
    {levels : List (List ℕ)} {n : ℕ} {T0 T : ℕ → List (K × List ℕ × (ℕ → K))} {sizes : ℕ → List ℕ}
    {fresh : Prop} {S : ℕ → Group K}
    (h : HistoryInv variant refs levels n T0 sizes fresh T S) (v : ℕ → ℕ → ℕ → K) (s : Setup K) :
    HistoryInv variant refs levels n T0 sizes False (specStep refs n T (.run v))
      (Setup.run v { s with groups := S }).groups := by
  have hT : ∀ g < n, (specStep refs n T (.run v) g).map (fun t => (t.1, t.2.1)) =
      (T g).map fun t => (t.1, t.2.1) := by
    intro g _
    apply List.ext_getElem
    · simp [specStep]
    · intro i h1 h2
      simp [specStep]
  refine ⟨retask_valid h.valid hT, h.comp.congr hT, ?_, h.lev, h.siz, h.zero, fun hf => hf.elim⟩
  intro g hg
  have hs := List.forall₂_iff_get.1 (h.same g hg)
  rw [List.forall₂_iff_get]
  refine ⟨by simp [specStep, Setup.run, hs.1], fun i h1 h2 => ?_⟩
  have hi1 : i < (T g).length := by simpa [specStep] using h1
  have hi2 : i < (S g).tasks.length := by simpa [Setup.run] using h2
  obtain ⟨e1, e2, e3, -⟩ := hs.2 i hi1 hi2
  simp only [specStep, Setup.run, List.get_eq_getElem, List.getElem_mapIdx] at e1 e2 e3 ⊢
  exact ⟨e1, e2, e3, fun _ _ => trivial⟩

theorem combine_inv [Ring K] {variant : CombinationVariant} {refs : List RefDim}
    {levels : List (List ℕ)} {n maxChunk : ℕ} {T0 T : ℕ → List (K × List ℕ × (ℕ → K))}
    {sizes : ℕ → List ℕ} {fresh : Prop} {S : ℕ → Group K} {s : Setup K}
    (hw : Works variant refs levels n maxChunk T0 s sizes)
    (h : HistoryInv variant refs levels n T0 sizes fresh T S) :
    ∃ S', Setup.combine variant maxChunk n { s with groups := S } = some { s with groups := S' } ∧
      HistoryInv variant refs levels n T0 sizes True (specStep refs n T .combine) S' := by
  obtain ⟨x1, x2⟩ := exact_tasks h.same
  have hx : ∀ g < n, (retask T S g).map (fun t => (t.1, t.2.1)) =
      (T g).map fun t => (t.1, t.2.1) := fun g hg => x2.levels hg
  have hvx := retask_valid h.valid hx
  obtain ⟨S', F, e1, e2, e3, e4, e5⟩ := hw.step _ hvx (h.comp.congr hx) S ⟨h.lev, h.siz, h.zero, x1⟩
  refine ⟨S', e1, ?_⟩
  have hT : ∀ g < n, (specStep refs n T .combine g).map (fun t => (t.1, t.2.1)) =
      (T g).map fun t => (t.1, t.2.1) := by
    intro g _
    simp only [specStep, List.map_map]
    rfl
  refine ⟨retask_valid h.valid hT, h.comp.congr hT, ?_, fun g hg => (e3 g hg).1,
    fun g hg => (e3 g hg).2, fun hv g hg => Or.inr ⟨(e4 hv g hg).well, (e4 hv g hg).sel⟩, ?_⟩
  · intro g hg
    have c := e2 g hg
    have d := x2 g hg
    simp only [specStep]
    rw [List.forall₂_map_left_iff]
    rw [List.forall₂_iff_get] at c d ⊢
    refine ⟨by rw [d.1, c.1], fun i h1 h2 => ?_⟩
    obtain ⟨c1, c2, c3, c4⟩ := c.2 i (by rw [← d.1]; exact h1) h2
    obtain ⟨d1, d2, -⟩ := d.2 i h1 (by rw [← d.1]; exact h1)
    rw [d2] at c3 c4
    refine ⟨by rw [c1, d1], ?_, c3, fun p hp => ?_⟩
    · rw [c2]
      simp only [gridOf]
      rw [d2]
    · rw [c4 p hp, x2.value]
  · intro _ hv
    refine ⟨retask T S, F, hvx, e4 (by rw [hv]; decide), e5 hv, ?_⟩
    intro g hg t' ht' p hp
    simp only [specStep] at ht'
    obtain ⟨t, ht, rfl⟩ := List.mem_map.1 ht'
    simp only
    rw [x2.value]

theorem move_inv [Ring K] {refs : List RefDim}
    {levels : List (List ℕ)} {n maxChunk : ℕ} {T0 T : ℕ → List (K × List ℕ × (ℕ → K))}
    {sizes : ℕ → List ℕ} {fresh : Prop} {S : ℕ → Group K} {s : Setup K}
    (hw : Works .sparseGridReduce refs levels n maxChunk T0 s sizes)
    (h : HistoryInv .sparseGridReduce refs levels n T0 sizes fresh T S) (hf : fresh)
    {a k b : ℕ} (ha : a < n) (hb : b < n) (hk : k < (T a).length)
    (hmem : ∀ l ∈ getDownSet (T a)[k].2.1, l ∈ levels) :
    ∃ S', Setup.move a k b { s with groups := S } = some { s with groups := S' } ∧
      HistoryInv .sparseGridReduce refs levels n T0 sizes fresh
        (specStep refs n T (.move a k b)) S' := by
  obtain ⟨Tc, F, f1, f2, f3, f4⟩ := h.full hf rfl
  have hsa := List.forall₂_iff_get.1 (h.same a ha)
  have hk' : k < (S a).tasks.length := by rw [← hsa.1]; exact hk
  obtain ⟨q1, q2, q3, q4⟩ := hsa.2 k hk hk'
  simp only [List.get_eq_getElem] at q1 q2 q3 q4
  have htm : (T a)[k] ∈ T a := List.getElem_mem hk
  -- the groups without the task
  have hdsg : ∀ g, (Function.update S a ((S a).removeTask k) g).dsg = (S g).dsg := by
    intro g
    by_cases hg : g = a
    · subst hg
      rw [Function.update_self]
      rfl
    · rw [Function.update_of_ne hg]
  have htasks : ∀ g, (Function.update S a ((S a).removeTask k) g).tasks =
      if g = a then (S g).tasks.eraseIdx k else (S g).tasks := by
    intro g
    by_cases hg : g = a
    · subst hg
      rw [Function.update_self, if_pos rfl]
      rfl
    · rw [Function.update_of_ne hg, if_neg hg]
  -- the task on its new group
  obtain ⟨d, k1, k2⟩ := (f2 b hb).createKahanBuffer (hw.len b hb) (hw.lt b hb)
  have hL := h.valid.comp a ha _ htm
  have hsz : ∀ i (hi : i < levels.length), levels[i] ∈ getDownSet (T a)[k].2.1 →
      (sizes b).getD i 0 = subspaceCount refs levels[i] := fun i hi hl =>
    hw.held rfl T h.comp b hb a ha i hi ⟨_, htm, hl⟩
  have hgrid : ({ (S a).tasks[k].2 with data := ⟨(S a).tasks[k].2.data.len, fun _ => (0 : K)⟩ } : Dfg K)
      = gridOf refs (T a)[k].2.1 fun _ => 0 := by
    generalize (S a).tasks[k] = t' at q1 q2 q3 q4
    obtain ⟨c, ⟨dims, ⟨len, val⟩⟩⟩ := t'
    simp only at q2 q3
    subst q2 q3
    rfl
  obtain ⟨x, x1, x2⟩ := extract_eq true d k2.well (by
      intro _ i hi
      rw [k2.sel]
      rw [k2.siz, hw.len b hb] at hi
      exact List.mem_range.2 hi) (gridOf refs (T a)[k].2.1 fun _ => 0) (by
      rw [k2.lev, k2.siz]
      exact taskOk_component h.valid.ref hL (Reachable.of_mem h.valid.sorted hmem) _ hsz)
  rw [k2.lev, k2.siz, k2.sel] at x2
  have hval := extracted_task f1 hL (fun l hl => Or.inl (hmem l hl)) x2 hsz fun i hi hl j hj => by
    rw [k2.val]
    exact f3 b hb i hi j (by rw [hsz i hi hl]; exact hj)
  have hnew : ∀ g, Function.update (Function.update S a ((S a).removeTask k)) b
      ⟨d, (Function.update S a ((S a).removeTask k) b).tasks ++ [((S a).tasks[k].1, x)]⟩ g =
      ⟨if g = b then d else (S g).dsg, (if g = a then (S g).tasks.eraseIdx k else (S g).tasks) ++
        if g = b then [((S a).tasks[k].1, x)] else []⟩ := by
    intro g
    by_cases hg : g = b
    · subst hg
      rw [Function.update_self, htasks, if_pos rfl, if_pos rfl]
    · rw [Function.update_of_ne hg, if_neg hg, if_neg hg, ← htasks, ← hdsg, List.append_nil]
  refine ⟨Function.update (Function.update S a ((S a).removeTask k)) b
      ⟨d, (Function.update S a ((S a).removeTask k) b).tasks ++ [((S a).tasks[k].1, x)]⟩, ?_, ?_⟩
  · unfold Setup.move
    simp only [List.getElem?_eq_getElem hk', Option.bind_eq_bind, Option.bind_some]
    unfold Group.addMoved
    rw [hdsg, k1]
    simp only [Option.bind_eq_bind, Option.bind_some]
    rw [hgrid, x1]
    rfl
  · have hlevels : ∀ g < n, ∀ t ∈ specStep refs n T (.move a k b) g, ∃ g0 < n, t ∈ T g0 := by
      intro g hg t ht
      simp only [specStep, List.getElem?_eq_getElem hk, Option.toList_some, List.mem_append] at ht
      rcases ht with ht | ht
      · refine ⟨g, hg, ?_⟩
        split at ht
        · exact List.mem_of_mem_eraseIdx ht
        · exact ht
      · split at ht
        · rw [List.mem_singleton] at ht
          exact ⟨a, ha, ht ▸ htm⟩
        · simp at ht
    refine ⟨h.valid.moved ha hb hk, Or.inr ⟨rfl, ?_⟩, ?_, ?_, ?_, ?_, ?_⟩
    · intro g hg t ht
      obtain ⟨g0, hg0, ht0⟩ := hlevels g hg t ht
      rcases h.comp with hc | ⟨-, hc⟩
      · obtain ⟨t0, h0, -, e⟩ := mem_levels (hc g0 hg0) ht0
        exact ⟨g0, hg0, t0, h0, e⟩
      · exact hc g0 hg0 t ht0
    · intro g hg
      rw [hnew g]
      simp only [specStep, List.getElem?_eq_getElem hk, Option.toList_some]
      apply List.rel_append
      · split
        · exact forall₂_eraseIdx (h.same g hg) k
        · exact h.same g hg
      · split
        · refine List.Forall₂.cons ⟨q1, x2.dims, x2.len, fun p hp => ?_⟩ List.Forall₂.nil
          rw [f4 a ha _ htm p hp]
          exact hval p hp
        · exact List.Forall₂.nil
    · intro g hg
      rw [hnew g]
      simp only
      split
      · exact k2.lev
      · exact h.lev g hg
    · intro g hg
      rw [hnew g]
      simp only
      split
      · rename_i he
        rw [he]
        exact k2.siz
      · exact h.siz g hg
    · intro _ g hg
      rw [hnew g]
      simp only
      split
      · exact Or.inr ⟨k2.well, k2.sel⟩
      · exact h.zero (by decide) g hg
    · intro _ _
      refine ⟨Tc, F, f1, ?_, f3, ?_⟩
      · intro g hg
        rw [hnew g]
        simp only
        split
        · rename_i he
          rw [he]
          exact k2
        · exact f2 g hg
      · intro g hg t ht
        obtain ⟨g0, hg0, ht0⟩ := hlevels g hg t ht
        exact f4 g0 hg0 t ht0

theorem steps_inv [Ring K] {variant : CombinationVariant} {refs : List RefDim}
    {levels : List (List ℕ)} {n maxChunk : ℕ} {T0 : ℕ → List (K × List ℕ × (ℕ → K))}
    {sizes : ℕ → List ℕ} {s : Setup K} (hw : Works variant refs levels n maxChunk T0 s sizes)
    (steps : List (Step K)) (fresh : Prop) (T : ℕ → List (K × List ℕ × (ℕ → K)))
    (S : ℕ → Group K) (ha : Allowed variant refs levels n fresh T steps)
    (h : HistoryInv variant refs levels n T0 sizes fresh T S) :
    ∃ S', steps.foldlM (Setup.step variant maxChunk n) { s with groups := S } =
        some { s with groups := S' } ∧
      Unchanged refs n (steps.foldl (specStep refs n) T) S' := by
  induction steps generalizing fresh T S with
  | nil => exact ⟨S, rfl, h.same⟩
  | cons c steps ih =>
    rw [List.foldl_cons, List.foldlM_cons]
    cases c with
    | run v =>
      obtain ⟨S', e1, e2⟩ := ih False _ _ ha (run_inv h v s)
      exact ⟨S', e1, e2⟩
    | combine =>
      obtain ⟨S1, c1, c2⟩ := combine_inv hw h
      obtain ⟨S', e1, e2⟩ := ih True _ S1 ha c2
      refine ⟨S', ?_, e2⟩
      simp only [Setup.step, c1, Option.bind_eq_bind, Option.bind_some]
      exact e1
    | move a k b =>
      obtain ⟨⟨hf, hv, h1, h2, h3, h4⟩, ha⟩ := ha
      subst hv
      obtain ⟨S1, c1, c2⟩ := move_inv hw h hf h1 h2 h3 (h4 _ (List.getElem?_eq_getElem h3))
      obtain ⟨S', e1, e2⟩ := ih fresh _ S1 ha c2
      refine ⟨S', ?_, e2⟩
      simp only [Setup.step, c1, Option.bind_eq_bind, Option.bind_some]
      exact e1

/-! ### The property -/

/-- C88 (partial: tasks are moved only if all groups have the whole sparse grid, and only before they
run again; sizes in the range of `int`): a simulation of any length, with any variant of the
combination, ends with the component grids that follow from the combination formula alone. -/
theorem C88_history_partial [Ring K] (refs : List RefDim) (levels : List (List ℕ)) (n : ℕ)
    (hn : n ≤ 256) (T : ℕ → List (K × List ℕ × (ℕ → K))) (h : ValidSystem refs levels n T)
    (htotal : (levels.map (subspaceCount refs)).sum < 2 ^ 31)
    (variant : CombinationVariant) (maxChunk : ℕ) (hu : Usable refs n T variant maxChunk)
    (steps : List (Step K)) (ha : Allowed variant refs levels n False T steps) :
    ∃ s, history variant maxChunk levels n (fun g => tasksOf refs (T g)) steps = some s ∧
      Unchanged refs n (steps.foldl (specStep refs n) T) s.groups := by
  obtain ⟨s, sizes, e1, e2, e3⟩ := setUp_works hn h htotal hu
  have hsame : Unchanged refs n T s.groups := by
    intro g hg
    rw [e3.tasks g hg]
    unfold tasksOf
    rw [List.forall₂_map_right_iff]
    exact List.forall₂_same.2 fun t _ => ⟨rfl, rfl, rfl, fun _ _ => rfl⟩
  obtain ⟨S', f1, f2⟩ := steps_inv e2 steps False T s.groups ha
    ⟨h, Or.inl fun _ _ => rfl, hsame, e3.lev, e3.siz, e3.zero, fun hf => hf.elim⟩
  refine ⟨{ s with groups := S' }, ?_, f2⟩
  unfold history
  rw [e1]
  exact f1

/-! ### Example and violations -/

/-- One dimension without boundary points, on one process. -/
def moveRefs : List RefDim := [⟨2, 0, [0], 0⟩]

/-- A fine grid on the first group and a coarse one on the second. -/
def moveSystem (g : ℕ) : List (ℚ × List ℕ × (ℕ → ℚ)) :=
  if g = 0 then [(1, [2], fun q => q + 1)] else [(1, [1], fun _ => 5)]

theorem moveSystem_valid : ValidSystem moveRefs [[1], [2]] 2 moveSystem := by
  refine .of_full ?_ (by decide) ?_ ?_
  · intro r hr
    simp only [moveRefs, List.mem_cons, List.not_mem_nil, or_false] at hr
    subst hr
    exact ⟨by decide, ⟨rfl, by decide, by decide⟩, by decide⟩
  · intro g hg t ht
    unfold moveSystem at ht
    split at ht
    · simp only [List.mem_cons, List.not_mem_nil, or_false] at ht
      subst ht
      exact ⟨by decide, by simp [moveRefs]⟩
    · simp only [List.mem_cons, List.not_mem_nil, or_false] at ht
      subst ht
      exact ⟨by decide, by simp [moveRefs]⟩
  · intro g hg t ht
    unfold moveSystem at ht
    split at ht
    · simp only [List.mem_cons, List.not_mem_nil, or_false] at ht
      subst ht
      decide +kernel
    · simp only [List.mem_cons, List.not_mem_nil, or_false] at ht
      subst ht
      decide +kernel

theorem moveSystem_usable (variant : CombinationVariant) : Usable moveRefs 2 moveSystem variant 5 := by
  refine ⟨by decide, by decide, Or.inr (Or.inr (Or.inl fun g hg => ?_))⟩
  refine ⟨[1], by decide +kernel, ?_, 1 - g, by omega, by omega, ?_⟩
  · unfold HoldsLevel moveSystem
    split
    · exact ⟨_, List.mem_singleton.2 rfl, by decide +kernel⟩
    · exact ⟨_, List.mem_singleton.2 rfl, by decide +kernel⟩
  · unfold HoldsLevel moveSystem
    split
    · exact ⟨_, List.mem_singleton.2 rfl, by decide +kernel⟩
    · exact ⟨_, List.mem_singleton.2 rfl, by decide +kernel⟩

/-- the hypotheses of C88 hold for a history with two combinations and two moves -/
example : ValidSystem moveRefs [[1], [2]] 2 moveSystem ∧
    ([[1], [2]].map (subspaceCount moveRefs)).sum < 2 ^ 31 ∧
    Usable moveRefs 2 moveSystem .sparseGridReduce 5 ∧
    Allowed .sparseGridReduce moveRefs [[1], [2]] 2 False moveSystem
      [.run fun g k p => g + k + p, .combine, .move 0 0 1, .run fun g k p => 2 * g + k + p, .combine,
        .move 1 0 0] :=
  ⟨moveSystem_valid, by decide +kernel, moveSystem_usable _,
    ⟨trivial, rfl, by decide, by decide, by simp [specStep, moveSystem],
      by simp [specStep, moveSystem]; decide +kernel⟩,
    ⟨trivial, rfl, by decide, by decide, by simp [specStep, moveSystem],
      by simp [specStep, moveSystem]; decide +kernel⟩, trivial⟩

/-- and for all variants without moves -/
example (variant : CombinationVariant) :
    Allowed variant moveRefs [[1], [2]] 2 False moveSystem
      [.run fun g k p => g + k + p, .combine, .run fun g k p => 2 * g + k + p, .combine, .combine] :=
  trivial

/-- The values of all grids of two groups. -/
def gridValues (s : Setup ℚ) : List (List (List ℚ)) :=
  (List.range 2).map fun g => (s.groups g).tasks.map fun t =>
    (List.range t.2.data.len).map t.2.data.val

/-- The values of all grids of two groups. -/
def specValues (T : ℕ → List (ℚ × List ℕ × (ℕ → ℚ))) : List (List (List ℚ)) :=
  (List.range 2).map fun g => (T g).map fun t => (List.range (numLocal moveRefs t.2.1)).map t.2.2

/-- C88 is violated by the variants where a group has only the subspaces of the tasks it had at
initialisation: sizes and communicators are not updated when a task is moved. The values of subspaces
that are new to the group are lost (two of the three values become zero). With the chunked variant
nothing is left to fill the task from. -/
theorem C88_violated :
    ValidSystem moveRefs [[1], [2]] 2 moveSystem ∧
    (∀ variant, Usable moveRefs 2 moveSystem variant 5) ∧
    specValues ([.combine, .move 0 0 1].foldl (specStep moveRefs 2) moveSystem) =
      [[], [[7], [1, 7, 3]]] ∧
    (history .subspaceReduce 5 [[1], [2]] 2 (fun g => tasksOf moveRefs (moveSystem g))
      [.combine, .move 0 0 1]).map gridValues = some [[], [[7], [0, 7, 0]]] ∧
    (history .outgroupSparseGridReduce 5 [[1], [2]] 2 (fun g => tasksOf moveRefs (moveSystem g))
      [.combine, .move 0 0 1]).map gridValues = some [[], [[7], [0, 7, 0]]] ∧
    (history .chunkedOutgroupSparseGridReduce 5 [[1], [2]] 2
      (fun g => tasksOf moveRefs (moveSystem g)) [.combine, .move 0 0 1]).isNone = true :=
  ⟨moveSystem_valid, moveSystem_usable, by decide +kernel, by decide +kernel, by decide +kernel,
    by decide +kernel⟩

/-- C88 is violated if a task is moved after it has run: it goes back to the last combination, and
what it has computed since is lost. -/
theorem C88_run_violated :
    specValues ([.combine, .run fun g k p => 10 * g + k + p, .move 0 0 1].foldl
      (specStep moveRefs 2) moveSystem) = [[], [[10], [0, 1, 2]]] ∧
    (history .sparseGridReduce 5 [[1], [2]] 2 (fun g => tasksOf moveRefs (moveSystem g))
      [.combine, .run fun g k p => 10 * g + k + p, .move 0 0 1]).map gridValues =
      some [[], [[10], [1, 7, 3]]] :=
  ⟨by decide +kernel, by decide +kernel⟩

end Verif

import Verif.Model.FaultHistory
import Verif.Props.History

/-!
# Lemmas for C105: what holds between the steps of a simulation with faults
-/

namespace Verif.FaultHistory

variable {K : Type}

/-- The setup for the variant that reduces the whole sparse grid: all groups have the same sizes. -/
theorem setUp_reduce [Ring K] {refs : List RefDim} {levels : List (List ℕ)} {n : ℕ} (hpos : 0 < n)
    {T0 : ℕ → List (K × List ℕ × (ℕ → K))} (h : ValidSystem refs levels n T0)
    (htotal : (levels.map (subspaceCount refs)).sum < 2 ^ 31) :
    ∃ s sizes, setUp .sparseGridReduce levels n (fun g => tasksOf refs (T0 g)) = some s ∧
      sizes.length = levels.length ∧ sizes.sum < 2 ^ 32 ∧
      (∀ g < n, ∀ i (hi : i < levels.length), HoldsLevel T0 g levels[i] →
        sizes.getD i 0 = subspaceCount refs levels[i]) ∧
      ReadyFor True refs levels n (fun _ => sizes) T0 s.groups := by
  obtain ⟨dsgs, i1, i2⟩ := initDsgs_eq h .sparseGridReduce
  let sizes : ℕ → List ℕ := fun g => outgroupSizes (dsgs.map (·.sizes)) (List.range levels.length)
    (dsgs.getD g (Dsg.empty levels)).sizes
  have hsame : ∀ g < n, sizes g = sizes 0 := by
    intro g hg
    change outgroupSizes _ _ _ = outgroupSizes _ _ _
    unfold outgroupSizes
    rw [i2.slen g hg, i2.slen 0 hpos]
    apply List.map_congr_left
    intro i hi
    rw [if_pos hi, if_pos hi]
  have h0 := i2.outgroupSizes_eq hpos (List.range levels.length)
  refine ⟨_, sizes 0, by unfold setUp; rw [i1]; rfl, h0.1, ?_, ?_, ?_⟩
  · exact lt_of_le_of_lt (sum_le_total h0.1 fun i hi => (h0.2 i hi).2) (lt_trans htotal (by decide))
  · intro g hg i hi hh
    exact (h0.2 i hi).1 (Or.inr ⟨List.mem_range.2 hi, g, hg, hh⟩)
  · have hr := readyFor_afterSizes i2 True sizes
    exact ⟨hr.lev, fun g hg => by rw [hr.siz g hg, hsame g hg], hr.zero, hr.tasks⟩

/-- Grids that the simulation may have, and the sizes of the sparse grids. -/
structure Frame (refs : List RefDim) (levels known : List (List ℕ)) (sizes : List ℕ) : Prop where
  ref : ∀ r ∈ refs, ValidRef r
  sorted : levels.Pairwise (· < ·)
  comp : ∀ L ∈ known, ValidComponent refs L
  full : ∀ L ∈ known, ∀ l ∈ getDownSet L, l ∈ levels
  len : sizes.length = levels.length
  lt : sizes.sum < 2 ^ 32
  held : ∀ L ∈ known, ∀ i (hi : i < levels.length), levels[i] ∈ getDownSet L →
    sizes.getD i 0 = subspaceCount refs levels[i]

/-- The sparse grid has the values `v` at all places. -/
def HasValues [Ring K] (refs : List RefDim) (levels : List (List ℕ)) (sizes : List ℕ)
    (v : List ℕ → K) (d : Dsg K) : Prop :=
  ∃ (n : ℕ) (T : ℕ → List (K × List ℕ × (ℕ → K))) (F : ℕ → ℕ → K), ValidSystem refs levels n T ∧
    (∀ z, v z = valueAtPlace refs n T z) ∧ Holding levels sizes F d ∧
    ∀ i < levels.length, ∀ j < sizes.getD i 0,
      F i j = ((List.range n).map fun m => localSum levels (tasksOf refs (T m)) i j).sum

/-- What holds between the steps. -/
structure Inv [Ring K] (refs : List RefDim) (levels known : List (List ℕ)) (sizes : List ℕ)
    (n : ℕ) (T : ℕ → List (K × List ℕ × (ℕ → K))) (last : Option (List ℕ → K)) (stale : ℕ → Bool)
    (S : ℕ → Verif.Group K) : Prop where
  mem : ∀ g < n, ∀ t ∈ T g, t.2.1 ∈ known
  same : Unchanged refs n T S
  lev : ∀ g < n, (S g).dsg.levels = levels
  siz : ∀ g < n, (S g).dsg.sizes = sizes
  zero : ∀ g < n, CanZero levels.length (S g).dsg
  full : ∀ v, last = some v → ∀ g < n, stale g = false → HasValues refs levels sizes v (S g).dsg

section

variable [Ring K] {refs : List RefDim} {levels known : List (List ℕ)} {sizes : List ℕ} {n : ℕ}
  {T : ℕ → List (K × List ℕ × (ℕ → K))} {last : Option (List ℕ → K)} {stale : ℕ → Bool}
  {S : ℕ → Verif.Group K}

theorem Inv.valid (hf : Frame refs levels known sizes)
    (h : ∀ g < n, ∀ t ∈ T g, t.2.1 ∈ known) : ValidSystem refs levels n T :=
  .of_full hf.ref hf.sorted (fun g hg t ht => hf.comp _ (h g hg t ht))
    fun g hg t ht => hf.full _ (h g hg t ht)

/-- A group gets other tasks and keeps its sparse grid. -/
theorem Inv.tasks (h : Inv refs levels known sizes n T last stale S) {T' : ℕ → List (K × List ℕ × (ℕ → K))}
    {S' : ℕ → Verif.Group K} (hd : ∀ g < n, (S' g).dsg = (S g).dsg)
    (hm : ∀ g < n, ∀ t ∈ T' g, t.2.1 ∈ known) (hs : Unchanged refs n T' S') :
    Inv refs levels known sizes n T' last stale S' :=
  ⟨hm, hs, fun g hg => by rw [hd g hg]; exact h.lev g hg, fun g hg => by rw [hd g hg]; exact h.siz g hg,
    fun g hg => by rw [hd g hg]; exact h.zero g hg,
    fun v hv g hg hst => by rw [hd g hg]; exact h.full v hv g hg hst⟩

theorem Inv.combine (hf : Frame refs levels known sizes) {maxChunk : ℕ} (hpos : 0 < maxChunk)
    (hmax : maxChunk < 2 ^ 31) (h : Inv refs levels known sizes n T last stale S) :
    ∃ S', combineSparseGridReduce maxChunk n S = some S' ∧
      Inv refs levels known sizes n
        (fun g => (T g).map fun t =>
          (t.1, t.2.1, fun p => valueAtPlace refs n T (spatialOf refs t.2.1 p)))
        (some (valueAtPlace refs n T)) (fun _ => false) S' := by
  obtain ⟨x1, x2⟩ := exact_tasks h.same
  have hx : ∀ g < n, (retask T S g).map (fun t => (t.1, t.2.1)) =
      (T g).map fun t => (t.1, t.2.1) := fun g hg => x2.levels hg
  have hmx : ∀ g < n, ∀ t ∈ retask T S g, t.2.1 ∈ known := by
    intro g hg t ht
    obtain ⟨t0, h0, -, e⟩ := mem_levels (hx g hg) ht
    rw [← e]
    exact h.mem g hg t0 h0
  have hvx := Inv.valid hf hmx
  obtain ⟨S', F, e1, e2, e3, e4⟩ := sparseGridReduce_from hvx maxChunk hpos hmax sizes hf.len hf.lt
    (fun g hg i hi ⟨t, ht, hl⟩ => hf.held _ (hmx g hg t ht) i hi hl) S
    ⟨h.lev, h.siz, fun _ => h.zero, x1⟩
  refine ⟨S', e1, ?_, ?_, fun g hg => (e3 g hg).lev, fun g hg => (e3 g hg).siz,
    fun g hg => Or.inr ⟨(e3 g hg).well, (e3 g hg).sel⟩, ?_⟩
  · intro g hg t' ht'
    obtain ⟨t, ht, rfl⟩ := List.mem_map.1 ht'
    exact h.mem g hg t ht
  · intro g hg
    have c := e2 g hg
    have d := x2 g hg
    rw [List.forall₂_map_left_iff]
    rw [List.forall₂_iff_get] at c d ⊢
    refine ⟨by rw [d.1, c.1], fun i h1 h2 => ?_⟩
    obtain ⟨c1, c2, c3, c4⟩ := c.2 i (by rw [← d.1]; exact h1) h2
    obtain ⟨d1, d2, -⟩ := d.2 i h1 (by rw [← d.1]; exact h1)
    rw [d2] at c3 c4
    refine ⟨by rw [c1, d1], ?_, c3, fun p hp => ?_⟩
    · rw [c2]
      simp only [gridOf]
      rw [d2]
    · rw [c4 p hp, x2.value]
  · intro v hv g hg _
    obtain rfl := Option.some.inj hv
    exact ⟨n, retask T S, F g, hvx, fun z => (x2.value z).symm, e3 g hg, e4 g hg⟩

theorem Inv.erase (h : Inv refs levels known sizes n T last stale S) (a : List ℕ)
    (ha : ∀ g ∈ a, g < n) :
    Inv refs levels known sizes a.length (fun i => T (a.getD i 0)) last (fun i => stale (a.getD i 0))
      fun i => S (a.getD i 0) := by
  have hlt : ∀ i < a.length, a.getD i 0 < n := by
    intro i hi
    rw [List.getD_eq_getElem _ _ hi]
    exact ha _ (List.getElem_mem hi)
  exact ⟨fun i hi => h.mem _ (hlt i hi), fun i hi => h.same _ (hlt i hi),
    fun i hi => h.lev _ (hlt i hi), fun i hi => h.siz _ (hlt i hi), fun i hi => h.zero _ (hlt i hi),
    fun v hv i hi => h.full v hv _ (hlt i hi)⟩

theorem Inv.restore (h : Inv refs levels known sizes n T last stale S) (g0 : ℕ) (w : ℕ → K) :
    Inv refs levels known sizes n (Function.update T g0 []) last (Function.update stale g0 true)
      (Function.update S g0 (Group.restore w (S g0))) := by
  constructor
  · intro g hg t ht
    by_cases e : g = g0
    · subst e
      rw [Function.update_self] at ht
      exact absurd ht (List.not_mem_nil)
    · rw [Function.update_of_ne e] at ht
      exact h.mem g hg t ht
  · intro g hg
    by_cases e : g = g0
    · subst e
      rw [Function.update_self, Function.update_self]
      exact List.Forall₂.nil
    · rw [Function.update_of_ne e, Function.update_of_ne e]
      exact h.same g hg
  · intro g hg
    by_cases e : g = g0
    · subst e
      rw [Function.update_self]
      exact h.lev g hg
    · rw [Function.update_of_ne e]
      exact h.lev g hg
  · intro g hg
    by_cases e : g = g0
    · subst e
      rw [Function.update_self]
      exact h.siz g hg
    · rw [Function.update_of_ne e]
      exact h.siz g hg
  · intro g hg
    by_cases e : g = g0
    · subst e
      rw [Function.update_self]
      rcases h.zero g hg with ⟨z1, z2, z3⟩ | ⟨z1, z2⟩
      · exact Or.inl ⟨z1, z2, z3⟩
      · exact Or.inr ⟨z1.withVal w, z2⟩
    · rw [Function.update_of_ne e]
      exact h.zero g hg
  · intro v hv g hg hst
    by_cases e : g = g0
    · subst e
      rw [Function.update_self] at hst
      cases hst
    · rw [Function.update_of_ne e] at hst ⊢
      exact h.full v hv g hg hst

/-- The grid of a new task, filled with the last combined solution. -/
theorem refill_eq (hf : Frame refs levels known sizes) {v : List ℕ → K} {d : Dsg K}
    (hv : HasValues refs levels sizes v d) {L : List ℕ} (hL : L ∈ known) (u : ℕ → K) :
    ∃ x, extractFromUniformSG true (zeroGrid (gridOf refs L u)) d = some x ∧
      x.dims = (gridOf refs L u).dims ∧ x.data.len = numLocal refs L ∧
      ∀ p < numLocal refs L, x.data.val p = v (spatialOf refs L p) := by
  obtain ⟨nc, Tc, F, f1, f2, f3, f4⟩ := hv
  have hsz := hf.held L hL
  obtain ⟨x, x1, x2⟩ := extract_eq true d f3.well (by
      intro _ i hi
      rw [f3.sel]
      rw [f3.siz, hf.len] at hi
      exact List.mem_range.2 hi) (gridOf refs L fun _ => 0) (by
      rw [f3.lev, f3.siz]
      exact taskOk_component hf.ref (hf.comp L hL) (Reachable.of_mem hf.sorted (hf.full L hL)) _ hsz)
  rw [f3.lev, f3.siz, f3.sel] at x2
  refine ⟨x, x1, x2.dims, x2.len, fun p hp => ?_⟩
  rw [f2]
  exact extracted_task f1 (hf.comp L hL) (fun l hl => Or.inl (hf.full L hL l hl)) x2 hsz
    (fun i hi hl j hj => by
      rw [f3.val]
      exact f4 i hi j (by rw [hsz i hi hl]; exact hj)) p hp

end

end Verif.FaultHistory

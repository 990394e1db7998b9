import Verif.Model.History
import Verif.Props.CombineExact

/-!
# Lemmas for C88: setting up once and combining many times
-/

namespace Verif

variable {K : Type}

/-- The setup is the first part of the combination of C34. -/
theorem combineVariant_eq_setUp [Ring K] (variant : CombinationVariant) (maxChunk : ℕ)
    (levels : List (List ℕ)) (n : ℕ) (tasks : ℕ → List (K × Dfg K)) :
    combineVariant variant maxChunk levels n tasks =
      ((setUp variant levels n tasks).bind (Setup.combine variant maxChunk n)).map (·.groups) := by
  unfold combineVariant setUp
  cases hd : initDsgs variant levels n tasks with
  | none => rfl
  | some dsgs =>
    have hmap : ∀ (s : Setup K) (r : Option (ℕ → Group K)),
        Option.map (·.groups) (r.bind fun S => some { s with groups := S }) = r := by
      intro s r
      cases r <;> rfl
    cases variant with
    | sparseGridReduce => exact (hmap _ _).symm
    | subspaceReduce =>
      simp only [Option.bind_eq_bind, Option.bind_some, subspaceReduceVariant]
      cases getSubspaceVote levels.length (dsgs.map (·.sizes)) with
      | none => rfl
      | some votes => exact (hmap _ _).symm
    | outgroupSparseGridReduce =>
      simp only [Option.bind_eq_bind, Option.bind_some, outgroupVariant]
      cases getSubspaceVote levels.length (dsgs.map (·.sizes)) with
      | none => rfl
      | some votes =>
        simp only [Option.bind_some, reduceCtorEq, if_false]
        cases (List.range n).mapM fun g =>
            setOutgroupCommunicator levels.length (dsgs.map (·.sizes)) g with
        | none => rfl
        | some comms =>
          simp only [Option.bind_some]
          split
          · exact (hmap _ _).symm
          · rfl
    | chunkedOutgroupSparseGridReduce =>
      simp only [Option.bind_eq_bind, Option.bind_some, outgroupVariant]
      cases getSubspaceVote levels.length (dsgs.map (·.sizes)) with
      | none => rfl
      | some votes =>
        simp only [Option.bind_some, reduceCtorEq, if_false]
        cases (List.range n).mapM fun g =>
            setOutgroupCommunicator levels.length (dsgs.map (·.sizes)) g with
        | none => rfl
        | some comms =>
          simp only [Option.bind_some]
          split
          · exact (hmap _ _).symm
          · rfl

/-! ### Exact values -/

/-- Same tasks, with the same values at all points of the grids. -/
def SameOn (refs : List RefDim) (n : ℕ) (T T' : ℕ → List (K × List ℕ × (ℕ → K))) : Prop :=
  ∀ g < n, List.Forall₂ (fun t t' : K × List ℕ × (ℕ → K) => t'.1 = t.1 ∧ t'.2.1 = t.2.1 ∧
    ∀ p < numLocal refs t.2.1, t'.2.2 p = t.2.2 p) (T g) (T' g)

theorem SameOn.levels {refs : List RefDim} {n : ℕ} {T T' : ℕ → List (K × List ℕ × (ℕ → K))}
    (h : SameOn refs n T T') {g : ℕ} (hg : g < n) :
    (T' g).map (fun t => (t.1, t.2.1)) = (T g).map fun t => (t.1, t.2.1) := by
  have := h g hg
  generalize T g = a at *
  generalize T' g = b at *
  induction this with
  | nil => rfl
  | cons h1 _ ih => rw [List.map_cons, List.map_cons, ih, h1.1, h1.2.1]

theorem SameOn.value [Ring K] {refs : List RefDim} {n : ℕ}
    {T T' : ℕ → List (K × List ℕ × (ℕ → K))} (h : SameOn refs n T T') (z : List ℕ) :
    valueAtPlace refs n T' z = valueAtPlace refs n T z := by
  unfold valueAtPlace
  congr 1
  apply List.map_congr_left
  intro m hm
  have := h m (List.mem_range.1 hm)
  generalize T m = a at *
  generalize T' m = b at *
  induction this with
  | nil => rfl
  | cons h1 _ ih =>
    rw [List.map_cons, List.map_cons, List.sum_cons, List.sum_cons, ih, h1.1, h1.2.1]
    congr 2
    apply Finset.sum_congr rfl
    intro q hq
    rw [Finset.mem_filter, Finset.mem_range] at hq
    exact h1.2.2 q hq.1

/-- tasks with exactly the values of the grids -/
theorem exact_tasks {refs : List RefDim} {n : ℕ} {T : ℕ → List (K × List ℕ × (ℕ → K))}
    {S : ℕ → Group K} (hS : Unchanged refs n T S) :
    (∀ g < n, (S g).tasks = tasksOf refs (retask T S g)) ∧ SameOn refs n T (retask T S) := by
  constructor
  · intro g hg
    have := hS g hg
    unfold tasksOf retask
    generalize T g = a at *
    generalize (S g).tasks = b at *
    induction this with
    | nil => rfl
    | @cons t t' _ _ h1 _ ih =>
      rw [List.zipWith_cons_cons, List.map_cons, ← ih]
      obtain ⟨e1, e2, e3, -⟩ := h1
      obtain ⟨c, ⟨dims, ⟨len, val⟩⟩⟩ := t'
      simp only at e1 e2 e3
      subst e1 e2 e3
      rfl
  · intro g hg
    have := hS g hg
    unfold retask
    generalize T g = a at *
    generalize (S g).tasks = b at *
    induction this with
    | nil => exact List.Forall₂.nil
    | cons h1 _ ih => exact List.Forall₂.cons ⟨rfl, rfl, h1.2.2.2⟩ ih

/-! ### What the setup provides -/

theorem Initialised.congr [Zero K] {refs : List RefDim} {levels : List (List ℕ)} {n : ℕ}
    {T T' : ℕ → List (K × List ℕ × (ℕ → K))} {dsgs : List (Dsg K)}
    (h : Initialised refs levels n T dsgs)
    (hT : ∀ g < n, (T' g).map (fun t => (t.1, t.2.1)) = (T g).map fun t => (t.1, t.2.1)) :
    Initialised refs levels n T' dsgs :=
  ⟨h.len, h.lev, h.slen, h.sel,
    fun g hg i hi hh => h.hold g hg i hi ((holdsLevel_congr hT hg _).1 hh),
    fun g hg i hi hh => h.nohold g hg i hi fun hc => hh ((holdsLevel_congr hT hg _).2 hc)⟩

/-- The tasks `T` can be combined with what was set up for `T0`: they are the same, or, if all groups
have the whole sparse grid, they may be on other groups. -/
def Compatible (variant : CombinationVariant) (n : ℕ)
    (T0 T : ℕ → List (K × List ℕ × (ℕ → K))) : Prop :=
  (∀ g < n, (T g).map (fun t => (t.1, t.2.1)) = (T0 g).map fun t => (t.1, t.2.1)) ∨
    variant = .sparseGridReduce ∧ ∀ g < n, ∀ t ∈ T g, ∃ g0 < n, ∃ t0 ∈ T0 g0, t0.2.1 = t.2.1

/-- What a combination with the setup `s` does, for all tasks that are compatible with it. -/
structure Works [Ring K] (variant : CombinationVariant) (refs : List RefDim)
    (levels : List (List ℕ)) (n maxChunk : ℕ) (T0 : ℕ → List (K × List ℕ × (ℕ → K)))
    (s : Setup K) (sizes : ℕ → List ℕ) : Prop where
  step : ∀ T, ValidSystem refs levels n T → Compatible variant n T0 T → ∀ S,
    ReadyFor (variant ≠ .chunkedOutgroupSparseGridReduce) refs levels n sizes T S →
    ∃ (S' : ℕ → Group K) (F : ℕ → ℕ → ℕ → K),
      Setup.combine variant maxChunk n { s with groups := S } = some { s with groups := S' } ∧
      IsCombined refs n T S' ∧
      (∀ g < n, (S' g).dsg.levels = levels ∧ (S' g).dsg.sizes = sizes g) ∧
      (variant ≠ .chunkedOutgroupSparseGridReduce →
        ∀ g < n, Holding levels (sizes g) (F g) (S' g).dsg) ∧
      (variant = .sparseGridReduce →
        ∀ g < n, ∀ i < levels.length, ∀ j < (sizes g).getD i 0,
          F g i j = ((List.range n).map fun m => localSum levels (tasksOf refs (T m)) i j).sum)
  held : variant = .sparseGridReduce → ∀ T, Compatible variant n T0 T → ∀ g < n, ∀ g' < n,
    ∀ i (hi : i < levels.length), HoldsLevel T g' levels[i] →
      (sizes g).getD i 0 = subspaceCount refs levels[i]
  len : ∀ g < n, (sizes g).length = levels.length
  lt : ∀ g < n, (sizes g).sum < 2 ^ 32

theorem setUp_works [Ring K] {refs : List RefDim} {levels : List (List ℕ)} {n : ℕ}
    (hn : n ≤ 256) {T0 : ℕ → List (K × List ℕ × (ℕ → K))} (h : ValidSystem refs levels n T0)
    (htotal : (levels.map (subspaceCount refs)).sum < 2 ^ 31)
    {variant : CombinationVariant} {maxChunk : ℕ} (hu : Usable refs n T0 variant maxChunk) :
    ∃ s sizes, setUp variant levels n (fun g => tasksOf refs (T0 g)) = some s ∧
      Works variant refs levels n maxChunk T0 s sizes ∧
      ReadyFor (variant ≠ .chunkedOutgroupSparseGridReduce) refs levels n sizes T0 s.groups := by
  have hsmall : ∀ l ∈ levels, subspaceCount refs l < 2 ^ 31 := by
    intro l hl
    refine lt_of_le_of_lt ?_ htotal
    exact List.single_le_sum (fun _ _ => Nat.zero_le _) _ (List.mem_map.2 ⟨_, hl, rfl⟩)
  obtain ⟨dsgs, i1, i2⟩ := initDsgs_eq h variant
  by_cases hv : variant = .sparseGridReduce
  · -- all groups have the whole sparse grid
    subst hv
    let sizes : ℕ → List ℕ := fun g => outgroupSizes (dsgs.map (·.sizes)) (List.range levels.length)
      (dsgs.getD g (Dsg.empty levels)).sizes
    have hlen : ∀ g < n, (sizes g).length = levels.length := fun g hg =>
      (i2.outgroupSizes_eq hg (List.range levels.length)).1
    have hlt : ∀ g < n, (sizes g).sum < 2 ^ 32 := by
      intro g hg
      have := sum_le_total (hlen g hg) fun i hi =>
        ((i2.outgroupSizes_eq hg (List.range levels.length)).2 i hi).2
      omega
    have hheld : ∀ T, Compatible .sparseGridReduce n T0 T → ∀ g < n, ∀ g' < n,
        ∀ i (hi : i < levels.length), HoldsLevel T g' levels[i] →
          (sizes g).getD i 0 = subspaceCount refs levels[i] := by
      intro T hc g hg g' hg' i hi hh
      refine ((i2.outgroupSizes_eq hg (List.range levels.length)).2 i hi).1
        (Or.inr ⟨List.mem_range.2 hi, ?_⟩)
      rcases hc with hc | ⟨-, hc⟩
      · exact ⟨g', hg', (holdsLevel_congr hc hg' _).1 hh⟩
      · obtain ⟨t, ht, hl⟩ := hh
        obtain ⟨g0, hg0, t0, ht0, e⟩ := hc g' hg' t ht
        exact ⟨g0, hg0, t0, ht0, by rw [e]; exact hl⟩
    have hsame : ∀ g < n, sizes g = sizes 0 := by
      intro g hg
      change outgroupSizes _ _ _ = outgroupSizes _ _ _
      unfold outgroupSizes
      rw [i2.slen g hg, i2.slen 0 (by omega)]
      apply List.map_congr_left
      intro i hi
      rw [if_pos hi, if_pos hi]
    refine ⟨_, sizes, by unfold setUp; rw [i1]; rfl, ⟨?_, fun _ => hheld, hlen, hlt⟩,
      readyFor_afterSizes i2 _ sizes⟩
    intro T hT hc S hS
    rcases Nat.eq_zero_or_pos n with rfl | hpos
    · refine ⟨S, fun _ _ _ => 0, rfl, ?_, ?_, ?_, ?_⟩
      · intro g hg; omega
      · intro g hg; omega
      · intro _ g hg; omega
      · intro _ g hg; omega
    obtain ⟨S', F, e1, e2, e3, e4⟩ := sparseGridReduce_from hT maxChunk hu.pos hu.max (sizes 0)
      (hlen 0 hpos) (hlt 0 hpos) (fun g hg => hheld T hc 0 hpos g hg) S
      ⟨hS.lev, fun g hg => by rw [hS.siz g hg, hsame g hg], fun _ => hS.zero (by decide), hS.tasks⟩
    refine ⟨S', F, ?_, e2, ?_, ?_, ?_⟩
    · unfold Setup.combine
      simp only [e1]
      rfl
    · intro g hg
      exact ⟨(e3 g hg).lev, by rw [hsame g hg]; exact (e3 g hg).siz⟩
    · intro _ g hg
      rw [hsame g hg]
      exact e3 g hg
    · intro _ g hg
      rw [hsame g hg]
      exact e4 g hg
  have hcomp : ∀ T, Compatible variant n T0 T → ∀ g < n,
      (T g).map (fun t => (t.1, t.2.1)) = (T0 g).map fun t => (t.1, t.2.1) := by
    intro T hc
    rcases hc with hc | ⟨hc, -⟩
    · exact hc
    · exact absurd hc hv
  by_cases hv2 : variant = .subspaceReduce
  · subst hv2
    obtain ⟨votes, v1, -⟩ := subspaceReduce_from hn h maxChunk hu.max htotal i2
    refine ⟨⟨fun g => afterSizes (dsgs.getD g (Dsg.empty levels))
        (dsgs.getD g (Dsg.empty levels)).sizes (tasksOf refs (T0 g)),
        (subspacesByVote votes).map fun kv => (ranksOfVote kv.1, kv.2), fun _ => none⟩,
      fun g => (dsgs.getD g (Dsg.empty levels)).sizes, ?_, ⟨?_, fun hc => absurd hc hv, ?_, ?_⟩,
      readyFor_afterSizes i2 _ _⟩
    · unfold setUp
      rw [i1]
      simp only [Option.bind_eq_bind, Option.bind_some, v1]
      rfl
    · intro T hT hc S hS
      obtain ⟨votes', v1', hstep⟩ := subspaceReduce_from hn hT maxChunk hu.max htotal
        (i2.congr (hcomp T hc))
      rw [v1] at v1'
      obtain rfl := Option.some.inj v1'
      obtain ⟨S', e1, e2, e3⟩ := hstep S
        ⟨hS.lev, hS.siz, fun _ => hS.zero (by decide), hS.tasks⟩
      have hF : ∀ g, ∃ F, g < n → Holding levels (dsgs.getD g (Dsg.empty levels)).sizes F
          (S' g).dsg := by
        intro g
        by_cases hg : g < n
        · obtain ⟨F, hF⟩ := e3 g hg
          exact ⟨F, fun _ => hF⟩
        · exact ⟨fun _ _ => 0, fun hc => absurd hc hg⟩
      choose F hF using hF
      refine ⟨S', F, ?_, e2, fun g hg => ⟨(hF g hg).lev, (hF g hg).siz⟩, fun _ => hF,
        fun hc => absurd hc hv⟩
      unfold Setup.combine
      simp only [e1]
      rfl
    · exact i2.slen
    · intro g hg
      have := sum_le_total (refs := refs) (i2.slen g hg) fun i hi => by
        by_cases hh : HoldsLevel T0 g levels[i]
        · rw [i2.hold g hg i hi hh]
        · rw [i2.nohold g hg i hi hh]; omega
      omega
  have hshare : (∀ g < n, Shares refs n T0 g) ∨ ∀ g < n, ¬ Shares refs n T0 g := by
    rcases hu.share with a | a | a
    · exact absurd a hv
    · exact absurd a hv2
    · exact a
  obtain ⟨votes, comms, v1, v2, v3, -, -⟩ := outgroup_from hn h hshare maxChunk hu.max hsmall i2
  refine ⟨⟨fun g => afterSizes (dsgs.getD g (Dsg.empty levels))
        (outgroupSizes (dsgs.map (·.sizes)) (subspacesForMany votes).1
          (dsgs.getD g (Dsg.empty levels)).sizes) (tasksOf refs (T0 g)),
        if (List.range n).filter (fun g => (comms.getD g none).isSome) = [] then [] else
          [((List.range n).filter (fun g => (comms.getD g none).isSome),
            (subspacesForMany votes).1)], fun g => comms.getD g none⟩,
      fun g => outgroupSizes (dsgs.map (·.sizes)) (subspacesForMany votes).1
        (dsgs.getD g (Dsg.empty levels)).sizes, ?_, ⟨?_, fun hc => absurd hc hv, ?_, ?_⟩,
      readyFor_afterSizes i2 _ _⟩
  · unfold setUp
    rw [i1]
    simp only [Option.bind_eq_bind, Option.bind_some, v1, if_neg hv, if_neg hv2, v2, if_pos v3]
    rfl
  · intro T hT hc S hS
    have hc' := hcomp T hc
    obtain ⟨votes', comms', v1', v2', -, c1, c2⟩ := outgroup_from hn hT (by
        rcases hshare with a | a
        · exact Or.inl fun g hg => (shares_congr hc' hg).2 (a g hg)
        · exact Or.inr fun g hg hcon => a g hg ((shares_congr hc' hg).1 hcon))
      maxChunk hu.max hsmall (i2.congr hc')
    rw [v1] at v1'
    obtain rfl := Option.some.inj v1'
    rw [v2] at v2'
    obtain rfl := Option.some.inj v2'
    cases variant with
    | sparseGridReduce => exact absurd rfl hv
    | subspaceReduce => exact absurd rfl hv2
    | outgroupSparseGridReduce =>
      obtain ⟨S', e1, e2, e3⟩ := c2 htotal S
        ⟨hS.lev, hS.siz, fun _ => hS.zero (by decide), hS.tasks⟩
      have hF : ∀ g, ∃ F, g < n → Holding levels (outgroupSizes (dsgs.map (·.sizes))
          (subspacesForMany votes).1 (dsgs.getD g (Dsg.empty levels)).sizes) F (S' g).dsg := by
        intro g
        by_cases hg : g < n
        · obtain ⟨F, hF⟩ := e3 g hg
          exact ⟨F, fun _ => hF⟩
        · exact ⟨fun _ _ => 0, fun hc => absurd hc hg⟩
      choose F hF using hF
      refine ⟨S', F, ?_, e2, fun g hg => ⟨(hF g hg).lev, (hF g hg).siz⟩, fun _ => hF,
        fun hc => absurd hc hv⟩
      unfold Setup.combine
      simp only [e1]
      rfl
    | chunkedOutgroupSparseGridReduce =>
      obtain ⟨S', e1, e2, e3⟩ := c1 S ⟨hS.lev, hS.siz, fun hc => hc.elim, hS.tasks⟩
      refine ⟨S', fun _ _ _ => 0, ?_, e2, e3, fun hc => absurd rfl hc, fun hc => absurd hc hv⟩
      unfold Setup.combine
      simp only [e1]
      rfl
  · intro g hg
    exact (i2.outgroupSizes_eq hg _).1
  · intro g hg
    have := sum_le_total (i2.outgroupSizes_eq hg (subspacesForMany votes).1).1 fun i hi =>
      ((i2.outgroupSizes_eq hg (subspacesForMany votes).1).2 i hi).2
    omega

/-! ### Moving a task -/

/-- allocating the residuals again changes nothing -/
theorem Holding.createKahanBuffer [Ring K] {levels : List (List ℕ)} {sizes : List ℕ}
    {F : ℕ → ℕ → K} {d : Dsg K} (h : Holding levels sizes F d) (hlen : sizes.length = levels.length)
    (hlt : sizes.sum < 2 ^ 32) :
    ∃ d', d.createKahanBuffer = some d' ∧ Holding levels sizes F d' := by
  have hs : d.sel.Pairwise (· < ·) := by rw [h.sel]; exact List.pairwise_lt_range
  have hsel : selected d.sel d.sizes.length = d.sel := by
    unfold selected
    split
    · rename_i hc
      rw [h.sel] at hc
      rw [h.sel, hc, h.siz, hlen, hc]
    · rfl
  refine ⟨_, createKahan_eq d hs h.well.selRange, ?_⟩
  rw [hsel]
  refine ⟨h.lev, h.siz, ⟨h.well.sorted, h.well.len, h.well.selRange, h.well.ptr, ?_, h.well.dataLen,
    rfl, rfl⟩, h.sel, h.val⟩
  intro i hi
  refine pointersLoop_getElem? _ _ ?_ i hi
  exact lt_of_le_of_lt (selOffset_range_lt _ (le_refl _)) (by rw [h.siz]; exact hlt)

end Verif

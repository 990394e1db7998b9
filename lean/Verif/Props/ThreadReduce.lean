import Verif.Lemmas.ThreadReduce
import Verif.Props.Combine

/-!
# C107: reductions of subspaces that are called by several threads
-/

namespace Verif.ThreadReduce

variable {K : Type}

/-- C107: on every process any number of threads work on the communicators, which are handed out in their order. If the
calls match (one thread per process would get through, with the result `S1`) and no element belongs to two
reductions, then whatever the threads do first, there is no deadlock: all of them get to the end of the loop, and the sparse
grids are the same as with one thread. -/
theorem C107_reduce [AddCommMonoid K] (maxChunk : ℕ) (comms : List (List ℕ × List ℕ)) (S S1 : ℕ → Group K)
    (hseq : comms.foldlM (fun S c => subspaceReduce maxChunk c.1 (fun _ => c.2) S) S = some S1)
    (hsep : Separate maxChunk comms S) (teams : ℕ → ℕ) (hteam : ∀ g, 0 < teams g) :
    Inevitable (Step maxChunk comms) (fun x => x.Done ∧ x.data = S1) (start teams (ownComms comms) S) := by
  obtain ⟨hm, hS1⟩ := seq_match maxChunk comms S S1 hseq
  obtain ⟨n, hn⟩ : ∃ n, ∀ e ∈ comms, ∀ g ∈ e.1, g < n := by
    refine ⟨(comms.flatMap (·.1)).sum + 1, fun e he g hg => ?_⟩
    have : g ≤ (comms.flatMap (·.1)).sum :=
      List.single_le_sum (fun _ _ => Nat.zero_le _) _ (List.mem_flatMap.2 ⟨e, he, hg⟩)
    omega
  have key : ∀ N done log (x : State K), Inv maxChunk comms S done log x →
      todo n comms.length (num maxChunk comms S) done x.procs = N →
      Inevitable (Step maxChunk comms) (fun x => x.Done ∧ x.data = S1) x := by
    intro N
    induction N using Nat.strong_induction_on with
    | _ N ih =>
      intro done log x hx hN
      by_cases hd : x.Done
      · have hall : ∀ c < comms.length, done c = num maxChunk comms S c := by
          intro c hc
          cases hmc : mem comms c with
          | nil =>
            have h1 := hx.le c hc
            have h2 : num maxChunk comms S c = 0 := by
              unfold num
              rw [hmc]
              rfl
            omega
          | cons g gs =>
            obtain ⟨pre, h1, h2, -⟩ := (hx.procs g).split
            rw [(hd g).1, List.append_nil] at h1
            have : c ∈ pre := by
              rw [← h1]
              exact mem_own.2 ⟨hc, by rw [hmc]; simp⟩
            exact (h2 c this).resolve_left fun ht => by cases (hd g).2 _ ht
        refine .here _ ⟨hd, ?_⟩ ?_
        · have hperm : log.Perm (allOps maxChunk comms S) := by
            rw [List.perm_ext_iff_of_nodup hx.nodup (allOps_nodup _ _ _)]
            intro q
            rw [hx.log, mem_allOps]
            refine and_congr_right fun hq => ?_
            rw [hall q.1 hq]
          rw [hx.data, hS1]
          exact hperm.foldl_eq' (fun q hq q' hq' z => ops_comm maxChunk comms S hm hsep q q' (hperm.mem_iff.1 hq)
            (hperm.mem_iff.1 hq') z) S
        · intro y hy
          cases hy with
          | take g t c pool hp _ => rw [(hd g).1] at hp; cases hp
          | finish g t c k e dts ht => cases (hd g).2 _ (List.mem_of_getElem? ht)
          | reduce g c k e dts data hce hg hall => cases (hd g).2 _ (hall g hg)
      · refine .step _ (step_exists hm hx hd) fun y hy => ?_
        obtain ⟨done', log', hy', hlt⟩ := step_inv hm hn hx hy
        exact ih _ (hN ▸ hlt) done' log' y hy' rfl
  refine key _ (fun _ => 0) [] _ ⟨rfl, List.nodup_nil, fun q => by simp, fun _ _ => Nat.zero_le _, fun g => ?_⟩ rfl
  refine ⟨⟨[], rfl, by simp, ?_⟩, fun _ _ => rfl, ?_⟩
  · intro c k hm
    have : some (c, k) ∈ List.replicate (teams g) none := hm
    rw [List.mem_replicate] at this
    cases this.2
  · have := hteam g
    simp only [start, ne_eq, List.replicate_eq_nil_iff]
    omega

/-- Subspaces of different communicators are stored at different places, also in different datatypes. -/
theorem separate_of [Ring K] {levels : List (List ℕ)} (n : ℕ)
    (sizes : ℕ → List ℕ) (hlen : ∀ g, (sizes g).length = levels.length) (maxChunk : ℕ)
    (hmax : maxChunk ≤ 2 ^ 31) (size : ℕ → ℕ) (hlt : ∀ g < n, (sizes g).sum < 2 ^ 31)
    (comms : List (List ℕ × List ℕ))
    (hm : ∀ c ∈ comms, ∀ g ∈ c.1, g < n)
    (hsub : ∀ c ∈ comms, c.2.Pairwise (· < ·) ∧ (∀ i ∈ c.2, i < levels.length) ∧
      ∀ g ∈ c.1, ∀ i ∈ c.2, (sizes g).getD i 0 = size i)
    (hsz : ∀ c ∈ comms, ∀ i ∈ c.2, size i < 2 ^ 31)
    (hdisj : comms.Pairwise fun c c' => ∀ i ∈ c.2, i ∉ c'.2)
    (S : ℕ → Group K)
    (hw : ∀ g < n, GroupOk levels (sizes g) (S g) ∧ WellAllocated (S g).dsg ∧
      (S g).dsg.sel = List.range levels.length) : Separate maxChunk comms S := by
  have hdt : ∀ e ∈ comms, ∀ g ∈ e.1, getReductionDatatypes (S g).dsg maxChunk e.2 =
      some ((getChunkedSubspaces size maxChunk e.2).map (posOf (S g).dsg)) := by
    intro e he g hg
    obtain ⟨s1, s2, s3⟩ := hsub e he
    obtain ⟨w1, w2, w3⟩ := hw g (hm e he g hg)
    obtain ⟨hc1, hc2⟩ := C33_chunks_partial size maxChunk hmax e.2 (hsz e he) s1
    unfold getReductionDatatypes
    rw [C33_same_chunks _ size maxChunk e.2 (fun s hs => by rw [w1.siz]; exact s3 g hg s hs)]
    apply mapM_some_map
    intro c hc
    have hcs : ∀ s ∈ c, s ∈ e.2 := fun s hs => by
      rw [← hc1]; exact List.mem_flatten.2 ⟨c, hc, hs⟩
    apply datatypePositions_eq _ w2 _ (hc2 c hc).1
    · have hsub : c.Sublist e.2 := by
        rw [← hc1]
        exact List.sublist_flatten_of_mem hc
      exact List.Pairwise.sublist hsub s1
    · exact fun s hs => by rw [w3]; exact List.mem_range.2 (s2 s (hcs s hs))
    · exact fun s hs => by rw [w1.siz, s3 g hg s (hcs s hs)]; exact hsz e he s (hcs s hs)
    · intro s hs s0 _
      rw [w1.siz]
      have := s2 s (hcs s hs)
      have := selOffset_range_lt (sizes := sizes g) (i := s) (S g).dsg.sel (by rw [hlen]; omega)
      have := hlt g (hm e he g hg)
      omega
  intro g c c' k k' e e' d d' p p' hne hce hce' hg hg' hd hd' hk hk' i hi hi'
  have he := List.mem_of_getElem? hce
  have he' := List.mem_of_getElem? hce'
  rw [hdt e he g hg] at hd
  rw [hdt e' he' g hg'] at hd'
  obtain rfl := Option.some.inj hd
  obtain rfl := Option.some.inj hd'
  rw [List.getElem?_map, Option.map_eq_some_iff] at hk hk'
  obtain ⟨ch, hch, rfl⟩ := hk
  obtain ⟨ch', hch', rfl⟩ := hk'
  obtain ⟨s, hs, j, hj, rfl⟩ := mem_posOf.1 hi
  obtain ⟨s', hs', j', hj', e2⟩ := mem_posOf.1 hi'
  obtain ⟨hc1, -⟩ := C33_chunks_partial size maxChunk hmax e.2 (hsz e he) (hsub e he).1
  obtain ⟨hc1', -⟩ := C33_chunks_partial size maxChunk hmax e'.2 (hsz e' he') (hsub e' he').1
  have hin : s ∈ e.2 := by
    rw [← hc1]
    exact List.mem_flatten.2 ⟨ch, List.mem_of_getElem? hch, hs⟩
  have hin' : s' ∈ e'.2 := by
    rw [← hc1']
    exact List.mem_flatten.2 ⟨ch', List.mem_of_getElem? hch', hs'⟩
  obtain ⟨-, -, w3⟩ := hw g (hm e he g hg)
  have heq := (storage_inj (sizes := (S g).dsg.sizes) (sel := (S g).dsg.sel)
    (by rw [selSize_of_mem (by rw [w3]; exact List.mem_range.2 ((hsub e he).2.1 s hin))]; exact hj)
    (by rw [selSize_of_mem (by rw [w3]; exact List.mem_range.2 ((hsub e' he').2.1 s' hin'))]; exact hj') e2).1
  subst heq
  have hcc : c = c' := by
    by_contra hcc
    obtain ⟨hc, rfl⟩ := List.getElem?_eq_some_iff.1 hce
    obtain ⟨hc', rfl⟩ := List.getElem?_eq_some_iff.1 hce'
    rcases Nat.lt_or_gt_of_ne hcc with hlt | hlt
    · exact List.pairwise_iff_getElem.1 hdisj c c' hc hc' hlt s hin hin'
    · exact List.pairwise_iff_getElem.1 hdisj c' c hc' hc hlt s hin' hin
  subst hcc
  obtain rfl := Option.some.inj (hce.symm.trans hce')
  have hkk : k ≠ k' := fun h => hne (by rw [h])
  have hnd : (getChunkedSubspaces size maxChunk e.2).flatten.Nodup := by
    rw [hc1]
    exact (hsub e he).1.imp fun h => ne_of_lt h
  rw [List.nodup_flatten] at hnd
  obtain ⟨hl, rfl⟩ := List.getElem?_eq_some_iff.1 hch
  obtain ⟨hl', rfl⟩ := List.getElem?_eq_some_iff.1 hch'
  rcases Nat.lt_or_gt_of_ne hkk with hlt | hlt
  · exact List.pairwise_iff_getElem.1 hnd.2 k k' hl hl' hlt hs hs'
  · exact List.pairwise_iff_getElem.1 hnd.2 k' k hl' hl hlt hs' hs

/-- C107 for a whole combination with one communicator for each set of groups (the variant of `C34_subspaceReduce`):
every process goes through its own list of communicators with any number of threads. All of them get to the end, and
the component grids that are extracted afterwards are the combined ones. -/
theorem C107_combination [Ring K] (refs : List RefDim) (levels : List (List ℕ)) (n : ℕ)
    (hn : n ≤ 256) (T : ℕ → List (K × List ℕ × (ℕ → K))) (h : ValidSystem refs levels n T)
    (maxChunk : ℕ) (hmax : maxChunk < 2 ^ 31) (htotal : (levels.map (subspaceCount refs)).sum < 2 ^ 31) :
    ∃ (dsgs : List (Dsg K)) (comms : List (List ℕ × List ℕ)) (S1 S2 S' : ℕ → Group K),
      initDsgs .subspaceReduce levels n (fun g => tasksOf refs (T g)) = some dsgs ∧
      (∀ g, setSubspaceCommunicators levels.length (dsgs.map (·.sizes)) g =
        some ((ownComms comms g).map fun c => comms.getD c ([], []))) ∧
      forGroups (fun _ g => g.collectAll) (List.range n) (fun g =>
        afterSizes (dsgs.getD g (Dsg.empty levels)) (dsgs.getD g (Dsg.empty levels)).sizes (tasksOf refs (T g))) = some S1 ∧
      (∀ teams : ℕ → ℕ, (∀ g, 0 < teams g) →
        Inevitable (Step maxChunk comms) (fun x => x.Done ∧ x.data = S2) (start teams (ownComms comms) S1)) ∧
      forGroups (fun _ g => g.extractTasks true) (List.range n) S2 = some S' ∧ IsCombined refs n T S' := by
  obtain ⟨S', hS', hcomb⟩ := C34_subspaceReduce refs levels n hn T h maxChunk hmax htotal
  obtain ⟨dsgs, i1, i2⟩ := initDsgs_eq h .subspaceReduce
  obtain ⟨votes, v1, v2, v3⟩ := getSubspaceVote_spec levels.length (dsgs.map (·.sizes)) i2.size_len
    (by rw [List.length_map, i2.len]; exact hn)
  have hS := readyFor_afterSizes i2 True fun g => (dsgs.getD g (Dsg.empty levels)).sizes
  unfold combineVariant at hS'
  rw [i1] at hS'
  simp only [Option.bind_some] at hS'
  unfold subspaceReduceVariant at hS'
  rw [v1] at hS'
  simp only [Option.bind_eq_bind, Option.bind_some] at hS'
  unfold combineAllocated at hS'
  generalize hS0 : (fun g => afterSizes (dsgs.getD g (Dsg.empty levels)) (dsgs.getD g (Dsg.empty levels)).sizes
    (tasksOf refs (T g))) = S at hS hS'
  refine ⟨dsgs, (subspacesByVote votes).map fun kv => (ranksOfVote kv.1, kv.2), ?_⟩
  obtain ⟨hsort, hmem⟩ := subspacesByVote_prefix votes votes.length (le_refl _)
  have htab : ∀ w is, (w, is) ∈ subspacesByVote votes ↔
      manyBits w = true ∧ is = withVote votes votes.length w ∧ is ≠ [] := hmem
  have hsort' : (subspacesByVote votes).Pairwise fun a b => a.1 < b.1 := hsort
  have key : ∀ (w : ℕ) (is : List ℕ) (i : ℕ), (w, is) ∈ subspacesByVote votes → i ∈ is →
      i < levels.length ∧ ∀ r, w.testBit r = true ↔ Holds (dsgs.map (·.sizes)) r i := by
    intro w is i hw hi
    rw [htab] at hw
    rw [hw.2.1, mem_withVote] at hi
    have hin : i < levels.length := by omega
    exact ⟨hin, (votes_eq_iff v2 v3 hin).1 hi.2⟩
  have hranks : ∀ (w : ℕ) (is : List ℕ) (i : ℕ), (w, is) ∈ subspacesByVote votes → i ∈ is →
      ∀ r', r' ∈ ranksOfVote w ↔ Holds (dsgs.map (·.sizes)) r' i := by
    intro w is i hw hi r'
    rw [mem_ranksOfVote, (key w is i hw hi).2 r']
    refine ⟨fun h => h.2, fun h => ⟨?_, h⟩⟩
    have := (i2.holds_iff.1 h).1
    omega
  let size : ℕ → ℕ := fun i => subspaceCount refs (levels.getD i [])
  have hsize : ∀ i (hi : i < levels.length), size i = subspaceCount refs levels[i] := by
    intro i hi
    change subspaceCount refs (levels.getD i []) = _
    rw [List.getD_eq_getElem _ _ hi]
  let sizes : ℕ → List ℕ := fun g => if g < n then (dsgs.getD g (Dsg.empty levels)).sizes else
    List.replicate levels.length 0
  have hsz : ∀ g < n, sizes g = (dsgs.getD g (Dsg.empty levels)).sizes := by
    intro g hg
    change (if g < n then _ else _) = _
    rw [if_pos hg]
  have hslen : ∀ g, (sizes g).length = levels.length := by
    intro g
    change (if g < n then _ else _ : List ℕ).length = _
    split
    · rename_i hg
      exact i2.slen g hg
    · simp
  have hheld : ∀ g < n, ∀ i (hi : i < levels.length), HoldsLevel T g levels[i] →
      (sizes g).getD i 0 = subspaceCount refs levels[i] := by
    intro g hg i hi hh
    rw [hsz g hg]
    exact i2.hold g hg i hi hh
  have hle : ∀ g < n, ∀ i (hi : i < levels.length),
      (sizes g).getD i 0 ≤ subspaceCount refs levels[i] := by
    intro g hg i hi
    by_cases hh : HoldsLevel T g levels[i]
    · rw [hheld g hg i hi hh]
    · rw [hsz g hg, i2.nohold g hg i hi hh]; omega
  have hone : ∀ i (hi : i < levels.length), subspaceCount refs levels[i] < 2 ^ 31 := by
    intro i hi
    refine lt_of_le_of_lt ?_ htotal
    exact List.single_le_sum (fun _ _ => Nat.zero_le _) _
      (List.mem_map.2 ⟨_, List.getElem_mem hi, rfl⟩)
  obtain ⟨S1, a1, a2⟩ := collectGroups_eq h.sorted n sizes hslen
    (fun g hg => lt_trans (lt_of_le_of_lt (sum_le_total (hslen g) (hle g hg)) htotal) (by norm_num)) S (by
      intro g hg
      rw [hsz g hg]
      exact ⟨hS.groupOk h i2.hold g hg, hS.zero trivial g hg⟩)
  rw [a1] at hS'
  simp only [Option.bind_eq_bind, Option.bind_some] at hS'
  have hsep := separate_of n sizes hslen maxChunk (le_of_lt hmax) size
    (fun g hg => lt_of_le_of_lt (sum_le_total (hslen g) (hle g hg)) htotal)
    ((subspacesByVote votes).map fun kv => (ranksOfVote kv.1, kv.2))
    (by
      intro c hc g hg
      obtain ⟨⟨w, is⟩, hk, rfl⟩ := List.mem_map.1 hc
      obtain ⟨i, hi⟩ := List.exists_mem_of_ne_nil _ ((htab _ _).1 hk).2.2
      exact (i2.holds_iff.1 ((hranks w is i hk hi g).1 hg)).1)
    (by
      intro c hc
      obtain ⟨⟨w, is⟩, hk, rfl⟩ := List.mem_map.1 hc
      refine ⟨?_, fun i hi => (key w is i hk hi).1, fun g hg i hi => ?_⟩
      · simp only
        rw [((htab _ _).1 hk).2.1]
        exact List.pairwise_lt_range.filter _
      · obtain ⟨hgn, hil, hh, -⟩ := i2.holds_iff.1 ((hranks w is i hk hi g).1 hg)
        rw [hsize i hil]
        exact hheld g hgn i hil hh)
    (by
      intro c hc i hi
      obtain ⟨⟨w, is⟩, hk, rfl⟩ := List.mem_map.1 hc
      rw [hsize i (key w is i hk hi).1]
      exact hone i _)
    (by
      rw [List.pairwise_map]
      refine List.Pairwise.imp_of_mem ?_ hsort'
      rintro ⟨w, is⟩ ⟨w', is'⟩ hk hk' hlt i hi hi'
      have : w = w' := by
        apply Nat.eq_of_testBit_eq
        intro r
        rw [Bool.eq_iff_iff, (key w is i hk hi).2, (key w' is' i hk' hi').2]
      simp only at hlt
      omega)
    S1 (fun g hg => (a2 g hg).1)
  obtain ⟨S2, e2, e3⟩ := Option.bind_eq_some_iff.1 hS'
  refine ⟨S1, S2, S', i1, ?_, by rw [hS0]; exact a1, fun teams hteam => C107_reduce maxChunk _ S1 S2 e2 hsep teams hteam, e3, hcomb⟩
  intro g
  unfold setSubspaceCommunicators
  rw [v1]
  simp only [Option.bind_eq_bind, Option.bind_some]
  congr 1
  have hL : ((subspacesByVote votes).filter fun kv => decide (g ∈ ranksOfVote kv.1)).map
      (fun kv => (ranksOfVote kv.1, kv.2)) =
      ((subspacesByVote votes).map fun kv => (ranksOfVote kv.1, kv.2)).filter fun e => decide (g ∈ e.1) := by
    rw [List.filter_map]
    rfl
  rw [hL]
  generalize (subspacesByVote votes).map (fun kv => (ranksOfVote kv.1, kv.2)) = L
  have e : L = (List.range L.length).map fun c => L.getD c ([], []) := by
    apply List.ext_getElem (by simp)
    intro i hi _
    simp [List.getElem?_eq_getElem hi]
  conv_lhs => rw [e, List.filter_map]
  rfl

/-! ### Another order of the iterations -/

/-- Three groups that hold two subspaces of one point each. -/
def orderGroup : Group ℚ :=
  ⟨⟨[[1], [2]], [1, 1], [0, 1], ⟨2, fun _ => 1⟩, [0, 1], ⟨2, fun _ => 0⟩, [0, 1]⟩, []⟩

/-- The first subspace is shared by the groups 0 and 1, the second one by all of them. -/
def orderComms : List (List ℕ × List ℕ) := [([0, 1], [0]), ([0, 1, 2], [1])]

def orderList : ℕ → List ℕ
  | 0 => [0, 1]
  | 1 => [1, 0]
  | 2 => [1]
  | _ => []

/-- The hypotheses of `C107_reduce` hold for these groups; those of `C107_combination` are those of
`C34_subspaceReduce`, see the example there. -/
example : Separate 16 orderComms (fun _ => orderGroup) ∧
    (orderComms.foldlM (fun S c => subspaceReduce 16 c.1 (fun _ => c.2) S) (fun _ => orderGroup)).isSome = true ∧
    ownComms orderComms 0 = [0, 1] ∧ ownComms orderComms 2 = [1] := by
  refine ⟨separate_of (levels := [[1], [2]]) 3 (fun _ => [1, 1]) (fun _ => rfl) 16 (by norm_num) (fun _ => 1)
    (fun _ _ => by norm_num) orderComms (by decide) ?_ (fun _ _ _ _ => by norm_num) (by decide) _ ?_,
    by decide +kernel, by decide +kernel, by decide +kernel⟩
  · intro c hc
    simp only [orderComms, List.mem_cons, List.not_mem_nil, or_false] at hc
    rcases hc with rfl | rfl
    · exact ⟨by decide, by decide, fun _ _ => by decide⟩
    · exact ⟨by decide, by decide, fun _ _ => by decide⟩
  · intro g _
    refine ⟨⟨rfl, rfl, fun t ht => by cases ht⟩, ⟨by decide, rfl, by decide, ?_, ?_, by decide, by decide, rfl⟩, rfl⟩
    · decide
    · decide

/-- C107: if the iterations of one process are handed out in another order, which OpenMP allows since version 5.0 for
`schedule(dynamic)` without the modifier `monotonic`, then the processes can wait for each other for ever: group 0
reduces on the first communicator, group 1 on the second one. -/
theorem C107_order_violated : ∃ (comms : List (List ℕ × List ℕ)) (S S1 : ℕ → Group ℚ) (order : ℕ → List ℕ),
    (∀ g, (order g).Perm (ownComms comms g)) ∧
    comms.foldlM (fun S c => subspaceReduce 16 c.1 (fun _ => c.2) S) S = some S1 ∧
    ∃ y, Reaches (Step 16 comms) (start (fun _ => 1) order S) y ∧ ¬ y.Done ∧ ∀ z, ¬ Step 16 comms y z := by
  have hseq : (orderComms.foldlM (fun S c => subspaceReduce 16 c.1 (fun _ => c.2) S)
      (fun _ => orderGroup)).isSome = true := by decide +kernel
  obtain ⟨S1, hS1⟩ := Option.isSome_iff_exists.1 hseq
  have hd0 : getReductionDatatypes orderGroup.dsg 16 [0] = some [[0]] := by decide +kernel
  have hd1 : getReductionDatatypes orderGroup.dsg 16 [1] = some [[1]] := by decide +kernel
  refine ⟨orderComms, fun _ => orderGroup, S1, orderList, ?_, hS1, ?_⟩
  · intro g
    rcases g with _ | _ | _ | g
    · decide
    · decide
    · decide
    · have : ownComms orderComms (g + 3) = [] := by
        unfold ownComms orderComms
        simp [List.range_succ]
      rw [this]
      rfl
  · let x : State ℚ := start (fun _ => 1) orderList fun _ => orderGroup
    let y1 : State ℚ := { x with procs := Function.update x.procs 0 ⟨[1], [some (0, 0)]⟩ }
    let y2 : State ℚ := { y1 with procs := Function.update y1.procs 1 ⟨[0], [some (1, 0)]⟩ }
    let y3 : State ℚ := { y2 with procs := Function.update y2.procs 2 ⟨[], [some (1, 0)]⟩ }
    have h1 : Step 16 orderComms x y1 := Step.take x 0 0 0 [1] rfl rfl
    have h2 : Step 16 orderComms y1 y2 := Step.take y1 1 0 1 [0] rfl rfl
    have h3 : Step 16 orderComms y2 y3 := Step.take y2 2 0 1 [] rfl rfl
    have p0 : y3.procs 0 = ⟨[1], [some (0, 0)]⟩ := rfl
    have p1 : y3.procs 1 = ⟨[0], [some (1, 0)]⟩ := rfl
    have p2 : y3.procs 2 = ⟨[], [some (1, 0)]⟩ := rfl
    have p3 : ∀ g, y3.procs (g + 3) = ⟨[], [none]⟩ := fun g => rfl
    have hdata : ∀ g, y3.data g = orderGroup := fun _ => rfl
    refine ⟨y3, .tail _ _ _ h1 (.tail _ _ _ h2 (.tail _ _ _ h3 (.refl _))), ?_, ?_⟩
    · intro hd
      have := (hd 0).1
      rw [p0] at this
      cases this
    · clear_value y3
      intro z hz
      cases hz with
      | take g t c pool hp ht =>
        rcases g with _ | _ | _ | g
        · rw [p0] at ht
          rcases t with _ | t <;> simp at ht
        · rw [p1] at ht
          rcases t with _ | t <;> simp at ht
        · rw [p2] at hp
          cases hp
        · rw [p3] at hp
          cases hp
      | finish g t c k e dts ht hce hd hk =>
        rw [hdata] at hd
        have hck : k = 0 ∧ c < 2 := by
          rcases g with _ | _ | _ | g
          · rw [p0] at ht
            rcases t with _ | t <;> simp at ht
            omega
          · rw [p1] at ht
            rcases t with _ | t <;> simp at ht
            omega
          · rw [p2] at ht
            rcases t with _ | t <;> simp at ht
            omega
          · rw [p3] at ht
            rcases t with _ | t <;> simp at ht
        obtain ⟨rfl, hc⟩ := hck
        have hc' : c = 0 ∨ c = 1 := by omega
        rcases hc' with rfl | rfl
        · obtain rfl : ([0, 1], [0]) = e := Option.some.inj hce
          rw [hd0] at hd
          cases hd
          simp at hk
        · obtain rfl : ([0, 1, 2], [1]) = e := Option.some.inj hce
          rw [hd1] at hd
          cases hd
          simp at hk
      | reduce g c k e dts data hce hg hall =>
        rcases c with _ | _ | c
        · obtain rfl : ([0, 1], [0]) = e := Option.some.inj hce
          have := hall 1 (by simp)
          rw [p1] at this
          simp at this
        · obtain rfl : ([0, 1, 2], [1]) = e := Option.some.inj hce
          have := hall 0 (by simp)
          rw [p0] at this
          simp at this
        · cases hce

end Verif.ThreadReduce

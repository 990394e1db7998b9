import Verif.Lemmas.Combine

/-!
# Lemmas on the combination step of all groups
-/

namespace Verif

variable {K : Type}

/-- A chunk as made by `getChunkedSubspaces`. -/
structure ChunkOk (size : ℕ → ℕ) (maxChunk : ℕ) (c : List ℕ) : Prop where
  ne : c ≠ []
  sorted : c.Pairwise (· < ·)
  small : (c.map size).sum < maxChunk ∨ c.length = 1
  lt : ∀ s ∈ c, size s < 2 ^ 31
  stable : getChunkedSubspaces size maxChunk c = [c]

theorem chunkOk_of_mem (size : ℕ → ℕ) (maxChunk : ℕ) (hmax : maxChunk ≤ 2 ^ 31) (subs : List ℕ)
    (hsize : ∀ s ∈ subs, size s < 2 ^ 31) (hsort : subs.Pairwise (· < ·)) :
    ∀ c ∈ getChunkedSubspaces size maxChunk subs, ChunkOk size maxChunk c := by
  obtain ⟨h1, h2⟩ := C33_chunks_partial size maxChunk hmax subs hsize hsort
  intro c hc
  have hsub : c.Sublist subs := by
    rw [← h1]
    exact List.sublist_flatten_of_mem hc
  exact ⟨(h2 c hc).1, List.Pairwise.sublist hsub hsort, (h2 c hc).2,
    fun s hs => hsize s (hsub.mem hs), C33_chunks_stable size maxChunk hmax subs hsize hsort c hc⟩

theorem ChunkOk.sum_lt {size : ℕ → ℕ} {maxChunk : ℕ} {c : List ℕ} (h : ChunkOk size maxChunk c)
    (hmax : maxChunk ≤ 2 ^ 31) : (c.map size).sum < 2 ^ 31 := by
  rcases h.small with h1 | h1
  · omega
  · obtain ⟨s, rfl⟩ := List.length_eq_one_iff.1 h1
    have := h.lt s (by simp)
    simpa using this

/-- The sparse grid of a group and its tasks. -/
structure GroupOk (levels : List (List ℕ)) (sizes : List ℕ) (g : Group K) : Prop where
  lev : g.dsg.levels = levels
  siz : g.dsg.sizes = sizes
  ok : ∀ t ∈ g.tasks, TaskOk levels sizes t.2

theorem collectChunk_eq [Ring K] {levels : List (List ℕ)} (hs : levels.Pairwise (· < ·))
    {sizes : List ℕ} (hlen : sizes.length = levels.length) (g : Group K)
    (hg : GroupOk levels sizes g) (c : List ℕ) (hne : c ≠ []) (hsort : c.Pairwise (· < ·))
    (hr : ∀ i ∈ c, i < levels.length) (hlt : (c.map fun i => sizes.getD i 0).sum < 2 ^ 32) :
    ∃ d', g.collectChunk c = some ⟨d', g.tasks⟩ ∧ WellAllocated d' ∧ d'.levels = levels ∧
      d'.sizes = sizes ∧ d'.sel = c ∧
      ∀ i ∈ c, ∀ j < sizes.getD i 0, d'.at i j = localSum levels g.tasks i j := by
  obtain ⟨d, ts⟩ := g
  obtain ⟨h1, h2, h3⟩ := hg
  simp only at h1 h2 h3
  subst h1
  subst h2
  obtain ⟨d2, e1, e2, e3, e4, e5, e6⟩ := allocate_eq d hs hlen c hne hsort hr hlt
  obtain ⟨v, f1, f2⟩ := addTasks_eq false ⟨d2, ts⟩ e2 (by simp) (by
    simp only [e3, e4]; exact h3) e6
  refine ⟨d2.withVal v, ?_, e2.withVal v, e3, e4, e5, ?_⟩
  · unfold Group.collectChunk
    simp only [e1, Option.bind_eq_bind, Option.bind_some]
    exact f1
  · intro i hi j hj
    have := f2 i (by simp only [e5]; exact hi) j (by simp only [e4]; exact hj)
    simp only [e3] at this
    exact this

/-- one round without communication -/
theorem ingroupRound_eq [Ring K] {levels : List (List ℕ)} (hs : levels.Pairwise (· < ·))
    {sizes : List ℕ} (hlen : sizes.length = levels.length) (ts0 : List (K × Dfg K))
    (hok0 : ∀ t ∈ ts0, TaskOk levels sizes t.2) (F : ℕ → ℕ → K) (done : List ℕ) (g : Group K)
    (hg : GroupOk levels sizes g) (hp : ExtractedAll levels sizes done F ts0 g.tasks)
    (c : List ℕ) (hne : c ≠ []) (hsort : c.Pairwise (· < ·))
    (hr : ∀ i ∈ c, i < levels.length) (hlt : (c.map fun i => sizes.getD i 0).sum < 2 ^ 32)
    (hdisj : ∀ i ∈ done, i ∉ c)
    (hF : ∀ i ∈ c, ∀ j < sizes.getD i 0, F i j = localSum levels ts0 i j) :
    ∃ g', ((g.collectChunk c).bind fun g => g.extractTasks false) = some g' ∧
      GroupOk levels sizes g' ∧ ExtractedAll levels sizes (done ++ c) F ts0 g'.tasks := by
  have hnd : levels.Nodup := hs.imp fun h => ne_of_lt h
  obtain ⟨d', e1, e2, e3, e4, e5, e6⟩ := collectChunk_eq hs hlen g hg c hne hsort hr hlt
  obtain ⟨ts', f1, f2⟩ := extractTasks_eq false ⟨d', g.tasks⟩ e2 (by simp) (by
    simp only [e3, e4]; exact hg.ok)
  simp only [e3, e4, e5] at f2
  rw [e1, Option.bind_some, f1]
  have f3 : ExtractedAll levels sizes c F g.tasks ts' := by
    refine f2.congr hg.ok (fun _ _ _ => Iff.rfl) ?_
    intro i hi hic j hj
    rw [e6 i hic j hj, hF i hic j hj]
    exact localSum_extracted hnd hok0 hp hi (fun h => hdisj i h hic) hj
  exact ⟨_, rfl, ⟨e3, e4, f2.ok hg.ok⟩, hp.trans hnd hok0 hdisj f3⟩

theorem ingroupRounds_eq [Ring K] {levels : List (List ℕ)} (hs : levels.Pairwise (· < ·))
    {sizes : List ℕ} (hlen : sizes.length = levels.length) (ts0 : List (K × Dfg K))
    (hok0 : ∀ t ∈ ts0, TaskOk levels sizes t.2) (F : ℕ → ℕ → K) (chunks : List (List ℕ))
    (done : List ℕ) (g : Group K)
    (hg : GroupOk levels sizes g) (hp : ExtractedAll levels sizes done F ts0 g.tasks)
    (hc : ∀ c ∈ chunks, c ≠ [] ∧ c.Pairwise (· < ·) ∧ (∀ i ∈ c, i < levels.length) ∧
      (c.map fun i => sizes.getD i 0).sum < 2 ^ 32)
    (hnd : chunks.flatten.Nodup) (hdisj : ∀ i ∈ done, i ∉ chunks.flatten)
    (hF : ∀ i ∈ chunks.flatten, ∀ j < sizes.getD i 0, F i j = localSum levels ts0 i j) :
    ∃ g', chunks.foldlM (fun g c => (g.collectChunk c).bind fun g => g.extractTasks false) g =
        some g' ∧ GroupOk levels sizes g' ∧
      ExtractedAll levels sizes (done ++ chunks.flatten) F ts0 g'.tasks := by
  induction chunks generalizing done g with
  | nil => exact ⟨g, rfl, hg, by simpa using hp⟩
  | cons c cs ih =>
    rw [List.flatten_cons] at hnd hdisj hF ⊢
    rw [List.nodup_append] at hnd
    obtain ⟨q1, q2, q3, q4⟩ := hc c (by simp)
    obtain ⟨g1, e1, e2, e3⟩ := ingroupRound_eq hs hlen ts0 hok0 F done g hg hp c q1 q2 q3 q4
      (fun i hi h => hdisj i hi (by simp [h])) (fun i hi => hF i (by simp [hi]))
    obtain ⟨g2, f1, f2, f3⟩ := ih (done ++ c) g1 e2 e3 (fun c' hc' => hc c' (by simp [hc'])) hnd.2.1
      (by
        intro i hi h
        rcases List.mem_append.1 hi with hi | hi
        · exact hdisj i hi (by rw [List.mem_append]; exact Or.inr h)
        · exact hnd.2.2 i hi i h rfl)
      (fun i hi => hF i (by rw [List.mem_append]; exact Or.inr hi))
    refine ⟨g2, ?_, f2, by rw [← List.append_assoc]; exact f3⟩
    rw [List.foldlM_cons, e1]
    exact f1

/-- one round with communication, up to the reduction -/
theorem outgroupReduce_eq [Ring K] {levels : List (List ℕ)} (hs : levels.Pairwise (· < ·))
    (sizes : ℕ → List ℕ) (hlen : ∀ g, (sizes g).length = levels.length) (maxChunk : ℕ)
    (hmax : maxChunk ≤ 2 ^ 31) (members : List ℕ) (hmn : members.Nodup) (size : ℕ → ℕ)
    (S0 : ℕ → Group K) (hok0 : ∀ g ∈ members, ∀ t ∈ (S0 g).tasks, TaskOk levels (sizes g) t.2)
    (F : ℕ → ℕ → ℕ → K) (done : List ℕ) (S : ℕ → Group K)
    (hg : ∀ g ∈ members, GroupOk levels (sizes g) (S g))
    (hp : ∀ g ∈ members, ExtractedAll levels (sizes g) done (F g) (S0 g).tasks (S g).tasks)
    (c : List ℕ) (hc : ChunkOk size maxChunk c) (hr : ∀ i ∈ c, i < levels.length)
    (hsz : ∀ g ∈ members, ∀ i ∈ c, (sizes g).getD i 0 = size i)
    (chunkOf : ℕ → List ℕ) (hco : ∀ g ∈ members, chunkOf g = c)
    (hdisj : ∀ i ∈ done, i ∉ c)
    (hF : ∀ g ∈ members, ∀ i ∈ c, ∀ j < size i,
      F g i j = (members.map fun m => localSum levels (S0 m).tasks i j).sum) :
    ∃ S', outgroupReduce maxChunk members chunkOf S = some S' ∧
      (∀ g ∈ members, GroupOk levels (sizes g) (S' g) ∧ WellAllocated (S' g).dsg ∧
        (S' g).dsg.sel = c ∧ (S' g).tasks = (S g).tasks ∧
        ∀ i ∈ c, ∀ j < size i, (S' g).dsg.at i j = F g i j) ∧
      ∀ g, g ∉ members → S' g = S g := by
  have hnd : levels.Nodup := hs.imp fun h => ne_of_lt h
  have hsum := hc.sum_lt hmax
  -- collecting
  obtain ⟨S1, a1, a2, a3⟩ := forGroups_spec (fun m g => g.collectChunk (chunkOf m)) members hmn S
    (fun m r => ∃ d', r = ⟨d', (S m).tasks⟩ ∧ WellAllocated d' ∧ d'.levels = levels ∧
      d'.sizes = sizes m ∧ d'.sel = c ∧
      ∀ i ∈ c, ∀ j < (sizes m).getD i 0, d'.at i j = localSum levels (S m).tasks i j) (by
    intro m hm
    have hmap : (c.map fun i => (sizes m).getD i 0) = c.map size :=
      List.map_congr_left fun i hi => hsz m hm i hi
    obtain ⟨d', e1, e2⟩ := collectChunk_eq hs (hlen m) (S m) (hg m hm) c hc.ne hc.sorted hr (by
      rw [hmap]; omega)
    refine ⟨_, ?_, d', rfl, e2⟩
    simp only [hco m hm]
    exact e1)
  have b1 : ∀ g ∈ members, WellAllocated (S1 g).dsg ∧ (S1 g).dsg.levels = levels ∧
      (S1 g).dsg.sizes = sizes g ∧ (S1 g).dsg.sel = c ∧ (S1 g).tasks = (S g).tasks ∧
      ∀ i ∈ c, ∀ j < (sizes g).getD i 0, (S1 g).dsg.at i j = localSum levels (S g).tasks i j := by
    intro g hgm
    obtain ⟨d', q0, q1, q2, q3, q4, q5⟩ := a2 g hgm
    rw [q0]
    exact ⟨q1, q2, q3, q4, rfl, q5⟩
  -- reducing
  obtain ⟨S2, c1, c2⟩ := subspaceReduce_eq maxChunk hmax members c size hc.sorted hc.lt
    (fun g => g.dsg.sel) S1 (fun g hgm => (b1 g hgm).2.2.2.1)
    ⟨fun g hgm => (b1 g hgm).1, fun g hgm s hs => by rw [(b1 g hgm).2.2.2.1]; exact hs,
      fun g hgm s hs => by rw [(b1 g hgm).2.2.1]; exact hsz g hgm s hs⟩ (by
    intro g hgm c' hc' s hs' s0 hs0
    rw [hc.stable, List.mem_singleton] at hc'
    subst hc'
    rw [(b1 g hgm).2.2.1, (b1 g hgm).2.2.2.1]
    have hrl : ∀ i ∈ c', i < (sizes g).length := by rw [hlen]; exact hr
    have hmap : (c'.map fun i => (sizes g).getD i 0) = c'.map size :=
      List.map_congr_left fun i hi => hsz g hgm i hi
    have htot := selOffset_length (sizes g) c' (hc.sorted.imp fun h => ne_of_lt h) hrl
    rw [hmap] at htot
    have := selOffset_mono (sizes g) c' (le_of_lt (hrl s hs'))
    omega)
  have d1 : ∀ g ∈ members, GroupOk levels (sizes g) (S2 g) ∧ WellAllocated (S2 g).dsg ∧
      (S2 g).dsg.sel = c ∧ (S2 g).tasks = (S g).tasks := by
    intro g hgm
    obtain ⟨q1, q2, q3, q4, q5, q6⟩ := b1 g hgm
    obtain ⟨r1, r2, r3, r4⟩ := c2.sizes_eq g
    exact ⟨⟨r3.trans q2, r1.trans q3, by rw [r4, q5]; exact (hg g hgm).ok⟩, c2.well g q1,
      r2.trans q4, r4.trans q5⟩
  refine ⟨S2, ?_, ?_, ?_⟩
  · unfold outgroupReduce
    simp only [a1, Option.bind_eq_bind, Option.bind_some]
    exact c1
  · intro g hgm
    obtain ⟨q1, q2, q3, q4⟩ := d1 g hgm
    refine ⟨q1, q2, q3, q4, fun i hic j hj' => ?_⟩
    rw [c2.hit g hgm i hic j hj', hF g hgm i hic j hj']
    congr 1
    apply List.map_congr_left
    intro m hm
    have hjm : j < (sizes m).getD i 0 := by rw [hsz m hm i hic]; exact hj'
    rw [(b1 m hm).2.2.2.2.2 i hic j hjm]
    exact localSum_extracted hnd (hok0 m hm) (hp m hm) (hr i hic) (fun h => hdisj i h hic) hjm
  · intro g hgm
    rw [c2.other g hgm, a3 g hgm]

/-- one round with communication -/
theorem outgroupRound_eq [Ring K] {levels : List (List ℕ)} (hs : levels.Pairwise (· < ·))
    (sizes : ℕ → List ℕ) (hlen : ∀ g, (sizes g).length = levels.length) (maxChunk : ℕ)
    (hmax : maxChunk ≤ 2 ^ 31) (members : List ℕ) (hmn : members.Nodup) (size : ℕ → ℕ)
    (S0 : ℕ → Group K) (hok0 : ∀ g ∈ members, ∀ t ∈ (S0 g).tasks, TaskOk levels (sizes g) t.2)
    (F : ℕ → ℕ → ℕ → K) (done : List ℕ) (S : ℕ → Group K)
    (hg : ∀ g ∈ members, GroupOk levels (sizes g) (S g))
    (hp : ∀ g ∈ members, ExtractedAll levels (sizes g) done (F g) (S0 g).tasks (S g).tasks)
    (c : List ℕ) (hc : ChunkOk size maxChunk c) (hr : ∀ i ∈ c, i < levels.length)
    (hsz : ∀ g ∈ members, ∀ i ∈ c, (sizes g).getD i 0 = size i)
    (chunkOf : ℕ → List ℕ) (hco : ∀ g ∈ members, chunkOf g = c)
    (hdisj : ∀ i ∈ done, i ∉ c)
    (hF : ∀ g ∈ members, ∀ i ∈ c, ∀ j < size i,
      F g i j = (members.map fun m => localSum levels (S0 m).tasks i j).sum) :
    ∃ S', outgroupRound maxChunk members chunkOf S = some S' ∧
      (∀ g ∈ members, GroupOk levels (sizes g) (S' g) ∧
        ExtractedAll levels (sizes g) (done ++ c) (F g) (S0 g).tasks (S' g).tasks) ∧
      ∀ g, g ∉ members → S' g = S g := by
  have hnd : levels.Nodup := hs.imp fun h => ne_of_lt h
  obtain ⟨S2, c1, d1, d2⟩ := outgroupReduce_eq hs sizes hlen maxChunk hmax members hmn size S0 hok0 F
    done S hg hp c hc hr hsz chunkOf hco hdisj hF
  -- extracting
  obtain ⟨S3, f1, f2, f3⟩ := forGroups_spec (fun _ (g : Group K) => g.extractTasks false) members
    hmn S2 (fun m r => ∃ ts', r = ⟨(S2 m).dsg, ts'⟩ ∧ ExtractedAll levels (sizes m) c
      (fun i j => (S2 m).dsg.at i j) (S2 m).tasks ts') (by
    intro m hm
    obtain ⟨q1, q2, q3, q4, -⟩ := d1 m hm
    obtain ⟨ts', e1, e2⟩ := extractTasks_eq false (S2 m) q2 (by simp) (by
      rw [q1.lev, q1.siz]; exact q1.ok)
    rw [q1.lev, q1.siz, q3] at e2
    exact ⟨_, e1, ts', rfl, e2⟩)
  refine ⟨S3, ?_, ?_, ?_⟩
  · unfold outgroupRound
    rw [c1, Option.bind_some]
    exact f1
  · intro g hgm
    obtain ⟨q1, q2, q3, q4, q5⟩ := d1 g hgm
    obtain ⟨ts', e1, e2⟩ := f2 g hgm
    rw [e1]
    refine ⟨⟨q1.lev, q1.siz, e2.ok q1.ok⟩, ?_⟩
    simp only
    have e3 : ExtractedAll levels (sizes g) c (F g) (S g).tasks ts' := by
      rw [← q4]
      refine e2.congr q1.ok (fun _ _ _ => Iff.rfl) ?_
      intro i hi hic j hj
      exact q5 i hic j (by rw [← hsz g hgm i hic]; exact hj)
    exact (hp g hgm).trans hnd (hok0 g hgm) hdisj e3
  · intro g hgm
    rw [f3 g hgm, d2 g hgm]

theorem outgroupRounds_eq [Ring K] {levels : List (List ℕ)} (hs : levels.Pairwise (· < ·))
    (sizes : ℕ → List ℕ) (hlen : ∀ g, (sizes g).length = levels.length) (maxChunk : ℕ)
    (hmax : maxChunk ≤ 2 ^ 31) (members : List ℕ) (hmn : members.Nodup) (size : ℕ → ℕ)
    (S0 : ℕ → Group K) (hok0 : ∀ g ∈ members, ∀ t ∈ (S0 g).tasks, TaskOk levels (sizes g) t.2)
    (F : ℕ → ℕ → ℕ → K) (chunks : List (List ℕ)) (done : List ℕ) (S : ℕ → Group K)
    (hg : ∀ g ∈ members, GroupOk levels (sizes g) (S g))
    (hp : ∀ g ∈ members, ExtractedAll levels (sizes g) done (F g) (S0 g).tasks (S g).tasks)
    (hc : ∀ c ∈ chunks, ChunkOk size maxChunk c) (hnd : chunks.flatten.Nodup)
    (hr : ∀ i ∈ chunks.flatten, i < levels.length)
    (hsz : ∀ g ∈ members, ∀ i ∈ chunks.flatten, (sizes g).getD i 0 = size i)
    (hdisj : ∀ i ∈ done, i ∉ chunks.flatten)
    (hF : ∀ g ∈ members, ∀ i ∈ chunks.flatten, ∀ j < size i,
      F g i j = (members.map fun m => localSum levels (S0 m).tasks i j).sum) :
    ∃ S', chunks.foldlM (fun S c => outgroupRound maxChunk members (fun _ => c) S) S = some S' ∧
      (∀ g ∈ members, GroupOk levels (sizes g) (S' g) ∧
        ExtractedAll levels (sizes g) (done ++ chunks.flatten) (F g) (S0 g).tasks (S' g).tasks) ∧
      ∀ g, g ∉ members → S' g = S g := by
  induction chunks generalizing done S with
  | nil => exact ⟨S, rfl, fun g h => ⟨hg g h, by simpa using hp g h⟩, fun _ _ => rfl⟩
  | cons c cs ih =>
    rw [List.flatten_cons] at hnd hdisj hF hr hsz ⊢
    rw [List.nodup_append] at hnd
    have hl : ∀ i ∈ c, i ∈ c ++ cs.flatten := fun i hi => by simp [hi]
    have hrr : ∀ i ∈ cs.flatten, i ∈ c ++ cs.flatten := fun i hi => by
      rw [List.mem_append]; exact Or.inr hi
    obtain ⟨S1, e1, e2, e3⟩ := outgroupRound_eq hs sizes hlen maxChunk hmax members hmn size S0 hok0
      F done S hg hp c (hc c (by simp)) (fun i hi => hr i (hl i hi))
      (fun g h i hi => hsz g h i (hl i hi)) (fun _ => c) (fun _ _ => rfl)
      (fun i hi h => hdisj i hi (hl i h)) (fun g h i hi => hF g h i (hl i hi))
    obtain ⟨S2, f1, f2, f3⟩ := ih (done ++ c) S1 (fun g h => (e2 g h).1) (fun g h => (e2 g h).2)
      (fun c' h => hc c' (by simp [h])) hnd.2.1 (fun i hi => hr i (hrr i hi))
      (fun g h i hi => hsz g h i (hrr i hi))
      (by
        intro i hi h
        rcases List.mem_append.1 hi with hi | hi
        · exact hdisj i hi (hrr i h)
        · exact hnd.2.2 i hi i h rfl)
      (fun g h i hi => hF g h i (hrr i hi))
    refine ⟨S2, ?_, ?_, ?_⟩
    · rw [List.foldlM_cons, e1]
      exact f1
    · intro g h
      rw [← List.append_assoc]
      exact f2 g h
    · intro g h
      rw [f3 g h, e3 g h]

/-- The values after the combination: subspaces in `shared` are summed up over all groups. -/
def combined [Ring K] (n : ℕ) (levels : List (List ℕ)) (shared : List ℕ) (S0 : ℕ → Group K)
    (g i j : ℕ) : K :=
  if i ∈ shared then ((List.range n).map fun m => localSum levels (S0 m).tasks i j).sum
  else localSum levels (S0 g).tasks i j

/-- The chunked combination, with a communicator on all groups or on none. -/
theorem collectReduceDistribute_eq [Ring K] {levels : List (List ℕ)}
    (hs : levels.Pairwise (· < ·)) (n : ℕ)
    (sizes : ℕ → List ℕ) (hlen : ∀ g, (sizes g).length = levels.length) (maxChunk : ℕ)
    (hmax : maxChunk ≤ 2 ^ 31) (shared : List ℕ) (hsh : shared.Pairwise (· < ·))
    (hshr : ∀ i ∈ shared, i < levels.length) (size : ℕ → ℕ)
    (hsize : ∀ g < n, ∀ i < levels.length, (sizes g).getD i 0 < 2 ^ 31)
    (hsz : ∀ g < n, ∀ i ∈ shared, (sizes g).getD i 0 = size i)
    (comm : ℕ → Option (List ℕ))
    (hcomm : (∀ g < n, comm g = some shared) ∨ (shared = [] ∧ ∀ g < n, comm g = none))
    (S : ℕ → Group K) (hg : ∀ g < n, GroupOk levels (sizes g) (S g)) :
    ∃ S', collectReduceDistribute maxChunk n comm S = some S' ∧
      ∀ g < n, ExtractedAll levels (sizes g) (List.range levels.length)
        (combined n levels shared S g) (S g).tasks (S' g).tasks ∧
        (S' g).dsg.levels = levels ∧ (S' g).dsg.sizes = sizes g := by
  have hshn : shared.Nodup := hsh.imp fun h => ne_of_lt h
  -- outgroup phase
  obtain ⟨S1, a1, a2⟩ : ∃ S1, collectReduceDistribute maxChunk n comm S =
      forGroups (fun m g => g.ingroupPhase maxChunk (comm m)) (List.range n) S1 ∧
      ∀ g < n, GroupOk levels (sizes g) (S1 g) ∧ ExtractedAll levels (sizes g) shared
        (combined n levels shared S g) (S g).tasks (S1 g).tasks := by
    rcases hcomm with hcomm | ⟨hsh0, hcomm⟩
    · have hmem : (List.range n).filter (fun g => (comm g).isSome) = List.range n := by
        rw [List.filter_eq_self]
        intro g hgm
        rw [hcomm g (List.mem_range.1 hgm)]
        rfl
      rcases Nat.eq_zero_or_pos n with rfl | hn
      · refine ⟨S, ?_, by omega⟩
        unfold collectReduceDistribute
        simp
      have hsz0 : ∀ i ∈ shared, size i < 2 ^ 31 := by
        intro i hi
        rw [← hsz 0 hn i hi]
        exact hsize 0 hn i (hshr i hi)
      obtain ⟨c1, -⟩ := C33_chunks_partial size maxChunk hmax shared hsz0 hsh
      have c2 := chunkOk_of_mem size maxChunk hmax shared hsz0 hsh
      generalize hch : getChunkedSubspaces size maxChunk shared = chunks at *
      have hchunks : ∀ g < n, getChunkedSubspaces (fun s => (S g).dsg.sizes.getD s 0) maxChunk
          ((comm g).getD []) = chunks := by
        intro g hgm
        rw [hcomm g hgm, (hg g hgm).siz, Option.getD_some, ← hch]
        exact C33_same_chunks _ _ _ _ fun s hs => hsz g hgm s hs
      obtain ⟨S1, e1, e2, -⟩ := outgroupRounds_eq hs sizes hlen maxChunk hmax (List.range n)
        List.nodup_range size S (fun g hgm => (hg g (List.mem_range.1 hgm)).ok)
        (combined n levels shared S) chunks [] S (fun g hgm => hg g (List.mem_range.1 hgm))
        (fun g _ => extracted_refl _ _ _ _) c2 (by rw [c1]; exact hshn) (by rw [c1]; exact hshr)
        (by rw [c1]; exact fun g hgm => hsz g (List.mem_range.1 hgm)) (by simp) (by
          rw [c1]
          intro g hgm i hi j hj
          unfold combined
          rw [if_pos hi])
      refine ⟨S1, ?_, ?_⟩
      · unfold collectReduceDistribute
        simp only [hmem]
        have hhead : (List.range n).headD 0 < n := by
          rw [show n = (n - 1) + 1 by omega, List.range_succ_eq_map]
          simp
        rw [hchunks _ hhead, if_pos (by
          rw [List.all_eq_true]
          intro g hgm
          rw [hchunks g (List.mem_range.1 hgm)]
          simp), if_neg (by
          rw [List.range_eq_nil]
          omega)]
        have hext : ∀ (l : List ℕ) (T : ℕ → Group K),
            l.foldlM (fun T k => outgroupRound maxChunk (List.range n) (fun g =>
              (getChunkedSubspaces (fun s => (S g).dsg.sizes.getD s 0) maxChunk
                ((comm g).getD [])).getD k []) T) T =
            l.foldlM (fun T k => outgroupRound maxChunk (List.range n)
              (fun _ => chunks.getD k []) T) T := by
          intro l
          have hcongr : ∀ (k : ℕ) (T : ℕ → Group K),
              outgroupRound maxChunk (List.range n) (fun g =>
              (getChunkedSubspaces (fun s => (S g).dsg.sizes.getD s 0) maxChunk
                ((comm g).getD [])).getD k []) T =
              outgroupRound maxChunk (List.range n) (fun _ => chunks.getD k []) T := by
            intro k T
            unfold outgroupRound outgroupReduce
            congr 2
            have hfg : ∀ (ms : List ℕ), (∀ m ∈ ms, m < n) → ∀ T : ℕ → Group K,
                forGroups (fun m g => g.collectChunk ((getChunkedSubspaces
                  (fun s => (S m).dsg.sizes.getD s 0) maxChunk ((comm m).getD [])).getD k [])) ms T =
                forGroups (fun _ g => g.collectChunk (chunks.getD k [])) ms T := by
              intro ms
              induction ms with
              | nil => intro _ T; rfl
              | cons m ms ih =>
                intro hms T
                rw [forGroups, forGroups, hchunks m (hms m (by simp))]
                congr 1
                funext r
                exact ih (fun m' hm' => hms m' (by simp [hm'])) _
            exact hfg _ (fun m hm => List.mem_range.1 hm) T
          induction l with
          | nil => intro T; rfl
          | cons k l ih =>
            intro T
            rw [List.foldlM_cons, List.foldlM_cons, hcongr]
            congr 1
            funext T'
            exact ih T'
        rw [hext, foldlM_range_getD chunks [] (fun T c => outgroupRound maxChunk (List.range n)
          (fun _ => c) T) S, e1]
        rfl
      · intro g hgm
        have := e2 g (List.mem_range.2 hgm)
        rw [c1, List.nil_append] at this
        exact this
    · have hmem : (List.range n).filter (fun g => (comm g).isSome) = [] := by
        rw [List.filter_eq_nil_iff]
        intro g hgm
        rw [hcomm g (List.mem_range.1 hgm)]
        simp
      refine ⟨S, ?_, ?_⟩
      · unfold collectReduceDistribute
        simp only [hmem, List.all_nil, if_true]
        rfl
      · intro g hgm
        rw [hsh0]
        exact ⟨hg g hgm, extracted_refl _ _ _ _⟩
  -- ingroup phase
  rw [a1]
  obtain ⟨S2, b1, b2, -⟩ := forGroups_spec (fun m g => g.ingroupPhase maxChunk (comm m))
    (List.range n) List.nodup_range S1 (fun g r => ExtractedAll levels (sizes g)
      (List.range levels.length) (combined n levels shared S g) (S g).tasks r.tasks ∧
      r.dsg.levels = levels ∧ r.dsg.sizes = sizes g) (by
    intro g hgm
    have hgn := List.mem_range.1 hgm
    obtain ⟨p1, p2⟩ := a2 g hgn
    have hin : ∀ i, i ∈ getIngroupSubspaces (sizes g) (comm g) ↔
        i < levels.length ∧ 0 < (sizes g).getD i 0 ∧ i ∉ shared := by
      intro i
      have hcg : (comm g).getD [] = shared := by
        rcases hcomm with h | ⟨h0, h⟩
        · rw [h g hgn]; rfl
        · rw [h g hgn, h0]; rfl
      unfold getIngroupSubspaces
      rw [hcg, List.mem_filter, List.mem_range, hlen]
      simp
    have hsort : (getIngroupSubspaces (sizes g) (comm g)).Pairwise (· < ·) :=
      List.Pairwise.sublist List.filter_sublist List.pairwise_lt_range
    have hsmall : ∀ s ∈ getIngroupSubspaces (sizes g) (comm g), (sizes g).getD s 0 < 2 ^ 31 :=
      fun s hsm => hsize g hgn s ((hin s).1 hsm).1
    obtain ⟨c1, -⟩ := C33_chunks_partial (fun s => (sizes g).getD s 0) maxChunk hmax _ hsmall hsort
    have c2 := chunkOk_of_mem (fun s => (sizes g).getD s 0) maxChunk hmax _ hsmall hsort
    generalize hch : getChunkedSubspaces (fun s => (sizes g).getD s 0) maxChunk
      (getIngroupSubspaces (sizes g) (comm g)) = chunks at *
    obtain ⟨g', e1, e2, e3⟩ := ingroupRounds_eq hs (hlen g) (S g).tasks (hg g hgn).ok
      (combined n levels shared S g) chunks shared (S1 g) p1 p2 (by
        intro c hc
        refine ⟨(c2 c hc).ne, (c2 c hc).sorted, ?_, ?_⟩
        · intro i hi
          apply ((hin i).1 ?_).1
          rw [← c1]
          exact List.mem_flatten.2 ⟨c, hc, hi⟩
        · have := (c2 c hc).sum_lt hmax
          omega)
      (by rw [c1]; exact hsort.imp fun h => ne_of_lt h)
      (by
        rw [c1]
        intro i hi h
        exact ((hin i).1 h).2.2 hi)
      (by
        rw [c1]
        intro i hi j _
        unfold combined
        rw [if_neg ((hin i).1 hi).2.2])
    refine ⟨⟨g'.dsg.deleteSubspaceData, g'.tasks⟩, ?_, ?_⟩
    · unfold Group.ingroupPhase
      simp only [p1.siz, hch, e1]
      rfl
    · refine ⟨?_, e2.lev, e2.siz⟩
      simp only
      rw [c1] at e3
      refine e3.congr (hg g hgn).ok ?_ (fun _ _ _ _ _ => rfl)
      intro i hi hpos
      rw [List.mem_append, hin, List.mem_range]
      constructor
      · exact fun _ => hi
      · intro _
        by_cases h : i ∈ shared
        · exact Or.inl h
        · exact Or.inr ⟨hi, hpos, h⟩)
  exact ⟨S2, b1, fun g hgn => b2 g (List.mem_range.2 hgn)⟩

/-! ### With everything allocated -/

theorem collectAll_eq [Ring K] {levels : List (List ℕ)} (hs : levels.Pairwise (· < ·))
    {sizes : List ℕ} (hlen : sizes.length = levels.length) (g : Group K)
    (hg : GroupOk levels sizes g) (hz : CanZero levels.length g.dsg) (hlt : sizes.sum < 2 ^ 32) :
    ∃ d', g.collectAll = some ⟨d', g.tasks⟩ ∧ WellAllocated d' ∧ d'.levels = levels ∧
      d'.sizes = sizes ∧ d'.sel = List.range levels.length ∧
      ∀ i < levels.length, ∀ j < sizes.getD i 0, d'.at i j = localSum levels g.tasks i j := by
  obtain ⟨d, ts⟩ := g
  obtain ⟨h1, h2, h3⟩ := hg
  simp only at h1 h2 h3 hz
  subst h1
  subst h2
  rw [← hlen] at hz
  obtain ⟨d2, e1, e2, e3, e4, e5, e6⟩ := createOrZero_again d hs hlen hz hlt
  rw [hlen] at e5
  obtain ⟨v, f1, f2⟩ := addTasks_eq true ⟨d2, ts⟩ e2 (by
      intro _ i hi
      simp only [e4, hlen] at hi
      simp only [e5, List.mem_range]
      exact hi) (by
    simp only [e3, e4]; exact h3) e6
  refine ⟨d2.withVal v, ?_, e2.withVal v, e3, e4, e5, ?_⟩
  · unfold Group.collectAll
    simp only [e1, Option.bind_eq_bind, Option.bind_some]
    exact f1
  · intro i hi j hj
    have := f2 i (by simp only [e5]; exact List.mem_range.2 hi) j (by simp only [e4]; exact hj)
    simp only [e3] at this
    exact this

theorem selOffset_range_lt {sizes : List ℕ} {i : ℕ} (sel : List ℕ) (hi : i ≤ sizes.length) :
    selOffset sizes sel i ≤ sizes.sum := by
  have hh : ∀ n ≤ sizes.length, selOffset sizes sel n ≤ (sizes.take n).sum := by
    intro n hn
    induction n with
    | zero => simp [selOffset]
    | succ n ih =>
      rw [selOffset_succ, List.take_succ_eq_append_getElem (by omega), List.sum_append]
      have := ih (by omega)
      have h2 : selSize sizes sel n ≤ sizes[n] := by
        unfold selSize
        split
        · rw [List.getD_eq_getElem _ _ (by omega)]
        · omega
      simp only [List.sum_singleton]
      omega
  have h1 := hh sizes.length (le_refl _)
  rw [List.take_length] at h1
  exact (selOffset_mono sizes sel hi).trans h1

/-- reducing on several communicators with disjoint subspaces -/
theorem comms_eq [Ring K] {levels : List (List ℕ)} (n : ℕ)
    (sizes : ℕ → List ℕ) (hlen : ∀ g, (sizes g).length = levels.length) (maxChunk : ℕ)
    (hmax : maxChunk ≤ 2 ^ 31) (size : ℕ → ℕ) (hlt : ∀ g < n, (sizes g).sum < 2 ^ 31)
    (comms : List (List ℕ × List ℕ))
    (hm : ∀ c ∈ comms, ∀ g ∈ c.1, g < n)
    (hsub : ∀ c ∈ comms, c.2.Pairwise (· < ·) ∧ (∀ i ∈ c.2, i < levels.length) ∧
      ∀ g ∈ c.1, ∀ i ∈ c.2, (sizes g).getD i 0 = size i)
    (hsz : ∀ c ∈ comms, ∀ i ∈ c.2, size i < 2 ^ 31)
    (hdisj : comms.Pairwise fun c c' => ∀ i ∈ c.2, i ∉ c'.2)
    (S : ℕ → Group K)
    (hw : ∀ g < n, GroupOk levels (sizes g) (S g) ∧ WellAllocated (S g).dsg ∧
      (S g).dsg.sel = List.range levels.length) :
    ∃ S', comms.foldlM (fun S c => subspaceReduce maxChunk c.1 (fun _ => c.2) S) S = some S' ∧
      (∀ g < n, GroupOk levels (sizes g) (S' g) ∧ WellAllocated (S' g).dsg ∧
        (S' g).dsg.sel = List.range levels.length ∧ (S' g).tasks = (S g).tasks) ∧
      (∀ c ∈ comms, ∀ g ∈ c.1, ∀ i ∈ c.2, ∀ j < size i,
        (S' g).dsg.at i j = (c.1.map fun m => (S m).dsg.at i j).sum) ∧
      ∀ g < n, ∀ i < levels.length, (∀ c ∈ comms, g ∈ c.1 → i ∉ c.2) → ∀ j < (sizes g).getD i 0,
        (S' g).dsg.at i j = (S g).dsg.at i j := by
  induction comms generalizing S with
  | nil =>
    exact ⟨S, rfl, fun g hg => ⟨(hw g hg).1, (hw g hg).2.1, (hw g hg).2.2, rfl⟩, by simp,
      fun _ _ _ _ _ _ _ => rfl⟩
  | cons c cs ih =>
    rw [List.pairwise_cons] at hdisj
    obtain ⟨s1, s2, s3⟩ := hsub c (by simp)
    have hmc := hm c (by simp)
    obtain ⟨S1, e1, r1⟩ := subspaceReduce_eq maxChunk hmax c.1 c.2 size s1 (hsz c (by simp))
      (fun _ => c.2) S (fun _ _ => rfl)
      ⟨fun g hg => (hw g (hmc g hg)).2.1, fun g hg s hs => by
          rw [(hw g (hmc g hg)).2.2]; exact List.mem_range.2 (s2 s hs),
        fun g hg s hs => by rw [(hw g (hmc g hg)).1.siz]; exact s3 g hg s hs⟩ (by
      intro g hg ch hch s hs s0 hs0
      rw [(hw g (hmc g hg)).1.siz]
      have hsr : s < levels.length := by
        apply s2
        rw [← (C33_chunks_partial size maxChunk hmax c.2 (hsz c (by simp)) s1).1]
        exact List.mem_flatten.2 ⟨ch, hch, hs⟩
      have := selOffset_range_lt (sizes := sizes g) (i := s) (S g).dsg.sel (by rw [hlen]; omega)
      have := hlt g (hmc g hg)
      omega)
    have hw1 : ∀ g < n, GroupOk levels (sizes g) (S1 g) ∧ WellAllocated (S1 g).dsg ∧
        (S1 g).dsg.sel = List.range levels.length := by
      intro g hg
      obtain ⟨q1, q2, q3⟩ := hw g hg
      obtain ⟨z1, z2, z3, z4⟩ := r1.sizes_eq g
      exact ⟨⟨z3.trans q1.lev, z1.trans q1.siz, by rw [z4]; exact q1.ok⟩, r1.well g q2,
        z2.trans q3⟩
    obtain ⟨S2, e2, f1, f2, f3⟩ := ih (fun c' h => hm c' (by simp [h]))
      (fun c' h => hsub c' (by simp [h])) (fun c' h => hsz c' (by simp [h])) hdisj.2 S1 hw1
    refine ⟨S2, ?_, ?_, ?_, ?_⟩
    · rw [List.foldlM_cons, e1]
      exact e2
    · intro g hg
      obtain ⟨z1, z2, z3, z4⟩ := r1.sizes_eq g
      obtain ⟨q1, q2, q3, q4⟩ := f1 g hg
      exact ⟨q1, q2, q3, q4.trans z4⟩
    · intro c' hc' g hg i hi j hj
      rcases List.mem_cons.1 hc' with rfl | hc'
      · rw [f3 g (hmc g hg) i (s2 i hi) (fun c'' h'' _ h => hdisj.1 c'' h'' i hi h) j (by
          rw [s3 g hg i hi]; exact hj)]
        exact r1.hit g hg i hi j hj
      · rw [f2 c' hc' g hg i hi j hj]
        congr 1
        apply List.map_congr_left
        intro m hmm
        obtain ⟨t1, t2, t3⟩ := hsub c' (by simp [hc'])
        by_cases hmc' : m ∈ c.1
        · apply r1.miss m hmc' i
          · rw [(hw m (hmc m hmc')).2.2]
            exact List.mem_range.2 (t2 i hi)
          · exact fun h => hdisj.1 c' hc' i h hi
          · rw [(hw m (hmc m hmc')).1.siz, t3 m hmm i hi]
            exact hj
        · rw [r1.other m hmc']
    · intro g hg i hi hno j hj
      rw [f3 g hg i hi (fun c' h => hno c' (by simp [h])) j hj]
      by_cases hgc : g ∈ c.1
      · apply r1.miss g hgc i
        · rw [(hw g hg).2.2]
          exact List.mem_range.2 hi
        · exact hno c (by simp) hgc
        · rw [(hw g hg).1.siz]
          exact hj
      · rw [r1.other g hgc]

/-- extracting on all groups -/
theorem extractGroups_eq [Ring K] {levels : List (List ℕ)} (n : ℕ) (sizes : ℕ → List ℕ)
    (hlen : ∀ g < n, (sizes g).length = levels.length) (S : ℕ → Group K)
    (hw : ∀ g < n, GroupOk levels (sizes g) (S g) ∧ WellAllocated (S g).dsg ∧
      (S g).dsg.sel = List.range levels.length) :
    ∃ S', forGroups (fun _ g => g.extractTasks true) (List.range n) S = some S' ∧
      ∀ g < n, ExtractedAll levels (sizes g) (List.range levels.length)
        (fun i j => (S g).dsg.at i j) (S g).tasks (S' g).tasks ∧ (S' g).dsg = (S g).dsg := by
  obtain ⟨S3, f1, f2, -⟩ := forGroups_spec (fun _ (g : Group K) => g.extractTasks true)
    (List.range n) List.nodup_range S (fun m r => ExtractedAll levels (sizes m)
      (List.range levels.length) (fun i j => (S m).dsg.at i j) (S m).tasks r.tasks ∧
      r.dsg = (S m).dsg) (by
    intro m hm
    obtain ⟨q1, q2, q3⟩ := hw m (List.mem_range.1 hm)
    obtain ⟨ts', e1, e2⟩ := extractTasks_eq true (S m) q2 (by
      intro _ i hi
      rw [q1.siz, hlen m (List.mem_range.1 hm)] at hi
      rw [q3]
      exact List.mem_range.2 hi) (by
      rw [q1.lev, q1.siz]; exact q1.ok)
    rw [q1.lev, q1.siz, q3] at e2
    exact ⟨_, e1, e2, rfl⟩)
  exact ⟨S3, f1, fun g hg => f2 g (List.mem_range.2 hg)⟩

/-- zeroing and adding on all groups -/
theorem collectGroups_eq [Ring K] {levels : List (List ℕ)} (hs : levels.Pairwise (· < ·)) (n : ℕ)
    (sizes : ℕ → List ℕ) (hlen : ∀ g, (sizes g).length = levels.length)
    (hlt : ∀ g < n, (sizes g).sum < 2 ^ 32)
    (S : ℕ → Group K) (hg : ∀ g < n, GroupOk levels (sizes g) (S g) ∧
      CanZero levels.length (S g).dsg) :
    ∃ S', forGroups (fun _ g => g.collectAll) (List.range n) S = some S' ∧
      ∀ g < n, (GroupOk levels (sizes g) (S' g) ∧ WellAllocated (S' g).dsg ∧
        (S' g).dsg.sel = List.range levels.length) ∧ (S' g).tasks = (S g).tasks ∧
        ∀ i < levels.length, ∀ j < (sizes g).getD i 0,
          (S' g).dsg.at i j = localSum levels (S g).tasks i j := by
  obtain ⟨S1, a1, a2, -⟩ := forGroups_spec (fun _ (g : Group K) => g.collectAll) (List.range n)
    List.nodup_range S (fun g r => (GroupOk levels (sizes g) r ∧ WellAllocated r.dsg ∧
        r.dsg.sel = List.range levels.length) ∧ r.tasks = (S g).tasks ∧
        ∀ i < levels.length, ∀ j < (sizes g).getD i 0,
          r.dsg.at i j = localSum levels (S g).tasks i j) (by
    intro g hgm
    obtain ⟨h1, h2⟩ := hg g (List.mem_range.1 hgm)
    obtain ⟨d', e1, e2, e3, e4, e5, e6⟩ := collectAll_eq hs (hlen g) (S g) h1 h2
      (hlt g (List.mem_range.1 hgm))
    exact ⟨_, e1, ⟨⟨e3, e4, h1.ok⟩, e2, e5⟩, rfl, e6⟩)
  exact ⟨S1, a1, fun g hg => a2 g (List.mem_range.2 hg)⟩

theorem combineAllocated_eq [Ring K] {levels : List (List ℕ)} (hs : levels.Pairwise (· < ·)) (n : ℕ)
    (sizes : ℕ → List ℕ) (hlen : ∀ g, (sizes g).length = levels.length) (maxChunk : ℕ)
    (hmax : maxChunk ≤ 2 ^ 31) (size : ℕ → ℕ) (hlt : ∀ g < n, (sizes g).sum < 2 ^ 31)
    (comms : List (List ℕ × List ℕ))
    (hm : ∀ c ∈ comms, ∀ g ∈ c.1, g < n)
    (hsub : ∀ c ∈ comms, c.2.Pairwise (· < ·) ∧ (∀ i ∈ c.2, i < levels.length) ∧
      ∀ g ∈ c.1, ∀ i ∈ c.2, (sizes g).getD i 0 = size i)
    (hsz : ∀ c ∈ comms, ∀ i ∈ c.2, size i < 2 ^ 31)
    (hdisj : comms.Pairwise fun c c' => ∀ i ∈ c.2, i ∉ c'.2)
    (S : ℕ → Group K) (hg : ∀ g < n, GroupOk levels (sizes g) (S g) ∧
      CanZero levels.length (S g).dsg) :
    ∃ (S' : ℕ → Group K) (F : ℕ → ℕ → ℕ → K), combineAllocated maxChunk n comms S = some S' ∧
      (∀ g < n, ExtractedAll levels (sizes g) (List.range levels.length) (F g) (S g).tasks
        (S' g).tasks) ∧
      (∀ c ∈ comms, ∀ g ∈ c.1, ∀ i ∈ c.2, ∀ j < size i,
        F g i j = (c.1.map fun m => localSum levels (S m).tasks i j).sum) ∧
      (∀ g < n, ∀ i < levels.length, (∀ c ∈ comms, g ∈ c.1 → i ∉ c.2) → ∀ j < (sizes g).getD i 0,
        F g i j = localSum levels (S g).tasks i j) ∧
      ∀ g < n, Holding levels (sizes g) (F g) (S' g).dsg := by
  obtain ⟨S1, a1, a2⟩ := collectGroups_eq hs n sizes hlen
    (fun g hg => lt_trans (hlt g hg) (by norm_num)) S hg
  obtain ⟨S2, b1, b2, b3, b4⟩ := comms_eq n sizes hlen maxChunk hmax size hlt comms hm hsub hsz hdisj
    S1 (fun g hg => (a2 g hg).1)
  obtain ⟨S3, c1, c2⟩ := extractGroups_eq n sizes (fun g _ => hlen g) S2
    (fun g hg => ⟨(b2 g hg).1, (b2 g hg).2.1, (b2 g hg).2.2.1⟩)
  refine ⟨S3, fun g i j => (S2 g).dsg.at i j, ?_, ?_, ?_, ?_, ?_⟩
  · unfold combineAllocated
    simp only [a1, b1, Option.bind_eq_bind, Option.bind_some]
    exact c1
  · intro g hg
    have := (c2 g hg).1
    rw [(b2 g hg).2.2.2, (a2 g hg).2.1] at this
    exact this
  · intro c hc g hgc i hi j hj
    simp only
    rw [b3 c hc g hgc i hi j hj]
    congr 1
    apply List.map_congr_left
    intro m hmc
    exact (a2 m (hm c hc m hmc)).2.2 i ((hsub c hc).2.1 i hi) j (by
      rw [(hsub c hc).2.2 m hmc i hi]; exact hj)
  · intro g hg i hi hno j hj
    simp only
    rw [b4 g hg i hi hno j hj]
    exact (a2 g hg).2.2 i hi j hj
  · intro g hg
    rw [(c2 g hg).2]
    exact ⟨(b2 g hg).1.lev, (b2 g hg).1.siz, (b2 g hg).2.1, (b2 g hg).2.2.1, fun _ _ => rfl⟩

theorem combineSparseGridReduce_eq [Ring K] {levels : List (List ℕ)} (hs : levels.Pairwise (· < ·))
    (n : ℕ) (sizes : List ℕ) (hlen : sizes.length = levels.length) (maxChunk : ℕ)
    (hpos : 0 < maxChunk) (hmax : maxChunk < 2 ^ 31) (hlt : sizes.sum < 2 ^ 32)
    (S : ℕ → Group K) (hg : ∀ g < n, GroupOk levels sizes (S g) ∧
      CanZero levels.length (S g).dsg) :
    ∃ (S' : ℕ → Group K) (F : ℕ → ℕ → ℕ → K), combineSparseGridReduce maxChunk n S = some S' ∧
      (∀ g < n, ExtractedAll levels sizes (List.range levels.length) (F g) (S g).tasks
        (S' g).tasks) ∧
      (∀ g < n, ∀ i < levels.length, ∀ j < sizes.getD i 0,
        F g i j = ((List.range n).map fun m => localSum levels (S m).tasks i j).sum) ∧
      ∀ g < n, Holding levels sizes (F g) (S' g).dsg := by
  obtain ⟨S1, a1, a2⟩ := collectGroups_eq hs n (fun _ => sizes) (fun _ => hlen)
    (fun _ _ => hlt) S hg
  have hl1 : ∀ g < n, (S1 g).dsg.data.len =
      selOffset sizes (List.range levels.length) sizes.length := by
    intro g hg
    obtain ⟨⟨q1, q2, q3⟩, -, -⟩ := a2 g hg
    rw [q2.dataLen, q1.siz, q3]
  obtain ⟨rs, r1, -, r3, r4⟩ := C31_allreduce
    (selOffset sizes (List.range levels.length) sizes.length) maxChunk hpos hmax
    ((List.range n).map fun g => (S1 g).dsg.data) (by
      intro d hd
      obtain ⟨g, hg, rfl⟩ := List.mem_map.1 hd
      exact hl1 g (List.mem_range.1 hg))
  simp only [List.length_map, List.length_range] at r3
  let S2 : ℕ → Group K := fun g => (rs[g]?).elim (S1 g) (S1 g).setData
  have hS2 : ∀ g (hg : g < n), S2 g = (S1 g).setData (rs[g]'(by omega)) := by
    intro g hg
    change (rs[g]?).elim (S1 g) (S1 g).setData = _
    rw [List.getElem?_eq_getElem (by omega)]
    rfl
  have hw2 : ∀ g < n, GroupOk levels sizes (S2 g) ∧ WellAllocated (S2 g).dsg ∧
      (S2 g).dsg.sel = List.range levels.length := by
    intro g hg
    obtain ⟨⟨q1, q2, q3⟩, -, -⟩ := a2 g hg
    rw [hS2 g hg]
    refine ⟨⟨q1.lev, q1.siz, q1.ok⟩, ⟨q2.sorted, q2.len, q2.selRange, q2.ptr, q2.kptr, ?_,
      q2.kahanLen, q2.kahanZero⟩, q3⟩
    have := (r4 _ (List.getElem_mem (l := rs) (n := g) (by omega))).1
    simp only [Group.setData]
    rw [this, q1.siz, q3]
  obtain ⟨S3, c1, c2⟩ := extractGroups_eq n (fun _ => sizes) (fun g _ => hlen) S2 hw2
  refine ⟨S3, fun g i j => (S2 g).dsg.at i j, ?_, ?_, ?_, ?_⟩
  · unfold combineSparseGridReduce
    simp only [a1, r1, Option.bind_eq_bind, Option.bind_some]
    exact c1
  · intro g hg
    have := (c2 g hg).1
    rw [hS2 g hg] at this
    simp only [Group.setData] at this
    rw [(a2 g hg).2.1] at this
    simp only [hS2 g hg]
    exact this
  · intro g hg i hi j hj
    have hpos' : selOffset sizes (List.range levels.length) i + j <
        selOffset sizes (List.range levels.length) sizes.length := by
      have h1 := storage_le (sizes := sizes) (sel := List.range levels.length) (i := i) (by omega)
      have h2 : selSize sizes (List.range levels.length) i = sizes.getD i 0 := by
        unfold selSize
        rw [if_pos (List.mem_range.2 hi)]
      omega
    have h := (r4 _ (List.getElem_mem (l := rs) (n := g) (by omega))).2 _ hpos'
    rw [List.map_map] at h
    obtain ⟨⟨q1, q2, q3⟩, -, -⟩ := a2 g hg
    simp only [hS2 g hg]
    unfold Dsg.at
    simp only [Group.setData]
    rw [q1.siz, q3, h]
    congr 1
    apply List.map_congr_left
    intro m hm
    obtain ⟨⟨p1, p2, p3⟩, -, p5⟩ := a2 m (List.mem_range.1 hm)
    have := p5 i hi j hj
    unfold Dsg.at at this
    rw [p1.siz, p3] at this
    exact this
  · intro g hg
    rw [(c2 g hg).2]
    exact ⟨(hw2 g hg).1.lev, (hw2 g hg).1.siz, (hw2 g hg).2.1, (hw2 g hg).2.2, fun _ _ => rfl⟩

end Verif

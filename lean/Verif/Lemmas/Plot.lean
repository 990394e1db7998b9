import Verif.Model.Plot
import Verif.Lemmas.DistributedCombine

/-!
# Lemmas on evaluating the combined solution on a full grid
-/

namespace Verif

variable {K : Type}

/-! ### Values of the sparse grid after the reduction of the whole sparse grid -/

theorem Initialised.outgroupSizes_zero [Zero K] {refs : List RefDim} {levels : List (List ℕ)} {n : ℕ}
    {T : ℕ → List (K × List ℕ × (ℕ → K))} {dsgs : List (Dsg K)}
    (h : Initialised refs levels n T dsgs) {g : ℕ} (hg : g < n) {i : ℕ} (hi : i < levels.length)
    (hno : ∀ g' < n, ¬ HoldsLevel T g' levels[i]) :
    (outgroupSizes (dsgs.map (·.sizes)) (List.range levels.length)
      (dsgs.getD g (Dsg.empty levels)).sizes).getD i 0 = 0 := by
  unfold outgroupSizes
  rw [List.getD_eq_getElem _ _ (by
    rw [List.length_map, List.length_range, h.slen g hg]; exact hi), List.getElem_map,
    List.getElem_range, if_pos (List.mem_range.2 hi)]
  have hall : ∀ x ∈ (dsgs.map (·.sizes)).map (fun s => s.getD i 0), x = 0 ∨ x = 0 := by
    intro x hx
    rw [List.map_map] at hx
    obtain ⟨d, hd, rfl⟩ := List.mem_map.1 hx
    obtain ⟨g', hg', rfl⟩ := List.mem_iff_getElem.1 hd
    have hgn : g' < n := by rw [← h.len]; exact hg'
    have e := List.getD_eq_getElem dsgs (Dsg.empty levels) hg'
    simp only [Function.comp]
    rw [← e]
    exact Or.inl (h.nohold g' hgn i hi (hno g' hgn))
  rw [foldl_max_eq hall 0 (Or.inl rfl)]
  split <;> rfl

theorem sparseGridReduce_holding [Ring K] {refs : List RefDim} {levels : List (List ℕ)} {n : ℕ}
    {T : ℕ → List (K × List ℕ × (ℕ → K))} (h : ValidSystem refs levels n T)
    {maxChunk : ℕ} (hpos : 0 < maxChunk) (hmax : maxChunk < 2 ^ 31)
    (htotal : (levels.map (subspaceCount refs)).sum < 2 ^ 32) (hn : 0 < n) :
    ∃ (S' : ℕ → Group K) (sizes : List ℕ) (F : ℕ → ℕ → ℕ → K),
      combineVariant .sparseGridReduce maxChunk levels n (fun g => tasksOf refs (T g)) = some S' ∧
      (∀ g < n, Holding levels sizes (F g) (S' g).dsg) ∧
      (∀ g < n, ∀ i < levels.length, ∀ j < sizes.getD i 0,
        F g i j = ((List.range n).map fun m => localSum levels (tasksOf refs (T m)) i j).sum) ∧
      (∀ i (hi : i < levels.length), (∃ g < n, HoldsLevel T g levels[i]) →
        sizes.getD i 0 = subspaceCount refs levels[i]) ∧
      ∀ i (hi : i < levels.length), (∀ g < n, ¬ HoldsLevel T g levels[i]) → sizes.getD i 0 = 0 := by
  obtain ⟨dsgs, i1, i2⟩ := initDsgs_eq h .sparseGridReduce
  have hsame : ∀ g < n, outgroupSizes (dsgs.map (·.sizes)) (List.range levels.length)
      (dsgs.getD g (Dsg.empty levels)).sizes = outgroupSizes (dsgs.map (·.sizes))
        (List.range levels.length) (dsgs.getD 0 (Dsg.empty levels)).sizes := by
    intro g hg
    unfold outgroupSizes
    rw [i2.slen g hg, i2.slen 0 hn]
    apply List.map_congr_left
    intro i hi
    rw [if_pos hi, if_pos hi]
  have hzero := fun (i : ℕ) (hi : i < levels.length) => i2.outgroupSizes_zero hn hi
  generalize hsz : outgroupSizes (dsgs.map (·.sizes)) (List.range levels.length)
    (dsgs.getD 0 (Dsg.empty levels)).sizes = sizes at hsame hzero
  have hs0 := i2.outgroupSizes_eq hn (List.range levels.length)
  rw [hsz] at hs0
  have hheld : ∀ g < n, ∀ i (hi : i < levels.length), HoldsLevel T g levels[i] →
      sizes.getD i 0 = subspaceCount refs levels[i] := fun g hg i hi hh =>
    (hs0.2 i hi).1 (Or.inr ⟨List.mem_range.2 hi, g, hg, hh⟩)
  obtain ⟨S', F, e1, -, e3, e4⟩ := sparseGridReduce_from h maxChunk hpos hmax sizes hs0.1
    (lt_of_le_of_lt (sum_le_total hs0.1 fun i hi => (hs0.2 i hi).2) htotal) hheld
    (fun g => afterSizes (dsgs.getD g (Dsg.empty levels)) (outgroupSizes (dsgs.map (·.sizes))
      (List.range levels.length) (dsgs.getD g (Dsg.empty levels)).sizes) (tasksOf refs (T g))) (by
      obtain ⟨a, -, c, d⟩ := readyFor_afterSizes i2 True fun g => outgroupSizes (dsgs.map (·.sizes))
        (List.range levels.length) (dsgs.getD g (Dsg.empty levels)).sizes
      exact ⟨a, hsame, c, d⟩)
  refine ⟨S', sizes, F, ?_, e3, e4, ?_, hzero⟩
  · unfold combineVariant
    rw [i1]
    exact e1
  · rintro i hi ⟨g, hg, hh⟩
    exact hheld g hg i hi hh

/-- Filling a grid of zeros: at every point the combined surplus of the component grids, zero where no
component grid has a point. -/
theorem filled_eq [Ring K] {refs : List RefDim} {levels : List (List ℕ)} {n : ℕ}
    {T : ℕ → List (K × List ℕ × (ℕ → K))} (h : ValidSystem refs levels n T)
    (hfull : FullLevels levels n T)
    (hhead : levels.head? = some (List.replicate refs.length 1)) {sizes : List ℕ} {F : ℕ → ℕ → K}
    {d : Dsg K} (hd : Holding levels sizes F d)
    (hF : ∀ i < levels.length, ∀ j < sizes.getD i 0,
        F i j = ((List.range n).map fun m => localSum levels (tasksOf refs (T m)) i j).sum)
    (hheld : ∀ i (hi : i < levels.length), (∃ g < n, HoldsLevel T g levels[i]) →
        sizes.getD i 0 = subspaceCount refs levels[i])
    (hnot : ∀ i (hi : i < levels.length), (∀ g < n, ¬ HoldsLevel T g levels[i]) →
        sizes.getD i 0 = 0) {L : List ℕ} (hL : ValidComponent refs L) :
    ∃ t', extractFromUniformSG true (gridOf refs L fun _ => 0) d = some t' ∧ t'.data.len = numLocal refs L ∧
      ∀ p < numLocal refs L, t'.data.val p = valueAtPlace refs n T (spatialOf refs L p) := by
  have e := gridOf_levels (K := K) hL.le.length_eq fun _ => 0
  have hlen0 : 0 < levels.length := by
    cases levels with
    | nil => simp at hhead
    | cons a as => simp
  have hlev0 : levels[0] = List.replicate refs.length 1 := by
    rw [List.head?_eq_getElem?, List.getElem?_eq_getElem hlen0] at hhead
    exact Option.some.inj hhead
  have hones : ∀ l ∈ getDownSet L, levels[0] ≤ l := by
    intro l hl
    have hl' := (mem_downSet_iff l L).1 hl
    rw [hlev0, ← hL.le.length_eq, ← hl'.2.length_eq]
    exact ones_le l hl'.1
  have hsize : ∀ i (hi : i < d.levels.length), d.levels[i] ∈ getDownSet L → 0 < d.sizes.getD i 0 →
      d.sizes.getD i 0 = (getFGPointsOfSubspace (gridOf refs L fun _ => (0 : K)).dims
        d.levels[i]).length := by
    intro i hi hl hp
    simp only [hd.siz, hd.lev] at hi hl hp ⊢
    have : ∃ g < n, HoldsLevel T g levels[i] := by
      by_contra hc
      push Not at hc
      rw [hnot i hi hc] at hp
      omega
    rw [hheld i hi this, ← length_points h.ref hL hl]
    rfl
  obtain ⟨v, h', e1, e2, e3⟩ := extractLoop_eq true d hd.well.allocated
    (by rw [hd.sel]; intro _ i hi; rw [List.mem_range, ← hd.lev, ← hd.well.len]; exact hi)
    (getDownSet L) (C01_downSet _).2 (gridOf refs L fun _ => 0)
    ⟨fun l hl => ⟨by rw [hd.lev]; exact hlen0, by simp only [hd.lev]; exact hones l hl⟩, hsize,
      fun l hl p hp => (((points_facts h.ref hL hl).2.2.1 p).1 hp).1⟩
    (fun l hl => (points_facts h.ref hL hl).2.2.2.imp fun h => ne_of_lt h)
    (fun l hl l' hl' p hp hp' => by
      have h1 := ((points_facts h.ref hL hl).2.2.1 p).1 hp
      have h2 := ((points_facts h.ref hL hl').2.2.1 p).1 hp'
      exact refIn_unique (points_facts h.ref hL hl).1 (points_facts h.ref hL hl').1
        (refIn_of_inSubspace hL.le h1.2) (refIn_of_inSubspace hL.le h2.2))
    0 (HintOk.zero _ _)
  refine ⟨_, by unfold extractFromUniformSG; rw [e, e1]; rfl, rfl, fun p hp => ?_⟩
  simp only
  obtain ⟨l, hl, hpl⟩ := exists_subspace_of_point h.ref hL hp
  by_cases hin : ∃ i, ∃ hi : i < levels.length, levels[i] = l ∧ 0 < sizes.getD i 0
  · obtain ⟨i, hi, rfl, hsp⟩ := hin
    obtain ⟨j, hj, hpj⟩ := List.mem_iff_getElem.1 hpl
    have hi' : i < d.levels.length := by rw [hd.lev]; exact hi
    have hdl : d.levels[i] = levels[i] := by simp only [hd.lev]
    have hcount : sizes.getD i 0 = subspaceCount refs levels[i] := by
      apply hheld i hi
      by_contra hc
      push Not at hc
      rw [hnot i hi hc] at hsp
      omega
    have hj' : j < sizes.getD i 0 := by
      rw [hcount, ← length_points h.ref hL hl]
      exact hj
    have hit := e2 i hi' (by rw [hdl]; exact hl) (by rw [hd.sel]; exact List.mem_range.2 hi)
      (by rw [hd.siz]; exact hsp) j (by rw [hdl]; exact hj)
    simp only [hdl] at hit
    have hpj' : (getFGPointsOfSubspace (gridOf refs L fun _ => (0 : K)).dims levels[i])[j]'hj = p := hpj
    rw [(congrArg v hpj').symm.trans hit]
    refine (hd.val i j).trans ?_
    rw [hF i hi j hj']
    unfold valueAtPlace
    congr 1
    apply List.map_congr_left
    intro m hm
    exact localSum_place h.ref (h.comp m (List.mem_range.1 hm)) hL hi hl hj hpj
  · push Not at hin
    have hno : ∀ g < n, ∀ t ∈ T g, l ∉ getDownSet t.2.1 := by
      intro g hg t ht hlt
      obtain ⟨i, hi, rfl⟩ := List.mem_iff_getElem.1 (hfull g hg t ht l hlt)
      have h1 := hheld i hi ⟨g, hg, t, ht, hlt⟩
      have h2 := hin i hi rfl
      rw [h1, ← length_points h.ref hL hl] at h2
      have := List.length_pos_of_mem hpl
      omega
    rw [e3 p]
    · symm
      unfold valueAtPlace
      apply List.sum_eq_zero
      intro y hy
      obtain ⟨m, hm, rfl⟩ := List.mem_map.1 hy
      apply List.sum_eq_zero
      intro y hy
      obtain ⟨t, ht, rfl⟩ := List.mem_map.1 hy
      have hm' := List.mem_range.1 hm
      rw [same_place_zero h.ref (h.comp m hm' t ht) hL hl hpl (hno m hm' t ht), mul_zero]
    · intro i hi hm _ hsp hpi
      have hi' : i < levels.length := by rw [← hd.lev]; exact hi
      have hdl : d.levels[i] = levels[i] := by simp only [hd.lev]
      rw [hdl] at hm hpi
      rw [hd.siz] at hsp
      have h1 := ((points_facts h.ref hL hl).2.2.1 p).1 hpl
      have h2 := ((points_facts h.ref hL hm).2.2.1 p).1 hpi
      have := refIn_unique (points_facts h.ref hL hl).1 (points_facts h.ref hL hm).1
        (refIn_of_inSubspace hL.le h1.2) (refIn_of_inSubspace hL.le h2.2)
      have := hin i hi' this.symm
      omega

/-- The grid of the parameters. -/
def refGrid (refs : List RefDim) : List CompDim := refs.map fun r => ⟨r.level, r.boundary, r.dec⟩

theorem levalGrid_refGrid (refs : List RefDim) (L : List ℕ) :
    levalGrid (refGrid refs) L = compGrid refs L := by
  unfold levalGrid refGrid compGrid
  rw [List.zipWith_map_left]

/-- What plotting after a complete combination computes, for any invertible bases. -/
theorem plot_formula [Field K] [CharZero K] {refs : List RefDim} {P : CombineParams} {n : ℕ}
    {levels : List (List ℕ)}
    {T : ℕ → List (K × List ℕ × (ℕ → K))} (h : ValidSystem refs levels n T)
    (hfull : FullLevels levels n T)
    (hhead : levels.head? = some (List.replicate refs.length 1)) (hP : ParamsOk refs P)
    (hne : NonEmptyParts refs n T)
    (htotal : ∀ c, InGroup refs c → (levels.map (subspaceCount (atProcess refs c))).sum < 2 ^ 32)
    {maxChunk : ℕ} (hpos : 0 < maxChunk) (hmax : maxChunk < 2 ^ 31)
    {H D : List ℕ → (ℕ → K) → ℕ → K}
    (hm : ∀ L, ValidComponent refs L →
      GridMaps (compDims (oneProcess refs) P L) (selectedDims P.sel) (H L) (D L))
    (junk : ℕ → ℕ → List ℕ → ℕ → ℕ → ℕ → K) (junk' : ℕ → List ℕ → ℕ → ℕ → ℕ → K)
    {S : ℕ → List (GroupTask K)} (hS : ∀ g < n, List.Forall₂ (HoldsParts refs) (T g) (S g))
    {g : ℕ} (hg : g < n) {L : List ℕ} (hL : ValidComponent refs L)
    (hneL : ∀ c, InGroup refs c → ∀ d ∈ List.zipWith localOf (atProcess refs c) L, 0 < d.size) :
    ∃ X, combineAndPlot (refs.map fun r => r.dec.length) P .sparseGridReduce maxChunk levels n junk
        junk' S g (refGrid refs) L = some [X] ∧
      ∀ c, InGroup refs c → (X c).len = numLocal (atProcess refs c) L ∧
        ∀ q < numLocal (atProcess refs c) L, (X c).val q = D L (fun q =>
          valueAtPlace (oneProcess refs) n (hierVals H T) (spatialOf (oneProcess refs) L q))
            (globalOf refs c L q) := by
  obtain ⟨S1, a1, a2, a3⟩ := (groups_transform h.ref hP hm h.comp hne hS junk).1
  have hl1 : ∀ g < n, (hierVals H T g).map (fun t => (t.1, t.2.1)) =
      (T g).map fun t => (t.1, t.2.1) := by
    intro g _
    unfold hierVals
    rw [List.map_map]
    rfl
  have h1 := retask_valid h hl1
  have hone : ∀ c, ∃ (R : ℕ → Verif.Group K) (t' : Dfg K), InGroup refs c →
      combineVariant .sparseGridReduce maxChunk levels n
        (fun g => (S1 g).map fun t => t.onProcess c) = some R ∧
      extractFromUniformSG true ⟨List.zipWith CompDim.onProcess (compGrid refs L) c, zeroGrid (compGrid refs L) c⟩
        (R g).dsg = some t' ∧
      t'.data.len = numLocal (atProcess refs c) L ∧ ∀ p < numLocal (atProcess refs c) L,
        t'.data.val p = valueAtPlace (oneProcess refs) n (hierVals H T)
          (spatialOf (oneProcess refs) L (globalOf refs c L p)) := by
    intro c
    by_cases hc : InGroup refs c
    swap
    · exact ⟨fun _ => ⟨Dsg.empty [], []⟩, ⟨[], ⟨0, fun _ => 0⟩⟩, fun h => absurd h hc⟩
    have htasks : (fun g => (S1 g).map fun t => t.onProcess c) =
        fun g => tasksOf (atProcess refs c) (localTasks c (hierVals H T g) (S1 g)) := by
      funext g
      by_cases hg : g < n
      · exact (localTasks_spec hc (a2 g hg) (h1.comp g hg)).1
      · rw [a3 g (by omega)]
        simp [localTasks, tasksOf]
    have hlev : ∀ g < n, (localTasks c (hierVals H T g) (S1 g)).map (fun t => (t.1, t.2.1)) =
        (hierVals H T g).map fun t => (t.1, t.2.1) :=
      fun g hg => localTasks_levels hc (a2 g hg) (h1.comp g hg)
    have hvalid := validSystem_atProcess h1 hc
    obtain ⟨R, sizes, F, r1, r2, r3, r4, r5⟩ := sparseGridReduce_holding (retask_valid hvalid hlev)
      hpos hmax (htotal c hc) (by omega)
    obtain ⟨t', t1, t2, t3⟩ := filled_eq (retask_valid hvalid hlev)
      (retask_full (retask_full hfull hl1) hlev) (by rw [length_atProcess hc]; exact hhead) (r2 g hg) (r3 g hg) r4 r5
      (validComponent_atProcess hc hL)
    refine ⟨R, t', fun _ => ⟨by rw [htasks]; exact r1, ?_, t2, fun p hp => ?_⟩⟩
    · rw [← t1]
      unfold zeroGrid
      rw [onProcess_compGrid hc hL.le.length_eq]
      rfl
    · rw [t3 p hp, valueAtPlace_congr (fun g hg => (localTasks_spec hc (a2 g hg) (h1.comp g hg)).2)]
      exact valueAtPlace_atProcess h.ref hL hc hp h1.comp
  choose R t' hR using hone
  have hdsg : combinedSparseGrid (refs.map fun r => r.dec.length) P .sparseGridReduce maxChunk levels n
      junk S g = some fun c => ((combineVariant .sparseGridReduce maxChunk levels n
        fun g => (S1 g).map fun t => t.onProcess c).map fun S => (S g).dsg).getD (Dsg.empty levels) := by
    unfold combinedSparseGrid
    rw [a1, Option.bind_some]
    refine if_pos ?_
    rw [List.all_eq_true]
    intro c hc
    beta_reduce
    rw [(hR c (mem_groupProcesses.1 hc)).1]
    rfl
  have hfill : ∀ c, InGroup refs c → extractFromUniformSG true
      ⟨List.zipWith CompDim.onProcess (compGrid refs L) c, zeroGrid (compGrid refs L) c⟩
      (((combineVariant .sparseGridReduce maxChunk levels n
        fun g => (S1 g).map fun t => t.onProcess c).map fun S => (S g).dsg).getD (Dsg.empty levels)) =
      some (t' c) := by
    intro c hc
    rw [(hR c hc).1, Option.map_some, Option.getD_some]
    exact (hR c hc).2.1
  -- the filled grid as a task
  obtain ⟨b1, -, X, x1, x2⟩ := transform_dist h.ref hP hm
    (t := (0, L, fun q => valueAtPlace (oneProcess refs) n (hierVals H T)
      (spatialOf (oneProcess refs) L q))) hL hneL
    (gt := ⟨0, compGrid refs L, fun c => ((extractFromUniformSG true
      ⟨List.zipWith CompDim.onProcess (compGrid refs L) c, zeroGrid (compGrid refs L) c⟩
      (((combineVariant .sparseGridReduce maxChunk levels n
        fun g => (S1 g).map fun t => t.onProcess c).map fun S => (S g).dsg).getD
          (Dsg.empty levels))).map fun x => x.data).getD (zeroGrid (compGrid refs L) c)⟩)
    ⟨rfl, rfl, fun c hc => by
      simp only [hfill c hc, Option.map_some, Option.getD_some]
      exact (hR c hc).2.2⟩ (junk' 0)
  simp only at b1 x1
  refine ⟨X, ?_, fun c hc => ?_⟩
  · unfold combineAndPlot
    rw [hdsg, Option.bind_some, levalGrid_refGrid]
    unfold interpolateAndPlotOnLevel plotGrids fillGrid
    simp only
    rw [if_pos, x1]
    · rfl
    · refine ⟨?_, b1⟩
      rw [List.all_eq_true]
      intro c hc
      rw [hfill c (mem_groupProcesses.1 hc)]
      rfl
  · exact x2.2.2 c hc

end Verif

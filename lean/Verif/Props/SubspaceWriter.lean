import Verif.Lemmas.SubspaceWriter

/-!
# Property C108: sizes written ahead for systems that combine through files

Instead of exchanging the sizes of their subspaces at the start, systems can read those of the subspaces that
they have in common from a file, which the tool `subspace_writer` writes from the scheme files of the systems.
-/

namespace Verif

variable {K : Type}

/-- The scheme file of each of `k` systems has the levels of the component grids of all groups, in any order. -/
def SchemeFiles (k : ℕ) (n : ℕ → ℕ) (T : ℕ → ℕ → List (K × List ℕ × (ℕ → K)))
    (file : ℕ → List (List ℕ)) : Prop :=
  ∀ s < k, (file s).Perm (((List.range (n s)).flatMap (T s)).map fun t => t.2.1)

/-- Two of `k` systems have component grids that contain subspace `l`. -/
def InTwoSystems (k : ℕ) (n : ℕ → ℕ) (T : ℕ → ℕ → List (K × List ℕ × (ℕ → K))) (l : List ℕ) : Prop :=
  ∃ a < k, ∃ b < k, a ≠ b ∧ SystemHolds (n a) (T a) l ∧ SystemHolds (n b) (T b) l

theorem twoSystems_iff {levels : List (List ℕ)} {k : ℕ} {n : ℕ → ℕ}
    {T : ℕ → ℕ → List (K × List ℕ × (ℕ → K))} {i : ℕ} (hi : i < levels.length) :
    TwoSystems levels k n T i ↔ InTwoSystems k n T levels[i] := by
  unfold TwoSystems InTwoSystems SystemHolds HoldsIdx
  rw [getD_lt hi]

/-- **C108**, sizes. For two or three systems, the tool does not fail, and writes for every subspace the
number of its points on this process if two systems have the subspace, and zero otherwise. -/
theorem C108_sizes [Ring K] (refs : List RefDim) (levels : List (List ℕ)) (k : ℕ) (hk : k = 2 ∨ k = 3)
    (n : ℕ → ℕ) (T : ℕ → ℕ → List (K × List ℕ × (ℕ → K)))
    (h : ∀ s < k, ValidSystem refs levels (n s) (T s)) (file : ℕ → List (List ℕ))
    (hfile : SchemeFiles k n T file) :
    ∃ c, subspaceWriter levels k ((List.range k).map fun s => schemeGrids K refs (file s)) = some c ∧
      c.length = levels.length ∧ ∀ i (hi : i < levels.length),
        (InTwoSystems k n T levels[i] → c.getD i 0 = subspaceCount refs levels[i]) ∧
        (¬ InTwoSystems k n T levels[i] → c.getD i 0 = 0) := by
  refine ⟨sizeRow levels.length (countOf refs levels) (TwoSystems levels k n T), ?_, length_sizeRow _ _ _,
    fun i hi => ⟨fun h2 => ?_, fun h2 => ?_⟩⟩
  · rw [← conjointOf_eq h file hfile]
    unfold subspaceWriter
    simp only
    have hl : (if 2 < k then 3 else 2) = k := by split <;> omega
    rw [hl, if_pos (by simp), List.take_of_length_le (by simp)]
  · rw [getD_sizeRow_pos hi ((twoSystems_iff hi).2 h2)]
    unfold countOf
    rw [getD_lt hi]
  · exact getD_sizeRow_neg fun hc => h2 ((twoSystems_iff hi).1 hc)

/-- **C108**, combination of any number of systems (partial: all groups of a system with several groups share
subspaces with other groups on this process, at least one subspace with points is held by two systems, and, if
assertions are compiled, the output groups hold all subspaces of two systems). With the sizes for all systems,
the values of all component grids of all systems become the combination of all component grids of all systems. -/
theorem C108_all_systems_partial [Ring K] (refs : List RefDim) (levels : List (List ℕ)) (k : ℕ)
    (n o : ℕ → ℕ) (T : ℕ → ℕ → List (K × List ℕ × (ℕ → K)))
    (h : ValidSystems refs levels k n T) (ho : ∀ s < k, o s < n s)
    (hn : ∀ s < k, n s ≤ 256)
    (hshare : ∀ s < k, n s = 1 ∨ ∀ g < n s, Shares refs (n s) (T s) g)
    (hconj : ∃ l, 0 < subspaceCount refs l ∧ InTwoSystems k n T l)
    (order : ℕ → List ℕ)
    (horder : ∀ s < k, (order s).Perm ((List.range k).filter fun t => t ≠ s))
    (maxChunk : ℕ) (hmax : maxChunk < 2 ^ 31)
    (hsmall : ∀ l ∈ levels, subspaceCount refs l < 2 ^ 31)
    (htotal : (levels.map (subspaceCount refs)).sum < 2 ^ 32)
    (debug : Bool) (hdebug : debug = true → ∀ s < k, ∀ l ∈ levels, InTwoSystems k n T l →
      HoldsLevel (T s) (o s) l)
    (file : ℕ → List (List ℕ)) (hfile : SchemeFiles k n T file) :
    ∃ (c : List ℕ) (R : ℕ → ℕ → Group K),
      conjointOf levels ((List.range k).map fun s => schemeGrids K refs (file s)) = some c ∧
      wideCombineAhead debug maxChunk levels k (fun s => systemOf refs (n s) (o s) (T s)) order c =
        some ((List.range k).map R) ∧
      ∀ s < k, ∀ g < n s, List.Forall₂ (fun t (t' : K × Dfg K) => t'.1 = t.1 ∧
        t'.2.dims = (gridOf refs t.2.1 t.2.2).dims ∧ t'.2.data.len = numLocal refs t.2.1 ∧
        ∀ p < numLocal refs t.2.1,
          t'.2.data.val p = valueOfSystems refs k n T (spatialOf refs t.2.1 p))
        (T s g) (R s g).tasks := by
  have hEne : ∃ i < levels.length, TwoSystems levels k n T i ∧ 0 < countOf refs levels i := by
    obtain ⟨l, hc, a, ha, b, hb, hab, hha, hhb⟩ := hconj
    obtain ⟨i, hi, rfl⟩ := List.mem_iff_getElem.1 (h.mem_of_shared ha hb hab hha hhb)
    refine ⟨i, hi, (twoSystems_iff hi).2 ⟨a, ha, b, hb, hab, hha, hhb⟩, ?_⟩
    unfold countOf
    rw [getD_lt hi]
    exact hc
  have hk : 0 < k := by
    obtain ⟨l, hc, a, ha, -⟩ := hconj
    omega
  have hstart : ∀ s, ∃ st : WideState K, s < k → _ := fun s => by
    by_cases hs : s < k
    · obtain ⟨st, q⟩ := wideStartAhead_eq (ho s hs) (hn s hs) (h.each s hs) (hshare s hs) debug
        (TwoSystems levels k n T) (fun hd i hi hE => Or.inl (by
          unfold HoldsIdx
          rw [getD_lt hi]
          exact hdebug hd s hs _ (List.getElem_mem hi) ((twoSystems_iff hi).1 hE))) hEne htotal
      exact ⟨st, fun _ => q⟩
    · exact ⟨⟨fun _ => ⟨Dsg.empty levels, []⟩, fun _ => none, Dsg.empty levels⟩,
        fun hc => absurd hc hs⟩
  choose st hst using hstart
  obtain ⟨R, r1, r2⟩ := wideExchange_eq refs levels k hk n o T h ho order horder maxChunk hmax hsmall st
    fun s hs => (hst s hs).2
  refine ⟨_, R, conjointOf_eq h.each file hfile, ?_, r2⟩
  unfold wideCombineAhead
  rw [mapM_some_map _ _ st fun s hs => (hst s (List.mem_range.1 hs)).1]
  exact r1

/-- **C108**, combination (partial as `C108_all_systems_partial`, and two or three systems). With the file of
the tool, the values of all component grids of all systems become the combination of all component grids of
all systems. -/
theorem C108_combined_partial [Ring K] (refs : List RefDim) (levels : List (List ℕ)) (k : ℕ)
    (hk : k = 2 ∨ k = 3) (n o : ℕ → ℕ) (T : ℕ → ℕ → List (K × List ℕ × (ℕ → K)))
    (h : ValidSystems refs levels k n T) (ho : ∀ s < k, o s < n s)
    (hn : ∀ s < k, n s ≤ 256)
    (hshare : ∀ s < k, n s = 1 ∨ ∀ g < n s, Shares refs (n s) (T s) g)
    (hconj : ∃ l, 0 < subspaceCount refs l ∧ InTwoSystems k n T l)
    (order : ℕ → List ℕ)
    (horder : ∀ s < k, (order s).Perm ((List.range k).filter fun t => t ≠ s))
    (maxChunk : ℕ) (hmax : maxChunk < 2 ^ 31)
    (hsmall : ∀ l ∈ levels, subspaceCount refs l < 2 ^ 31)
    (htotal : (levels.map (subspaceCount refs)).sum < 2 ^ 32)
    (debug : Bool) (hdebug : debug = true → ∀ s < k, ∀ l ∈ levels, InTwoSystems k n T l →
      HoldsLevel (T s) (o s) l)
    (file : ℕ → List (List ℕ)) (hfile : SchemeFiles k n T file) :
    ∃ (c : List ℕ) (R : ℕ → ℕ → Group K),
      subspaceWriter levels k ((List.range k).map fun s => schemeGrids K refs (file s)) = some c ∧
      wideCombineAhead debug maxChunk levels k (fun s => systemOf refs (n s) (o s) (T s)) order c =
        some ((List.range k).map R) ∧
      ∀ s < k, ∀ g < n s, List.Forall₂ (fun t (t' : K × Dfg K) => t'.1 = t.1 ∧
        t'.2.dims = (gridOf refs t.2.1 t.2.2).dims ∧ t'.2.data.len = numLocal refs t.2.1 ∧
        ∀ p < numLocal refs t.2.1,
          t'.2.data.val p = valueOfSystems refs k n T (spatialOf refs t.2.1 p))
        (T s g) (R s g).tasks := by
  obtain ⟨c, R, c1, c2⟩ := C108_all_systems_partial refs levels k n o T h ho hn hshare hconj order horder
    maxChunk hmax hsmall htotal debug hdebug file hfile
  refine ⟨c, R, ?_, c2⟩
  rw [← c1]
  unfold subspaceWriter
  simp only
  have hl : (if 2 < k then 3 else 2) = k := by split <;> omega
  rw [hl, if_pos (by simp), List.take_of_length_le (by simp)]

/-- **C108**, name of the file. Systems whose scheme files are called alike but for a digit and the five
characters of the number of groups read the same file, and it is the one that the tool writes. -/
theorem C108_same_file (base groups groups' : List Char) (digit digit' : Char) (h : groups.length = 5)
    (h' : groups'.length = 5) :
    conjointFileName (base ++ "_part".toList ++ [digit] ++ "_".toList ++ groups ++ "groups.json".toList) =
      base ++ "conjoint.sizes".toList ∧
    conjointFileName (base ++ "_part".toList ++ [digit] ++ "_".toList ++ groups ++ "groups.json".toList) =
      conjointFileName
        (base ++ "_part".toList ++ [digit'] ++ "_".toList ++ groups' ++ "groups.json".toList) := by
  have key : ∀ (g : List Char) (d : Char), g.length = 5 →
      conjointFileName (base ++ "_part".toList ++ [d] ++ "_".toList ++ g ++ "groups.json".toList) =
        base ++ "conjoint.sizes".toList := by
    intro g d hg
    unfold conjointFileName
    have hl : (base ++ "_part".toList ++ [d] ++ "_".toList ++ g ++ "groups.json".toList).length =
        base.length + 23 := by
      simp [hg]
    have h23 : "_part0_00008groups.json".length = 23 := by decide +kernel
    rw [hl, h23, if_neg (by omega), Nat.add_sub_cancel]
    simp only [List.append_assoc]
    rw [List.take_left']
    rfl
  exact ⟨key _ _ h, (key _ _ h).trans (key _ _ h').symm⟩

/-- Further hypotheses of `C108_combined_partial` hold for the systems of `exampleSystems_valid`, also with
assertions. -/
example : SchemeFiles 2 (fun s => 2 - s) (fun s => if s = 0 then exampleSystem else exampleSystemB)
      (fun s => if s = 0 then [[1, 1], [2, 1], [1, 2]] else [[1, 2], [1, 3]]) ∧
    (∃ l, 0 < subspaceCount exampleRefs l ∧ InTwoSystems 2 (fun s => 2 - s)
      (fun s => if s = 0 then exampleSystem else exampleSystemB) l) ∧
    (∀ s < 2, ∀ l ∈ [[1, 1], [1, 2], [1, 3], [2, 1]], InTwoSystems 2 (fun s => 2 - s)
      (fun s => if s = 0 then exampleSystem else exampleSystemB) l →
        HoldsLevel (if s = 0 then exampleSystem else exampleSystemB) 0 l) := by
  refine ⟨?_, ⟨[1, 1], by decide +kernel, ?_⟩, ?_⟩
  · intro s hs
    have : s = 0 ∨ s = 1 := by omega
    rcases this with rfl | rfl
    · exact (by decide +kernel : [[1, 1], [2, 1], [1, 2]].Perm
        (((List.range 2).flatMap exampleSystem).map fun t => t.2.1))
    · exact (by decide +kernel : [[1, 2], [1, 3]].Perm
        (((List.range 1).flatMap exampleSystemB).map fun t => t.2.1))
  · unfold InTwoSystems SystemHolds HoldsLevel
    decide +kernel
  · unfold InTwoSystems SystemHolds HoldsLevel
    decide +kernel

/-- One component grid on the only group of each of four systems; the first and the last have the same. -/
def fourSystems (s _g : ℕ) : List (ℚ × List ℕ × (ℕ → ℚ)) :=
  if s = 1 then [(1, [2, 1], fun _ => 0)] else if s = 2 then [(-1, [1, 1], fun _ => 0)] else
    [(1, [1, 2], fun _ => 1)]

/-- The values of the first grid of the first group of a system. -/
def firstValues (r : List (ℕ → Group ℚ)) (s : ℕ) : Option (List ℚ) := do
  let S ← r[s]?
  let t ← (S 0).tasks[0]?
  return (List.range t.2.data.len).map t.2.data.val

/-- the component grids of four systems are valid -/
theorem fourSystems_valid :
    ValidSystems exampleRefs [[1, 1], [1, 2], [2, 1]] 4 (fun _ => 1) fourSystems := by
  have hcases : ∀ s g, ∀ t ∈ fourSystems s g, t.2.1 = [2, 1] ∨ t.2.1 = [1, 1] ∨ t.2.1 = [1, 2] := by
    intro s g t ht
    unfold fourSystems at ht
    split at ht
    · rw [List.mem_singleton] at ht
      exact Or.inl (by rw [ht])
    · split at ht
      · rw [List.mem_singleton] at ht
        exact Or.inr (Or.inl (by rw [ht]))
      · rw [List.mem_singleton] at ht
        exact Or.inr (Or.inr (by rw [ht]))
  have hfull : ∀ s < 4, FullLevels [[1, 1], [1, 2], [2, 1]] 1 (fourSystems s) := by
    intro s _ g _ t ht
    rcases hcases s g t ht with h | h | h <;> rw [h] <;> decide +kernel
  refine .of_full (fun s hs => .of_full ?_ (by decide) ?_ (hfull s hs)) hfull
  · intro r hr
    simp only [exampleRefs, List.mem_cons, List.not_mem_nil, or_false] at hr
    rcases hr with rfl | rfl
    · exact ⟨by decide, ⟨rfl, by decide, by decide⟩, by decide⟩
    · exact ⟨by decide, ⟨rfl, by decide, by decide⟩, by decide⟩
  · intro g _ t ht
    rcases hcases s g t ht with h | h | h <;> rw [h] <;> exact ⟨by decide, by simp [exampleRefs]⟩

/-- C108 is violated for four systems: the tool does not read the scheme of the fourth system. Here a subspace
of the first and the fourth system is not in the file. Its values, the last two of the grid, remain one, and
are not the combination, which is two everywhere. -/
theorem C108_four_systems_violated :
    ValidSystems exampleRefs [[1, 1], [1, 2], [2, 1]] 4 (fun _ => 1) fourSystems ∧
    SchemeFiles 4 (fun _ => 1) fourSystems
      (fun s => if s = 1 then [[2, 1]] else if s = 2 then [[1, 1]] else [[1, 2]]) ∧
    (∃ c r, subspaceWriter [[1, 1], [1, 2], [2, 1]] 4 ((List.range 4).map fun s => schemeGrids ℚ exampleRefs
        (if s = 1 then [[2, 1]] else if s = 2 then [[1, 1]] else [[1, 2]])) = some c ∧
      wideCombineAhead false 100 [[1, 1], [1, 2], [2, 1]] 4
        (fun s => systemOf exampleRefs 1 0 (fourSystems s))
        (fun s => (List.range 4).filter fun t => t ≠ s) c = some r ∧
      firstValues r 0 = some [2, 2, 1, 1]) ∧
    (List.range 4).map (fun p => valueOfSystems exampleRefs 4 (fun _ => 1) fourSystems
      (spatialOf exampleRefs [1, 2] p)) = [2, 2, 2, 2] := by
  refine ⟨fourSystems_valid, ?_, ?_, by decide +kernel⟩
  · intro s hs
    have : s = 0 ∨ s = 1 ∨ s = 2 ∨ s = 3 := by omega
    rcases this with rfl | rfl | rfl | rfl
    all_goals exact List.Perm.refl _
  · have h : (do
        let c ← subspaceWriter [[1, 1], [1, 2], [2, 1]] 4 ((List.range 4).map fun s =>
          schemeGrids ℚ exampleRefs (if s = 1 then [[2, 1]] else if s = 2 then [[1, 1]] else [[1, 2]]))
        let r ← wideCombineAhead false 100 [[1, 1], [1, 2], [2, 1]] 4
          (fun s => systemOf exampleRefs 1 0 (fourSystems s))
          (fun s => (List.range 4).filter fun t => t ≠ s) c
        firstValues r 0) = some [2, 2, 1, 1] := by decide +kernel
    simp only [Option.bind_eq_bind, Option.bind_eq_some_iff] at h
    obtain ⟨c, hc, r, hr, hv⟩ := h
    exact ⟨c, r, hc, hr, hv⟩

/-- Two groups of a system, of which the output group has a small grid. -/
def smallOutput (g : ℕ) : List (ℚ × List ℕ × (ℕ → ℚ)) :=
  if g = 0 then [(-1, [1, 1], fun q => q * q)] else [(1, [2, 1], fun q => 7 * q + 3)]

/-- One grid on the only group of another system. -/
def otherOutput (_g : ℕ) : List (ℚ × List ℕ × (ℕ → ℚ)) := [(1, [2, 1], fun q => q)]

/-- C108 is violated if assertions are compiled: if another group than the output group has a subspace that
other systems have, the output group has less points than the file, although it can be enlarged, and
`reduceExtraSubspaceSizes` stops. Without assertions, the combination succeeds. -/
theorem C108_assertion_violated :
    (∃ g < 2, HoldsLevel smallOutput g [2, 1]) ∧ HoldsLevel otherOutput 0 [2, 1] ∧
    ∃ c, subspaceWriter [[1, 1], [1, 2], [2, 1]] 2
        [schemeGrids ℚ exampleRefs [[1, 1], [2, 1]], schemeGrids ℚ exampleRefs [[2, 1]]] = some c ∧
      (wideCombineAhead true 100 [[1, 1], [1, 2], [2, 1]] 2 (fun s => if s = 0 then
        systemOf exampleRefs 2 0 smallOutput else systemOf exampleRefs 1 0 otherOutput)
        (fun s => [1 - s]) c).isSome = false ∧
      (wideCombineAhead false 100 [[1, 1], [1, 2], [2, 1]] 2 (fun s => if s = 0 then
        systemOf exampleRefs 2 0 smallOutput else systemOf exampleRefs 1 0 otherOutput)
        (fun s => [1 - s]) c).isSome = true := by
  refine ⟨by unfold HoldsLevel; decide +kernel, by unfold HoldsLevel; decide +kernel,
    [2, 0, 1], by decide +kernel, by decide +kernel, by decide +kernel⟩

end Verif

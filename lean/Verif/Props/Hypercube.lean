import Verif.Lemmas.Hypercube
import Verif.Props.LevelSets

/-!
# Property C10: `HypercubeDownSetGenerator`

Specification: the levels returned by `getTotalNumberOfLevels()` calls of
`getNextLevel()` are the levels `1 ≤ k ≤ corner`, each once (`C01_downSet` shows that
`getDownSet` lists exactly these).
-/

namespace Verif

/-- corners for which the generator works: isotropic, or some entry is smaller than
the first one. -/
def HypercubeOk (u : List ℕ) : Prop :=
  (∀ x ∈ u, x = u.headD 0) ∨ ∃ x ∈ u, x < u.headD 0

instance (u : List ℕ) : Decidable (HypercubeOk u) := by unfold HypercubeOk; infer_instance

/-- C10, the part that holds: for isotropic corners, and for corners with some entry
smaller than the first, the generator enumerates the box in ascending lexicographic
order, every level once. Missing for the full claim: the remaining corners, where it is
false, see `C10_hypercube_violated`. -/
theorem C10_hypercube_partial (u : List ℕ) (hne : u ≠ []) (hpos : ∀ x ∈ u, 1 ≤ x)
    (hok : HypercubeOk u) :
    hypercubeRun u (hypercubeTotal u) (hypercubeStart u) = getDownSet u ∧
      ∀ k, k ∈ getDownSet u ↔ List.Forall₂ (fun ki ui => 1 ≤ ki ∧ ki ≤ ui) k u := by
  refine ⟨?_, (C01_downSet u).1⟩
  have hlen : (getDownSet u).length = hypercubeTotal u := C01_downSet_length u
  rw [← hlen]
  apply hypercubeRun_chain
  obtain ⟨hc, hh, hl, ho⟩ := odo_chain u hpos
  rw [List.isChain_cons]
  constructor
  · intro y hy
    rw [hh] at hy
    simp at hy
    subst hy
    exact hypercubeNext_of_odo u _ _ (start_length u hne) (start_not_finished u hpos hne)
      (odo_start u hpos hne)
  · rw [List.isChain_iff_getElem] at hc ⊢
    intro i hi
    have hstep := hc i hi
    set D := getDownSet u with hD
    have hmem : D[i] ∈ D := List.getElem_mem _
    have hmem' : D[i + 1] ∈ D := List.getElem_mem _
    have hlt : D[i] < D[i + 1] :=
      List.pairwise_iff_getElem.1 (C01_downSet u).2 i (i + 1) (by omega) hi (by omega)
    have hb := ((C01_downSet u).1 _).1 hmem
    have hb' := ((C01_downSet u).1 _).1 hmem'
    refine hypercubeNext_of_odo u _ _ hb.length_eq.symm ?_ hstep
    by_contra hf
    have hf : hypercubeFinished u D[i] = true := by simpa using hf
    rw [hypercubeFinished_iff] at hf
    rcases hok with h | ⟨x, hx, hxlt⟩
    · -- isotropic: `D[i]` is the corner, but the list is ascending
      have hu : u = List.replicate u.length (u.headD 0) := List.eq_replicate_iff.2 ⟨rfl, h⟩
      rw [hb.length_eq, ← hu] at hf
      rw [hf] at hlt
      have : ∀ a b : List ℕ, List.Forall₂ (fun ki ui => 1 ≤ ki ∧ ki ≤ ui) a b → ¬ b < a := by
        intro a b hab
        induction hab with
        | nil => simp
        | cons h1 _ ih =>
          rw [List.cons_lt_cons_iff]
          rintro (h2 | ⟨-, h2⟩)
          · omega
          · exact ih h2
      exact this _ _ hb' hlt
    · obtain ⟨j, hj, rfl⟩ := List.mem_iff_getElem.1 hx
      have hj' : j < D[i].length := by rw [hb.length_eq]; exact hj
      have h1 := ((List.forall₂_iff_get.1 hb).2 j hj' hj).2
      have h2 : D[i][j] = u.headD 0 := by
        have := List.eq_replicate_iff.1 hf
        exact this.2 _ (List.getElem_mem _)
      simp only [List.get_eq_getElem] at h1
      omega

example : HypercubeOk [3, 3] ∧ HypercubeOk [3, 2, 5] ∧ (∀ x ∈ [3, 2, 5], 1 ≤ x) := by decide

/-- C10 is violated for every other corner: the generator gets stuck and, however often
it is called, never returns the corner itself. -/
theorem C10_hypercube_violated (u : List ℕ) (hne : u ≠ []) (hpos : ∀ x ∈ u, 1 ≤ x)
    (hbad : ¬ HypercubeOk u) (m : ℕ) : u ∉ hypercubeRun u m (hypercubeStart u) := by
  simp only [HypercubeOk, not_or, not_forall, not_exists, not_and, not_lt] at hbad
  obtain ⟨⟨x, hx, hxne⟩, hge⟩ := hbad
  obtain ⟨hc, hh, hl, ho⟩ := odo_chain u hpos
  set D := getDownSet u with hD
  set w := List.replicate u.length (u.headD 0) with hw
  have hu1 : 1 ≤ u.headD 0 := by
    cases u with
    | nil => simp at hne
    | cons a u => exact hpos a (by simp)
  have hwD : w ∈ D := by
    rw [hD, (C01_downSet u).1, List.forall₂_iff_get]
    refine ⟨by simp [hw], fun i h1 h2 => ?_⟩
    simp only [hw, List.get_eq_getElem, List.getElem_replicate]
    exact ⟨hu1, hge _ (List.getElem_mem _)⟩
  obtain ⟨p, hp, hpw⟩ := List.mem_iff_getElem.1 hwD
  have hnd : D.Nodup := C01_downSet_nodup u
  -- `u` is not among the first `p + 1` levels
  have hun : ∀ i (hi : i < D.length), i ≤ p → D[i] ≠ u := by
    intro i hi hip he
    have hlast : D[D.length - 1]'(by omega) = u := by
      have := hl
      rw [List.getLast?_eq_getElem?] at this
      rw [List.getElem?_eq_getElem (by omega)] at this
      exact Option.some.inj this
    have : i = D.length - 1 := by
      have hl1 : D.length - 1 < D.length := by omega
      exact (hnd.getElem_inj_iff (hi := hi) (hj := hl1)).1 (by rw [hlast, he])
    have hp' : p < D.length := hp
    have : p = i := by omega
    subst this
    rw [hpw] at he
    have : x = u.headD 0 := by
      have h2 := he ▸ hx
      rw [hw] at h2
      have := List.eq_of_mem_replicate h2
      exact this
    exact hxne this
  -- all states are among the first `p + 1` levels
  have hinv : ∀ m c, (∃ i, ∃ hi : i < D.length, i ≤ p ∧ hypercubeNext u c = D[i]) →
      ∀ k ∈ hypercubeRun u m c, ∃ i, ∃ hi : i < D.length, i ≤ p ∧ k = D[i] := by
    intro m
    induction m with
    | zero => intro c _ k hk; simp [hypercubeRun] at hk
    | succ m ih =>
      rintro c ⟨i, hi, hip, hn⟩ k hk
      simp only [hypercubeRun, List.mem_cons] at hk
      rcases hk with rfl | hk
      · exact ⟨i, hi, hip, hn⟩
      · refine ih _ ?_ k hk
        rw [hn]
        by_cases hfin : hypercubeFinished u D[i] = true
        · exact ⟨i, hi, hip, by simp [hypercubeNext, hfin]⟩
        · have hlen : D[i].length = u.length := length_of_mem_getDownSet (List.getElem_mem _)
          have hne' : i ≠ p := by
            rintro rfl
            apply hfin
            rw [hypercubeFinished_iff, hlen, hpw]
          refine ⟨i + 1, by omega, by omega, ?_⟩
          rw [List.isChain_iff_getElem] at hc
          exact hypercubeNext_of_odo u _ _ hlen.symm (by simpa using hfin) (hc i (by omega))
  intro hmem
  obtain ⟨i, hi, hip, he⟩ := hinv m (hypercubeStart u) ⟨0, by omega, by omega, by
    rw [hypercubeNext_of_odo u _ _ (start_length u hne) (start_not_finished u hpos hne)
      (odo_start u hpos hne)]
    have := hh
    rw [List.head?_eq_getElem?, List.getElem?_eq_getElem (by omega)] at this
    exact (Option.some.inj this).symm⟩ u hmem
  exact hun i hi hip he.symm

example : ¬ HypercubeOk [2, 3] ∧
    hypercubeRun [2, 3] (hypercubeTotal [2, 3]) (hypercubeStart [2, 3]) =
      [[1, 1], [1, 2], [1, 3], [2, 1], [2, 2], [2, 2]] := by decide

end Verif

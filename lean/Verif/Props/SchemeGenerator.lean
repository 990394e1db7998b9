import Verif.Lemmas.SchemeGenerator

/-!
# C83: the generated combination scheme counts every subspace once and gives every grid to one group

`d.above k` is the sum of the coefficients of the grids of `d` that contain the subspace `k`.
-/

namespace Verif.SchemeGenerator

/-! ### The coefficients -/

/-- The same difference between `lmax` and `lmin` in all dimensions, at least the dimension: the grids of the
last `dim` diagonals with binomial coefficients; every subspace of a grid on the last diagonal is counted
once. -/
theorem C83_uniform (fuel : ℕ) (lmin : List ℕ) (hne : lmin ≠ []) (c : ℕ) (hc : lmin.length ≤ c)
    (active : List (List ℕ)) :
    ∃ d, updateDict fuel lmin (lmin.map (· + c)) active = .ok d ∧ d.keys.Nodup ∧
      (∀ g, g ∈ d.keys ↔ VecLe lmin g ∧ g.sum ≤ lmin.sum + c ∧ lmin.sum + c < g.sum + lmin.length) ∧
      (∀ g ∈ d.keys, VecLe g (lmin.map (· + c)) ∧ d.val g ≠ 0) ∧
      ∀ k, (∃ a, VecLe lmin a ∧ a.sum = lmin.sum + c ∧ VecLe k a) → d.above k = 1 := by
  set lmax := lmin.map (· + c) with hlmax
  have hlen : lmin.length = lmax.length := by simp [hlmax]
  have hup : updateDict fuel lmin lmax active = .ok (binomialScheme lmin lmax c) := by
    rw [hlmax]
    cases lmin with
    | nil => exact absurd rfl hne
    | cons a l =>
      have h1 : ((a + c : ℕ) : ℤ) - a = c := by omega
      unfold updateDict
      simp only [List.map_cons, h1]
      rw [if_pos]
      simp only [List.zipWith_cons_cons, List.isEmpty_cons, Bool.not_false, Bool.true_and, decide_eq_true_eq]
      omega
  obtain ⟨h1, h2, h3⟩ := binomialScheme_spec lmin lmax hlen c
  have hle : ∀ g, VecLe lmin g → g.sum ≤ lmin.sum + c → VecLe g lmax := by
    intro g hg hs
    rw [hlmax]
    clear h1 h2 h3 hup hlen hlmax lmax hc hne
    induction hg with
    | nil => simp
    | cons hab hr ih =>
      have := VecLe.sum_le hr
      simp only [List.sum_cons] at hs
      exact .cons (by show _ ≤ _ + c; omega) (ih (by omega))
  have hmem : ∀ g, g ∈ (binomialScheme lmin lmax c).keys ↔
      VecLe lmin g ∧ g.sum ≤ lmin.sum + c ∧ lmin.sum + c < g.sum + lmin.length := by
    intro g
    rw [h2]
    constructor
    · rintro ⟨h4, _, h6, h7⟩
      exact ⟨h4, by omega, by omega⟩
    · rintro ⟨h4, h6, h7⟩
      exact ⟨h4, hle g h4 h6, by omega, by omega⟩
  have hval : ∀ g ∈ (binomialScheme lmin lmax c).keys, (binomialScheme lmin lmax c).val g =
      classicalCoeff (lmin.sum + c) lmin.length g := by
    intro g hg
    have := (hmem g).1 hg
    rw [h3 g hg]
    unfold classicalCoeff levelSum
    rw [show ((lmin.sum : ℤ) + c - g.sum).toNat = lmin.sum + c - g.sum by omega]
  refine ⟨_, hup, h1, hmem, ?_, ?_⟩
  · intro g hg
    have := (hmem g).1 hg
    refine ⟨hle g this.1 this.2.1, ?_⟩
    rw [hval g hg]
    unfold classicalCoeff levelSum
    have hch : 0 < (lmin.length - 1).choose (lmin.sum + c - g.sum) := Nat.choose_pos (by omega)
    refine mul_ne_zero (pow_ne_zero _ (by decide)) (by omega)
  · rintro k ⟨a, ha, hs, hk⟩
    have hcore := classical_core (product (levelRanges lmin lmax))
      (nodup_product _ (nodup_levelRanges lmin lmax)) lmin c hne (by
        intro l hl hls
        rw [mem_levelRanges lmin lmax l hlen]
        exact ⟨hl, hle l hl hls⟩) k a ha (by omega) hk
    rw [← hcore, Dict.above]
    rw [List.map_congr_left (g := classicalCoeff (lmin.sum + c) lmin.length)
      fun g hg => hval g (List.mem_filter.1 hg).1]
    have hperm : (binomialScheme lmin lmax c).keys.Perm
        (classicalSpaces (lmin.sum + c) lmin.length lmin (product (levelRanges lmin lmax))) := by
      rw [classicalSpaces_eq_filter, List.perm_ext_iff_of_nodup h1
        ((nodup_product _ (nodup_levelRanges lmin lmax)).filter _)]
      intro g
      rw [hmem, List.mem_filter, mem_levelRanges lmin lmax g hlen, Bool.and_eq_true, leVec_iff,
        decide_eq_true_eq]
      constructor
      · rintro ⟨h4, h5, h6⟩
        exact ⟨⟨h4, hle g h4 h5⟩, h4, h5, h6⟩
      · rintro ⟨_, h4, h5, h6⟩
        exact ⟨h4, h5, h6⟩
    refine ((hperm.filter fun l => decide (VecLe k l)).map _).sum_eq.trans ?_
    congr 2
    apply List.filter_congr
    intro l _
    rw [Bool.eq_iff_iff, decide_eq_true_eq, leVec_iff]

example : ∃ d, updateDict 0 [1, 2] ([1, 2].map (· + 3)) [] = .ok d ∧
    d.keys.map (fun k => (k, d.val k)) =
      [([1, 5], 1), ([2, 4], 1), ([3, 3], 1), ([4, 2], 1), ([1, 4], -1), ([2, 3], -1), ([3, 2], -1)] :=
  ⟨_, rfl, by decide +kernel⟩

/-- Smaller differences, possibly not the same in all dimensions: the loop ends after at most
`lmax.sum + 2` rounds, whatever the order in which Python goes through the active set; every subspace of an
active grid is counted once, and the grids lie between `lmin` and `lmax` below an active grid. Active are the
grids whose level sum exceeds that of `lmin` by the largest difference `m` (and the diagonal index). Missing: a
large difference in the first dimension (`C83_not_uniform_violated`). -/
theorem C83_general_partial (lmin lmax : List ℕ) (hlen : lmin.length = lmax.length) (hne : lmin ≠ [])
    (m diag : ℤ) (hm1 : ∀ i (h : i < lmin.length), (lmax[i] : ℤ) - lmin[i] ≤ m)
    (hm2 : ∃ i, ∃ h : i < lmin.length, (lmax[i] : ℤ) - lmin[i] = m)
    (hfirst : (lmax.headD 0 : ℤ) - lmin.headD 0 < lmin.length)
    (hex : ∃ a, VecLe lmin a ∧ VecLe a lmax ∧ (a.sum : ℤ) = lmin.sum + m + diag)
    (active : List (List ℕ)) (hact : active.Perm (activeSet lmin lmax diag)) :
    ∃ d, (∀ fuel, lmax.sum + 2 ≤ fuel → updateDict fuel lmin lmax active = .ok d) ∧ d.keys.Nodup ∧
      (∀ g ∈ d.keys, VecLe lmin g ∧ d.val g ≠ 0 ∧
        ∃ a, VecLe g a ∧ VecLe a lmax ∧ (a.sum : ℤ) = lmin.sum + m + diag) ∧
      ∀ k, (∃ a, VecLe lmin a ∧ VecLe a lmax ∧ (a.sum : ℤ) = lmin.sum + m + diag ∧ VecLe k a) →
        d.above k = 1 := by
  have hmem := fun a => mem_activeSet lmin lmax hlen hne m diag hm1 hm2 a
  have hA : active.Nodup := hact.nodup_iff.2 (nodup_activeSet lmin lmax diag)
  have hAm : ∀ a, a ∈ active ↔ VecLe lmin a ∧ VecLe a lmax ∧ (a.sum : ℤ) = lmin.sum + m + diag :=
    fun a => by rw [hact.mem_iff, hmem]
  obtain ⟨U, inv, hU⟩ := init_inv active hA
  set scheme := active.foldl (fun d l => d.set l 1) Dict.empty with hsch
  have hUne : U ≠ [] := by
    obtain ⟨a, ha⟩ := hex
    have := (hU a).2 ⟨a, (hAm a).2 ha, VecLe.refl a⟩
    rintro rfl
    simp at this
  have hstart : ∀ k ∈ U, lmax.sum + 1 ≤ k.sum → (countSubspaces scheme).val k = 1 := by
    intro k hk hs
    obtain ⟨a, ha, hka⟩ := (hU k).1 hk
    have h1 := hka.sum_le
    have h2 := ((hAm a).1 ha).2.1.sum_le
    omega
  have hup : ∀ fuel, updateDict fuel lmin lmax active = correctLoop fuel (scheme, countSubspaces scheme) := by
    intro fuel
    cases lmin with
    | nil => exact absurd rfl hne
    | cons a l =>
      cases lmax with
      | nil => simp at hlen
      | cons b l' =>
        unfold updateDict
        simp only [List.headD_cons] at hfirst
        simp only
        rw [if_neg]
        simp only [Bool.and_eq_true, decide_eq_true_eq, not_and]
        intro _
        omega
  obtain ⟨d, hd, counts, hinv, h1⟩ := loop_ok hUne (lmax.sum + 2) (lmax.sum + 1) inv hstart (by omega)
  have hmono : ∀ (f : ℕ) (st : Dict × Dict) (d : Dict), correctLoop f st = .ok d →
      correctLoop (f + 1) st = .ok d := by
    intro f
    induction f with
    | zero => intro st d h; simp [correctLoop] at h
    | succ f ih =>
      intro st d h
      rw [correctLoop] at h ⊢
      by_cases hu : unfinished st.2 = true
      · rw [if_pos hu] at h ⊢
        cases hfold : st.2.keys.foldlM correct st with
        | none => rw [hfold] at h; simp at h
        | some st' =>
          rw [hfold] at h
          simp only at h ⊢
          exact ih st' d h
      · rw [if_neg hu] at h ⊢
        exact h
  have hall : ∀ fuel, lmax.sum + 2 ≤ fuel → correctLoop fuel (scheme, countSubspaces scheme) = .ok d := by
    intro fuel hf
    induction fuel, hf using Nat.le_induction with
    | base => exact hd
    | succ n _ ih => exact hmono n _ d ih
  refine ⟨d, fun fuel hf => by rw [hup, hall fuel hf], hinv.nodup, ?_, ?_⟩
  · intro g hg
    refine ⟨keys_above_lmin hinv h1 lmin ?_ g hg, hinv.nonzero g hg, ?_⟩
    · intro k hk
      obtain ⟨a, ha, hka⟩ := (hU k).1 hk
      exact ⟨a, (hU a).2 ⟨a, ha, VecLe.refl a⟩, hka, ((hAm a).1 ha).1⟩
    · obtain ⟨a, ha, hga⟩ := (hU g).1 (hinv.sub g hg)
      exact ⟨a, hga, ((hAm a).1 ha).2⟩
  · rintro k ⟨a, ha1, ha2, ha3, hka⟩
    have hk : k ∈ U := (hU k).2 ⟨a, (hAm a).2 ⟨ha1, ha2, ha3⟩, hka⟩
    have := hinv.count k hk
    rw [h1 k hk] at this
    exact this.symm

/-- With the default diagonal index there is an active grid if `lmin ≤ lmax`. -/
theorem C83_active (lmin lmax : List ℕ) (hle : VecLe lmin lmax) (m : ℤ)
    (hm2 : ∃ i, ∃ h : i < lmin.length, (lmax[i]'(by rw [← hle.length_eq]; exact h) : ℤ) - lmin[i] = m) :
    ∃ a, VecLe lmin a ∧ VecLe a lmax ∧ (a.sum : ℤ) = lmin.sum + m + 0 := by
  obtain ⟨i, hi, hm⟩ := hm2
  have hlen := hle.length_eq
  refine ⟨lmin.set i (lmax[i]'(by omega)), ?_, ?_, ?_⟩
  · unfold VecLe
    rw [List.forall₂_iff_get]
    refine ⟨by simp, fun j h1 h2 => ?_⟩
    simp only [List.get_eq_getElem, List.getElem_set]
    have := (List.forall₂_iff_get.1 hle).2 j h1 (by omega)
    simp only [List.get_eq_getElem] at this
    split_ifs with h
    · subst h; exact this
    · exact le_rfl
  · unfold VecLe
    rw [List.forall₂_iff_get]
    refine ⟨by simpa using hlen, fun j h1 h2 => ?_⟩
    simp only [List.get_eq_getElem, List.getElem_set]
    have := (List.forall₂_iff_get.1 hle).2 j (by omega) h2
    simp only [List.get_eq_getElem] at this
    split_ifs with h
    · subst h; exact le_rfl
    · exact this
  · have := sum_set lmin i hi (lmax[i]'(by omega))
    omega

example : VecLe [1, 1, 2] [3, 2, 2] ∧ ((3 : ℕ) : ℤ) - (1 : ℕ) = 2 := by decide

/-- The coefficients do not depend on the order of the active set. -/
theorem C83_order (lmin lmax : List ℕ) (hlen : lmin.length = lmax.length) (hne : lmin ≠ [])
    (m diag : ℤ) (hm1 : ∀ i (h : i < lmin.length), (lmax[i] : ℤ) - lmin[i] ≤ m)
    (hm2 : ∃ i, ∃ h : i < lmin.length, (lmax[i] : ℤ) - lmin[i] = m)
    (hfirst : (lmax.headD 0 : ℤ) - lmin.headD 0 < lmin.length)
    (hex : ∃ a, VecLe lmin a ∧ VecLe a lmax ∧ (a.sum : ℤ) = lmin.sum + m + diag)
    (active active' : List (List ℕ)) (hact : active.Perm (activeSet lmin lmax diag))
    (hact' : active'.Perm active) (fuel : ℕ) (hf : lmax.sum + 2 ≤ fuel) :
    ∃ d d', updateDict fuel lmin lmax active = .ok d ∧ updateDict fuel lmin lmax active' = .ok d' ∧
      d.keys.Perm d'.keys ∧ ∀ g ∈ d.keys, d.val g = d'.val g := by
  obtain ⟨d, h1, h2, h3, h4⟩ := C83_general_partial lmin lmax hlen hne m diag hm1 hm2 hfirst hex active hact
  obtain ⟨d', h1', h2', h3', h4'⟩ :=
    C83_general_partial lmin lmax hlen hne m diag hm1 hm2 hfirst hex active' (hact'.trans hact)
  have hmem := fun a => mem_activeSet lmin lmax hlen hne m diag hm1 hm2 a
  have key := coeff_unique h2 h2' ((activeSet lmin lmax diag).flatMap downSet) (by
      intro k hk
      obtain ⟨hk1, -, a, hka, ha, hs⟩ := h3 k hk
      exact List.mem_flatMap.2 ⟨a, (hmem a).2 ⟨hk1.trans hka, ha, hs⟩, (mem_downSet a k).2 hka⟩) (by
      intro k hk
      obtain ⟨hk1, -, a, hka, ha, hs⟩ := h3' k hk
      exact List.mem_flatMap.2 ⟨a, (hmem a).2 ⟨hk1.trans hka, ha, hs⟩, (mem_downSet a k).2 hka⟩) (by
      intro k hk
      obtain ⟨a, ha, hka⟩ := List.mem_flatMap.1 hk
      have ha' := (hmem a).1 ha
      have hka' := (mem_downSet a k).1 hka
      rw [h4 k ⟨a, ha'.1, ha'.2.1, ha'.2.2, hka'⟩, h4' k ⟨a, ha'.1, ha'.2.1, ha'.2.2, hka'⟩])
  have hin : ∀ g, g ∈ d.keys ↔ g ∈ d'.keys := by
    intro g
    have := key g
    unfold Dict.coeff at this
    constructor
    · intro h
      by_contra hc
      rw [if_pos h, if_neg hc] at this
      exact (h3 g h).2.1 this
    · intro h
      by_contra hc
      rw [if_neg hc, if_pos h] at this
      exact (h3' g h).2.1 this.symm
  refine ⟨d, d', h1 fuel hf, h1' fuel hf, (List.perm_ext_iff_of_nodup h2 h2').2 hin, ?_⟩
  intro g hg
  have := key g
  unfold Dict.coeff at this
  rwa [if_pos hg, if_pos ((hin g).1 hg)] at this

example : activeSet [1, 1, 1] [2, 3, 2] 0 = [[1, 2, 2], [1, 3, 1], [2, 1, 2], [2, 2, 1]] := by decide +kernel

/-- Different differences and a large one in the first dimension: the test for equal differences is always
true, and the binomial formula is used where it does not hold. Here the subspaces of all grids are counted
zero times instead of once. -/
theorem C83_not_uniform_violated (fuel n : ℕ) (hn : 2 ≤ n) (active : List (List ℕ)) :
    ∃ d, updateDict fuel [1, 1] [n + 1, 2] active = .ok d ∧ [n + 1, 1] ∈ d.keys ∧ d.above [1, 1] = 0 := by
  obtain ⟨h1, h2, h3⟩ := binomialScheme_spec [1, 1] [n + 1, 2] rfl n
  refine ⟨binomialScheme [1, 1] [n + 1, 2] n, ?_, ?_, ?_⟩
  · have e : ((n + 1 : ℕ) : ℤ) - (1 : ℕ) = n := by omega
    unfold updateDict
    simp only [e]
    rw [if_pos]
    simp
    omega
  · rw [h2]
    simp
    omega
  · have hperm : (binomialScheme [1, 1] [n + 1, 2] n).keys.Perm
        [[n + 1, 1], [n, 2], [n, 1], [n - 1, 2]] := by
      rw [List.perm_ext_iff_of_nodup h1 (by simp; omega)]
      intro g
      rw [h2]
      constructor
      · rintro ⟨h4, h5, h6, h7⟩
        match g, h4, h5 with
        | [x, y], h4, h5 =>
          simp only [List.forall₂_cons] at h4 h5
          simp at h6 h7
          simp
          omega
      · intro hg
        simp at hg
        rcases hg with rfl | rfl | rfl | rfl <;> simp <;> omega
    unfold Dict.above
    have hall : (binomialScheme [1, 1] [n + 1, 2] n).keys.filter (fun l => decide (VecLe [1, 1] l)) =
        (binomialScheme [1, 1] [n + 1, 2] n).keys := by
      rw [List.filter_eq_self]
      intro g hg
      simpa using ((h2 g).1 hg).1
    rw [hall, (hperm.map _).sum_eq]
    have hv := fun g hg => h3 g (hperm.mem_iff.2 hg)
    simp only [List.map_cons, List.map_nil, List.sum_cons, List.sum_nil]
    rw [hv [n + 1, 1] (by simp), hv [n, 2] (by simp), hv [n, 1] (by simp), hv [n - 1, 2] (by simp)]
    rw [show ((([1, 1] : List ℕ).sum : ℤ) + n - ([n + 1, 1] : List ℕ).sum).toNat = 0 by simp; omega,
      show ((([1, 1] : List ℕ).sum : ℤ) + n - ([n, 2] : List ℕ).sum).toNat = 0 by simp; omega,
      show ((([1, 1] : List ℕ).sum : ℤ) + n - ([n, 1] : List ℕ).sum).toNat = 1 by simp; omega,
      show ((([1, 1] : List ℕ).sum : ℤ) + n - ([n - 1, 2] : List ℕ).sum).toNat = 1 by simp; omega]
    decide

/-- Without active grids, for instance if `lmax` is smaller than `lmin` in some dimension, the loop never
ends. -/
theorem C83_no_grids_violated (lmin lmax : List ℕ) (hlen : lmin.length = lmax.length)
    (hsmall : ∃ i, ∃ h : i < lmin.length, lmax[i] < lmin[i])
    (hfirst : (lmax.headD 0 : ℤ) - lmin.headD 0 < lmin.length) (fuel : ℕ) (diag : ℤ) :
    activeSet lmin lmax diag = [] ∧ updateDict fuel lmin lmax [] = .stuck := by
  obtain ⟨i, hi, hlt⟩ := hsmall
  constructor
  · rw [List.eq_nil_iff_forall_not_mem]
    intro a ha
    unfold activeSet at ha
    simp only [List.mem_filter, Bool.and_eq_true, leVec_iff] at ha
    have h1 := (mem_downSet lmax a).1 ha.1
    have h2 := ha.2.2.trans h1
    have := (List.forall₂_iff_get.1 h2).2 i hi (by omega)
    simp only [List.get_eq_getElem] at this
    omega
  · cases lmin with
    | nil => simp at hi
    | cons a l =>
      cases lmax with
      | nil => simp at hlen
      | cons b l' =>
        unfold updateDict
        simp only [List.headD_cons] at hfirst
        simp only
        rw [if_neg]
        · simp only [List.foldl_nil]
          induction fuel with
          | zero => rfl
          | succ fuel ih => exact ih
        · simp only [Bool.and_eq_true, decide_eq_true_eq, not_and]
          intro _
          omega

example : ([2, 2] : List ℕ)[1] < ([1, 3] : List ℕ)[1] ∧ ((2 : ℕ) : ℤ) - (1 : ℕ) < 2 := by decide

/-! ### The groups -/

/-- Every grid goes to exactly one group, with its coefficient, and nothing else goes to a group. -/
theorem C83_assign (groups : ℕ) (hg : 0 < groups) (scheme : Dict) (hnd : scheme.keys.Nodup) :
    (∀ k ∈ scheme.keys, ∃ g < groups, k ∈ (assign groups scheme g).keys ∧
      (assign groups scheme g).val k = scheme.val k ∧
      ∀ g', k ∈ (assign groups scheme g').keys → g' = g) ∧
    ∀ g, (assign groups scheme g).keys.Nodup ∧ ∀ k ∈ (assign groups scheme g).keys, k ∈ scheme.keys := by
  have hord := nodup_order scheme hnd
  have hd := (deal groups scheme (order scheme) hord).1
  rw [assign_eq]
  have hmem : ∀ g k, k ∈ dealt groups g (order scheme) ↔
      ∃ i, (order scheme)[i]? = some k ∧ i % groups = g := by
    intro g k
    unfold dealt
    rw [List.mem_map]
    constructor
    · rintro ⟨⟨x, i⟩, hp, rfl⟩
      rw [List.mem_filter, List.mem_zipIdx_iff_getElem?, decide_eq_true_eq] at hp
      exact ⟨i, hp⟩
    · rintro ⟨i, h1, h2⟩
      refine ⟨(k, i), ?_, rfl⟩
      rw [List.mem_filter, List.mem_zipIdx_iff_getElem?, decide_eq_true_eq]
      exact ⟨h1, h2⟩
  constructor
  · intro k hk
    rw [← mem_order] at hk
    obtain ⟨i, hi⟩ := List.mem_iff_getElem?.1 hk
    have hin : k ∈ dealt groups (i % groups) (order scheme) := (hmem _ _).2 ⟨i, hi, rfl⟩
    refine ⟨i % groups, Nat.mod_lt _ hg, by rw [(hd _).1]; exact hin, (hd _).2 k hin, ?_⟩
    intro g' hk'
    rw [(hd g').1, hmem] at hk'
    obtain ⟨j, hj, hjg⟩ := hk'
    obtain ⟨hi1, hi2⟩ := List.getElem?_eq_some_iff.1 hi
    obtain ⟨hj1, hj2⟩ := List.getElem?_eq_some_iff.1 hj
    have := (hord.getElem_inj_iff (hi := hi1) (hj := hj1)).1 (hi2.trans hj2.symm)
    rw [← hjg, this]
  · intro g
    rw [(hd g).1]
    refine ⟨?_, ?_⟩
    · unfold dealt
      have h1 : ((order scheme).zipIdx.filter fun p => decide (p.2 % groups = g)).Sublist
        (order scheme).zipIdx := List.filter_sublist
      have h2 := h1.map Prod.fst
      rw [List.zipIdx_map_fst] at h2
      exact List.Nodup.sublist h2 hord
    · intro k hk
      obtain ⟨i, hi, -⟩ := (hmem _ _).1 hk
      exact (mem_order scheme k).1 (List.mem_of_getElem? hi)

/-- Of the grids of each level sum, no group gets two more than another group; nor of all grids together. -/
theorem C83_balanced (groups : ℕ) (scheme : Dict) (hnd : scheme.keys.Nodup) (g g' : ℕ) (hg : g < groups)
    (hg' : g' < groups) :
    (∀ size, ((assign groups scheme g).keys.filter fun k => decide (k.sum = size)).length ≤
      ((assign groups scheme g').keys.filter fun k => decide (k.sum = size)).length + 1) ∧
    (assign groups scheme g).keys.length ≤ (assign groups scheme g').keys.length + 1 := by
  have hpos : 0 < groups := by omega
  have hd := (deal groups scheme (order scheme) (nodup_order scheme hnd)).1
  rw [assign_eq, (hd g).1, (hd g').1]
  constructor
  · intro size
    obtain ⟨A, B, C, hABC, hA, hB, hC⟩ : ∃ A B C, order scheme = A ++ B ++ C ∧
        (∀ k ∈ A, decide (k.sum = size) = false) ∧ (∀ k ∈ B, decide (k.sum = size) = true) ∧
        ∀ k ∈ C, decide (k.sum = size) = false := by
      by_cases hs : size ∈ gridSizes scheme
      · obtain ⟨S, T, hST⟩ := List.append_of_mem hs
        have hn := nodup_gridSizes scheme
        rw [hST, List.nodup_append, List.nodup_cons] at hn
        refine ⟨S.flatMap fun size => scheme.keys.filter fun key => decide (key.sum = size),
          scheme.keys.filter fun key => decide (key.sum = size),
          T.flatMap fun size => scheme.keys.filter fun key => decide (key.sum = size), by
          unfold order
          rw [hST, List.flatMap_append, List.flatMap_cons, List.append_assoc], ?_, ?_, ?_⟩
        · intro k hk
          obtain ⟨n, hn1, hk⟩ := List.mem_flatMap.1 hk
          rw [List.mem_filter, decide_eq_true_eq] at hk
          rw [decide_eq_false_iff_not]
          intro e
          exact hn.2.2 n hn1 size List.mem_cons_self (hk.2.symm.trans e)
        · intro k hk
          exact (List.mem_filter.1 hk).2
        · intro k hk
          obtain ⟨n, hn1, hk⟩ := List.mem_flatMap.1 hk
          rw [List.mem_filter, decide_eq_true_eq] at hk
          rw [decide_eq_false_iff_not]
          intro e
          have : n = size := hk.2.symm.trans e
          exact hn.2.1.1 (this ▸ hn1)
      · refine ⟨order scheme, [], [], by simp, ?_, by simp, by simp⟩
        intro k hk
        rw [decide_eq_false_iff_not]
        intro e
        exact hs ((mem_gridSizes scheme size).2 ⟨k, (mem_order scheme k).1 hk, e⟩)
    rw [hABC, dealt_block groups g _ A B C hA hB hC, dealt_block groups g' _ A B C hA hB hC]
    exact residues groups hpos _ _ g g' hg hg'
  · have h1 := dealt_block groups g (fun _ => true) [] (order scheme) [] (by simp) (by simp) (by simp)
    have h2 := dealt_block groups g' (fun _ => true) [] (order scheme) [] (by simp) (by simp) (by simp)
    simp only [List.filter_true, List.nil_append, List.append_nil] at h1 h2
    rw [h1, h2]
    exact residues groups hpos _ _ g g' hg hg'

example : (binomialScheme [1, 1] [3, 3] 2).keys.Nodup ∧
    (assign 2 (binomialScheme [1, 1] [3, 3] 2) 0).keys = [[1, 3], [3, 1], [2, 1]] ∧
    (assign 2 (binomialScheme [1, 1] [3, 3] 2) 1).keys = [[2, 2], [1, 2]] := by decide +kernel

end Verif.SchemeGenerator

import Verif.Lemmas.FaultTolerance
import Verif.Props.Parameters
import Mathlib.Tactic.NormNum
import Mathlib.Algebra.Order.Field.Basic
import Mathlib.Tactic.Positivity

/-!
# Recovery from faults (C51, C52, C53)

`ZLe` is the componentwise order of vectors of the same length, `topSum lmin lmax` the sum of `lmin` and
the first nonzero entry of `lmax - lmin`.
-/

namespace Verif.Faults

/-! ## C52: the level sets -/

/-- **C52, enumeration.** `mindex` ends, and lists exactly the vectors in the cube up to the largest entry
of `level_max` whose sum is at most the one of `level_max`, each once. -/
theorem C52_mindex (dim : ℕ) (levelMax : List ℤ) (hl : levelMax.length = dim) :
    ∃ (l : List (List ℤ)) (N : ℕ), (∀ fuel, N ≤ fuel → mindex fuel dim levelMax = some l) ∧ l.Nodup ∧
      ∀ v, v ∈ l ↔ v.length = dim ∧ (∀ x ∈ v, 1 ≤ x ∧ ∃ y ∈ levelMax, x ≤ y) ∧
        v.sum ≤ levelMax.sum := by
  obtain ⟨l, N, h1, h2, h3⟩ := mindex_spec dim levelMax hl
  refine ⟨l, N, h1, h2, ?_⟩
  intro v
  rw [h3]
  have hmax : ∀ l : List ℤ, l ≠ [] → maxLevel l ∈ l := by
    intro l hne
    cases l with
    | nil => exact absurd rfl hne
    | cons a l =>
      simp only [maxLevel]
      clear h1 h2 h3 hl hne
      induction l generalizing a with
      | nil => simp
      | cons b l ih =>
        simp only [List.foldl_cons]
        have := ih (max a b)
        rcases List.mem_cons.mp this with h | h
        · rw [h]
          rcases max_cases a b with ⟨h', -⟩ | ⟨h', -⟩ <;> simp [h']
        · exact List.mem_cons_of_mem _ (List.mem_cons_of_mem _ h)
  constructor
  · rintro ⟨a1, a2, a3⟩
    refine ⟨a1, ?_, a3⟩
    intro x hx
    refine ⟨(a2 x hx).1, maxLevel levelMax, hmax _ ?_, (a2 x hx).2⟩
    rintro rfl
    simp only [List.length_nil] at hl
    subst hl
    rw [List.length_eq_zero_iff] at a1
    subst a1
    simp at hx
  · rintro ⟨a1, a2, a3⟩
    refine ⟨a1, ?_, a3⟩
    intro x hx
    obtain ⟨b1, y, b2, b3⟩ := a2 x hx
    exact ⟨b1, le_trans b3 (le_maxLevel b2)⟩

example : mindex 10 2 [2, 3] =
    some [[1, 1], [1, 2], [1, 3], [2, 1], [2, 2], [2, 3], [3, 1], [3, 2]] := by decide +kernel

/-- **C52, down set.** For every scheme with grids up to `lmax` and `lmin ≥ 1` (both are asserted by the
constructor of `CombiMinMaxScheme`, `CombiMinMaxScheme.hpp` l.28-40), the recovery down set consists of
exactly the levels between `lmin` and some grid with positive coefficient, each once. -/
theorem C52_downset (fuel : ℕ) (lmin lmax : List ℤ) (received : Dict) (all : List (List ℤ))
    (hmin : ∀ x ∈ lmin, 1 ≤ x) (hlen : lmin.length = lmax.length)
    (hmax : ∀ p ∈ received, 0 < p.2 → ZLe p.1 lmax)
    (hall : mindex fuel lmin.length lmax = some all) :
    ((setEntireDownset all lmin received).map Prod.fst).Nodup ∧
      ∀ v, v ∈ (setEntireDownset all lmin received).map Prod.fst ↔
        ZLe lmin v ∧ ∃ p ∈ received, 0 < p.2 ∧ ZLe v p.1 := by
  obtain ⟨h1, h2⟩ := setEntireDownset_spec all lmin received
  refine ⟨keys_nodup h1, ?_⟩
  intro v
  rw [h2, mem_of_mindex hlen.symm hall]
  constructor
  · exact fun h => h.2
  · rintro ⟨h3, p, h4, h5, h6⟩
    have h7 := h6.trans (hmax p h4 h5)
    refine ⟨⟨h3.length_eq.symm, ?_, h7.sum_le⟩, h3, p, h4, h5, h6⟩
    intro x hx
    exact ⟨h3.forall_ge hmin x hx, h7.forall_le (fun y hy => le_maxLevel hy) x hx⟩

/-- The values of the down set are the coefficients of the scheme, zero for other levels. -/
theorem C52_downset_values (all : List (List ℤ)) (lmin : List ℤ) (received : Dict) (v : List ℤ) (x : ℚ)
    (h : (v, x) ∈ setEntireDownset all lmin received) : x = (received.find v).getD 0 := by
  unfold setEntireDownset at h
  simp only at h
  revert h
  generalize ((received.filter fun p : List ℤ × ℚ => decide (0 < p.2)).flatMap fun p : List ℤ × ℚ =>
      all.filter fun v => testGreater p.1 v && testGreater v lmin) = l
  have key : ∀ (l : List (List ℤ)) (m : Dict), m.Sorted →
      (∀ v x, m.find v = some x → x = (received.find v).getD 0) → ∀ v x,
      (l.foldl (fun out v => insertNew out v ((received.find v).getD 0)) m).find v = some x →
        x = (received.find v).getD 0 := by
    intro l
    induction l with
    | nil => intro m _ h v x hx; exact h v x hx
    | cons a l ih =>
      intro m hm h v x hx
      refine ih (insertNew m a ((received.find a).getD 0)) (insertNew_sorted hm _ _) ?_ v x hx
      intro v x hx
      rw [find_insertNew] at hx
      split_ifs at hx with hc
      · simp only [Option.some.injEq] at hx
        rw [hc.1, hx]
      · exact h v x hx
  intro h
  have hsort := (foldl_insertNew_keys (fun v => (received.find v).getD 0) l ([] : Dict)
    (by simp [OMap.Sorted])).1
  exact key l [] (by simp [OMap.Sorted]) (by simp [OMap.find]) v x (OMap.find_of_mem hsort h)

/-- With `lmin = 0`, which the scheme does not allow, levels would be missing. -/
theorem C52_level_zero : ∃ (received : Dict) (all : List (List ℤ)),
    mindex 10 2 [1, 1] = some all ∧ received = [([0, 0], -1), ([0, 1], 1), ([1, 0], 1)] ∧
      setEntireDownset all [0, 0] received = [] :=
  ⟨_, [[1, 1]], by decide +kernel, rfl, by decide +kernel⟩

/-! ## C51: the new coefficients -/

/-- The coefficient that the code computes for a level of the down set. -/
def LP.levelCoeffs (lp : LP) (w : List ℚ) : List (List ℤ × ℚ) :=
  (lp.entire.map Prod.fst).zip (lp.allC w)

/-- **C51, weights.** For all weights the coefficients of the levels above a level of the down set sum up
to the weight of this level. -/
theorem C51_reproduces (fuel : ℕ) (lmin lmax : List ℤ) (given : Dict) (faults : List (List ℤ)) (lp : LP)
    (h : LP.create fuel lmin lmax given faults = .ok lp) (hlen : lmin.length = lmax.length)
    (hs : given.Sorted) (hb : ∀ p ∈ given, ZLe lmin p.1 ∧ ZLe p.1 lmax) (w : List ℚ)
    (hw : w.length = lp.entire.length) (k : List ℤ) (wk : ℚ)
    (hk : (k, wk) ∈ (lp.entire.map Prod.fst).zip w) :
    (((lp.levelCoeffs w).filter fun p => decide (ZLe k p.1)).map Prod.snd).sum = wk := by
  have hwf := create_wf h hlen hs hb
  have hkS : k ∈ lp.entire.map Prod.fst := (List.of_mem_zip hk).1
  have hsum := coefOf_sum_above hwf.convex (weightOf (lp.entire.map Prod.fst) w) hkS
  have hwt : weightOf (lp.entire.map Prod.fst) w k = wk := by
    obtain ⟨i, hi, hki⟩ := List.mem_iff_getElem.mp hk
    simp only [List.length_zip, List.length_map] at hi
    rw [List.getElem_zip] at hki
    simp only [Prod.mk.injEq] at hki
    obtain ⟨rfl, rfl⟩ := hki
    unfold weightOf
    rw [hwf.convex.nodup.idxOf_getElem]
    rw [List.getD_eq_getElem _ _ (by omega)]
  rw [hwt] at hsum
  rw [← hsum]
  unfold LP.levelCoeffs
  rw [allC_eq hwf]
  have hzip : ∀ S : List (List ℤ), S.zip (S.map (lp.coef w)) = S.map fun l => (l, lp.coef w l) := by
    intro S
    refine List.ext_getElem (by simp) ?_
    intro n h1 h2
    simp
  rw [hzip, List.filter_map, List.map_map, ← List.sum_toFinset _ (hwf.convex.nodup.filter _),
    List.toFinset_filter]
  refine Finset.sum_congr ?_ fun l _ => rfl
  ext l
  simp

/-- **C51, the dictionary.** The new dictionary has the grids of the old one, each with the coefficient of
its level. -/
theorem C51_dictionary (fuel : ℕ) (lmin lmax : List ℤ) (given : Dict) (faults : List (List ℤ)) (lp : LP)
    (h : LP.create fuel lmin lmax given faults = .ok lp) (hlen : lmin.length = lmax.length)
    (hs : given.Sorted) (hb : ∀ p ∈ given, ZLe lmin p.1 ∧ ZLe p.1 lmax) (w : List ℚ)
    (out : Dict) (rec : List (List ℤ)) (hr : lp.getResults w = .ok (out, rec)) :
    out.map Prod.fst = given.map Prod.fst ∧
      ∀ l x, (l, x) ∈ out → (dropIgnored lp.ign 0 l, x) ∈ lp.levelCoeffs w := by
  have hwf := create_wf h hlen hs hb
  have hg := (create_spec h).choose_spec.choose_spec.2.2.2.1
  obtain ⟨h1, h2, -⟩ := getResults_spec hwf w out rec hr
  rw [hg] at h1 h2
  constructor
  · rw [h2, List.map_map]
    simp [Function.comp_def]
  · intro l x hlx
    rw [h2] at hlx
    obtain ⟨l', hl', he⟩ := List.mem_map.mp hlx
    simp only [Prod.mk.injEq] at he
    obtain ⟨rfl, rfl⟩ := he
    unfold LP.levelCoeffs
    rw [allC_eq hwf, List.mem_iff_getElem]
    obtain ⟨i, hi, hli⟩ := List.mem_iff_getElem.mp (h1 l' hl')
    refine ⟨i, by simpa using hi, ?_⟩
    simp only [List.getElem_zip, List.getElem_map (lp.coef w), hli]

/-- **C51, failed grids.** If the constraints of the optimisation hold for the weights, then every failed
grid on the two highest diagonals has the coefficient zero. -/
theorem C51_failed_zero (fuel : ℕ) (lmin lmax : List ℤ) (given : Dict) (faults : List (List ℤ)) (lp : LP)
    (h : LP.create fuel lmin lmax given faults = .ok lp) (hlen : lmin.length = lmax.length)
    (hs : given.Sorted) (hb : ∀ p ∈ given, ZLe lmin p.1 ∧ ZLe p.1 lmax) (w : List ℚ)
    (hw : w.length = lp.entire.length) (rows : List (List ℚ))
    (hrows : lp.constraints lp.valid = .ok rows) (hz : ∀ r ∈ rows, dot r w = 0)
    (out : Dict) (rec : List (List ℤ)) (hr : lp.getResults w = .ok (out, rec))
    (f : List ℤ) (hf : f ∈ faults) (hfg : f ∈ given.map Prod.fst)
    (hdiag : f.sum = topSum lmin lmax ∨ f.sum = topSum lmin lmax - 1) :
    out.find f = some 0 := by
  have hwf := create_wf h hlen hs hb
  have hg := (create_spec h).choose_spec.choose_spec.2.2.2.1
  obtain ⟨h1, h2, -⟩ := getResults_spec hwf w out rec hr
  have hv := (mem_valid h hlen hs hb f hf hfg).mpr hdiag
  have h0 := (constraints_spec hwf _ _ hrows w hw hz _ hv).2
  rw [hg] at h2
  have hsort : out.Sorted := by
    rw [h2]
    unfold OMap.Sorted at hs ⊢
    rw [List.map_map, List.pairwise_map]
    exact hs
  refine OMap.find_of_mem hsort ?_
  rw [h2]
  refine List.mem_map.mpr ⟨f, hfg, ?_⟩
  rw [h0]

/-- **C51, consistency of the new dictionary.** If every level with a coefficient is a grid of the scheme,
then the coefficients of the grids above a level of the down set sum up to the weight of this level. -/
theorem C51_consistent (fuel : ℕ) (lmin lmax : List ℤ) (given : Dict) (faults : List (List ℤ)) (lp : LP)
    (h : LP.create fuel lmin lmax given faults = .ok lp) (hlen : lmin.length = lmax.length)
    (hs : given.Sorted) (hb : ∀ p ∈ given, ZLe lmin p.1 ∧ ZLe p.1 lmax) (w : List ℚ)
    (hw : w.length = lp.entire.length) (out : Dict) (rec : List (List ℤ))
    (hr : lp.getResults w = .ok (out, rec))
    (hall : ∀ p ∈ lp.levelCoeffs w, p.2 ≠ 0 → ∃ l ∈ given.map Prod.fst, dropIgnored lp.ign 0 l = p.1)
    (k : List ℤ) (wk : ℚ) (hk : (k, wk) ∈ (lp.entire.map Prod.fst).zip w) :
    ((out.filter fun p => decide (ZLe k (dropIgnored lp.ign 0 p.1))).map Prod.snd).sum = wk := by
  have hwf := create_wf h hlen hs hb
  have hg := (create_spec h).choose_spec.choose_spec.2.2.2.1
  obtain ⟨h1, h2, -⟩ := getResults_spec hwf w out rec hr
  rw [← C51_reproduces fuel lmin lmax given faults lp h hlen hs hb w hw k wk hk]
  have hzip : ∀ S : List (List ℤ), S.zip (S.map (lp.coef w)) = S.map fun l => (l, lp.coef w l) := by
    intro S
    refine List.ext_getElem (by simp) ?_
    intro n h1 h2
    simp
  unfold LP.levelCoeffs at hall ⊢
  rw [allC_eq hwf, hzip] at hall ⊢
  have hnd : ((given.map Prod.fst).map (dropIgnored lp.ign 0)).Nodup := by
    have := hwf.newGiven_pairwise
    rw [hwf.newGiven, hg] at this
    rw [List.map_map] at this ⊢
    exact this.imp fun h => ne_of_lt h
  have e1 : ∀ G : List (List ℤ), ((G.map fun l => (l, lp.coef w (dropIgnored lp.ign 0 l))).filter
      fun p => decide (ZLe k (dropIgnored lp.ign 0 p.1))).map Prod.snd =
      ((G.map (dropIgnored lp.ign 0)).filter fun l => decide (ZLe k l)).map (lp.coef w) := by
    intro G
    induction G with
    | nil => rfl
    | cons g G ih =>
      simp only [List.map_cons, List.filter_cons]
      split_ifs <;> simp [ih]
  have e2 : ∀ S : List (List ℤ), ((S.map fun l => (l, lp.coef w l)).filter
      fun p => decide (ZLe k p.1)).map Prod.snd =
      (S.filter fun l => decide (ZLe k l)).map (lp.coef w) := by
    intro S
    induction S with
    | nil => rfl
    | cons g S ih =>
      simp only [List.map_cons, List.filter_cons]
      split_ifs <;> simp [ih]
  rw [h2, hg, e1, e2]
  rw [← List.sum_toFinset _ (hnd.filter _)]
  refine Eq.trans ?_ (List.sum_toFinset (lp.coef w) (hwf.convex.nodup.filter fun l => decide (ZLe k l)))
  refine Finset.sum_subset ?_ ?_
  · intro l hl
    rw [List.mem_toFinset, List.mem_filter] at hl ⊢
    obtain ⟨hl1, hl2⟩ := hl
    obtain ⟨g, hg1, rfl⟩ := List.mem_map.mp hl1
    rw [hg] at h1
    exact ⟨h1 g hg1, hl2⟩
  · intro l hl hl'
    rw [List.mem_toFinset, List.mem_filter] at hl hl'
    by_contra hne
    obtain ⟨g, hg1, hg2⟩ := hall (l, lp.coef w l) (List.mem_map.mpr ⟨l, hl.1, rfl⟩) hne
    exact hl' ⟨List.mem_map.mpr ⟨g, hg1, hg2⟩, hl.2⟩

/-- For a set of levels with a gap the matrix of the code is not the inverse: the coefficients are 1
and 1, and those above the level `(1)` sum up to 2 instead of 1. The sets of `set_entire_downset_dict` have no gaps. -/
theorem C51_gap : ∃ (S : List (List ℤ)) (w : List ℚ), S = [[1], [3]] ∧ w = [1, 1] ∧
    ((List.range 2).map fun i => ((List.range 2).map fun j =>
      getInvM S.zipIdx i j * w.getD j 0).sum) = [1, 1] := by
  refine ⟨_, _, rfl, rfl, ?_⟩
  have h := @getInvM_spec [[1], [3]] (by decide) (by decide)
  have h00 := h 0 0 (by decide) (by decide)
  have h01 := h 0 1 (by decide) (by decide)
  have h10 := h 1 0 (by decide) (by decide)
  have h11 := h 1 1 (by decide) (by decide)
  simp only [show List.range 2 = [0, 1] from rfl, List.map_cons, List.map_nil, h00, h01, h10, h11]
  decide +kernel


/-! ## C53: the two sets of faults -/

lemma setDiff_eq_filter {as bs : List ℕ} (ha : as.Pairwise (· < ·)) (hb : bs.Pairwise (· < ·)) :
    setDiff as bs = as.filter fun x => decide (x ∉ bs) := by
  induction as, bs using setDiff.induct with
  | case1 bs => simp [setDiff]
  | case2 a as => simp [setDiff]
  | case3 a as b bs h ih =>
    rw [setDiff, if_pos h, ih (List.pairwise_cons.mp ha).2 hb]
    have : a ∉ b :: bs := by
      intro hm
      rcases List.mem_cons.mp hm with h1 | h1
      · omega
      · have := (List.pairwise_cons.mp hb).1 a h1
        omega
    rw [List.filter_cons, if_pos (by simpa using this)]
  | case4 a as b bs h h' ih =>
    rw [setDiff, if_neg h, if_pos h', ih ha (List.pairwise_cons.mp hb).2]
    refine List.filter_congr ?_
    intro x hx
    have hbx : b < x := by
      rcases List.mem_cons.mp hx with rfl | h1
      · exact h'
      · exact lt_trans h' ((List.pairwise_cons.mp ha).1 x h1)
    have : x ≠ b := by omega
    simp [this]
  | case5 a as b bs h h' ih =>
    have hab : a = b := by omega
    subst hab
    rw [setDiff, if_neg h, if_neg h', ih (List.pairwise_cons.mp ha).2 (List.pairwise_cons.mp hb).2,
      List.filter_cons, if_neg (by simp)]
    refine List.filter_congr ?_
    intro x hx
    have := (List.pairwise_cons.mp ha).1 x hx
    have : x ≠ a := by omega
    simp [this]

lemma sort_strict {l : List ℕ} (h : l.Nodup) : (l.insertionSort (· ≤ ·)).Pairwise (· < ·) := by
  have h1 := List.pairwise_insertionSort (· ≤ ·) l
  have h2 : (l.insertionSort (· ≤ ·)).Nodup := (List.perm_insertionSort _ l).nodup_iff.mpr h
  exact (h1.and h2).imp fun h => lt_of_le_of_ne h.1 h.2

lemma setLevelsCoeffsLoop_find {p : CombiParams ℚ} {t : List (ℕ × List ℤ × ℚ)}
    (hi : (t.map Prod.fst).Nodup) (hl : (t.map fun x => x.2.1).Nodup) :
    (∀ i l c, (i, l, c) ∈ t → (p.setLevelsCoeffsLoop t).levelsToIDs.find l = some i ∧
      (p.setLevelsCoeffsLoop t).coeffs.find i = some c ∧
      (p.setLevelsCoeffsLoop t).levels.find i = some l) ∧
    (∀ l, l ∉ t.map (fun x => x.2.1) →
      (p.setLevelsCoeffsLoop t).levelsToIDs.find l = p.levelsToIDs.find l) ∧
    (∀ i, i ∉ t.map Prod.fst →
      (p.setLevelsCoeffsLoop t).coeffs.find i = p.coeffs.find i ∧
      (p.setLevelsCoeffsLoop t).levels.find i = p.levels.find i) := by
  induction t generalizing p with
  | nil => exact ⟨by simp, fun _ _ => rfl, fun _ _ => ⟨rfl, rfl⟩⟩
  | cons x t ih =>
    obtain ⟨i, l, c⟩ := x
    rw [List.map_cons, List.nodup_cons] at hi hl
    obtain ⟨h1, h2, h3⟩ := ih (p := p.setLevelCoeff i l c) hi.2 hl.2
    simp only [CombiParams.setLevelsCoeffsLoop]
    refine ⟨?_, ?_, ?_⟩
    · intro i' l' c' hm
      rcases List.mem_cons.mp hm with he | hm
      · simp only [Prod.mk.injEq] at he
        obtain ⟨rfl, rfl, rfl⟩ := he
        refine ⟨?_, ?_, ?_⟩
        · rw [h2 _ hl.1]
          simp [CombiParams.setLevelCoeff, OMap.find_set]
        · rw [(h3 _ hi.1).1]
          simp [CombiParams.setLevelCoeff, OMap.find_set]
        · rw [(h3 _ hi.1).2]
          simp [CombiParams.setLevelCoeff, OMap.find_set]
      · exact h1 i' l' c' hm
    · intro l' hl'
      rw [List.map_cons, List.mem_cons, not_or] at hl'
      rw [h2 _ hl'.2]
      simp [CombiParams.setLevelCoeff, OMap.find_set, hl'.1]
    · intro i' hi'
      rw [List.map_cons, List.mem_cons, not_or] at hi'
      rw [(h3 _ hi'.2).1, (h3 _ hi'.2).2]
      simp [CombiParams.setLevelCoeff, OMap.find_set, hi'.1]

/-- What holds for the parameters of a manager: tasks are numbered from 0, the maps agree (C50), and all
grids are between `lmin` and `lmax`. -/
structure Params (p : CombiParams ℚ) : Prop where
  numbers : p.levels.map Prod.fst = List.range p.getNumLevels
  agree : p.Agree
  dict : p.combiDictionary.Sorted
  between : ∀ x ∈ p.combiDictionary, ZLe p.lmin x.1 ∧ ZLe x.1 p.lmax
  length : p.lmin.length = p.lmax.length

lemma Params.find {p : CombiParams ℚ} (h : Params p) {i : ℕ} (hi : i < p.getNumLevels) :
    p.levels.find i = some (p.getLevel i) := by
  have : i ∈ p.levels.map Prod.fst := by rw [h.numbers]; exact List.mem_range.mpr hi
  have := (OMap.find_isSome_iff _ _).mpr this
  unfold CombiParams.getLevel
  cases hf : p.levels.find i with
  | none => simp [hf] at this
  | some l => rfl

lemma Params.inj {p : CombiParams ℚ} (h : Params p) {i j : ℕ} (hi : i < p.getNumLevels)
    (hj : j < p.getNumLevels) (he : p.getLevel i = p.getLevel j) : i = j := by
  have h1 := (h.agree i _ (h.find hi)).2
  have h2 := (h.agree j _ (h.find hj)).2
  rw [he] at h1
  exact h1.symm.trans h2

lemma Params.mem_dict {p : CombiParams ℚ} (h : Params p) {i : ℕ} (hi : i < p.getNumLevels) :
    p.getLevel i ∈ p.combiDictionary.map Prod.fst := by
  have h1 := (h.agree i _ (h.find hi)).1
  unfold CombiParams.dictCoeff at h1
  exact (OMap.find_isSome_iff _ _).mp (by rw [h1]; rfl)

/-- **C53.** If some failed grid is on the two highest diagonals, then every failed grid is in exactly one
of the two sets, those of the first have the coefficient zero, those of the second another one. The solver
needs to be right; its feasible solutions are enough here. Partial: see `C53_violated`. -/
theorem C53_partition_partial (fuel : ℕ) (solve : Solver) (hsolve : Solves solve) (p : CombiParams ℚ)
    (hp : Params p) (faultsID : List ℕ) (hn : faultsID.Nodup) (hk : ∀ i ∈ faultsID, i < p.getNumLevels)
    (hd : ∃ i ∈ faultsID, (p.getLevel i).sum = topSum p.lmin p.lmax ∨
      (p.getLevel i).sum = topSum p.lmin p.lmax - 1)
    (r : Recomputed) (hr : recomputeOptimum fuel solve p faultsID = .ok r) :
    (r.redistribute ++ r.recompute).Perm faultsID ∧
      (∀ i ∈ r.redistribute, r.params.getCoeff i = 0) ∧
      (∀ i ∈ r.recompute, r.params.getCoeff i ≠ 0) ∧
      ∀ i ∈ faultsID, ((p.getLevel i).sum = topSum p.lmin p.lmax ∨
        (p.getLevel i).sum = topSum p.lmin p.lmax - 1) → i ∈ r.redistribute := by
  unfold recomputeOptimum at hr
  cases hc : LP.create fuel p.lmin p.lmax p.combiDictionary (faultsID.map p.getLevel) with
  | error => simp [hc, Outcome.bind] at hr
  | stuck => simp [hc, Outcome.bind] at hr
  | ok lp =>
    simp only [hc, Outcome.bind] at hr
    have hvalid : ∀ i ∈ faultsID, (dropIgnored lp.ign 0 (p.getLevel i) ∈ lp.valid ↔
        (p.getLevel i).sum = topSum p.lmin p.lmax ∨ (p.getLevel i).sum = topSum p.lmin p.lmax - 1) :=
      fun i hi => mem_valid hc hp.length hp.dict hp.between _ (List.mem_map_of_mem hi)
        (hp.mem_dict (hk i hi))
    have h0 : lp.numFaults ≠ 0 := by
      obtain ⟨i, hi, hs⟩ := hd
      have := (hvalid i hi).mpr hs
      intro h0
      unfold LP.numFaults at h0
      rw [List.length_eq_zero_iff] at h0
      rw [h0] at this
      simp at this
    rw [if_neg h0] at hr
    have hwf := create_wf hc hp.length hp.dict hp.between
    obtain ⟨all, n, -, -, hign, hg, -, -, hif, -, hrecomp⟩ := create_spec hc
    unfold applyResults at hr
    cases hrows : lp.constraints lp.valid with
    | error => simp [hrows, Outcome.bind] at hr
    | stuck => simp [hrows, Outcome.bind] at hr
    | ok rows =>
      simp only [hrows, Outcome.bind] at hr
      cases hw : solve rows lp.objective with
      | none => simp [hw] at hr
      | some w =>
        simp only [hw] at hr
        obtain ⟨hlen, -, hz⟩ := (hsolve _ _ _ hw).1
        have hlen' : w.length = lp.entire.length := by
          rw [hlen]
          unfold LP.objective
          exact List.length_map _
        cases hres : lp.getResults w with
        | error => simp [hres] at hr
        | stuck => simp [hres] at hr
        | ok res =>
          obtain ⟨out, rec⟩ := res
          simp only [hres] at hr
          split_ifs at hr with hsum
          obtain ⟨h1, h2, h3⟩ := getResults_spec hwf w out rec hres
          -- the parameters afterwards
          have hlev : ((List.range p.getNumLevels).map p.getLevel).Nodup := by
            refine List.Nodup.map_on ?_ List.nodup_range
            intro i hi j hj he
            exact hp.inj (List.mem_range.mp hi) (List.mem_range.mp hj) he
          set t : List (ℕ × List ℤ × ℚ) := (List.range p.getNumLevels).zip
            ((newCoeffs p out).1.zip (newCoeffs p out).2) with ht
          have hteq : t = (List.range p.getNumLevels).map fun i =>
              (i, p.getLevel i, (out.find (p.getLevel i)).getD 0) := by
            rw [ht]
            unfold newCoeffs
            refine List.ext_getElem (by simp) ?_
            intro m h1 h2
            simp
          cases hset : p.setLevelsCoeffs (List.range p.getNumLevels) (newCoeffs p out).1
            (newCoeffs p out).2 with
          | error => simp [hset] at hr
          | stuck => simp [hset] at hr
          | ok q =>
            simp only [hset, Outcome.ok.injEq] at hr
            have hq : q = p.setLevelsCoeffsLoop t := by
              unfold CombiParams.setLevelsCoeffs at hset
              split_ifs at hset
              simp only [Outcome.ok.injEq] at hset
              exact hset.symm
            have hloop := setLevelsCoeffsLoop_find (p := p) (t := t)
              (by rw [hteq, List.map_map]; simpa [Function.comp_def] using List.nodup_range)
              (by rw [hteq, List.map_map]; simpa [Function.comp_def] using hlev)
            have hfind : ∀ i < p.getNumLevels, q.levelsToIDs.find (p.getLevel i) = some i ∧
                q.getCoeff i = (out.find (p.getLevel i)).getD 0 := by
              intro i hi
              have := hloop.1 i (p.getLevel i) ((out.find (p.getLevel i)).getD 0) (by
                rw [hteq]
                exact List.mem_map.mpr ⟨i, List.mem_range.mpr hi, rfl⟩)
              rw [hq]
              refine ⟨this.1, ?_⟩
              unfold CombiParams.getCoeff
              rw [this.2.1]
            set P : ℕ → Bool := fun i => !(lp.valid.contains (dropIgnored lp.ign 0 (p.getLevel i))) &&
              decide ((out.find (p.getLevel i)).getD 0 ≠ 0) with hP
            have hrec : rec.map (fun l => (q.levelsToIDs.find l).getD 0) = faultsID.filter P := by
              rw [h3, mem_recompFaults ?_ (by rw [hif]; exact hrecomp), hif, List.filter_map, List.map_map]
              · conv_rhs => rw [← List.map_id (faultsID.filter P)]
                refine List.map_congr_left ?_
                intro i hi
                have hi' := hk i (List.mem_of_mem_filter hi)
                simp [(hfind i hi').1]
              · rw [hif]
                have hb : ∀ f ∈ faultsID.map p.getLevel, ZLe p.lmin f ∧ ZLe f p.lmax := by
                  intro f hf
                  obtain ⟨i, hi, rfl⟩ := List.mem_map.mp hf
                  obtain ⟨x, hx, he⟩ := List.mem_map.mp (hp.mem_dict (hk i hi))
                  rw [← he]
                  exact hp.between x hx
                intro f hf g hg'
                exact sameOn_of_between (fun j _ => by rw [hign]) (hb f hf).1 (hb f hf).2 (hb g hg').1
                  (hb g hg').2
            rw [hrec] at hr
            subst hr
            simp only
            rw [setDiff_eq_filter (sort_strict hn) (sort_strict (hn.filter _))]
            have hmem : ∀ i, i ∈ (faultsID.filter P).insertionSort (· ≤ ·) ↔ i ∈ faultsID ∧ P i := by
              intro i
              rw [List.mem_insertionSort, List.mem_filter]
            have hred : ∀ i, i ∈ (faultsID.insertionSort (· ≤ ·)).filter (fun x => decide
                (x ∉ (faultsID.filter P).insertionSort (· ≤ ·))) ↔ i ∈ faultsID ∧ ¬ P i := by
              intro i
              rw [List.mem_filter, List.mem_insertionSort]
              simp only [decide_eq_true_eq, hmem]
              tauto
            have hzero : ∀ i ∈ faultsID, dropIgnored lp.ign 0 (p.getLevel i) ∈ lp.valid →
                (out.find (p.getLevel i)).getD 0 = 0 := by
              intro i hi hv
              have := C51_failed_zero fuel p.lmin p.lmax p.combiDictionary _ lp hc hp.length hp.dict
                hp.between w hlen' rows hrows hz out rec hres (p.getLevel i) (List.mem_map_of_mem hi)
                (hp.mem_dict (hk i hi)) ((hvalid i hi).mp hv)
              rw [this]
              rfl
            refine ⟨?_, ?_, ?_, ?_⟩
            · rw [List.perm_ext_iff_of_nodup]
              · intro i
                rw [List.mem_append, hred, hmem]
                tauto
              · refine List.Nodup.append ?_ ?_ ?_
                · exact ((List.perm_insertionSort _ _).nodup_iff.mpr hn).filter _
                · exact (List.perm_insertionSort _ _).nodup_iff.mpr (hn.filter _)
                · intro i hi hi'
                  exact ((hred i).mp hi).2 ((hmem i).mp hi').2
              · exact hn
            · intro i hi
              obtain ⟨hi1, hi2⟩ := (hred i).mp hi
              rw [(hfind i (hk i hi1)).2]
              by_cases hv : dropIgnored lp.ign 0 (p.getLevel i) ∈ lp.valid
              · exact hzero i hi1 hv
              · by_contra hne
                apply hi2
                rw [hP]
                simp [hv, hne]
            · intro i hi
              obtain ⟨hi1, hi2⟩ := (hmem i).mp hi
              rw [(hfind i (hk i hi1)).2]
              rw [hP] at hi2
              simp only [Bool.and_eq_true, decide_eq_true_eq] at hi2
              exact hi2.2
            · intro i hi hs
              rw [hred]
              refine ⟨hi, ?_⟩
              have := (hvalid i hi).mpr hs
              rw [hP]
              simp [this]

/-! ### Examples -/

/-- The parameters for a scheme whose tasks are numbered in the order of the list. -/
def schemeParams (lmin lmax : List ℤ) (grids : List (List ℤ × ℚ)) : CombiParams ℚ :=
  CombiParams.setLevelsCoeffsLoop { (CombiParams.empty : CombiParams ℚ) with
    dim := lmin.length, lmin := lmin, lmax := lmax }
    ((List.range grids.length).zip grids)

/-- A two-dimensional fault tolerant scheme with `lmin = (1, 1)`, `lmax = (3, 3)`. -/
def exampleFT : CombiParams ℚ :=
  schemeParams [1, 1] [3, 3] [([1, 3], 1), ([2, 2], 1), ([3, 1], 1), ([1, 2], -1), ([2, 1], -1),
    ([1, 1], 0)]

/-- The same without the additional grid of `makeFaultTolerant`. -/
def exampleClassical : CombiParams ℚ :=
  schemeParams [1, 1] [3, 3] [([1, 3], 1), ([2, 2], 1), ([3, 1], 1), ([1, 2], -1), ([2, 1], -1)]

def exampleRows : List (List ℚ) := [[0, 0, 0, 0, 1, 0]]

def exampleObjective : List ℚ := [1 / 16, 1 / 64, 1 / 256, 1 / 64, 1 / 256, 1 / 256]

/-- A solver for the problem that results from the failure of the grid `(2, 2)`. -/
def exampleSolver : Solver := fun rows obj =>
  if rows = exampleRows ∧ obj = exampleObjective then some [1, 1, 1, 1, 0, 1] else none

lemma exampleSolver_solves : Solves exampleSolver := by
  intro rows obj w h
  unfold exampleSolver at h
  split_ifs at h with hc
  obtain ⟨rfl, rfl⟩ := hc
  simp only [Option.some.injEq] at h
  subst h
  refine ⟨⟨by decide, by decide +kernel, by decide +kernel⟩, ?_⟩
  rintro w' ⟨hlen, hb, hz⟩
  obtain ⟨a, b, c, d, e, f, rfl⟩ : ∃ a b c d e f, w' = [a, b, c, d, e, f] := by
    match w', hlen with
    | [a, b, c, d, e, f], _ => exact ⟨a, b, c, d, e, f, rfl⟩
  have he := hz _ (List.mem_cons_self)
  simp only [dot, List.zipWith_cons_cons, List.zipWith_nil_left, List.sum_cons, List.sum_nil] at he
  simp only [List.mem_cons, List.not_mem_nil, or_false, forall_eq_or_imp, forall_eq] at hb
  simp only [dot, exampleObjective, List.zipWith_cons_cons, List.zipWith_nil_left, List.sum_cons,
    List.sum_nil]
  linarith [hb.1.2, hb.2.1.2, hb.2.2.1.2, hb.2.2.2.1.2, hb.2.2.2.2.2.2]

/-- The failure of `(2, 2)`: the new coefficients are 1 for `(1, 3)` and `(3, 1)`, -1 for `(1, 1)`. -/
example : (match recomputeOptimum 100 exampleSolver exampleFT [1] with
    | .ok r => (r.redistribute, r.recompute, (List.range 6).map r.params.getCoeff)
    | _ => ([], [], [])) = ([1], [], [1, 0, 1, 0, 0, -1]) := by decide +kernel

lemma Params.of_forall {p : CombiParams ℚ} (h1 : p.levels.map Prod.fst = List.range p.getNumLevels)
    (h2 : ∀ x ∈ p.levels, p.dictCoeff x.2 = some (p.getCoeff x.1) ∧ (p.getID x.2).1 = x.1)
    (h3 : p.combiDictionary.Sorted)
    (h4 : ∀ x ∈ p.combiDictionary, ZLe p.lmin x.1 ∧ ZLe x.1 p.lmax)
    (h5 : p.lmin.length = p.lmax.length) : Params p :=
  ⟨h1, fun id l h => h2 (id, l) (OMap.mem_of_find h), h3, h4, h5⟩

lemma exampleFT_params : Params exampleFT :=
  Params.of_forall (by decide +kernel) (by decide +kernel) (by unfold OMap.Sorted; decide +kernel)
    (by decide +kernel) (by decide +kernel)

/-- The hypotheses of `C53_partition_partial` hold for the failure of `(2, 2)` and `(1, 1)`. -/
example : Solves exampleSolver ∧ Params exampleFT ∧ [1, 5].Nodup ∧
    (∀ i ∈ [1, 5], i < exampleFT.getNumLevels) ∧
    (∃ i ∈ [1, 5], (exampleFT.getLevel i).sum = topSum exampleFT.lmin exampleFT.lmax ∨
      (exampleFT.getLevel i).sum = topSum exampleFT.lmin exampleFT.lmax - 1) ∧
    ((match recomputeOptimum 100 exampleSolver exampleFT [5, 1] with
    | .ok r => (r.redistribute, r.recompute)
    | _ => ([], [])) = ([1], [5])) :=
  ⟨exampleSolver_solves, exampleFT_params, by decide, by decide +kernel, by decide +kernel,
    by decide +kernel⟩

/-- The hypotheses of the theorems for C51 hold for this case. -/
example : ∃ lp, LP.create 100 [1, 1] [3, 3] exampleFT.combiDictionary [[2, 2]] = .ok lp ∧
    exampleFT.combiDictionary.Sorted ∧
    (∀ p ∈ exampleFT.combiDictionary, ZLe [1, 1] p.1 ∧ ZLe p.1 [3, 3]) ∧
    [1, 1, 1, 1, 0, 1].length = lp.entire.length ∧ lp.constraints lp.valid = .ok exampleRows ∧
    (∀ r ∈ exampleRows, dot r [1, 1, 1, 1, 0, 1] = 0) ∧
    lp.levelCoeffs [1, 1, 1, 1, 0, 1] =
      [([1, 1], -1), ([1, 2], 0), ([1, 3], 1), ([2, 1], 0), ([2, 2], 0), ([3, 1], 1)] :=
  ⟨_, rfl, exampleFT_params.dict, exampleFT_params.between, by decide +kernel, by decide +kernel,
    by decide +kernel, by decide +kernel⟩

/-- **C51 violated without `makeFaultTolerant`.** The level `(1, 1)` needs the coefficient -1, but is not a
grid of the scheme. The coefficients sum up to 2, and the assertion of l.776 fails. -/
theorem C51_violated : ∃ (lp : LP) (out : Dict), LP.create 100 [1, 1] [3, 3]
      exampleClassical.combiDictionary [[2, 2]] = .ok lp ∧
    lp.getResults [1, 1, 1, 1, 0, 1] = .ok (out, []) ∧
    out = [([1, 2], 0), ([1, 3], 1), ([2, 1], 0), ([2, 2], 0), ([3, 1], 1)] ∧
    recomputeOptimum 100 exampleSolver exampleClassical [1] = .stuck := by
  refine ⟨_, _, rfl, rfl, by decide +kernel, ?_⟩
  have h : (match recomputeOptimum 100 exampleSolver exampleClassical [1] with
    | .stuck => true
    | _ => false) = true := by decide +kernel
  revert h
  cases recomputeOptimum 100 exampleSolver exampleClassical [1] <;> simp

/-- The three-dimensional scheme for `lmin = (1, 1, 1)`, `lmax = (3, 3, 3)`. -/
def example3 : CombiParams ℚ :=
  schemeParams [1, 1, 1] [3, 3, 3] [([1, 1, 3], 1), ([1, 2, 2], 1), ([1, 3, 1], 1), ([2, 1, 2], 1),
    ([2, 2, 1], 1), ([3, 1, 1], 1), ([1, 1, 2], -2), ([1, 2, 1], -2), ([2, 1, 1], -2), ([1, 1, 1], 1)]

/-- **C53 violated.** If only the grid `(1, 1, 1)` fails, which is on the third diagonal, nothing happens:
it is not recomputed, and its coefficient stays 1. -/
theorem C53_violated (solve : Solver) : recomputeOptimum 100 solve example3 [9] = .ok ⟨example3, [], []⟩ ∧
    example3.getLevel 9 = [1, 1, 1] ∧ example3.getCoeff 9 = 1 := by
  refine ⟨?_, by decide +kernel, by decide +kernel⟩
  have h : (match LP.create 100 example3.lmin example3.lmax example3.combiDictionary
      ([9].map example3.getLevel) with
    | .ok lp => lp.numFaults == 0
    | _ => false) = true := by decide +kernel
  unfold recomputeOptimum
  revert h
  cases LP.create 100 example3.lmin example3.lmax example3.combiDictionary
      ([9].map example3.getLevel) with
  | error => simp
  | stuck => simp
  | ok lp =>
    intro h
    simp only [beq_iff_eq] at h
    simp [Outcome.bind, h]

end Verif.Faults

import Verif.Lemmas.FixedDims
import Verif.Props.Adaptive

/-!
# Properties C03, C04, C05, C63, C64: classical combination scheme
-/

namespace Verif

/-! ### C05: the coefficient loop -/

theorem coeffLoop_some (n d : ℕ) (spaces : List (List ℕ)) (hlen : spaces.length < 256)
    (fuel i : ℕ) (acc out : List ℤ) (hi : i ≤ spaces.length)
    (h : coeffLoop n d spaces fuel i acc = some out) :
    out = acc ++ (spaces.drop i).map (classicalCoeff n d) := by
  induction fuel generalizing i acc with
  | zero =>
    unfold coeffLoop at h
    split at h
    · simp at h
    · have : i = spaces.length := by omega
      simp at h
      simp [this, h]
  | succ fuel ih =>
    unfold coeffLoop at h
    split at h
    · rename_i hi'
      simp only at h
      have hm : (i + 1) % 256 = i + 1 := Nat.mod_eq_of_lt (by omega)
      rw [hm] at h
      have := ih (i + 1) _ (by omega) h
      rw [this, List.drop_eq_getElem_cons hi', List.map_cons]
      simp [classicalCoeff]
    · have : i = spaces.length := by omega
      simp at h
      simp [this, h]

theorem coeffLoop_terminates (n d : ℕ) (spaces : List (List ℕ)) (hlen : spaces.length < 256)
    (fuel i : ℕ) (acc : List ℤ) (hi : i ≤ spaces.length) (hf : spaces.length ≤ i + fuel) :
    (coeffLoop n d spaces fuel i acc).isSome := by
  induction fuel generalizing i acc with
  | zero =>
    unfold coeffLoop
    rw [dif_neg (by omega)]
    rfl
  | succ fuel ih =>
    unfold coeffLoop
    split
    · rename_i hi'
      have hm : (i + 1) % 256 = i + 1 := Nat.mod_eq_of_lt (by omega)
      simp only [hm]
      exact ih (i + 1) _ (by omega) (by omega)
    · rfl

/-- C05 is violated: with 256 or more component grids, the loop over the coefficients never
terminates (its 8-bit counter wraps around). -/
theorem C05_coefficients_terminate_violated (n d : ℕ) (spaces : List (List ℕ))
    (hlen : 256 ≤ spaces.length) (fuel : ℕ) : coeffLoop n d spaces fuel 0 [] = none := by
  have key : ∀ fuel i acc, i < 256 → coeffLoop n d spaces fuel i acc = none := by
    intro fuel
    induction fuel with
    | zero =>
      intro i acc hi
      unfold coeffLoop
      rw [dif_pos (by omega)]
    | succ fuel ih =>
      intro i acc hi
      unfold coeffLoop
      rw [dif_pos (by omega)]
      exact ih _ _ (Nat.mod_lt _ (by omega))
  exact key fuel 0 [] (by omega)

example : 256 ≤ (List.replicate 256 [1, 1]).length := by rw [List.length_replicate]

/-- C05, the part that holds: with fewer than 256 grids the loop terminates and computes one
coefficient per grid. Missing for the full claim: 256 or more grids, where it is false, see
`C05_coefficients_terminate_violated`. -/
theorem C05_coefficients_terminate_partial (n d : ℕ) (spaces : List (List ℕ))
    (hlen : spaces.length < 256) :
    ∃ fuel out, coeffLoop n d spaces fuel 0 [] = some out ∧ out.length = spaces.length ∧
      ∀ i (h : i < spaces.length) (h' : i < out.length),
        out[i] = (-1) ^ (n - spaces[i].sum) * ((d - 1).choose (n - spaces[i].sum) : ℤ) := by
  have h := coeffLoop_terminates n d spaces hlen spaces.length 0 [] (by omega) (by omega)
  obtain ⟨out, hout⟩ := Option.isSome_iff_exists.1 h
  have := coeffLoop_some n d spaces hlen _ 0 [] out (by omega) hout
  simp at this
  subst this
  exact ⟨_, _, hout, by simp, fun i h h' => by simp [classicalCoeff, levelSum]⟩

example : [[1, 2], [2, 1], [1, 1]].length < 256 ∧
    coeffLoop 3 2 [[1, 2], [2, 1], [1, 1]] 3 0 [] = some [1, 1, -1] := by decide

/-! ### The grids of the classical scheme -/

/-- The smallest level difference over the dimensions that are not fixed. -/
theorem classicalC_eq (F G : List ℕ) (h : G.length = F.length) (hne : F ≠ []) :
    classicalC F.length F G = minElement (levelDiff F (toInt G)) := by
  have hl : (levelDiff F (toInt G)).length = F.length := by simp [levelDiff, h]
  have hpos : 0 < F.length := List.length_pos_of_ne_nil hne
  have hcv : levelDiff F (toInt G) ≠ [] := by
    intro hc
    rw [hc] at hl
    simp at hl
    omega
  unfold classicalC
  simp only
  split
  · rename_i hall
    simp only [List.all_eq_true, beq_iff_eq] at hall
    rw [hall _ (minElement_mem _ hcv)]
    rw [List.getD_eq_getElem _ _ (by omega)]
    exact hall _ (List.getElem_mem _)
  · rfl

/-- Everything about the result of `createClassicalCombischeme` when some dimension is not
fixed and the inserted values are right. `r` is the smallest level on the free dimensions. -/
theorem classical_result (lmin lmax : List ℕ) (h : ValidMinMax lmin lmax)
    (hok : InsertOk lmin lmax) (hfree : freeOf lmax lmin lmax ≠ []) (fuel : ℕ) (s : Scheme)
    (hs : createClassicalCombischeme fuel lmin lmax = some s) :
    ∃ m : ℕ, IsMinDiff (freeOf lmax lmin lmax) (toInt (freeOf lmax lmin lmin)) m ∧
      let F := freeOf lmax lmin lmax
      let r := F.map (· - m)
      let T := createTruncatedHierarchicalLevels F (toInt (freeOf lmax lmin lmin))
      s.effDim = F.length ∧ s.n = fixedSum lmax lmin + (r.sum + m) ∧
      s.combiSpaces = (classicalSpaces (r.sum + m) F.length r T).map (mergeDims lmax lmin) ∧
      s.coefficients = (classicalSpaces (r.sum + m) F.length r T).map
        (classicalCoeff (r.sum + m) F.length) ∧
      s.lmin = mergeDims lmax lmin r ∧
      s.levels = T.map (mergeDims lmax lmin) ∧
      (∀ t ∈ T, t.length = F.length) ∧
      T.Nodup ∧ (∀ l, VecLe r l → l.sum ≤ r.sum + m → l ∈ T) ∧
      (∀ t ∈ T, VecLe t F) ∧ VecLe (freeOf lmax lmin lmin) r := by
  have hlen := h.le.length_eq
  set F := freeOf lmax lmin lmax with hF
  set G := freeOf lmax lmin lmin with hG
  have hGF : G.length = F.length := length_freeOf lmax lmin lmin hlen hlen
  have hle : LminLeLmax (toInt G) F := by
    rw [LminLeLmax, toInt, List.forall₂_map_left_iff]
    have : VecLe G F := by
      rw [hG, hF]
      have := h.le
      clear * - this
      induction this with
      | nil => simp [freeOf]
      | cons h1 _ ih =>
        simp only [freeOf]
        split
        · exact ih
        · exact List.Forall₂.cons h1 ih
    exact this.imp fun _ _ h => by omega
  obtain ⟨hmd, hnn⟩ := isMinDiff_minElement F (toInt G) hle hfree
  set m := (minElement (levelDiff F (toInt G))).toNat with hm
  have hmz : minElement (levelDiff F (toInt G)) = (m : ℤ) := by omega
  refine ⟨m, hmd, ?_⟩
  simp only
  set r := F.map (· - m) with hr
  set T := createTruncatedHierarchicalLevels F (toInt G) with hT
  have hrl : r.length = F.length := by simp [hr]
  -- entries of `F` are at least `m + 1`
  have hFm : ∀ i (hi : i < F.length), m ≤ F[i] ∧ G[i]'(by omega) ≤ F[i] - m := by
    intro i hi
    have := hmd.1 i hi (by simp [toInt]; omega)
    simp [toInt] at this
    omega
  have hTmem : ∀ t, t ∈ T ↔ t.length = F.length ∧ (∀ x ∈ t, 1 ≤ x) ∧
      (List.zipWith (fun (ki li : ℕ) => ((ki : ℤ) - (li - m)).toNat) t F).sum ≤ m :=
    fun t => C02_truncated_mem F (toInt G) t m hle hmd
  have hGr : VecLe G r := by
    refine List.forall₂_iff_get.2 ⟨by omega, fun i h1 h2 => ?_⟩
    simp only [hr, List.get_eq_getElem, List.getElem_map]
    exact (hFm i (by omega)).2
  have hGpos : ∀ x ∈ G, 1 ≤ x := by
    rw [hG]
    have := h.pos
    have h2 := hlen
    clear * - this h2
    induction lmax generalizing lmin with
    | nil => simp [freeOf]
    | cons a lmax ih =>
      cases lmin with
      | nil => simp [freeOf]
      | cons b lmin =>
        have ih := ih lmin (fun x hx => this x (by simp [hx])) (by simpa using h2)
        simp only [freeOf]
        split
        · exact ih
        · simp only [List.mem_cons]
          rintro x (rfl | hx)
          · exact this _ (by simp)
          · exact ih x hx
  have hzr : ∀ t : List ℕ, (List.zipWith (fun (ki li : ℕ) => ((ki : ℤ) - (li - m)).toNat) t F).sum =
      excess t (toInt r) := by
    intro t
    unfold excess toInt
    rw [hr, List.map_map, List.zipWith_map_right]
    congr 1
    apply List.ext_getElem
    · simp
    · intro i h1 h2
      simp at h1
      have := (hFm i (by omega)).1
      simp
      omega
  have hrsum : ((toInt r).sum : ℤ) = r.sum := by
    unfold toInt
    generalize r = q
    induction q with
    | nil => rfl
    | cons a q ih => simp
  have hTall : ∀ l, VecLe r l → l.sum ≤ r.sum + m → l ∈ T := by
    intro l h1 h2
    rw [hTmem, hzr]
    refine ⟨by rw [← h1.length_eq, hrl], ?_, ?_⟩
    · intro x hx
      obtain ⟨i, hi, rfl⟩ := List.mem_iff_getElem.1 hx
      have h3 := (List.forall₂_iff_get.1 (hGr.trans h1)).2 i
        (by have := (hGr.trans h1).length_eq; omega) hi
      have h4 := hGpos _ (List.getElem_mem (l := G) (n := i)
        (by have := (hGr.trans h1).length_eq; omega))
      simp only [List.get_eq_getElem] at h3
      omega
    · have := excess_le_of_below l l (toInt r) (VecLe.refl l) (by
        rw [toInt, List.forall₂_map_left_iff]
        exact h1.imp fun _ _ h => by omega)
      omega
  have hTnd : T.Nodup := (C02_truncated_sorted F (toInt G)).imp fun h => ne_of_lt h
  have hTF : ∀ t ∈ T, VecLe t F := by
    intro t ht
    obtain ⟨h1, -, h3⟩ := (hTmem t).1 ht
    refine List.forall₂_iff_get.2 ⟨h1, fun i hi hi' => ?_⟩
    have hmem : ((t[i] : ℤ) - (F[i] - m)).toNat ∈
        List.zipWith (fun (ki li : ℕ) => ((ki : ℤ) - (li - m)).toNat) t F := by
      rw [List.mem_iff_getElem]
      exact ⟨i, by simp; omega, by simp⟩
    have := List.single_le_sum (by simp) _ hmem
    simp only [List.get_eq_getElem]
    omega
  have hTlen : ∀ t ∈ T, t.length = F.length := fun t ht => ((hTmem t).1 ht).1
  -- unfold the function
  unfold createClassicalCombischeme at hs
  simp only [removeDummies_eq lmin lmax hlen] at hs
  have hGne : G ≠ [] := by
    intro hc
    rw [hc] at hGF
    exact hfree (List.length_eq_zero_iff.1 hGF.symm)
  rw [← hF, ← hG, if_neg hGne, effDim_eq lmin lmax hlen, ← hF, classicalC_eq F G hGF hfree, hmz,
    ← hT, classicalLmin_eq _ _ _ hlen hok] at hs
  have hrm : freeOf lmax lmin (lmax.map fun a : ℕ => ((a : ℤ) - m).toNat) = r := by
    rw [freeOf_map, ← hF, hr]
    apply List.map_congr_left
    intro x _
    omega
  rw [hrm, Int.toNat_natCast] at hs
  have hmap : T.map (insertDummies (fixedPos lmax lmin) lmax) = T.map (mergeDims lmax lmin) :=
    List.map_congr_left fun t ht => insertDummies_eq lmin lmax t hlen hok (hTlen t ht)
  rw [hmap] at hs
  have hsm : levelSum (mergeDims lmax lmin r) = fixedSum lmax lmin + r.sum :=
    sum_merge lmax lmin r hlen hrl
  have hsp : classicalSpaces (levelSum (mergeDims lmax lmin r) + m) F.length
      (mergeDims lmax lmin r) (T.map (mergeDims lmax lmin)) =
      (classicalSpaces (r.sum + m) F.length r T).map (mergeDims lmax lmin) := by
    rw [classicalSpaces_eq_filter, classicalSpaces_eq_filter, List.filter_map]
    congr 1
    apply List.filter_congr
    intro t ht
    simp only [Function.comp_apply]
    rw [Bool.eq_iff_iff, Bool.and_eq_true, Bool.and_eq_true, leVec_iff, leVec_iff,
      merge_le_merge lmax lmin r t hlen hrl (hTlen t ht), sum_merge lmax lmin t hlen (hTlen t ht),
      hsm, decide_eq_true_eq, decide_eq_true_eq]
    have e1 : fixedSum lmax lmin + t.sum ≤ fixedSum lmax lmin + r.sum + m ↔ t.sum ≤ r.sum + m := by
      omega
    have e2 : fixedSum lmax lmin + r.sum + m < fixedSum lmax lmin + t.sum + F.length ↔
        r.sum + m < t.sum + F.length := by omega
    rw [e1, e2]
  rw [hsp, Option.map_eq_some_iff] at hs
  obtain ⟨co, hco, rfl⟩ := hs
  have hlt : ((classicalSpaces (r.sum + m) F.length r T).map (mergeDims lmax lmin)).length < 256 := by
    by_contra hc
    rw [C05_coefficients_terminate_violated _ _ _ (by omega)] at hco
    simp at hco
  have hco := coeffLoop_some _ _ _ hlt _ 0 [] co (by omega) hco
  refine ⟨rfl, by simp only [hsm]; omega, rfl, ?_, rfl, rfl, hTlen, hTnd,
    hTall, hTF, hGr⟩
  simp only
  rw [hco, List.nil_append, List.drop_zero, List.map_map]
  apply List.map_congr_left
  intro t ht
  have htT : t ∈ T := by
    rw [classicalSpaces_eq_filter] at ht
    exact (List.mem_filter.1 ht).1
  have hst := sum_merge lmax lmin t hlen (hTlen t htT)
  have e3 : levelSum (mergeDims lmax lmin r) + m - (mergeDims lmax lmin t).sum =
      r.sum + m - t.sum := by omega
  simp only [Function.comp_apply, classicalCoeff, levelSum] at e3 ⊢
  rw [e3]

/-- without free dimensions there are no component grids in `combiSpaces_` (see C63) -/
theorem classical_no_free (lmin lmax : List ℕ) (h : ValidMinMax lmin lmax)
    (hfree : freeOf lmax lmin lmax = []) (fuel : ℕ) (s : Scheme)
    (hs : createClassicalCombischeme fuel lmin lmax = some s) : s.combiSpaces = [] := by
  have hlen := h.le.length_eq
  have hG : freeOf lmax lmin lmin = [] := by
    have := length_freeOf lmax lmin lmin hlen hlen
    rw [hfree] at this
    exact List.length_eq_zero_iff.1 this
  unfold createClassicalCombischeme at hs
  simp only [removeDummies_eq lmin lmax hlen, hG, if_true, Option.some.injEq] at hs
  rw [← hs]
  rfl

theorem sum_zip_map (L : List (List ℕ)) (φ : List ℕ → List ℕ) (f : List ℕ → ℤ) (k : List ℕ) :
    coeffSumAbove (L.map φ) (L.map f) k =
      ((L.filter fun l => decide (VecLe k (φ l))).map f).sum := by
  unfold coeffSumAbove
  congr 1
  induction L with
  | nil => simp
  | cons l L ih =>
    rw [List.map_cons, List.map_cons, List.zip_cons_cons]
    by_cases h : VecLe k (φ l)
    · rw [List.filter_cons_of_pos (by simpa using h), List.filter_cons_of_pos (by simpa using h),
        List.map_cons, List.map_cons, ih]
    · rw [List.filter_cons_of_neg (by simpa using h), List.filter_cons_of_neg (by simpa using h), ih]

/-- C03 for schemes with fixed dimensions, as far as the re-insertion of the fixed dimensions
is right: for every level contained in some component grid, the coefficients of the grids
containing it add up to 1. -/
theorem C03_classical_consistent_fixed (lmin lmax : List ℕ) (h : ValidMinMax lmin lmax)
    (hok : InsertOk lmin lmax) (fuel : ℕ) (s : Scheme)
    (hs : createClassicalCombischeme fuel lmin lmax = some s) (k g : List ℕ)
    (hg : g ∈ s.combiSpaces) (hk : VecLe k g) :
    coeffSumAbove s.combiSpaces s.coefficients k = 1 := by
  have hlen := h.le.length_eq
  by_cases hfree : freeOf lmax lmin lmax = []
  · rw [classical_no_free lmin lmax h hfree fuel s hs] at hg
    simp at hg
  obtain ⟨m, hmd, hd, hn, hsp, hco, hlm, hlev, hTlen, hTnd, hTall, hTF, hGr⟩ :=
    classical_result lmin lmax h hok hfree fuel s hs
  set F := freeOf lmax lmin lmax with hF
  set r := F.map (· - m) with hr
  set T := createTruncatedHierarchicalLevels F (toInt (freeOf lmax lmin lmin)) with hT
  have hrl : r.length = F.length := by simp [hr]
  rw [hsp, hco, sum_zip_map]
  rw [hsp] at hg
  obtain ⟨g0, hg0, rfl⟩ := List.mem_map.1 hg
  have hmemS : ∀ t, t ∈ classicalSpaces (r.sum + m) F.length r T ↔
      t ∈ T ∧ VecLe r t ∧ t.sum ≤ r.sum + m ∧ r.sum + m < t.sum + F.length := by
    intro t
    rw [classicalSpaces_eq_filter, List.mem_filter, Bool.and_eq_true, leVec_iff,
      decide_eq_true_eq]
  have hg0' := (hmemS g0).1 hg0
  have hgl := hTlen g0 hg0'.1
  have hkl : k.length = lmax.length := by
    rw [hk.length_eq, length_merge lmax lmin g0 hlen hgl]
  have hk2 := (le_merge_iff lmax lmin k g0 hlen hkl hgl).1 hk
  have := classical_core T hTnd r m (by
    intro hc
    rw [hc] at hrl
    exact hfree (List.length_eq_zero_iff.1 hrl.symm)) hTall (freeOf lmax lmin k) g0 hg0'.2.1
    hg0'.2.2.1 hk2.2
  rw [hrl] at this
  rw [← this]
  congr 2
  apply List.filter_congr
  intro t ht
  have htl := hTlen t ((hmemS t).1 ht).1
  rw [Bool.eq_iff_iff, decide_eq_true_eq, leVec_iff, le_merge_iff lmax lmin k t hlen hkl htl]
  exact ⟨fun h => h.2, fun h => ⟨hk2.1, h⟩⟩

/-- Without fixed dimensions nothing is re-inserted. -/
theorem insertOk_of_lt (lmin lmax : List ℕ) (h : List.Forall₂ (· < ·) lmin lmax) :
    InsertOk lmin lmax := by
  have : fixedPos lmax lmin = [] := by
    induction h with
    | nil => rfl
    | cons h1 _ ih =>
      rename_i a b _ _ _
      have : ¬ b = a := by omega
      simp [fixedPos, this, ih]
  intro i hi
  simp [this] at hi

/-- C03: for a classical scheme without fixed dimensions (whenever the coefficient loop
terminates, see C05), the coefficients of the grids containing a level add up to 1, for
every level contained in some component grid. -/
theorem C03_classical_consistent (lmin lmax : List ℕ) (hne : lmax ≠ []) (hpos : ∀ x ∈ lmin, 1 ≤ x)
    (hlt : List.Forall₂ (· < ·) lmin lmax) (fuel : ℕ) (s : Scheme)
    (hs : createClassicalCombischeme fuel lmin lmax = some s) (k g : List ℕ)
    (hg : g ∈ s.combiSpaces) (hk : VecLe k g) :
    coeffSumAbove s.combiSpaces s.coefficients k = 1 :=
  C03_classical_consistent_fixed lmin lmax
    ⟨hne, hpos, hlt.imp fun _ _ h => le_of_lt h⟩ (insertOk_of_lt lmin lmax hlt) fuel s hs k g hg hk

example : ∃ s, createClassicalCombischeme 10 [1, 2] [3, 5] = some s ∧
    [2, 3] ∈ s.combiSpaces ∧ List.Forall₂ (· < ·) [1, 2] [3, 5] := by
  refine ⟨_, rfl, by decide, by simp⟩

theorem freeOf_of_lt (lmin lmax x : List ℕ) (h : List.Forall₂ (· < ·) lmin lmax)
    (hx : x.length = lmax.length) : freeOf lmax lmin x = x := by
  induction h generalizing x with
  | nil => rw [List.length_eq_zero_iff.1 hx]; rfl
  | cons h1 _ ih =>
    rename_i a b _ _ _
    cases x with
    | nil => simp at hx
    | cons y x =>
      have : ¬ b = a := by omega
      simp only [freeOf, this, if_false, ih x (by simpa using hx)]

theorem mergeDims_of_lt (lmin lmax x : List ℕ) (h : List.Forall₂ (· < ·) lmin lmax)
    (hx : x.length = lmax.length) : mergeDims lmax lmin x = x := by
  induction h generalizing x with
  | nil => rw [List.length_eq_zero_iff.1 hx]; rfl
  | cons h1 _ ih =>
    rename_i a b _ _ _
    cases x with
    | nil => simp at hx
    | cons y x =>
      have : ¬ b = a := by omega
      simp only [mergeDims, this, if_false, ih x (by simpa using hx)]

/-- C03: which grids the classical scheme consists of (no fixed dimensions). With `m` the
smallest level difference: exactly the grids `g ≥ lmax - m` on the `d` diagonals
`|g| = |lmax - m| + m - p`, `p < d`. -/
theorem C03_classical_grids (lmin lmax : List ℕ) (hne : lmax ≠ []) (hpos : ∀ x ∈ lmin, 1 ≤ x)
    (hlt : List.Forall₂ (· < ·) lmin lmax) (m : ℕ) (hm : IsMinDiff lmax (toInt lmin) m)
    (fuel : ℕ) (s : Scheme)
    (hs : createClassicalCombischeme fuel lmin lmax = some s) (g : List ℕ) :
    g ∈ s.combiSpaces ↔
      VecLe (lmax.map (· - m)) g ∧
        ∃ p < lmax.length, g.sum + p = (lmax.map (· - m)).sum + m := by
  have hvalid : ValidMinMax lmin lmax := ⟨hne, hpos, hlt.imp fun _ _ h => le_of_lt h⟩
  have hlen := hlt.length_eq
  have hF : freeOf lmax lmin lmax = lmax := freeOf_of_lt lmin lmax lmax hlt rfl
  have hG : freeOf lmax lmin lmin = lmin := freeOf_of_lt lmin lmax lmin hlt hlen
  obtain ⟨m', hmd, hd, hn, hsp, hco, hlm, hlev, hTlen, hTnd, hTall, hTF, hGr⟩ :=
    classical_result lmin lmax hvalid (insertOk_of_lt lmin lmax hlt) (by rw [hF]; exact hne)
      fuel s hs
  rw [hF, hG] at *
  have := isMinDiff_unique hm hmd
  subst this
  rw [hsp, List.mem_map]
  have hmemS : ∀ t, t ∈ classicalSpaces ((lmax.map (· - m)).sum + m) lmax.length
      (lmax.map (· - m)) (createTruncatedHierarchicalLevels lmax (toInt lmin)) ↔
      t ∈ createTruncatedHierarchicalLevels lmax (toInt lmin) ∧ VecLe (lmax.map (· - m)) t ∧
        t.sum ≤ (lmax.map (· - m)).sum + m ∧
        (lmax.map (· - m)).sum + m < t.sum + lmax.length := by
    intro t
    rw [classicalSpaces_eq_filter, List.mem_filter, Bool.and_eq_true, leVec_iff,
      decide_eq_true_eq]
  constructor
  · rintro ⟨t, ht, rfl⟩
    rw [hmemS] at ht
    rw [mergeDims_of_lt lmin lmax t hlt (hTlen t ht.1)]
    exact ⟨ht.2.1, (lmax.map (· - m)).sum + m - t.sum, by omega, by omega⟩
  · rintro ⟨h1, p, hp, h2⟩
    refine ⟨g, ?_, mergeDims_of_lt lmin lmax g hlt (by rw [← h1.length_eq]; simp)⟩
    rw [hmemS]
    exact ⟨hTall g h1 (by omega), h1, by omega, by omega⟩

example : IsMinDiff [3, 5] (toInt [1, 2]) 2 :=
  ⟨fun i h1 h2 => by
    match i, h1 with
    | 0, _ => simp [toInt]
    | 1, _ => simp [toInt], 0, by simp, by simp [toInt], by simp [toInt]⟩

/-- All grids of a classical scheme lie on the diagonals `n - p`, `p < effDim` (this is the
hypothesis of `C07_extra_new_partial`). -/
theorem C03_classical_diagonals (lmin lmax : List ℕ) (h : ValidMinMax lmin lmax)
    (hok : InsertOk lmin lmax) (fuel : ℕ) (s : Scheme)
    (hs : createClassicalCombischeme fuel lmin lmax = some s) :
    ∀ l ∈ s.combiSpaces, s.n < levelSum l + s.effDim := by
  intro l hl
  have hlen := h.le.length_eq
  by_cases hfree : freeOf lmax lmin lmax = []
  · rw [classical_no_free lmin lmax h hfree fuel s hs] at hl
    simp at hl
  obtain ⟨m, hmd, hd, hn, hsp, hco, hlm, hlev, hTlen, hTnd, hTall, hTF, hGr⟩ :=
    classical_result lmin lmax h hok hfree fuel s hs
  rw [hsp] at hl
  obtain ⟨t, ht, rfl⟩ := List.mem_map.1 hl
  rw [classicalSpaces_eq_filter, List.mem_filter, Bool.and_eq_true, leVec_iff,
    decide_eq_true_eq] at ht
  rw [hn, hd, levelSum, sum_merge lmax lmin t hlen (hTlen t ht.1)]
  omega

/-! ### C04: fixed dimensions -/

/-- C04 is violated: for `lmin = (1,2)`, `lmax = (3,2)` (second dimension fixed at level 2)
the only component grid is `(3,3)`. -/
theorem C04_fixed_dims_violated :
    ∃ lmin lmax s, ValidMinMax lmin lmax ∧ createClassicalCombischeme 10 lmin lmax = some s ∧
      s.combiSpaces = [[3, 3]] ∧ lmin = [1, 2] ∧ lmax = [3, 2] :=
  ⟨[1, 2], [3, 2], _, ⟨by simp, by simp, by simp⟩, rfl, by decide, rfl, rfl⟩

/-- C04, the part that holds: if the values inserted by the code happen to be the right ones
(`InsertOk`; e.g. the fixed dimensions come first, `C04_insertOk_prefix`), every component grid
lies between `lmin` and `lmax`, so has level `lmax_i` in every fixed dimension. Missing for the
full claim: other patterns of fixed dimensions, where it is false, see
`C04_fixed_dims_violated`. -/
theorem C04_fixed_dims_partial (lmin lmax : List ℕ) (h : ValidMinMax lmin lmax)
    (hok : InsertOk lmin lmax) (fuel : ℕ) (s : Scheme)
    (hs : createClassicalCombischeme fuel lmin lmax = some s) :
    ∀ g ∈ s.combiSpaces, VecLe lmin g ∧ VecLe g lmax := by
  intro g hg
  have hlen := h.le.length_eq
  by_cases hfree : freeOf lmax lmin lmax = []
  · rw [classical_no_free lmin lmax h hfree fuel s hs] at hg
    simp at hg
  obtain ⟨m, hmd, hd, hn, hsp, hco, hlm, hlev, hTlen, hTnd, hTall, hTF, hGr⟩ :=
    classical_result lmin lmax h hok hfree fuel s hs
  rw [hsp] at hg
  obtain ⟨t, ht, rfl⟩ := List.mem_map.1 hg
  rw [classicalSpaces_eq_filter, List.mem_filter, Bool.and_eq_true, leVec_iff,
    decide_eq_true_eq] at ht
  have htl := hTlen t ht.1
  have hmax : mergeDims lmax lmin (freeOf lmax lmin lmax) = lmax := by
    clear * - hlen
    induction lmax generalizing lmin with
    | nil => rfl
    | cons a lmax ih =>
      cases lmin with
      | nil => simp at hlen
      | cons b lmin =>
        have := ih lmin (by simpa using hlen)
        by_cases hab : a = b <;> simp [mergeDims, freeOf, hab, this]
  constructor
  · rw [le_merge_iff lmax lmin lmin t hlen hlen htl]
    refine ⟨?_, hGr.trans ht.2.1⟩
    have := h.le
    clear * - this
    induction this with
    | nil => simp [mergeDims]
    | cons h1 _ ih =>
      rename_i a b _ _ _
      by_cases hab : b = a
      · simp only [mergeDims, freeOf, hab, if_true]
        exact List.Forall₂.cons (le_refl _) ih
      · simp only [mergeDims, freeOf, hab, if_false]
        exact List.Forall₂.cons (le_refl _) ih
  · have := (merge_le_merge lmax lmin t _ hlen htl rfl).2 (hTF t ht.1)
    rwa [hmax] at this

/-- the re-inserted values are right if the fixed dimensions come first -/
theorem C04_insertOk_prefix (pre lmin lmax : List ℕ) (h : List.Forall₂ (· < ·) lmin lmax) :
    InsertOk (pre ++ lmin) (pre ++ lmax) := by
  have hpos : fixedPos lmax lmin = [] := by
    induction h with
    | nil => rfl
    | cons h1 _ ih =>
      rename_i a b _ _ _
      have : ¬ b = a := by omega
      simp [fixedPos, this, ih]
  have hpre : fixedPos pre pre = List.range pre.length := by
    clear hpos
    induction pre with
    | nil => rfl
    | cons a pre ih => simp [fixedPos, ih, List.range_succ_eq_map]
  have : fixedPos (pre ++ lmax) (pre ++ lmin) = List.range pre.length := by
    rw [fixedPos_append _ _ _ _ rfl, hpos, hpre]
    simp
  intro i hi
  rw [this] at hi ⊢
  simp at hi
  simp [hi]

example : ValidMinMax [2, 1, 1] [2, 3, 3] ∧ InsertOk [2, 1, 1] [2, 3, 3] ∧
    ∃ s, createClassicalCombischeme 10 [2, 1, 1] [2, 3, 3] = some s ∧ [2, 2, 2] ∈ s.combiSpaces :=
  ⟨⟨by simp, by simp, by simp⟩, C04_insertOk_prefix [2] [1, 1] [3, 3] (by simp),
    _, rfl, by decide⟩

/-! ### C63: scheme without refinement -/

/-- C63 is violated: for `lmin = lmax` the scheme has one coefficient but no component grid. -/
theorem C63_single_grid_violated :
    ∃ lmin s, ValidMinMax lmin lmin ∧ createClassicalCombischeme 10 lmin lmin = some s ∧
      s.combiSpaces.length ≠ s.coefficients.length :=
  ⟨[2, 2], _, ⟨by simp, by simp, by simp⟩, rfl, by decide⟩

/-- C63, the part that holds: if some dimension is refined and the inserted values are right,
the scheme has as many coefficients as grids. Missing: the case without refinement, where it
is false. -/
theorem C63_one_coefficient_per_grid_partial (lmin lmax : List ℕ) (h : ValidMinMax lmin lmax)
    (hok : InsertOk lmin lmax) (hne : lmin ≠ lmax) (fuel : ℕ) (s : Scheme)
    (hs : createClassicalCombischeme fuel lmin lmax = some s) :
    s.combiSpaces.length = s.coefficients.length ∧ s.combiSpaces.Nodup := by
  have hlen := h.le.length_eq
  have hfree : freeOf lmax lmin lmax ≠ [] := by
    intro hc
    apply hne
    clear hs hok h hne
    induction lmax generalizing lmin with
    | nil => exact List.length_eq_zero_iff.1 hlen
    | cons a lmax ih =>
      cases lmin with
      | nil => simp at hlen
      | cons b lmin =>
        by_cases hab : a = b
        · simp only [freeOf, hab, if_true] at hc
          rw [ih lmin (by simpa using hlen) hc, hab]
        · simp [freeOf, hab] at hc
  obtain ⟨m, hmd, hd, hn, hsp, hco, hlm, hlev, hTlen, hTnd, hTall, hTF, hGr⟩ :=
    classical_result lmin lmax h hok hfree fuel s hs
  refine ⟨by rw [hsp, hco]; simp, ?_⟩
  rw [hsp, classicalSpaces_eq_filter]
  apply List.Nodup.map_on
  · intro x hx y hy hxy
    have hx := hTlen x (List.mem_filter.1 hx).1
    have hy := hTlen y (List.mem_filter.1 hy).1
    rw [← merge_free lmax lmin x hlen hx, hxy, merge_free lmax lmin y hlen hy]
  · exact hTnd.filter _

example : ValidMinMax [1, 2] [3, 5] ∧ InsertOk [1, 2] [3, 5] ∧ [1, 2] ≠ [3, 5] :=
  ⟨⟨by simp, by simp, by simp⟩, insertOk_of_lt _ _ (by simp), by simp⟩

/-! ### C64: the down set from the grids with coefficient 1 -/

theorem exists_maximal (S : List (List ℕ)) (g : List ℕ) (hg : g ∈ S) :
    ∃ m ∈ S, VecLe g m ∧ ∀ l ∈ S, VecLe m l → l = m := by
  -- take an element above `g` with the largest sum
  have hne : (S.filter fun l => leVec g l) ≠ [] := by
    intro hc
    have : g ∈ S.filter fun l => leVec g l := by
      rw [List.mem_filter, leVec_iff]; exact ⟨hg, VecLe.refl g⟩
    rw [hc] at this
    simp at this
  have key : ∀ L : List (List ℕ), L ≠ [] → ∃ m ∈ L, ∀ l ∈ L, l.sum ≤ m.sum := by
    intro L
    induction L with
    | nil => simp
    | cons a L ih =>
      intro _
      by_cases hL : L = []
      · subst hL
        exact ⟨a, by simp, by simp⟩
      · obtain ⟨m, hm, hmax⟩ := ih hL
        by_cases hc : m.sum ≤ a.sum
        · refine ⟨a, by simp, ?_⟩
          intro l hl
          rcases List.mem_cons.1 hl with rfl | hl
          · exact le_refl _
          · exact le_trans (hmax l hl) hc
        · refine ⟨m, by simp [hm], ?_⟩
          intro l hl
          rcases List.mem_cons.1 hl with rfl | hl
          · omega
          · exact hmax l hl
  obtain ⟨m, hm, hmax⟩ := key _ hne
  rw [List.mem_filter, leVec_iff] at hm
  refine ⟨m, hm.1, hm.2, fun l hl hml => ?_⟩
  have := hmax l (by rw [List.mem_filter, leVec_iff]; exact ⟨hl, hm.2.trans hml⟩)
  exact (hml.eq_of_sum this).symm

/-- C64: for adaptive schemes, collecting the subspaces of the grids with coefficient 1 only
(as `createDownSet` does) gives exactly the subspaces of all component grids. -/
theorem C64_createDownSet_complete (lmin lmax : List ℕ) (h : ValidMinMax lmin lmax) (k : List ℕ) :
    inCreateDownSet (createAdaptiveCombischeme lmin lmax) k ↔
      ∃ g ∈ (createAdaptiveCombischeme lmin lmax).combiSpaces,
        List.Forall₂ (fun ki gi => 1 ≤ ki ∧ ki ≤ gi) k g := by
  have hcoe := C06_adaptive_coefficients lmax.length _ (adaptiveSet_sorted lmin lmax)
    (adaptiveSet_ne_nil _ _ h) (adaptiveSet_pos _ _ h)
  have hspec : ∀ l, inclusionExclusion (adaptiveSet lmin lmax) l =
      adaptiveCoeff (adaptiveSet lmin lmax) l := fun l =>
    (adaptiveCoeff_eq_spec _ ((adaptiveSet_sorted lmin lmax).imp fun h => ne_of_lt h) l).symm
  set S := adaptiveSet lmin lmax with hS
  have hnd : S.Nodup := (adaptiveSet_sorted lmin lmax).imp fun h => ne_of_lt h
  unfold inCreateDownSet
  rw [(createAdaptive_spaces lmin lmax).1, (createAdaptive_spaces lmin lmax).2, ← hS, hcoe]
  constructor
  · rintro ⟨⟨l, c⟩, hl, -, hk⟩
    exact ⟨l, (List.of_mem_zip hl).1, ((C01_downSet l).1 k).1 hk⟩
  · rintro ⟨g, hg, hk⟩
    have hgS := (List.mem_filter.1 hg).1
    obtain ⟨m, hmS, hgm, hmax⟩ := exists_maximal S g hgS
    have hco : inclusionExclusion S m = 1 := by
      rw [hspec, adaptiveCoeff_eq_mu, list_sum_eq_finset S hnd, Finset.sum_eq_single m]
      · have : vecAdd m (List.replicate m.length 0) = m := by
          unfold vecAdd
          apply List.ext_getElem <;> simp
        have h2 := mu_vecAdd m (List.replicate m.length 0) (by simp) (by simp)
        rw [this] at h2
        simpa using h2
      · intro l hl hlm
        apply mu_eq_zero_of_not_le
        intro hc
        exact hlm (hmax l (List.mem_toFinset.1 hl) hc)
      · intro hc
        exact absurd (List.mem_toFinset.2 hmS) hc
    have hmF : m ∈ S.filter fun l => inclusionExclusion S l != 0 := by
      rw [List.mem_filter]
      exact ⟨hmS, by simp [hco]⟩
    refine ⟨(m, inclusionExclusion S m), ?_, hco, ?_⟩
    · simp only
      rw [List.zip_map_right]
      obtain ⟨i, hi, he⟩ := List.mem_iff_getElem.1 hmF
      rw [List.mem_iff_getElem]
      refine ⟨i, by simpa using hi, ?_⟩
      simp [he]
    · rw [(C01_downSet m).1]
      have h1 := List.forall₂_iff_get.1 hk
      have h2 := List.forall₂_iff_get.1 hgm
      refine List.forall₂_iff_get.2 ⟨by omega, fun i hi hi' => ⟨(h1.2 i hi (by omega)).1, ?_⟩⟩
      exact le_trans (h1.2 i hi (by omega)).2 (h2.2 i (by omega) hi')

example : ValidMinMax [1, 1] [3, 3] ∧
    [1, 2] ∈ (createAdaptiveCombischeme [1, 1] [3, 3]).combiSpaces :=
  ⟨⟨by simp, by simp, by simp⟩, by decide⟩

end Verif

import Verif.Model.SelalibPhi
import Verif.Props.Classical

/-!
# Property C121: the combined potential of a six-dimensional run
-/

namespace Verif.SelalibPhi

variable {K : Type}

/-- The grid `g` in six dimensions has the subspace `k` in the first three, in reversed order. -/
def HasSubspace (g k : List ℕ) : Prop :=
  ∃ a b c rest x y z, g = a :: b :: c :: rest ∧ k = [x, y, z] ∧
    (1 ≤ x ∧ x ≤ c) ∧ (1 ≤ y ∧ y ≤ b) ∧ (1 ≤ z ∧ z ≤ a)

theorem hasSubspace_iff {g gr : List ℕ} (h : reversedX g = some gr) (k : List ℕ) :
    HasSubspace g k ↔ k ∈ getDownSet gr := by
  rw [(C01_downSet gr).1]
  match g, h with
  | a :: b :: c :: rest, h =>
    cases h
    constructor
    · rintro ⟨a', b', c', rest', x, y, z, h1, rfl, hx, hy, hz⟩
      simp only [List.cons.injEq] at h1
      obtain ⟨rfl, rfl, rfl, rfl⟩ := h1
      exact .cons hx (.cons hy (.cons hz .nil))
    · intro h
      cases h with
      | cons hx h => cases h with
        | cons hy h => cases h with
          | cons hz h => cases h; exact ⟨a, b, c, rest, _, _, _, rfl, rfl, hx, hy, hz⟩

/-- The sum over the grids with the subspace, of coefficient times surplus. -/
noncomputable def surplusSum [Ring K] (u : ℕ → List ℕ → K) (k : List ℕ) :
    (i : ℕ) → (levels : List (List ℕ)) → (coeffs : List ℤ) → K
  | i, l :: ls, c :: cs =>
    open Classical in (if HasSubspace l k then (c : K) * u i k else 0) + surplusSum u k (i + 1) ls cs
  | _, _, _ => 0

theorem addGrids_eq [Ring K] (sparse : List (List ℕ)) (lmaxX : List ℕ) (u : ℕ → List ℕ → K)
    (i : ℕ) (ls : List (List ℕ)) (cs : List ℤ) (hlen : cs.length = ls.length)
    (h : ∀ l ∈ ls, ∃ g, reversedX l = some g ∧ VecLe g lmaxX ∧ ∀ k ∈ getDownSet g, k ∈ sparse)
    (acc : List ℕ → K) :
    ∃ r, addGrids sparse lmaxX u i ls cs acc = some r ∧
      ∀ k, r k = acc k + surplusSum u k i ls cs := by
  induction ls generalizing i cs acc with
  | nil => exact ⟨acc, by simp [addGrids], fun k => by simp [surplusSum]⟩
  | cons l ls ih =>
    match cs, hlen with
    | c :: cs, hlen =>
      obtain ⟨g, hg, hle, hsub⟩ := h l (by simp)
      obtain ⟨r, hr, hk⟩ := ih (i + 1) cs (by simpa using hlen) (fun l hl => h l (by simp [hl]))
        (addGrid sparse g (c : K) (u i) acc)
      refine ⟨r, ?_, fun k => ?_⟩
      · rw [addGrids, hg]
        simp only [Option.bind_eq_bind, Option.bind_some]
        rw [if_pos ((leVec_iff _ _).2 hle), hr]
      · rw [hk, surplusSum, addGrid]
        by_cases hd : k ∈ getDownSet g
        · rw [if_pos ⟨hd, hsub k hd⟩, if_pos ((hasSubspace_iff hg k).2 hd), add_assoc]
        · rw [if_neg (fun hh => hd hh.1), if_neg (fun hh => hd ((hasSubspace_iff hg k).1 hh)), zero_add]

/-- sums of vectors above others -/
theorem sum_le_of_vecLe {a b : List ℕ} (h : VecLe a b) : a.sum ≤ b.sum := by
  induction h with
  | nil => simp
  | cons h _ ih => simp only [List.sum_cons]; omega

theorem minDiff_lt {lmin lmax : List ℕ} (hlt : List.Forall₂ (· < ·) lmin lmax) {m : ℕ}
    (hm : IsMinDiff lmax (toInt lmin) m) : LminLeLmax (toInt lmin) lmax ∧ ∀ x ∈ lmax, m ≤ x := by
  refine ⟨?_, fun x hx => ?_⟩
  · rw [LminLeLmax, toInt, List.forall₂_map_left_iff]
    exact hlt.imp fun _ _ h => by omega
  · obtain ⟨i, hi, rfl⟩ := List.mem_iff_getElem.1 hx
    have := hm.1 i hi (by simpa [toInt, hlt.length_eq] using hi)
    simp only [toInt, List.getElem_map] at this
    omega

/-- the grids of the scheme have their subspaces in the sparse grid -/
theorem grids_ok {lmin lmax lminX lmaxX : List ℕ} (hne : lmax ≠ []) (hpos : ∀ x ∈ lmin, 1 ≤ x)
    (hlt : List.Forall₂ (· < ·) lmin lmax) (hX : reversedX lmax = some lmaxX)
    (hN : reversedX lmin = some lminX) (m : ℕ)
    (hm : IsMinDiff lmax (toInt lmin) m) (hmX : IsMinDiff lmaxX (toInt lminX) m)
    (fuel : ℕ) (s : Scheme) (hs : createClassicalCombischeme fuel lmin lmax = some s)
    (l : List ℕ) (hl : l ∈ s.combiSpaces) :
    ∃ g, reversedX l = some g ∧ VecLe g lmaxX ∧ ∀ k ∈ getDownSet g, k ∈ sparseLevels lminX lmaxX := by
  rw [C03_classical_grids lmin lmax hne hpos hlt m hm fuel s hs l] at hl
  obtain ⟨h1, p, -, h2⟩ := hl
  obtain ⟨-, hmle⟩ := minDiff_lt hlt hm
  match lmax, hX with
  | a :: b :: c :: rest, hX =>
    cases hX
    match lmin, hN with
    | a' :: b' :: c' :: rest', hN =>
      cases hN
      obtain ⟨hab, hlt⟩ := List.forall₂_cons.1 hlt
      obtain ⟨hbb, hlt⟩ := List.forall₂_cons.1 hlt
      obtain ⟨hcb, hlt⟩ := List.forall₂_cons.1 hlt
      simp only [List.map_cons] at h1 h2
      obtain ⟨g0, l1, ha, k1, rfl⟩ := List.forall₂_cons_left_iff.1 h1
      obtain ⟨g1, l2, hb, k2, rfl⟩ := List.forall₂_cons_left_iff.1 k1
      obtain ⟨g2, gr, hc, k3, rfl⟩ := List.forall₂_cons_left_iff.1 k2
      have hsum := sum_le_of_vecLe k3
      simp only [List.sum_cons] at h2
      have ma := hmle a (by simp)
      have mb := hmle b (by simp)
      have mc := hmle c (by simp)
      refine ⟨[g2, g1, g0], rfl,
        .cons (by omega) (.cons (by omega) (.cons (by omega) .nil)), fun k hk => ?_⟩
      have hL : LminLeLmax (toInt [c', b', a']) [c, b, a] :=
        .cons (by omega) (.cons (by omega) (.cons (by omega) .nil))
      rw [(C01_downSet _).1] at hk
      refine C02_truncated_down_closed _ _ _ k hL (by simp) ?_ hk
      rw [C02_truncated_mem _ _ _ m hL hmX]
      refine ⟨rfl, ?_, ?_⟩
      · have p0 := hpos a' (by simp)
        have p1 := hpos b' (by simp)
        have p2 := hpos c' (by simp)
        have q0 := hm.1 0 (by simp) (by simp [toInt])
        have q1 := hm.1 1 (by simp) (by simp [toInt])
        have q2 := hm.1 2 (by simp) (by simp [toInt])
        simp only [toInt, List.map_cons, List.getElem_cons_zero, List.getElem_cons_succ] at q0 q1 q2
        intro x hx
        simp only [List.mem_cons, List.not_mem_nil, or_false] at hx
        omega
      · simp only [List.zipWith_cons_cons, List.zipWith_nil_right, List.sum_cons, List.sum_nil]
        omega

theorem length_coefficients {lmin lmax : List ℕ} (hne : lmax ≠ []) (hpos : ∀ x ∈ lmin, 1 ≤ x)
    (hlt : List.Forall₂ (· < ·) lmin lmax) (fuel : ℕ) (s : Scheme)
    (hs : createClassicalCombischeme fuel lmin lmax = some s) :
    s.coefficients.length = s.combiSpaces.length := by
  have hF : freeOf lmax lmin lmax = lmax := freeOf_of_lt lmin lmax lmax hlt rfl
  obtain ⟨m, -, -, -, hsp, hco, -⟩ :=
    classical_result lmin lmax ⟨hne, hpos, hlt.imp fun _ _ h => le_of_lt h⟩ (insertOk_of_lt lmin lmax hlt)
      (by rw [hF]; exact hne) fuel s hs
  rw [hsp, hco]
  simp

theorem surplusSum_zero [Ring K] (u : ℕ → List ℕ → K) (k : List ℕ) (i : ℕ) (ls : List (List ℕ))
    (cs : List ℤ) (h : ∀ l ∈ ls, ¬ HasSubspace l k) : surplusSum u k i ls cs = 0 := by
  induction ls generalizing i cs with
  | nil => cases cs <;> rfl
  | cons l ls ih =>
    cases cs with
    | nil => rfl
    | cons c cs =>
      rw [surplusSum, if_neg (h l (by simp)), ih (i + 1) cs fun l hl => h l (by simp [hl]), zero_add]

theorem surplusSum_same [Ring K] (u : ℕ → List ℕ → K) (F : List ℕ → K) (k k6 : List ℕ) (i : ℕ)
    (ls : List (List ℕ)) (cs : List ℤ) (hk : ∀ l ∈ ls, HasSubspace l k ↔ VecLe k6 l)
    (hu : ∀ j l, ls[j]? = some l → HasSubspace l k → u (i + j) k = F k) :
    surplusSum u k i ls cs = (coeffSumAbove ls cs k6 : K) * F k := by
  induction ls generalizing i cs with
  | nil => cases cs <;> simp [surplusSum, coeffSumAbove]
  | cons l ls ih =>
    cases cs with
    | nil => simp [surplusSum, coeffSumAbove]
    | cons c cs =>
      rw [surplusSum, ih (i + 1) cs (fun l hl => hk l (by simp [hl])) fun j l hj hl => by
        rw [← hu (j + 1) l (by simpa using hj) hl]; congr 1; omega]
      unfold coeffSumAbove
      rw [List.zip_cons_cons]
      by_cases hd : HasSubspace l k
      · have h0 := hu 0 l rfl hd
        rw [Nat.add_zero] at h0
        rw [if_pos hd, h0, List.filter_cons_of_pos (by simpa using (hk l (by simp)).1 hd)]
        simp only [List.map_cons, List.sum_cons, Int.cast_add, add_mul]
      · rw [if_neg hd, zero_add, List.filter_cons_of_neg]
        simpa using fun h => hd ((hk l (by simp)).2 h)

/-- C121 (partial: the smallest difference of levels also occurs in one of the first three dimensions; the
loop over the coefficients ends, see C05). At every subspace of the finest grid, the combined potential has
the sum, over the component grids which have the subspace, of coefficient times surplus. -/
theorem C121_sum_partial [Ring K] (lmin lmax lminX lmaxX : List ℕ) (hdim : lmax.length / 2 = 3)
    (hpos : ∀ x ∈ lmin, 1 ≤ x)
    (hlt : List.Forall₂ (· < ·) lmin lmax) (hX : reversedX lmax = some lmaxX)
    (hN : reversedX lmin = some lminX) (m : ℕ)
    (hm : IsMinDiff lmax (toInt lmin) m) (hmX : IsMinDiff lmaxX (toInt lminX) m)
    (fuel : ℕ) (s : Scheme) (hs : createClassicalCombischeme fuel lmin lmax = some s)
    (u : ℕ → List ℕ → K) :
    ∃ r, combinePhi fuel lmin lmax u = some r ∧
      ∀ k, r k = surplusSum u k 0 s.combiSpaces s.coefficients := by
  have hne : lmax ≠ [] := by rintro rfl; simp at hdim
  have hok := grids_ok hne hpos hlt hX hN m hm hmX fuel s hs
  obtain ⟨acc, hacc, hk⟩ := addGrids_eq (sparseLevels lminX lmaxX) lmaxX u 0 s.combiSpaces
    s.coefficients (length_coefficients hne hpos hlt fuel s hs) hok fun _ => 0
  refine ⟨fun k => if k ∈ getDownSet lmaxX ∧ k ∈ sparseLevels lminX lmaxX then acc k else 0, ?_,
    fun k => ?_⟩
  · unfold combinePhi
    rw [if_pos ⟨hdim, hlt.length_eq⟩, hX, hN, hs]
    simp only [Option.bind_eq_bind, Option.bind_some, hacc]
    rfl
  · by_cases hd : k ∈ getDownSet lmaxX ∧ k ∈ sparseLevels lminX lmaxX
    · simp only [if_pos hd, hk, zero_add]
    · simp only [if_neg hd]
      refine (surplusSum_zero u k 0 _ _ fun l hl hh => hd ?_).symm
      obtain ⟨g, hg, hle, hsub⟩ := hok l hl
      have := (hasSubspace_iff hg k).1 hh
      refine ⟨?_, hsub k this⟩
      rw [(C01_downSet _).1] at this ⊢
      clear * - this hle
      induction this generalizing lmaxX with
      | nil => cases hle; exact .nil
      | cons h _ ih =>
        obtain ⟨_, l, h2, h3, rfl⟩ := List.forall₂_cons_left_iff.1 hle
        exact .cons ⟨h.1, h.2.trans h2⟩ (ih _ h3)

/-- C121 (partial: as before). If all component grids hold the same potential, the combined potential is this
one on all subspaces of the component grids, and has no others: the coefficients in six dimensions are right
in three dimensions. -/
theorem C121_consistent_partial [Ring K] (lmin lmax lminX lmaxX : List ℕ) (hdim : lmax.length / 2 = 3)
    (hpos : ∀ x ∈ lmin, 1 ≤ x)
    (hlt : List.Forall₂ (· < ·) lmin lmax) (hX : reversedX lmax = some lmaxX)
    (hN : reversedX lmin = some lminX) (m : ℕ)
    (hm : IsMinDiff lmax (toInt lmin) m) (hmX : IsMinDiff lmaxX (toInt lminX) m)
    (fuel : ℕ) (s : Scheme) (hs : createClassicalCombischeme fuel lmin lmax = some s)
    (u : ℕ → List ℕ → K) (F : List ℕ → K)
    (hu : ∀ i l k, s.combiSpaces[i]? = some l → HasSubspace l k → u i k = F k) :
    ∃ r, combinePhi fuel lmin lmax u = some r ∧
      (∀ k, (∃ l ∈ s.combiSpaces, HasSubspace l k) → r k = F k) ∧
      ∀ k, (∀ l ∈ s.combiSpaces, ¬ HasSubspace l k) → r k = 0 := by
  have hne : lmax ≠ [] := by rintro rfl; simp at hdim
  obtain ⟨r, hr, hk⟩ := C121_sum_partial lmin lmax lminX lmaxX hdim hpos hlt hX hN m hm hmX fuel s hs u
  refine ⟨r, hr, ?_, fun k h => by rw [hk, surplusSum_zero _ _ _ _ _ h]⟩
  rintro k ⟨l, hl, hkl⟩
  have hgr := fun g => C03_classical_grids lmin lmax hne hpos hlt m hm fuel s hs g
  obtain ⟨a, b, c, rest, x, y, z, rfl, rfl, hx, hy, hz⟩ := hkl
  have key : ∀ g ∈ s.combiSpaces, HasSubspace g [x, y, z] ↔
      VecLe (z :: y :: x :: (lmax.map (· - m)).drop 3) g := by
    intro g hg
    obtain ⟨h1, -⟩ := (hgr g).1 hg
    constructor
    · rintro ⟨a, b, c, rest, x', y', z', rfl, h, hx, hy, hz⟩
      simp only [List.cons.injEq, and_true] at h
      obtain ⟨rfl, rfl, rfl⟩ := h
      refine .cons hz.2 (.cons hy.2 (.cons hx.2 ?_))
      have := List.forall₂_drop 3 h1
      simpa using this
    · intro h
      obtain ⟨g0, l1, ha, k1, rfl⟩ := List.forall₂_cons_left_iff.1 h
      obtain ⟨g1, l2, hb, k2, rfl⟩ := List.forall₂_cons_left_iff.1 k1
      obtain ⟨g2, gr, hc, k3, rfl⟩ := List.forall₂_cons_left_iff.1 k2
      exact ⟨g0, g1, g2, gr, x, y, z, rfl, rfl, ⟨hx.1, hc⟩, ⟨hy.1, hb⟩, ⟨hz.1, ha⟩⟩
  rw [hk, surplusSum_same u F _ _ 0 _ _ key fun j l hj hl => by
    rw [Nat.zero_add]; exact hu j l _ hj hl]
  rw [C03_classical_consistent lmin lmax hne hpos hlt fuel s hs _ _ hl ((key _ hl).1
    ⟨a, b, c, rest, x, y, z, rfl, rfl, hx, hy, hz⟩)]
  simp

/-- the hypotheses hold for a scheme with seven grids -/
example : reversedX [2, 2, 2, 3, 3, 2] = some [2, 2, 2] ∧
    List.Forall₂ (· < ·) [1, 1, 1, 1, 1, 1] [2, 2, 2, 3, 3, 2] ∧
    IsMinDiff [2, 2, 2, 3, 3, 2] (toInt [1, 1, 1, 1, 1, 1]) 1 ∧
    IsMinDiff [2, 2, 2] (toInt [1, 1, 1]) 1 ∧
    (∃ s, createClassicalCombischeme 100 [1, 1, 1, 1, 1, 1] [2, 2, 2, 3, 3, 2] = some s ∧
      s.combiSpaces.length = 7) := by
  refine ⟨rfl, by simp, ⟨?_, 0, by simp, by simp [toInt], by simp [toInt]⟩,
    ⟨?_, 0, by simp, by simp [toInt], by simp [toInt]⟩, ?_⟩
  · intro i h1 h2
    match i, h1 with
    | 0, _ | 1, _ | 2, _ | 3, _ | 4, _ | 5, _ => simp [toInt]
  · intro i h1 h2
    match i, h1 with
    | 0, _ | 1, _ | 2, _ => simp [toInt]
  · have : (createClassicalCombischeme 100 [1, 1, 1, 1, 1, 1] [2, 2, 2, 3, 3, 2]).map
        (fun s => s.combiSpaces.length) = some 7 := by decide +kernel
    simpa using this

/-- C121 is violated if the differences of the levels are smaller in the velocities: the sparse grid in three
dimensions lacks subspaces of the component grids, and what they hold there is dropped. Here all grids hold
the same potential, and the combined one lacks the surplus of a subspace which all grids have. -/
theorem C121_dropped_violated :
    ∃ s, createClassicalCombischeme 100 [1, 1, 1, 1, 1, 1] [3, 3, 3, 2, 2, 2] = some s ∧
      s.combiSpaces ≠ [] ∧ (∀ l ∈ s.combiSpaces, HasSubspace l [2, 2, 2]) ∧
      ∃ r : List ℕ → ℚ, combinePhi 100 [1, 1, 1, 1, 1, 1] [3, 3, 3, 2, 2, 2] (fun _ _ => 1) = some r ∧
        r [2, 2, 2] = 0 ∧ r [1, 1, 1] = 1 := by
  have h1 : (createClassicalCombischeme 100 [1, 1, 1, 1, 1, 1] [3, 3, 3, 2, 2, 2]).map
      (fun s => (s.combiSpaces.isEmpty, s.combiSpaces.all fun l => decide (
        2 ≤ l.getD 0 0 ∧ 2 ≤ l.getD 1 0 ∧ 2 ≤ l.getD 2 0 ∧ 3 ≤ l.length))) =
      some (false, true) := by decide +kernel
  have h2 : (combinePhi 100 [1, 1, 1, 1, 1, 1] [3, 3, 3, 2, 2, 2] fun _ _ => (1 : ℚ)).map
      (fun r => (r [2, 2, 2], r [1, 1, 1])) = some (0, 1) := by decide +kernel
  obtain ⟨s, hs, hs2⟩ := Option.map_eq_some_iff.1 h1
  obtain ⟨r, hr, hr2⟩ := Option.map_eq_some_iff.1 h2
  simp only [Prod.mk.injEq, List.all_eq_true, decide_eq_true_eq] at hs2 hr2
  refine ⟨s, hs, ?_, fun l hl => ?_, r, hr, hr2⟩
  · intro h
    rw [h] at hs2
    simp at hs2
  · have := hs2.2 l hl
    match l, this with
    | a :: b :: c :: rest, this =>
      simp only [List.getD_cons_zero, List.getD_cons_succ] at this
      exact ⟨a, b, c, rest, 2, 2, 2, rfl, rfl, by omega, by omega, by omega⟩
    | [], h | [_], h | [_, _], h => simp at h

/-- C121 is violated if there is only one grid (the parameters in `ctparam_fullgrid`): the list of grids of
the classical scheme is empty, nothing is read, and the combined potential is zero. -/
theorem C121_one_grid_violated [Ring K] (a b c d e f : ℕ) (fuel : ℕ) (u : ℕ → List ℕ → K) :
    combinePhi fuel [a, b, c, d, e, f] [a, b, c, d, e, f] u = some fun _ => 0 := by
  have h : (removeDummies [a, b, c, d, e, f] [a, b, c, d, e, f]).2.1 = [] := by
    simp [removeDummies, removeDummyStep, List.range_succ]
  simp [combinePhi, reversedX, createClassicalCombischeme, h, Scheme.mk', addGrids]

end Verif.SelalibPhi

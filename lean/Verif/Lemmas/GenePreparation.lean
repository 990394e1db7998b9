import Verif.Model.GenePreparation
import Verif.Lemmas.SchemeGenerator
import Verif.Lemmas.Moebius
import Verif.Lemmas.Selalib
import Verif.Lemmas.SelalibGroups
import Mathlib.Tactic.Linarith

/-! Helper lemmas for the preparation of the GENE examples. -/

namespace Verif.GenePreparation

open SchemeGenerator Selalib

/-! ### The scheme -/

theorem correctLoop_mono {f f' : ℕ} (hf : f ≤ f') {st : Dict × Dict} {d : Dict} (h : correctLoop f st = .ok d) :
    correctLoop f' st = .ok d := by
  have hmono : ∀ (f : ℕ) (st : Dict × Dict), correctLoop f st = .ok d → correctLoop (f + 1) st = .ok d := by
    intro f
    induction f with
    | zero => intro st h; simp [correctLoop] at h
    | succ f ih =>
      intro st h
      rw [correctLoop] at h ⊢
      by_cases hu : unfinished st.2 = true
      · rw [if_pos hu] at h ⊢
        cases hfold : st.2.keys.foldlM correct st with
        | none => rw [hfold] at h; simp at h
        | some st' =>
          rw [hfold] at h
          simp only at h ⊢
          exact ih st' h
      · rw [if_neg hu] at h ⊢
        exact h
  induction f', hf using Nat.le_induction with
  | base => exact h
  | succ n _ ih => exact hmono n _ ih

/-- Everything about the scheme of an active set. -/
theorem updateDict_spec (active : List (List ℕ)) (hA : active.Nodup) (hne : active ≠ []) (N : ℕ)
    (hN : ∀ a ∈ active, a.sum ≤ N) :
    ∃ d, (∀ fuel, N + 2 ≤ fuel → updateDict fuel active = .ok d) ∧ d.keys.Nodup ∧
      (∀ g ∈ d.keys, d.val g ≠ 0 ∧ ∃ a ∈ active, VecLe g a) ∧
      (∀ k, (∃ a ∈ active, VecLe k a) → d.above k = 1) ∧
      ∀ lmin, (∀ a ∈ active, VecLe lmin a) → ∀ g ∈ d.keys, VecLe lmin g := by
  obtain ⟨U, inv, hU⟩ := init_inv active hA
  set scheme := active.foldl (fun d l => d.set l 1) Dict.empty with hsch
  have hUne : U ≠ [] := by
    obtain ⟨a, ha⟩ := List.exists_mem_of_ne_nil active hne
    have := (hU a).2 ⟨a, ha, VecLe.refl a⟩
    rintro rfl
    simp at this
  have hstart : ∀ k ∈ U, N + 1 ≤ k.sum → (countSubspaces scheme).val k = 1 := by
    intro k hk hs
    obtain ⟨a, ha, hka⟩ := (hU k).1 hk
    have h1 := hka.sum_le
    have h2 := hN a ha
    omega
  obtain ⟨d, hd, counts, hinv, h1⟩ := loop_ok hUne (N + 2) (N + 1) inv hstart (by omega)
  refine ⟨d, fun fuel hf => correctLoop_mono hf hd, hinv.nodup, ?_, ?_, ?_⟩
  · intro g hg
    exact ⟨hinv.nonzero g hg, (hU g).1 (hinv.sub g hg)⟩
  · intro k hk
    have hk := (hU k).2 hk
    have := hinv.count k hk
    rw [h1 k hk] at this
    exact this.symm
  · intro lmin hlmin g hg
    refine keys_above_lmin hinv h1 lmin ?_ g hg
    intro k hk
    obtain ⟨a, ha, hka⟩ := (hU k).1 hk
    exact ⟨a, (hU a).2 ⟨a, ha, VecLe.refl a⟩, hka, hlmin a ha⟩

/-- Two schemes with the same sums have the same coefficients. -/
theorem same_scheme {d d' : Dict} (h : d.keys.Nodup) (h' : d'.keys.Nodup) (P : List (List ℕ))
    (hk : ∀ g ∈ d.keys, d.val g ≠ 0 ∧ ∃ a ∈ P, VecLe g a) (hk' : ∀ g ∈ d'.keys, d'.val g ≠ 0 ∧ ∃ a ∈ P, VecLe g a)
    (ha : ∀ k, (∃ a ∈ P, VecLe k a) → d.above k = d'.above k) :
    d.keys.Perm d'.keys ∧ ∀ g ∈ d.keys, d.val g = d'.val g := by
  have key := coeff_unique h h' (P.flatMap downSet) (by
      intro k hkk
      obtain ⟨-, a, ha, hka⟩ := hk k hkk
      exact List.mem_flatMap.2 ⟨a, ha, (mem_downSet a k).2 hka⟩) (by
      intro k hkk
      obtain ⟨-, a, ha, hka⟩ := hk' k hkk
      exact List.mem_flatMap.2 ⟨a, ha, (mem_downSet a k).2 hka⟩) (by
      intro k hkk
      obtain ⟨a, ha', hka⟩ := List.mem_flatMap.1 hkk
      exact ha k ⟨a, ha', (mem_downSet a k).1 hka⟩)
  have hin : ∀ g, g ∈ d.keys ↔ g ∈ d'.keys := by
    intro g
    have := key g
    unfold Dict.coeff at this
    constructor
    · intro h
      by_contra hc
      rw [if_pos h, if_neg hc] at this
      exact (hk g h).1 this
    · intro h
      by_contra hc
      rw [if_neg hc, if_pos h] at this
      exact (hk' g h).1 this.symm
  refine ⟨(List.perm_ext_iff_of_nodup h h').2 hin, ?_⟩
  intro g hg
  have := key g
  unfold Dict.coeff at this
  rwa [if_pos hg, if_pos ((hin g).1 hg)] at this

/-! ### Grids far below the diagonal have coefficient zero -/

/-- `l + 1`, at most `lmax`. -/
def stepUp (l lmax : List ℕ) : List ℕ := List.zipWith (fun a b => min (a + 1) b) l lmax

/-- The number of dimensions in which `l` is not at `lmax`. -/
def room (l lmax : List ℕ) : ℕ := (List.zipWith (fun a b => if a < b then 1 else 0) l lmax).sum

theorem stepUp_le {l lmax : List ℕ} (h : VecLe l lmax) :
    VecLe l (stepUp l lmax) ∧ VecLe (stepUp l lmax) lmax ∧ (stepUp l lmax).sum = l.sum + room l lmax := by
  induction h with
  | nil => simp [stepUp, room]
  | @cons a b l m h1 _ ih =>
    obtain ⟨i1, i2, i3⟩ := ih
    refine ⟨.cons (by simp; omega) i1, .cons (by simp) i2, ?_⟩
    simp only [stepUp, room, List.zipWith_cons_cons, List.sum_cons] at i3 ⊢
    split_ifs with h
    · rw [min_eq_left (by omega)]; omega
    · rw [min_eq_right (by omega)]; omega

theorem sum_mu_step {l lmax : List ℕ} (h : VecLe l lmax) (hne : l ≠ lmax) :
    ((box l (stepUp l lmax)).map (mu l)).sum = 0 := by
  have key : ((box l (stepUp l lmax)).map (mu l)).sum = if l = lmax then 1 else 0 := by
    clear hne
    induction h with
    | nil => simp [stepUp, box, mu_nil]
    | @cons a b l m h1 h2 ih =>
      simp only [stepUp, List.zipWith_cons_cons, box, List.map_flatMap, List.map_map, Function.comp_def, mu_cons]
      have hs : ∀ i, ((box l (List.zipWith (fun a b => min (a + 1) b) l m)).map fun x => mu1 a i * mu l x).sum =
          mu1 a i * if l = m then 1 else 0 := by
        intro i
        rw [List.sum_map_mul_left]
        congr 1
      rw [List.flatMap_def, List.sum_flatten, List.map_map]
      simp only [Function.comp_def, hs]
      rw [List.sum_map_mul_right]
      have h1' : ((List.range' a (min (a + 1) b + 1 - a)).map fun i => mu1 a i).sum = if a = b then 1 else 0 := by
        by_cases hab : a = b
        · subst hab
          rw [min_eq_right (by omega), show a + 1 - a = 1 by omega]
          simp [mu1]
        · rw [min_eq_left (by omega), show a + 1 + 1 - a = 2 by omega, if_neg hab]
          simp [List.range'_succ, mu1]
      rw [h1']
      by_cases hab : a = b <;> by_cases hlm : l = m <;> simp [hab, hlm]
  rw [key, if_neg hne]

theorem mu_eq_zero_of_not_step {l m lmax : List ℕ} (h : VecLe l lmax) (hm : VecLe m lmax)
    (hn : ¬ VecLe m (stepUp l lmax)) : mu l m = 0 := by
  unfold mu
  rw [if_neg]
  rw [Bool.and_eq_true, leVec_iff, leVec_iff]
  rintro ⟨-, h2⟩
  apply hn
  clear hn
  induction h generalizing m with
  | nil => cases hm; simp [stepUp]
  | @cons a b l lm h1 _ ih =>
    cases hm with
    | cons h3 h4 =>
      cases h2 with
      | cons h5 h6 =>
        simp only at h5
        exact .cons (by simp; omega) (ih h4 h6)

/-- A level below `lmax` can be raised to any larger sum. -/
theorem exists_raise {g lmax : List ℕ} (h : VecLe g lmax) {N : ℕ} (h1 : g.sum ≤ N) (h2 : N ≤ lmax.sum) :
    ∃ a, VecLe g a ∧ VecLe a lmax ∧ a.sum = N := by
  induction h generalizing N with
  | nil => exact ⟨[], .nil, .nil, by simp at h1 h2 ⊢; omega⟩
  | @cons x y g m hxy hgm ih =>
    simp only [List.sum_cons] at h1 h2
    have hs := VecLe.sum_le hgm
    by_cases hc : N - x ≤ m.sum
    · obtain ⟨a, h3, h4, h5⟩ := ih (N := N - x) (by omega) hc
      exact ⟨x :: a, .cons le_rfl h3, .cons hxy h4, by simp; omega⟩
    · obtain ⟨a, h3, h4, h5⟩ := ih (N := m.sum) hs le_rfl
      exact ⟨(N - m.sum) :: a, .cons (by omega) h3, .cons (by omega) h4, by simp; omega⟩

/-- The scheme of the diagonal `N` below `lmax` has coefficient zero for all levels from which all neighbours
below `lmax` lie below the diagonal. -/
theorem coeff_far_zero {d : Dict} (hnd : d.keys.Nodup) (lmin lmax : List ℕ) (N : ℕ) (hNmax : N ≤ lmax.sum)
    (hk : ∀ g ∈ d.keys, ∃ a, VecLe lmin a ∧ VecLe a lmax ∧ a.sum = N ∧ VecLe g a)
    (hka : ∀ g ∈ d.keys, VecLe lmin g)
    (ha : ∀ k, (∃ a, VecLe lmin a ∧ VecLe a lmax ∧ a.sum = N ∧ VecLe k a) → d.above k = 1)
    (l : List ℕ) (hl1 : VecLe lmin l) (hl2 : VecLe l lmax) (hl : l ≠ lmax) (hs : l.sum + room l lmax ≤ N) :
    l ∉ d.keys ∨ d.val l = 0 := by
  -- the set of all grids
  set S := (box lmin lmax).filter fun g => decide (g.sum ≤ N) with hS
  have hSm : ∀ g, g ∈ S ↔ (VecLe lmin g ∧ VecLe g lmax) ∧ g.sum ≤ N := by
    intro g; rw [hS, List.mem_filter, mem_box, decide_eq_true_eq]
  have hSnd : S.Nodup := (nodup_box _ _).filter _
  have hSa : ∀ g, g ∈ S → ∃ a, VecLe lmin a ∧ VecLe a lmax ∧ a.sum = N ∧ VecLe g a := by
    intro g hg
    obtain ⟨⟨h1, h2⟩, h3⟩ := (hSm g).1 hg
    obtain ⟨a, h4, h5, h6⟩ := exists_raise h2 h3 hNmax
    exact ⟨a, h1.trans h4, h5, h6, h4⟩
  let d' : Dict := ⟨S, fun g => (S.map fun m => mu g m).sum⟩
  have key := coeff_unique hnd (d' := d') hSnd S (by
      intro g hg
      obtain ⟨a, h1, h2, h3, h4⟩ := hk g hg
      refine (hSm g).2 ⟨⟨hka g hg, h4.trans h2⟩, ?_⟩
      have := h4.sum_le
      omega) (fun g hg => hg) (by
      intro k hk'
      rw [ha k (hSa k hk')]
      have := sum_mu_consistent S lmin hSnd (fun l hl => ((hSm l).1 hl).1.1) (by
        intro l hl l' h1 h2
        obtain ⟨⟨h3, h4⟩, h5⟩ := (hSm l).1 hl
        have := h2.sum_le
        exact (hSm l').2 ⟨⟨h1, h2.trans h4⟩, by omega⟩) k k hk' (VecLe.refl k)
      rw [← this]
      unfold Dict.above
      congr 2
      apply List.filter_congr
      intro l _
      rw [Bool.eq_iff_iff, leVec_iff, decide_eq_true_eq]) l
  obtain ⟨u1, u2, u3⟩ := stepUp_le hl2
  have hlS : l ∈ S := (hSm l).2 ⟨⟨hl1, hl2⟩, by omega⟩
  have hval : d'.coeff l = 0 := by
    unfold Dict.coeff
    rw [if_pos hlS]
    change (S.map fun m => mu l m).sum = 0
    rw [← sum_mu_step hl2 hl, list_sum_eq_finset _ hSnd, list_sum_eq_finset _ (nodup_box _ _)]
    symm
    apply Finset.sum_subset
    · intro m hm
      rw [List.mem_toFinset, mem_box] at hm
      rw [List.mem_toFinset]
      have := hm.2.sum_le
      exact (hSm m).2 ⟨⟨hl1.trans hm.1, hm.2.trans u2⟩, by omega⟩
    · intro m hm hm'
      rw [List.mem_toFinset] at hm
      rw [List.mem_toFinset, mem_box] at hm'
      by_cases hlm : VecLe l m
      · exact mu_eq_zero_of_not_step hl2 ((hSm m).1 hm).1.2 fun h => hm' ⟨hlm, h⟩
      · exact mu_eq_zero_of_not_le hlm
  rw [hval] at key
  unfold Dict.coeff at key
  by_cases h : l ∈ d.keys
  · rw [if_pos h] at key
    exact .inr key
  · exact .inl h

/-! ### The extra grids -/

theorem room_le {lmin l lmax : List ℕ} (h : VecLe lmin l) (h' : VecLe l lmax) :
    room l lmax ≤ (freeDims lmin lmax).length := by
  induction h generalizing lmax with
  | nil => cases h'; simp [room, freeDims]
  | @cons a b lmin l h1 _ ih =>
    cases h' with
    | @cons _ c _ lm h3 h4 =>
      have := ih h4
      simp only [room, freeDims, List.zipWith_cons_cons, List.sum_cons, List.zip_cons_cons, List.filter_cons] at this ⊢
      by_cases hc : b < c
      · have hca : c ≠ a := by omega
        rw [if_pos hc, if_pos (by simpa using hca), List.length_cons]
        omega
      · rw [if_neg hc]
        split_ifs
        · rw [List.length_cons]; omega
        · omega

theorem mem_extraRange (lmax g : List ℕ) :
    g ∈ product (lmax.map fun x => (List.range x).map (· + 1)) ↔ VecLe g lmax ∧ ∀ x ∈ g, 1 ≤ x := by
  rw [mem_product, List.forall₂_map_right_iff]
  constructor
  · intro h
    induction h with
    | nil => simp
    | @cons a b l m h1 _ ih =>
      rw [List.mem_map] at h1
      obtain ⟨i, hi, rfl⟩ := h1
      rw [List.mem_range] at hi
      refine ⟨.cons (by omega) ih.1, ?_⟩
      intro x hx
      rcases List.mem_cons.1 hx with rfl | hx
      · omega
      · exact ih.2 x hx
  · rintro ⟨h, h'⟩
    induction h with
    | nil => simp
    | @cons a b l m h1 _ ih =>
      refine .cons ?_ (ih fun x hx => h' x (by simp [hx]))
      have := h' a (by simp)
      exact List.mem_map.2 ⟨a - 1, List.mem_range.2 (by omega), by omega⟩

/-- The extra grids, if some dimension is free: `M` and `m` are the largest `lmax` and the largest `lmin` of the
free dimensions. -/
theorem extraGrids_ok (lmin lmax : List ℕ) (num : ℕ) (hnum : num ≠ 0) (M m : ℕ)
    (hM : ((freeDims lmin lmax).map Prod.snd).max? = some M)
    (hm : ((freeDims lmin lmax).map Prod.fst).max? = some m) :
    ∃ ex, extraGrids lmin lmax num = .ok ex ∧ ∀ g, g ∈ ex ↔ VecLe lmin g ∧ VecLe g lmax ∧ (∀ x ∈ g, 1 ≤ x) ∧
      ∃ j < num, (g.sum : ℤ) = lmin.sum + ((M : ℤ) - m) - ((freeDims lmin lmax).length + j : ℕ) := by
  unfold extraGrids
  simp only
  rw [if_neg hnum, hM, hm]
  refine ⟨_, rfl, fun g => ?_⟩
  rw [List.mem_flatMap]
  constructor
  · rintro ⟨j, hj, hg⟩
    rw [List.mem_filter, Bool.and_eq_true, decide_eq_true_eq, leVec_iff, mem_extraRange] at hg
    exact ⟨hg.2.2, hg.1.1, hg.1.2, j, List.mem_range.1 hj, by omega⟩
  · rintro ⟨h1, h2, h3, j, hj, h4⟩
    refine ⟨j, List.mem_range.2 hj, ?_⟩
    rw [List.mem_filter, Bool.and_eq_true, decide_eq_true_eq, leVec_iff, mem_extraRange]
    exact ⟨⟨h2, h3⟩, by omega, h1⟩

/-- The largest `lmax` minus the largest `lmin` is at most the largest difference. -/
theorem max_difference {lmin lmax : List ℕ} (hle : VecLe lmin lmax) (hfree : lmin ≠ lmax) :
    ∃ M m, ((freeDims lmin lmax).map Prod.snd).max? = some M ∧ ((freeDims lmin lmax).map Prod.fst).max? = some m ∧
      ∃ i, ∃ h : i < lmin.length, ((M : ℤ) - m) ≤ (lmax[i]'(by rw [← hle.length_eq]; exact h) : ℤ) - lmin[i] := by
  have hne : freeDims lmin lmax ≠ [] := by
    intro h
    apply hfree
    clear hfree
    induction hle with
    | nil => rfl
    | @cons a b l m h1 _ ih =>
      simp only [freeDims, List.zip_cons_cons, List.filter_cons] at h
      by_cases hab : b = a
      · subst hab
        simp only [ne_eq, not_true_eq_false, decide_false, Bool.false_eq_true, if_false] at h
        rw [ih h]
      · simp [hab] at h
  cases hM : ((freeDims lmin lmax).map Prod.snd).max? with
  | none => simp [List.max?_eq_none_iff, hne] at hM
  | some M =>
    cases hm : ((freeDims lmin lmax).map Prod.fst).max? with
    | none => simp [List.max?_eq_none_iff, hne] at hm
    | some m =>
      refine ⟨M, m, rfl, rfl, ?_⟩
      have h1 := List.max?_mem hM
      obtain ⟨⟨x, y⟩, hp, hy⟩ := List.mem_map.1 h1
      simp only at hy
      subst hy
      have hx : x ≤ m := by
        have := (List.max?_eq_some_iff.1 hm).2 x (List.mem_map.2 ⟨(x, y), hp, rfl⟩)
        exact this
      have hz := (List.mem_filter.1 hp).1
      obtain ⟨i, hi, he⟩ := List.mem_iff_getElem.1 hz
      rw [List.getElem_zip, Prod.mk.injEq] at he
      rw [List.length_zip] at hi
      refine ⟨i, by omega, ?_⟩
      rw [he.1, he.2]
      omega

theorem extendScheme_spec (ex : List (List ℕ)) : ∀ d : Dict, d.keys.Nodup → (∀ g ∈ ex, g ∉ d.keys) →
    (extendScheme ex d).keys.Nodup ∧ (∀ g, g ∈ (extendScheme ex d).keys ↔ g ∈ d.keys ∨ g ∈ ex) ∧
      (∀ g ∈ ex, (extendScheme ex d).val g = 0) ∧ (∀ g, g ∉ ex → (extendScheme ex d).val g = d.val g) ∧
      ∀ k, (extendScheme ex d).above k = d.above k := by
  have main : ∀ (ex : List (List ℕ)) (d : Dict), d.keys.Nodup → (∀ g ∈ ex, g ∈ d.keys → d.val g = 0) →
    (extendScheme ex d).keys.Nodup ∧ (∀ g, g ∈ (extendScheme ex d).keys ↔ g ∈ d.keys ∨ g ∈ ex) ∧
      (∀ g ∈ ex, (extendScheme ex d).val g = 0) ∧ (∀ g, g ∉ ex → (extendScheme ex d).val g = d.val g) ∧
      ∀ k, (extendScheme ex d).above k = d.above k := by
    intro ex
    induction ex with
    | nil => intro d h _; exact ⟨h, by simp [extendScheme], by simp, fun _ _ => rfl, fun _ => rfl⟩
    | cons e ex ih =>
      intro d hd h0
      have hset : ∀ g, (d.set e 0).val g = if g = e then 0 else d.val g := fun g => rfl
      obtain ⟨i1, i2, i3, i4, i5⟩ := ih (d.set e 0) (Dict.nodup_set d e 0 hd) (by
        intro g hg hk
        rw [hset]
        split_ifs with hge
        · rfl
        · rcases (Dict.mem_set d e g 0).1 hk with hk | hk
          · exact h0 g (by simp [hg]) hk
          · exact absurd hk hge)
      have hu : extendScheme (e :: ex) d = extendScheme ex (d.set e 0) := rfl
      rw [hu]
      refine ⟨i1, ?_, ?_, ?_, ?_⟩
      · intro g
        rw [i2, Dict.mem_set, List.mem_cons, or_assoc]
      · intro g hg
        by_cases hge : g ∈ ex
        · exact i3 g hge
        · rw [i4 g hge, hset, if_pos]
          rcases List.mem_cons.1 hg with h | h
          · exact h
          · exact absurd h hge
      · intro g hg
        rw [i4 g (fun h => hg (by simp [h])), hset, if_neg]
        rintro rfl
        exact hg (by simp)
      · intro k
        rw [i5, above_set d hd]
        have : (if e ∈ d.keys then d.val e else 0) = 0 := by
          split_ifs with h
          · exact h0 e (by simp) h
          · rfl
        rw [this]
        simp
  intro d hd h
  exact main ex d hd fun g hg hk => absurd hk (h g hg)

/-! ### The file -/

theorem takeWhile_decimal (n : ℕ) (t : List Char) (ht : ∀ c ∈ t.head?, c.isDigit = false) :
    (decimal n ++ t).takeWhile Char.isDigit = decimal n ∧ (decimal n ++ t).dropWhile Char.isDigit = t := by
  have h : ∀ (s : List Char), (∀ c ∈ s, c.isDigit = true) →
      (s ++ t).takeWhile Char.isDigit = s ∧ (s ++ t).dropWhile Char.isDigit = t := by
    intro s hs
    induction s with
    | nil =>
      cases t with
      | nil => simp
      | cons c t =>
        have := ht c (by simp)
        simp [this]
    | cons c s ih =>
      have h1 := hs c (by simp)
      obtain ⟨h2, h3⟩ := ih fun c hc => hs c (by simp [hc])
      simp [h1, h2, h3]
  exact h _ fun c hc => decimal_digit hc

theorem decimal_cons (n : ℕ) : ∃ c s, decimal n = c :: s ∧ c.isDigit = true := by
  cases h : decimal n with
  | nil => exact absurd h (by unfold decimal; simp)
  | cons c s => exact ⟨c, s, rfl, decimal_digit (n := n) (by rw [h]; simp)⟩

theorem readInteger_int (x : ℤ) (t : List Char) (ht : ∀ c ∈ t.head?, c.isDigit = false) (b : Bool) :
    readInteger ((if b then [' '] else []) ++ intText x ++ t) = some (x, t) := by
  obtain ⟨c, s, hc, hd⟩ := decimal_cons x.natAbs
  have hsp : c ≠ ' ' := by rintro rfl; exact absurd hd (by decide)
  have hmin : c ≠ '-' := by rintro rfl; exact absurd hd (by decide)
  have hdrop : ((if b then [' '] else []) ++ intText x ++ t).dropWhile (· == ' ') = intText x ++ t := by
    have h0 : (intText x ++ t).dropWhile (· == ' ') = intText x ++ t := by
      unfold intText
      split_ifs
      · simp
      · rw [hc]; simp [hsp]
    cases b
    · simpa using h0
    · simp only [if_true, List.cons_append, List.nil_append]
      rw [List.dropWhile_cons]
      simpa using h0
  obtain ⟨h1, h2⟩ := takeWhile_decimal x.natAbs t ht
  unfold readInteger
  simp only
  rw [hdrop]
  unfold intText
  by_cases hx : x < 0
  · simp only [if_pos hx, List.cons_append, List.head?_cons, beq_self_eq_true, if_true, List.tail_cons]
    rw [h1, h2, if_neg (by rw [hc]; simp)]
    unfold digitsValue
    rw [ofDigits_decimal]
    congr 2
    omega
  · simp only [if_neg hx]
    have hh : ((decimal x.natAbs ++ t).head? == some '-') = false := by
      rw [hc]; simpa using hmin
    simp only [hh, Bool.false_eq_true, if_false]
    rw [h1, h2, if_neg (by rw [hc]; simp)]
    unfold digitsValue
    rw [ofDigits_decimal]
    congr 2
    omega

theorem intText_nat (n : ℕ) : intText n = decimal n := by
  unfold intText
  rw [if_neg (by omega)]
  simp

/-- The numbers of a line after the first one, each with a blank before it. -/
theorem readLevels_text (levels : List ℕ) (t : List Char) (ht : ∀ c ∈ t.head?, c.isDigit = false) :
    readLevels levels.length ((levels.flatMap fun l => ' ' :: decimal l) ++ t) =
      some (levels.map fun l : ℕ => (l : ℤ), t) := by
  induction levels with
  | nil => rfl
  | cons l levels ih =>
    have h := readInteger_int (l : ℤ) ((levels.flatMap fun l => ' ' :: decimal l) ++ t) (by
      cases levels with
      | nil => simpa using ht
      | cons a as => intro c hc; simp at hc; subst hc; decide) true
    rw [intText_nat] at h
    simp only [if_true, List.cons_append, List.nil_append] at h
    simp only [List.length_cons, List.flatMap_cons, List.cons_append, List.append_assoc]
    rw [readLevels, h]
    simp only [Option.bind_some]
    rw [ih]
    simp

theorem blanks_move (levels : List ℕ) (t : List Char) :
    ' ' :: ((levels.flatMap fun l => decimal l ++ [' ']) ++ t) =
      (levels.flatMap fun l => ' ' :: decimal l) ++ ' ' :: t := by
  induction levels with
  | nil => rfl
  | cons l levels ih =>
    simp only [List.flatMap_cons, List.append_assoc, List.cons_append, List.nil_append]
    rw [ih]

/-- The line without its end. -/
def lineText (id : ℕ) (levels : List ℕ) (coeff : ℤ) : List Char :=
  decimal id ++ ' ' :: (levels.flatMap fun l => decimal l ++ [' ']) ++ intText coeff

theorem readLine_line (id : ℕ) (levels : List ℕ) (coeff : ℤ) :
    readLine levels.length (lineText id levels coeff) = some ((id : ℤ), levels.map fun l : ℕ => (l : ℤ), coeff) := by
  have e : lineText id levels coeff =
      decimal id ++ ((levels.flatMap fun l => ' ' :: decimal l) ++ ' ' :: intText coeff) := by
    unfold lineText
    rw [← blanks_move]
    simp
  have h1 := readInteger_int (id : ℤ) ((levels.flatMap fun l => ' ' :: decimal l) ++ ' ' :: intText coeff) (by
      cases levels with
      | nil => intro c hc; simp at hc; subst hc; decide
      | cons a as => intro c hc; simp at hc; subst hc; decide) false
  rw [intText_nat] at h1
  simp only [Bool.false_eq_true, if_false, List.nil_append] at h1
  have h3 := readInteger_int coeff [] (by simp) true
  simp only [if_true, List.append_nil, List.cons_append, List.nil_append] at h3
  rw [e]
  unfold readLine
  rw [h1]
  simp only [Option.bind_some]
  rw [readLevels_text levels (' ' :: intText coeff) (by intro c hc; simp at hc; subst hc; decide)]
  simp only [Option.bind_some]
  rw [h3]
  rfl

theorem lineText_no_newline (id : ℕ) (levels : List ℕ) (coeff : ℤ) : ∀ c ∈ lineText id levels coeff, c ≠ '\n' := by
  have hd : ∀ n, ∀ c ∈ decimal n, c ≠ '\n' := by
    rintro n c hc rfl
    exact absurd (decimal_digit hc) (by decide)
  intro c hc
  unfold lineText at hc
  simp only [List.mem_append, List.mem_cons, List.mem_flatMap, List.not_mem_nil, or_false] at hc
  rcases hc with (h | rfl | ⟨l, -, h | rfl⟩) | h
  · exact hd _ c h
  · decide
  · exact hd _ c h
  · decide
  · unfold intText at h
    split_ifs at h
    · rcases List.mem_cons.1 h with rfl | h
      · decide
      · exact hd _ c h
    · exact hd _ c h

theorem getLines_line (s rest : List Char) (hs : ∀ c ∈ s, c ≠ '\n') : ∀ cur,
    getLines cur (s ++ '\n' :: rest) = (cur ++ s) :: getLines [] rest := by
  induction s with
  | nil => intro cur; simp [getLines]
  | cons c s ih =>
    intro cur
    have := hs c (by simp)
    rw [List.cons_append, getLines, if_neg this, ih (fun c hc => hs c (by simp [hc]))]
    simp

/-- The text of the file for grids with numbers from `i` on. -/
def spacesText : (i : ℕ) → List (List ℕ × ℤ) → List Char
  | _, [] => []
  | i, (l, c) :: rest => spaceLine i l c ++ spacesText (i + 1) rest

theorem read_spaces (dim : ℕ) (L : List (List ℕ × ℤ)) (h : ∀ p ∈ L, p.1.length = dim) : ∀ i,
    (getLines [] (spacesText i L)).mapM (readLine dim) =
      some ((L.zipIdx i).map fun p => ((p.2 : ℤ), p.1.1.map (fun l : ℕ => (l : ℤ)), p.1.2)) := by
  induction L with
  | nil => intro i; rfl
  | cons p L ih =>
    intro i
    obtain ⟨l, c⟩ := p
    have hl : l.length = dim := h (l, c) (by simp)
    have e : spacesText i ((l, c) :: L) = lineText i l c ++ '\n' :: spacesText (i + 1) L := by
      simp [spacesText, spaceLine, lineText]
    rw [e, getLines_line _ _ (lineText_no_newline i l c)]
    rw [List.nil_append, List.mapM_cons, ← hl, readLine_line, hl, ih (fun p hp => h p (by simp [hp])) (i + 1)]
    rfl

/-! ### Templates -/

theorem replaceEvery_text {k v s : List Char} (hs : ∀ c ∈ s, c ≠ '$') (r : List Char) :
    replaceEvery ('$' :: k) v 0 (s ++ r) = s ++ replaceEvery ('$' :: k) v 0 r := by
  induction s with
  | nil => rfl
  | cons c s ih =>
    have hc : ('$' :: k).isPrefixOf (c :: (s ++ r)) = false := by
      have := hs c (by simp)
      simp [List.isPrefixOf, this.symm]
    rw [List.cons_append, replaceEvery, hc]
    simp only [Bool.false_eq_true, if_false]
    rw [ih fun c hc => hs c (by simp [hc]), List.cons_append]

theorem replaceEvery_skip (k v s r : List Char) : replaceEvery k v s.length (s ++ r) = replaceEvery k v 0 r := by
  induction s with
  | nil => rfl
  | cons c s ih => rw [List.length_cons, List.cons_append, replaceEvery, ih]

/-- A name that occurs at most once: replacing all occurrences is replacing the first. -/
theorem replaceEvery_render {k v : List Char} (hk : ∀ c ∈ k, isName c = true) {ps : List Piece}
    (hok : okTemplate ps = true) (hnd : (holes ps).Nodup) (hpre : ∀ k' ∈ holes ps, k <+: k' → k = k') :
    replaceEvery ('$' :: k) v 0 (render ps) = render (setHole k v ps) := by
  have absent : ∀ ps : List Piece, okTemplate ps = true → (∀ k' ∈ holes ps, k <+: k' → k = k') → k ∉ holes ps →
      replaceEvery ('$' :: k) v 0 (render ps) = render ps := by
    intro ps
    induction ps with
    | nil => intros; rfl
    | cons q ps ih =>
      intro hok hpre hk'
      cases q with
      | text s =>
        simp only [okTemplate, Bool.and_eq_true, List.all_eq_true, bne_iff_ne] at hok
        rw [render, replaceEvery_text hok.1, ih hok.2 hpre hk']
      | hole k' =>
        simp only [okTemplate, Bool.and_eq_true, List.all_eq_true] at hok
        obtain ⟨⟨h1, h2⟩, h3⟩ := hok
        simp only [holes, List.mem_cons, not_or] at hk'
        rw [render, replaceEvery, if_neg, replaceEvery_text fun c hc => name_ne_dollar (h1 c hc),
          ih h3 (fun k'' hk'' => hpre k'' (by simp [holes, hk''])) hk'.2]
        rw [List.isPrefixOf_iff_prefix, List.cons_prefix_cons]
        rintro ⟨-, h4⟩
        exact hk'.1 (hpre k' (by simp [holes]) (prefix_name hk h2 h4))
  induction ps with
  | nil => rfl
  | cons q ps ih =>
    cases q with
    | text s =>
      simp only [okTemplate, Bool.and_eq_true, List.all_eq_true, bne_iff_ne] at hok
      rw [render, replaceEvery_text hok.1, ih hok.2 hnd hpre, setHole, render]
    | hole k' =>
      simp only [okTemplate, Bool.and_eq_true, List.all_eq_true] at hok
      obtain ⟨⟨h1, h2⟩, h3⟩ := hok
      rw [holes, List.nodup_cons] at hnd
      rw [render, setHole]
      by_cases e : k = k'
      · subst e
        rw [if_pos rfl, render, replaceEvery, if_pos (by simp [List.isPrefixOf_iff_prefix]), List.length_cons,
          Nat.add_sub_cancel, replaceEvery_skip,
          absent ps h3 (fun k'' hk'' => hpre k'' (by simp [holes, hk''])) hnd.1]
      · rw [if_neg e, render, replaceEvery, if_neg, replaceEvery_text fun c hc => name_ne_dollar (h1 c hc),
          ih h3 hnd.2 fun k'' hk'' => hpre k'' (by simp [holes, hk''])]
        rw [List.isPrefixOf_iff_prefix, List.cons_prefix_cons]
        rintro ⟨-, h4⟩
        exact e (hpre k' (by simp [holes]) (prefix_name hk h2 h4))

/-- The value of a name: that of the first replacement with the name. -/
def valueOf (subs : List Sub) (k : List Char) : Option (List Char) := (subs.find? fun r => r.name == k).map Sub.value

theorem subs_render (subs : List Sub) (hk : ∀ r ∈ subs, ∀ c ∈ r.name, isName c = true)
    (hv : ∀ r ∈ subs, ∀ c ∈ r.value, c ≠ '$') (ps : List Piece) (hok : okTemplate ps = true)
    (hnd : (holes ps).Nodup) (hpre : ∀ r ∈ subs, ∀ k' ∈ holes ps, r.name <+: k' → r.name = k') :
    subs.foldl Sub.apply (render ps) = fill (valueOf subs) ps := by
  induction subs generalizing ps with
  | nil => exact (fill_none ps).symm
  | cons r subs ih =>
    have h1 : Sub.apply (render ps) r = render (setHole r.name r.value ps) := by
      unfold Sub.apply
      split_ifs
      · exact replace_render (hk r (by simp)) hok (hpre r (by simp))
      · exact replaceEvery_render (hk r (by simp)) hok hnd (hpre r (by simp))
    rw [List.foldl_cons, h1]
    rw [ih (fun r h => hk r (by simp [h])) (fun r h => hv r (by simp [h])) (setHole r.name r.value ps)
      (ok_setHole (hv r (by simp)) hok) (by rw [holes_setHole]; exact hnd.erase _)
      (fun r' h k' hk' => hpre r' (by simp [h]) k' (by
        rw [holes_setHole] at hk'
        exact List.mem_of_mem_erase hk'))]
    rw [fill_setHole hnd]
    refine fill_congr fun k _ => ?_
    unfold valueOf
    rw [List.find?_cons]
    by_cases e : k = r.name
    · subst e
      simp
    · have : (r.name == k) = false := by simpa using fun h => e h.symm
      rw [if_neg e, this]

/-- The loop over the grids. -/
theorem gridLoop_ok (C : Config) (extra lmax1 : ℕ) (template : List Char) (L : List (List ℕ × ℤ)) :
    ∀ (id : ℕ) (spaces : List Char) (F : Folders), (∀ p ∈ L, p.1.length = 6) →
    ∃ F', gridLoop C extra lmax1 template id L spaces F =
        .ok (spaces ++ spacesText id (L.map fun p => (p.1.reverse, p.2)), F') ∧
      (∀ i, i < id ∨ id + L.length ≤ i → F' i = F i) ∧
      ∀ i (h : i < L.length), F' (id + i) =
        some (adaptParameters C extra lmax1 (L[i].1.reverse) ((F (id + i)).getD template)) := by
  induction L with
  | nil =>
    intro id spaces F _
    exact ⟨F, by simp [gridLoop, spacesText], fun _ _ => rfl, fun i h => by simp at h⟩
  | cons p L ih =>
    intro id spaces F h
    obtain ⟨l, c⟩ := p
    have hl : l.length = 6 := h (l, c) (by simp)
    have hlev : levelsOf l = .ok l.reverse := by
      match l, hl with
      | [l5, l4, l3, l2, l1, l0], _ => rfl
    set F1 := copyTemplate template id F with hF1
    set F2 := Function.update F1 id (some (adaptParameters C extra lmax1 l.reverse ((F1 id).getD []))) with hF2
    have hF1id : (F1 id).getD [] = (F id).getD template := by
      rw [hF1]
      unfold copyTemplate
      cases hc : F id with
      | none => simp
      | some x => simp [hc]
    have hF1o : ∀ i, i ≠ id → F1 i = F i := by
      intro i hi
      rw [hF1]
      unfold copyTemplate
      split_ifs
      · rfl
      · simp [hi]
    obtain ⟨F', h1, h2, h3⟩ := ih (id + 1) (spaces ++ spaceLine id l.reverse c) F2 fun p hp => h p (by simp [hp])
    refine ⟨F', ?_, ?_, ?_⟩
    · rw [gridLoop, hlev]
      simp only [Outcome.bind]
      rw [← hF1, ← hF2, h1]
      simp [spacesText]
    · intro i hi
      rw [List.length_cons] at hi
      rw [h2 i (by omega), hF2, Function.update_of_ne (by omega), hF1o i (by omega)]
    · intro i hi
      rcases i with _ | i
      · rw [Nat.add_zero, h2 id (by omega), hF2, Function.update_self, hF1id]
        rfl
      · rw [List.length_cons] at hi
        have := h3 i (by omega)
        rw [show id + (i + 1) = id + 1 + i by omega, this, hF2, Function.update_of_ne (by omega),
          hF1o (id + 1 + i) (by omega)]
        rfl

theorem vecLe_reverse {a b : List ℕ} (h : VecLe a b) : VecLe a.reverse b.reverse := by
  unfold VecLe at *
  exact List.rel_reverse h

end Verif.GenePreparation

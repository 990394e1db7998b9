import Verif.Lemmas.Classical

/-! Helper lemmas about the removal and re-insertion of fixed dimensions. -/

namespace Verif

/-- entries of `x` in the dimensions where `lmax` and `lmin` differ -/
def freeOf : List ℕ → List ℕ → List ℕ → List ℕ
  | a :: lmax, b :: lmin, x :: xs =>
    if a = b then freeOf lmax lmin xs else x :: freeOf lmax lmin xs
  | _, _, _ => []

/-- positions where `lmax` and `lmin` agree -/
def fixedPos : List ℕ → List ℕ → List ℕ
  | a :: lmax, b :: lmin =>
    if a = b then 0 :: (fixedPos lmax lmin).map (· + 1) else (fixedPos lmax lmin).map (· + 1)
  | _, _ => []

/-- entries of `t` in the free dimensions, entries of `lmax` in the fixed ones -/
def mergeDims : List ℕ → List ℕ → List ℕ → List ℕ
  | a :: lmax, b :: lmin, t =>
    if a = b then a :: mergeDims lmax lmin t
    else match t with
      | [] => []
      | x :: t => x :: mergeDims lmax lmin t
  | _, _, _ => []

theorem freeOf_append (a b x a' b' x' : List ℕ) (h1 : a.length = b.length)
    (h2 : a.length = x.length) :
    freeOf (a ++ a') (b ++ b') (x ++ x') = freeOf a b x ++ freeOf a' b' x' := by
  induction a generalizing b x with
  | nil =>
    rw [List.length_eq_zero_iff.1 h1.symm, List.length_eq_zero_iff.1 h2.symm]
    rfl
  | cons u a ih =>
    cases b with
    | nil => simp at h1
    | cons v b =>
      cases x with
      | nil => simp at h2
      | cons w x =>
        have := ih b x (by simpa using h1) (by simpa using h2)
        simp only [List.cons_append, freeOf]
        split
        · exact this
        · rw [this]; rfl

theorem fixedPos_append (a b a' b' : List ℕ) (h1 : a.length = b.length) :
    fixedPos (a ++ a') (b ++ b') = fixedPos a b ++ (fixedPos a' b').map (· + a.length) := by
  induction a generalizing b with
  | nil =>
    rw [List.length_eq_zero_iff.1 h1.symm]
    simp [fixedPos]
  | cons u a ih =>
    cases b with
    | nil => simp at h1
    | cons v b =>
      have := ih b (by simpa using h1)
      have hc : ((· + 1) ∘ fun x : ℕ => x + a.length) = fun x : ℕ => x + (a.length + 1) := by
        funext y
        simp [Nat.add_assoc]
      simp only [List.cons_append, fixedPos, this, List.map_append, List.map_map,
        List.length_cons, hc]
      split <;> simp

theorem length_free_fixed (a b : List ℕ) (h1 : a.length = b.length) (x : List ℕ)
    (h2 : a.length = x.length) : (freeOf a b x).length + (fixedPos a b).length = a.length := by
  induction a generalizing b x with
  | nil =>
    rw [List.length_eq_zero_iff.1 h1.symm, List.length_eq_zero_iff.1 h2.symm]
    rfl
  | cons u a ih =>
    cases b with
    | nil => simp at h1
    | cons v b =>
      cases x with
      | nil => simp at h2
      | cons w x =>
        have := ih b (by simpa using h1) x (by simpa using h2)
        simp only [freeOf, fixedPos]
        split
        · simp; omega
        · simp; omega

theorem removeDummies_prefix (lmin lmax : List ℕ) (h : lmin.length = lmax.length) (i : ℕ)
    (hi : i ≤ lmax.length) :
    (List.range i).foldl (removeDummyStep lmin lmax) (lmax, lmin, []) =
      (freeOf (lmax.take i) (lmin.take i) (lmax.take i) ++ lmax.drop i,
        freeOf (lmax.take i) (lmin.take i) (lmin.take i) ++ lmin.drop i,
        fixedPos (lmax.take i) (lmin.take i)) := by
  induction i with
  | zero => simp [freeOf, fixedPos]
  | succ i ih =>
    have hi' : i < lmax.length := by omega
    have hi'' : i < lmin.length := by omega
    rw [List.range_succ, List.foldl_append, ih (by omega)]
    simp only [List.foldl_cons, List.foldl_nil, removeDummyStep]
    have e1 : lmax.take (i + 1) = lmax.take i ++ [lmax[i]] := by simp
    have e2 : lmin.take (i + 1) = lmin.take i ++ [lmin[i]] := by simp
    have l1 : (lmax.take i).length = (lmin.take i).length := by simp; omega
    have hlen := length_free_fixed (lmax.take i) (lmin.take i) l1 (lmax.take i) rfl
    have hlen' := length_free_fixed (lmax.take i) (lmin.take i) l1 (lmin.take i) l1
    have hti : (lmax.take i).length = i := by simp; omega
    have d1 : lmax.drop i = lmax[i] :: lmax.drop (i + 1) := by simp
    have d2 : lmin.drop i = lmin[i] :: lmin.drop (i + 1) := by simp
    rw [e1, e2, freeOf_append _ _ _ _ _ _ l1 rfl, freeOf_append _ _ _ _ _ _ l1 l1,
      fixedPos_append _ _ _ _ l1, List.getD_eq_getElem _ _ hi', List.getD_eq_getElem _ _ hi'',
      d1, d2]
    by_cases hc : lmax[i] = lmin[i]
    · rw [if_pos (by omega)]
      have p1 : i - (fixedPos (lmax.take i) (lmin.take i)).length =
          (freeOf (lmax.take i) (lmin.take i) (lmax.take i)).length := by omega
      have p2 : i - (fixedPos (lmax.take i) (lmin.take i)).length =
          (freeOf (lmax.take i) (lmin.take i) (lmin.take i)).length := by omega
      refine Prod.ext ?_ (Prod.ext ?_ ?_)
      · simp only
        rw [p1, List.eraseIdx_append_of_length_le (le_refl _)]
        simp [freeOf, hc]
      · simp only
        rw [p2, List.eraseIdx_append_of_length_le (le_refl _)]
        simp [freeOf, hc]
      · simp [fixedPos, hc]
        omega
    · rw [if_neg (by omega)]
      refine Prod.ext ?_ (Prod.ext ?_ ?_)
      · simp [freeOf, hc]
      · simp [freeOf, hc]
      · simp [fixedPos, hc]

theorem removeDummies_eq (lmin lmax : List ℕ) (h : lmin.length = lmax.length) :
    removeDummies lmin lmax =
      (freeOf lmax lmin lmax, freeOf lmax lmin lmin, fixedPos lmax lmin) := by
  have := removeDummies_prefix lmin lmax h lmax.length (le_refl _)
  have h2 : lmin.take lmax.length = lmin := by rw [← h]; simp
  have h3 : lmin.drop lmax.length = [] := by rw [← h]; simp
  rw [removeDummies, this, h2, h3]
  simp

/-- inserting values at positions, one after the other -/
def insertMany (pv : List (ℕ × ℕ)) (l : List ℕ) : List ℕ :=
  pv.foldl (fun l p => l.insertIdx p.1 p.2) l

theorem insertMany_shift (pv : List (ℕ × ℕ)) (x : ℕ) (l : List ℕ) :
    insertMany (pv.map fun p => (p.1 + 1, p.2)) (x :: l) = x :: insertMany pv l := by
  induction pv generalizing l with
  | nil => rfl
  | cons p pv ih =>
    simp only [insertMany, List.map_cons, List.foldl_cons, List.insertIdx_succ_cons] at *
    exact ih _

/-- the values at the fixed positions -/
def fixedVals : List ℕ → List ℕ → List ℕ
  | a :: lmax, b :: lmin => if a = b then a :: fixedVals lmax lmin else fixedVals lmax lmin
  | _, _ => []

theorem length_fixedVals (a b : List ℕ) : (fixedVals a b).length = (fixedPos a b).length := by
  induction a generalizing b with
  | nil => rfl
  | cons u a ih =>
    cases b with
    | nil => rfl
    | cons v b =>
      simp only [fixedVals, fixedPos]
      split <;> simp [ih]

theorem fixedVals_eq (a b : List ℕ) :
    fixedVals a b = (fixedPos a b).map fun i => a.getD i 0 := by
  induction a generalizing b with
  | nil => rfl
  | cons u a ih =>
    cases b with
    | nil => rfl
    | cons v b =>
      simp only [fixedVals, fixedPos]
      split
      · simp [ih, Function.comp_def]
      · simp [ih, Function.comp_def]

theorem insertMany_merge (lmax lmin t : List ℕ) (h : lmin.length = lmax.length)
    (ht : t.length = (freeOf lmax lmin lmax).length) :
    insertMany ((fixedPos lmax lmin).zip (fixedVals lmax lmin)) t = mergeDims lmax lmin t := by
  induction lmax generalizing lmin t with
  | nil =>
    rw [List.length_eq_zero_iff.1 h]
    simp [freeOf] at ht
    simp [fixedPos, insertMany, mergeDims, ht]
  | cons a lmax ih =>
    cases lmin with
    | nil => simp at h
    | cons b lmin =>
      have h' : lmin.length = lmax.length := by simpa using h
      by_cases hab : a = b
      · have ht' : t.length = (freeOf lmax lmin lmax).length := by simpa [freeOf, hab] using ht
        have : insertMany ((0, a) :: ((fixedPos lmax lmin).zip (fixedVals lmax lmin)).map
            fun p => (p.1 + 1, p.2)) t = a :: mergeDims lmax lmin t := by
          have := insertMany_shift ((fixedPos lmax lmin).zip (fixedVals lmax lmin)) a t
          rw [ih lmin t h' ht'] at this
          rw [← this]
          simp [insertMany]
        simp only [fixedPos, fixedVals, mergeDims, hab, if_true]
        rw [← hab, ← this, List.zip_cons_cons, List.zip_map_left]
        congr 3
      · cases t with
        | nil => simp [freeOf, hab] at ht
        | cons x t =>
          have ht' : t.length = (freeOf lmax lmin lmax).length := by
            simpa [freeOf, hab] using ht
          have := insertMany_shift ((fixedPos lmax lmin).zip (fixedVals lmax lmin)) x t
          rw [ih lmin t h' ht'] at this
          simp only [fixedPos, fixedVals, mergeDims, hab, if_false]
          rw [← this, List.zip_map_left]
          congr 2

/-- The values inserted by the code are the right ones: `lmax_[i]` (used by the code)
equals `lmax_[dummyDims[i]]`. -/
def InsertOk (lmin lmax : List ℕ) : Prop :=
  ∀ i, i < (fixedPos lmax lmin).length →
    lmax.getD i 0 = lmax.getD ((fixedPos lmax lmin).getD i 0) 0

theorem foldl_range_zip {β : Type*} (f : β → ℕ → ℕ → β) (pos vals : List ℕ)
    (h : vals.length = pos.length) (x : β) :
    (List.range pos.length).foldl (fun l i => f l (pos.getD i 0) (vals.getD i 0)) x =
      (pos.zip vals).foldl (fun l p => f l p.1 p.2) x := by
  induction pos generalizing vals x with
  | nil => simp
  | cons a pos ih =>
    cases vals with
    | nil => simp at h
    | cons v vals =>
      rw [List.length_cons, List.range_succ_eq_map, List.foldl_cons, List.foldl_map,
        List.zip_cons_cons, List.foldl_cons]
      simp only [List.getD_cons_succ, List.getD_cons_zero]
      exact ih vals (by simpa using h) _

theorem foldl_range_congr {β : Type*} (f g : β → ℕ → β) (n : ℕ)
    (h : ∀ i, i < n → ∀ x, f x i = g x i) (x : β) :
    (List.range n).foldl f x = (List.range n).foldl g x := by
  induction n with
  | zero => rfl
  | succ n ih =>
    rw [List.range_succ, List.foldl_append, List.foldl_append, ih fun i hi => h i (by omega)]
    simp [h n (by omega)]

theorem fixedVals_getD (lmin lmax : List ℕ) (i : ℕ) (hi : i < (fixedPos lmax lmin).length) :
    (fixedVals lmax lmin).getD i 0 = lmax.getD ((fixedPos lmax lmin).getD i 0) 0 := by
  rw [fixedVals_eq, List.getD_eq_getElem _ _ (by simpa using hi), List.getD_eq_getElem _ _ hi]
  simp

theorem insertDummies_eq (lmin lmax t : List ℕ) (h : lmin.length = lmax.length)
    (hok : InsertOk lmin lmax) (ht : t.length = (freeOf lmax lmin lmax).length) :
    insertDummies (fixedPos lmax lmin) lmax t = mergeDims lmax lmin t := by
  rw [← insertMany_merge lmax lmin t h ht, insertDummies, insertMany]
  refine Eq.trans ?_
    (foldl_range_zip (fun (l : List ℕ) p v => l.insertIdx p v) _ _ (length_fixedVals lmax lmin) _)
  apply foldl_range_congr
  intro i hi x
  rw [fixedVals_getD lmin lmax i hi, hok i hi]

/-- setting values at positions, one after the other -/
theorem setMany_shift (pv : List (ℕ × ℕ)) (x : ℕ) (l : List ℕ) :
    (pv.map fun p => (p.1 + 1, p.2)).foldl (fun l p => l.set p.1 p.2) (x :: l) =
      x :: pv.foldl (fun l p => l.set p.1 p.2) l := by
  induction pv generalizing l with
  | nil => rfl
  | cons p pv ih =>
    simp only [List.map_cons, List.foldl_cons, List.set_cons_succ] at *
    exact ih _

theorem setMany_merge (lmax lmin l : List ℕ) (h : lmin.length = lmax.length)
    (hl : l.length = lmax.length) :
    ((fixedPos lmax lmin).zip (fixedVals lmax lmin)).foldl (fun l p => l.set p.1 p.2) l =
      mergeDims lmax lmin (freeOf lmax lmin l) := by
  induction lmax generalizing lmin l with
  | nil =>
    rw [List.length_eq_zero_iff.1 h, List.length_eq_zero_iff.1 hl]
    rfl
  | cons a lmax ih =>
    cases lmin with
    | nil => simp at h
    | cons b lmin =>
      cases l with
      | nil => simp at hl
      | cons x l =>
        have ih := ih lmin l (by simpa using h) (by simpa using hl)
        by_cases hab : a = b
        · have := setMany_shift ((fixedPos lmax lmin).zip (fixedVals lmax lmin)) a l
          rw [ih] at this
          simp only [fixedPos, fixedVals, mergeDims, freeOf, hab, if_true]
          rw [List.zip_cons_cons, List.foldl_cons, List.zip_map_left, List.set_cons_zero, ← hab,
            ← this]
          congr 1
        · have := setMany_shift ((fixedPos lmax lmin).zip (fixedVals lmax lmin)) x l
          rw [ih] at this
          simp only [fixedPos, fixedVals, mergeDims, freeOf, hab, if_false]
          rw [List.zip_map_left, ← this]
          congr 1

theorem classicalLmin_eq (c : ℤ) (lmin lmax : List ℕ) (h : lmin.length = lmax.length)
    (hok : InsertOk lmin lmax) :
    classicalLmin c (fixedPos lmax lmin) lmax =
      mergeDims lmax lmin (freeOf lmax lmin (lmax.map fun a : ℕ => ((a : ℤ) - c).toNat)) := by
  rw [← setMany_merge _ _ _ h (by simp), classicalLmin]
  refine Eq.trans ?_
    (foldl_range_zip (fun (l : List ℕ) p v => l.set p v) _ _ (length_fixedVals lmax lmin) _)
  apply foldl_range_congr
  intro i hi x
  rw [fixedVals_getD lmin lmax i hi, hok i hi]

theorem freeOf_map (lmax lmin x : List ℕ) (f : ℕ → ℕ) :
    freeOf lmax lmin (x.map f) = (freeOf lmax lmin x).map f := by
  induction lmax generalizing lmin x with
  | nil => cases lmin <;> cases x <;> rfl
  | cons a lmax ih =>
    cases lmin with
    | nil => cases x <;> rfl
    | cons b lmin =>
      cases x with
      | nil => rfl
      | cons y x =>
        simp only [List.map_cons, freeOf]
        split
        · exact ih _ _
        · rw [List.map_cons, ih]

/-- sum of the fixed entries -/
def fixedSum (lmax lmin : List ℕ) : ℕ := (fixedVals lmax lmin).sum

theorem sum_merge (lmax lmin t : List ℕ) (h : lmin.length = lmax.length)
    (ht : t.length = (freeOf lmax lmin lmax).length) :
    (mergeDims lmax lmin t).sum = fixedSum lmax lmin + t.sum := by
  induction lmax generalizing lmin t with
  | nil =>
    rw [List.length_eq_zero_iff.1 h]
    simp [freeOf] at ht
    simp [mergeDims, fixedSum, fixedVals, ht]
  | cons a lmax ih =>
    cases lmin with
    | nil => simp at h
    | cons b lmin =>
      have h' : lmin.length = lmax.length := by simpa using h
      by_cases hab : a = b
      · have := ih lmin t h' (by simpa [freeOf, hab] using ht)
        simp only [fixedSum, mergeDims, fixedVals, hab, if_true, List.sum_cons] at *
        omega
      · cases t with
        | nil => simp [freeOf, hab] at ht
        | cons x t =>
          have := ih lmin t h' (by simpa [freeOf, hab] using ht)
          simp only [fixedSum, mergeDims, fixedVals, hab, if_false, List.sum_cons] at *
          omega

/-- componentwise comparison with a merged vector -/
theorem le_merge_iff (lmax lmin k t : List ℕ) (h : lmin.length = lmax.length)
    (hk : k.length = lmax.length) (ht : t.length = (freeOf lmax lmin lmax).length) :
    VecLe k (mergeDims lmax lmin t) ↔
      VecLe k (mergeDims lmax lmin (freeOf lmax lmin k)) ∧ VecLe (freeOf lmax lmin k) t := by
  induction lmax generalizing lmin k t with
  | nil =>
    rw [List.length_eq_zero_iff.1 h, List.length_eq_zero_iff.1 hk]
    simp [freeOf] at ht
    simp [mergeDims, freeOf, ht]
  | cons a lmax ih =>
    cases lmin with
    | nil => simp at h
    | cons b lmin =>
      cases k with
      | nil => simp at hk
      | cons x k =>
        have h' : lmin.length = lmax.length := by simpa using h
        have hk' : k.length = lmax.length := by simpa using hk
        by_cases hab : a = b
        · have := ih lmin k t h' hk' (by simpa [freeOf, hab] using ht)
          simp only [VecLe] at this
          simp only [mergeDims, freeOf, hab, if_true, List.forall₂_cons, VecLe]
          rw [this]
          tauto
        · cases t with
          | nil => simp [freeOf, hab] at ht
          | cons y t =>
            have := ih lmin k t h' hk' (by simpa [freeOf, hab] using ht)
            simp only [VecLe] at this
            simp only [mergeDims, freeOf, hab, if_false, List.forall₂_cons, le_refl, true_and, VecLe]
            rw [this]
            tauto

theorem merge_free (lmax lmin t : List ℕ) (h : lmin.length = lmax.length)
    (ht : t.length = (freeOf lmax lmin lmax).length) :
    freeOf lmax lmin (mergeDims lmax lmin t) = t := by
  induction lmax generalizing lmin t with
  | nil =>
    simp [freeOf] at ht
    simp [freeOf, ht]
  | cons a lmax ih =>
    cases lmin with
    | nil => simp at h
    | cons b lmin =>
      have h' : lmin.length = lmax.length := by simpa using h
      by_cases hab : a = b
      · have := ih lmin t h' (by simpa [freeOf, hab] using ht)
        simp only [mergeDims, freeOf, hab, if_true] at *
        exact this
      · cases t with
        | nil => simp [freeOf, hab] at ht
        | cons y t =>
          have := ih lmin t h' (by simpa [freeOf, hab] using ht)
          simp only [mergeDims, freeOf, hab, if_false, this]

theorem length_merge (lmax lmin t : List ℕ) (h : lmin.length = lmax.length)
    (ht : t.length = (freeOf lmax lmin lmax).length) :
    (mergeDims lmax lmin t).length = lmax.length := by
  induction lmax generalizing lmin t with
  | nil => simp [mergeDims]
  | cons a lmax ih =>
    cases lmin with
    | nil => simp at h
    | cons b lmin =>
      have h' : lmin.length = lmax.length := by simpa using h
      by_cases hab : a = b
      · have := ih lmin t h' (by simpa [freeOf, hab] using ht)
        simp only [mergeDims, hab, if_true, List.length_cons, this]
      · cases t with
        | nil => simp [freeOf, hab] at ht
        | cons y t =>
          have := ih lmin t h' (by simpa [freeOf, hab] using ht)
          simp only [mergeDims, hab, if_false, List.length_cons, this]

theorem length_freeOf (lmax lmin x : List ℕ) (h : lmin.length = lmax.length)
    (hx : x.length = lmax.length) :
    (freeOf lmax lmin x).length = (freeOf lmax lmin lmax).length := by
  have h1 := length_free_fixed lmax lmin h.symm x hx.symm
  have h2 := length_free_fixed lmax lmin h.symm lmax rfl
  omega

/-- comparing two merged vectors -/
theorem merge_le_merge (lmax lmin s t : List ℕ) (h : lmin.length = lmax.length)
    (hs : s.length = (freeOf lmax lmin lmax).length)
    (ht : t.length = (freeOf lmax lmin lmax).length) :
    VecLe (mergeDims lmax lmin s) (mergeDims lmax lmin t) ↔ VecLe s t := by
  rw [le_merge_iff lmax lmin _ t h (length_merge _ _ _ h hs) ht, merge_free _ _ _ h hs]
  exact ⟨fun h => h.2, fun h => ⟨VecLe.refl _, h⟩⟩

theorem effDim_eq (lmin lmax : List ℕ) (h : lmin.length = lmax.length) :
    (Scheme.mk' lmin lmax).effDim = (freeOf lmax lmin lmax).length := by
  have h2 := length_free_fixed lmax lmin h.symm lmax rfl
  have h3 : ((List.zipWith (fun a b : ℕ => (a : ℤ) - b) lmax lmin).filter (· == 0)).length =
      (fixedPos lmax lmin).length := by
    clear h2
    induction lmax generalizing lmin with
    | nil => simp [fixedPos]
    | cons a lmax ih =>
      cases lmin with
      | nil => simp at h
      | cons b lmin =>
        have := ih lmin (by simpa using h)
        simp only [List.zipWith_cons_cons, fixedPos]
        by_cases hab : a = b
        · rw [List.filter_cons_of_pos (by simp [hab])]
          simp [hab, this]
        · have : ¬ (a : ℤ) - b = 0 := by omega
          rw [List.filter_cons_of_neg (by simpa using this)]
          simp [*]
  simp only [Scheme.mk', h3]
  omega

end Verif

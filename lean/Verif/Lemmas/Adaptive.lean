import Verif.Lemmas.Moebius

/-! Helper lemmas about the adaptive scheme. -/

namespace Verif

theorem adaptiveCoeff_eq_mu (S : List (List ℕ)) (l : List ℕ) :
    adaptiveCoeff S l = (S.map fun m => mu l m).sum := rfl

/-- the list with zero-coefficient entries replaced by the zero vector -/
def zeroed (dim : ℕ) (S P : List (List ℕ)) : List (List ℕ) :=
  P.map fun l => if adaptiveCoeff S l = 0 then List.replicate dim 0 else l

theorem not_le_zero {l : List ℕ} {d : ℕ} (hne : l ≠ []) (hpos : ∀ x ∈ l, 1 ≤ x) :
    ¬ VecLe l (List.replicate d 0) := by
  cases l with
  | nil => simp at hne
  | cons a l =>
    intro h
    cases d with
    | zero => cases h
    | succ d =>
      rw [List.replicate_succ] at h
      cases h with
      | cons h1 _ =>
        have := hpos a (by simp)
        omega

theorem mu_zeroed_prefix (dim : ℕ) (S P : List (List ℕ)) (l : List ℕ) (hne : l ≠ [])
    (hpos : ∀ x ∈ l, 1 ≤ x) (hP : ∀ p ∈ P, p < l) :
    ((zeroed dim S P).map fun m => mu l m) = P.map fun m => mu l m := by
  simp only [zeroed, List.map_map]
  apply List.map_congr_left
  intro p hp
  simp only [Function.comp_apply]
  split
  · rw [mu_eq_zero_of_not_le (not_le_zero hne hpos), mu_eq_zero_of_not_le]
    intro h
    exact h.not_lt (hP p hp)
  · rfl

/-- loop invariant of `computeCombiCoeffsAdaptive` -/
theorem adaptive_fold (dim : ℕ) (S : List (List ℕ)) (hs : S.Pairwise (· < ·))
    (hne : ∀ l ∈ S, l ≠ []) (hpos : ∀ l ∈ S, ∀ x ∈ l, 1 ≤ x) (R P : List (List ℕ))
    (hS : S = P ++ R) :
    (List.range' P.length R.length).foldl (adaptiveStep dim)
        (zeroed dim S P ++ R, P.map (adaptiveCoeff S)) =
      (zeroed dim S S, S.map (adaptiveCoeff S)) := by
  induction R generalizing P with
  | nil => subst hS; simp
  | cons l R ih =>
    rw [List.length_cons, List.range'_succ, List.foldl_cons]
    have hl : l ∈ S := by rw [hS]; simp
    have hlt : ∀ p ∈ P, p < l := by
      rw [hS, List.pairwise_append] at hs
      exact fun p hp => hs.2.2 p hp l (by simp)
    have hzl : (zeroed dim S P).length = P.length := by simp [zeroed]
    have hget : (zeroed dim S P ++ l :: R).getD P.length [] = l := by
      rw [← hzl]; simp
    have hco : adaptiveCoeff (zeroed dim S P ++ l :: R) l = adaptiveCoeff S l := by
      rw [adaptiveCoeff_eq_mu, adaptiveCoeff_eq_mu, List.map_append,
        mu_zeroed_prefix dim S P l (hne l hl) (hpos l hl) hlt, ← List.map_append, ← hS]
    have hset : (zeroed dim S P ++ l :: R).set P.length (List.replicate dim 0) =
        zeroed dim S P ++ List.replicate dim 0 :: R := by
      rw [← hzl]; simp
    have hstep : adaptiveStep dim (zeroed dim S P ++ l :: R, P.map (adaptiveCoeff S)) P.length =
        (zeroed dim S (P ++ [l]) ++ R, (P ++ [l]).map (adaptiveCoeff S)) := by
      simp only [adaptiveStep, hget, hco, hset]
      by_cases h0 : adaptiveCoeff S l = 0
      · simp [zeroed, h0]
      · simp [zeroed, h0]
    rw [hstep]
    have := ih (P ++ [l]) (by rw [hS]; simp)
    simpa using this

theorem computeCombiCoeffsAdaptive_eq (dim : ℕ) (S : List (List ℕ)) (hs : S.Pairwise (· < ·))
    (hne : ∀ l ∈ S, l ≠ []) (hpos : ∀ l ∈ S, ∀ x ∈ l, 1 ≤ x) :
    computeCombiCoeffsAdaptive dim S =
      (S.filter fun l => adaptiveCoeff S l != 0,
        (S.filter fun l => adaptiveCoeff S l != 0).map (adaptiveCoeff S)) := by
  have h := adaptive_fold dim S hs hne hpos S [] rfl
  simp only [List.length_nil, zeroed, List.map_nil, List.nil_append] at h
  rw [← List.range_eq_range'] at h
  simp only [computeCombiCoeffsAdaptive, h]
  refine Prod.ext ?_ ?_
  · simp only
    have : ∀ T : List (List ℕ), (∀ l ∈ T, l ∈ S) →
        (T.map fun l => if adaptiveCoeff S l = 0 then List.replicate dim 0 else l).filter
          (fun l => l != List.replicate dim 0) = T.filter fun l => adaptiveCoeff S l != 0 := by
      intro T hT
      induction T with
      | nil => simp
      | cons l T ih =>
        have ih := ih fun l hl => hT l (by simp [hl])
        have hl : l ∈ S := hT l (by simp)
        have hl0 : l ≠ List.replicate dim 0 := by
          rintro hc
          exact not_le_zero (hne l hl) (hpos l hl) (d := dim) (hc ▸ VecLe.refl l)
        rw [List.map_cons]
        by_cases h0 : adaptiveCoeff S l = 0
        · simp only [h0, if_true]
          rw [List.filter_cons_of_neg (by simp), List.filter_cons_of_neg (by simp [h0])]
          exact ih
        · simp only [h0, if_false]
          rw [List.filter_cons_of_pos (by simpa using hl0),
            List.filter_cons_of_pos (by simp [h0]), ih]
    exact this S fun l hl => hl
  · simp only [List.filter_map, Function.comp_def]

/-- zero-coefficient grids do not contribute -/
theorem sum_filter_ne_zero (S : List (List ℕ)) (f : List ℕ → ℤ) (p : List ℕ → Bool) :
    (((S.filter fun l => f l != 0).filter p).map f).sum = ((S.filter p).map f).sum := by
  induction S with
  | nil => simp
  | cons l S ih =>
    by_cases h : f l = 0
    · rw [List.filter_cons_of_neg (by simp [h])]
      by_cases hp : p l = true
      · rw [List.filter_cons_of_pos hp, List.map_cons, List.sum_cons, h, ih, zero_add]
      · rw [List.filter_cons_of_neg hp, ih]
    · rw [List.filter_cons_of_pos (by simp [h])]
      by_cases hp : p l = true
      · rw [List.filter_cons_of_pos hp, List.filter_cons_of_pos hp]
        simp only [List.map_cons, List.sum_cons, ih]
      · rw [List.filter_cons_of_neg hp, List.filter_cons_of_neg hp, ih]

/-! specification of the coefficient -/

/-- all vectors of length `d` with entries 0 and 1 -/
def zeroOne : ℕ → List (List ℕ)
  | 0 => [[]]
  | d + 1 => (zeroOne d).map (0 :: ·) ++ (zeroOne d).map (1 :: ·)

/-- componentwise sum -/
def vecAdd (a b : List ℕ) : List ℕ := List.zipWith (· + ·) a b

theorem mem_zeroOne (d : ℕ) (z : List ℕ) : z ∈ zeroOne d ↔ z.length = d ∧ ∀ x ∈ z, x ≤ 1 := by
  induction d generalizing z with
  | zero =>
    simp only [zeroOne, List.mem_singleton]
    constructor
    · rintro rfl; simp
    · rintro ⟨h, -⟩; exact List.length_eq_zero_iff.1 h
  | succ d ih =>
    simp only [zeroOne, List.mem_append, List.mem_map, ih]
    constructor
    · rintro (⟨t, ⟨h1, h2⟩, rfl⟩ | ⟨t, ⟨h1, h2⟩, rfl⟩)
      · exact ⟨by simp [h1], by simpa using h2⟩
      · exact ⟨by simp [h1], by simpa using h2⟩
    · rintro ⟨h1, h2⟩
      cases z with
      | nil => simp at h1
      | cons a z =>
        have ha := h2 a (by simp)
        have hz : z.length = d ∧ ∀ x ∈ z, x ≤ 1 :=
          ⟨by simpa using h1, fun x hx => h2 x (by simp [hx])⟩
        rcases Nat.le_one_iff_eq_zero_or_eq_one.1 ha with rfl | rfl
        · left; exact ⟨z, hz, rfl⟩
        · right; exact ⟨z, hz, rfl⟩

theorem nodup_zeroOne (d : ℕ) : (zeroOne d).Nodup := by
  induction d with
  | zero => simp [zeroOne]
  | succ d ih =>
    simp only [zeroOne]
    rw [List.nodup_append]
    refine ⟨ih.map fun x y h => by simpa using h, ih.map fun x y h => by simpa using h, ?_⟩
    intro a ha b hb
    simp only [List.mem_map] at ha hb
    obtain ⟨t, -, rfl⟩ := ha
    obtain ⟨s, -, rfl⟩ := hb
    simp

theorem mu_vecAdd (l z : List ℕ) (hl : l.length = z.length) (hz : ∀ x ∈ z, x ≤ 1) :
    mu l (vecAdd l z) = (-1) ^ z.sum := by
  induction l generalizing z with
  | nil =>
    cases z with
    | nil => simp [vecAdd, mu_nil]
    | cons a z => simp at hl
  | cons a l ih =>
    cases z with
    | nil => simp at hl
    | cons b z =>
      have ih := ih z (by simpa using hl) fun x hx => hz x (by simp [hx])
      have hb := hz b (by simp)
      have : vecAdd (a :: l) (b :: z) = (a + b) :: vecAdd l z := rfl
      rw [this, mu_cons, ih, List.sum_cons]
      rcases Nat.le_one_iff_eq_zero_or_eq_one.1 hb with rfl | rfl
      · simp [mu1]
      · simp [mu1, pow_add]

theorem vecAdd_inj (l : List ℕ) : ∀ z z' : List ℕ, z.length = l.length → z'.length = l.length →
    vecAdd l z = vecAdd l z' → z = z' := by
  induction l with
  | nil =>
    intro z z' h h' _
    rw [List.length_eq_zero_iff.1 h, List.length_eq_zero_iff.1 h']
  | cons a l ih =>
    intro z z' h h' he
    cases z with
    | nil => simp at h
    | cons b z =>
      cases z' with
      | nil => simp at h'
      | cons b' z' =>
        simp only [vecAdd, List.zipWith_cons_cons, List.cons.injEq] at he
        rw [ih z z' (by simpa using h) (by simpa using h') he.2]
        congr 1
        omega

theorem exists_zeroOne (l m : List ℕ) (h : VecLe l m) (h' : VecLe m (l.map (· + 1))) :
    ∃ z ∈ zeroOne l.length, vecAdd l z = m := by
  refine ⟨List.zipWith (· - ·) m l, ?_, ?_⟩
  · rw [mem_zeroOne]
    refine ⟨by simp [h.length_eq], ?_⟩
    intro x hx
    obtain ⟨i, hi, rfl⟩ := List.mem_iff_getElem.1 hx
    simp at hi
    have := (List.forall₂_iff_get.1 h').2 i hi.1 (by simp; omega)
    simp at this
    simp
    omega
  · apply List.ext_getElem
    · simp [vecAdd, h.length_eq]
    · intro i h1 h2
      have := (List.forall₂_iff_get.1 h).2 i (by simp [vecAdd] at h1; omega) h2
      simp at this
      simp [vecAdd]
      omega

/-- the code's coefficient is the inclusion-exclusion sum -/
theorem adaptiveCoeff_eq_spec (S : List (List ℕ)) (hnd : S.Nodup) (l : List ℕ) :
    adaptiveCoeff S l =
      (((zeroOne l.length).filter fun z => decide (vecAdd l z ∈ S)).map fun z =>
        (-1 : ℤ) ^ z.sum).sum := by
  rw [adaptiveCoeff_eq_mu, list_sum_eq_finset S hnd,
    list_sum_eq_finset _ ((nodup_zeroOne _).filter _)]
  symm
  have hsub : (((zeroOne l.length).filter fun z => decide (vecAdd l z ∈ S)).toFinset.image
      (vecAdd l)) ⊆ S.toFinset := by
    intro m hm
    rw [Finset.mem_image] at hm
    obtain ⟨z, hz, rfl⟩ := hm
    rw [List.mem_toFinset, List.mem_filter] at hz
    exact List.mem_toFinset.2 (by simpa using hz.2)
  rw [← Finset.sum_subset hsub]
  · rw [Finset.sum_image]
    · apply Finset.sum_congr rfl
      intro z hz
      rw [List.mem_toFinset, List.mem_filter, mem_zeroOne] at hz
      exact (mu_vecAdd l z hz.1.1.symm hz.1.2).symm
    · intro z hz z' hz' he
      simp only [Finset.mem_coe, List.mem_toFinset, List.mem_filter, mem_zeroOne] at hz hz'
      exact vecAdd_inj l z z' hz.1.1 hz'.1.1 he
  · intro m hm hm'
    by_contra hc
    apply hm'
    unfold mu at hc
    split at hc
    · rename_i h
      simp only [Bool.and_eq_true, leVec_iff] at h
      obtain ⟨z, hz, rfl⟩ := exists_zeroOne l m h.1 h.2
      rw [Finset.mem_image]
      refine ⟨z, ?_, rfl⟩
      rw [List.mem_toFinset, List.mem_filter]
      exact ⟨hz, by simpa using List.mem_toFinset.1 hm⟩
    · exact (hc rfl).elim

end Verif

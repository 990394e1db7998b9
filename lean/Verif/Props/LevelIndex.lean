import Verif.Props.FullGridEval

/-!
# C72: levels and indices of the points of a full grid

`C72_level_index`: `getLI` gives for every point and dimension a level that is at most the level of the grid
and an odd index (level and index 0 for the left boundary) such that the index divided by 2 to the level is
the coordinate. `C72_injective`: different points have different levels and indices.
-/

namespace Verif.FullGridEval

/-- Specification: the level and index of the coordinate `p / 2 ^ L`. -/
def IsLevelIndex (L p : ℕ) (r : ℤ × ℕ) : Prop :=
  (p = 0 ∧ r = (0, 0)) ∨
    ∃ l : ℕ, r.1 = l ∧ l ≤ L ∧ r.2 % 2 = 1 ∧ (r.2 : ℚ) / 2 ^ l = (p : ℚ) / 2 ^ L

lemma halve_spec (fuel : ℕ) (L index : ℕ) (h0 : 0 < index) (hf : index ≤ fuel) (hL : index ≤ 2 ^ L) :
    ∃ r, halve fuel L index = .ok r ∧ IsLevelIndex L index r := by
  induction fuel generalizing L index with
  | zero => omega
  | succ fuel ih =>
    unfold halve
    split_ifs with h
    · cases L with
      | zero => simp at hL; omega
      | succ L =>
        rw [pow_succ] at hL
        obtain ⟨r, h1, h2⟩ := ih L (index / 2) (by omega) (by omega) (by omega)
        refine ⟨r, by rw [← h1]; congr 1; push_cast; ring, ?_⟩
        rcases h2 with h2 | ⟨l, e1, e2, e3, e4⟩
        · omega
        · refine Or.inr ⟨l, e1, by omega, e3, ?_⟩
          rw [e4, pow_succ]
          obtain ⟨k, rfl⟩ : ∃ k, index = 2 * k := ⟨index / 2, by omega⟩
          rw [Nat.mul_div_cancel_left _ two_pos]
          push_cast
          field_simp
    · exact ⟨_, rfl, Or.inr ⟨L, rfl, le_refl _, by simp only; omega, rfl⟩⟩

/-- C72, the levels and indices of a point. -/
theorem C72_level_index (dims : List (ℕ × ℕ)) (h : ∀ s ∈ dims, s.1 ≤ 28 ∧ s.2 ≤ 2) (js : List ℕ)
    (hjs : List.Forall₂ (· < ·) js (sizes dims)) :
    ∃ r, getLI dims (sequentialIndex (sizes dims) js) = .ok r ∧
      List.Forall₂ (fun (a : (ℕ × ℕ) × ℕ) q => IsLevelIndex a.1.1 (pos a.1.2 a.2) q) (dims.zip js) r := by
  induction dims generalizing js with
  | nil =>
    cases hjs
    exact ⟨[], rfl, List.Forall₂.nil⟩
  | cons s dims ih =>
    unfold sizes at hjs
    rw [List.map_cons] at hjs
    cases hjs with
    | @cons j _ js _ h1 h2 =>
      have hs := h s (List.mem_cons_self ..)
      have hn : 2 ^ s.1 + s.2 - 1 = nodal s.1 s.2 := rfl
      have hseq : sequentialIndex (sizes (s :: dims)) (j :: js) =
          j + nodal s.1 s.2 * sequentialIndex (sizes dims) js := sequentialIndex_cons ..
      obtain ⟨rs, e1, e2⟩ := ih (fun s hs => h s (List.mem_cons_of_mem _ hs)) js h2
      have hp : j + (if 0 < s.2 then 0 else 1) = pos s.2 j := by
        unfold pos
        by_cases hb : s.2 = 0
        · simp [hb]
        · simp [hb, Nat.pos_of_ne_zero hb]
      obtain ⟨r, f1, f2⟩ : ∃ r, (if pos s.2 j ≠ 0 then halve (pos s.2 j) s.1 (pos s.2 j)
          else .ok (0, pos s.2 j)) = .ok r ∧ IsLevelIndex s.1 (pos s.2 j) r := by
        split_ifs with h0
        · exact halve_spec _ _ _ (Nat.pos_of_ne_zero h0) (le_refl _) (pos_le hs.2 h1).1
        · have h0 : pos s.2 j = 0 := not_not.1 h0
          rw [h0]
          exact ⟨_, rfl, Or.inl ⟨rfl, rfl⟩⟩
      refine ⟨r :: rs, ?_, List.Forall₂.cons f2 e2⟩
      unfold getLI
      rw [powerOfTwo?_eq hs.1, hseq]
      simp only [hn]
      rw [if_neg (by omega), Nat.add_mul_mod_self_left, Nat.mod_eq_of_lt h1,
        Nat.add_mul_div_left _ _ (by omega), Nat.div_eq_of_lt h1, zero_add, hp, f1]
      simp only [Outcome.bind]
      rw [e1]

lemma IsLevelIndex.inj {L p q : ℕ} {r : ℤ × ℕ} (h1 : IsLevelIndex L p r) (h2 : IsLevelIndex L q r) :
    p = q := by
  have hp : (2 : ℚ) ^ L ≠ 0 := by positivity
  rcases h1 with ⟨a1, rfl⟩ | ⟨l, a1, a2, a3, a4⟩
  · rcases h2 with ⟨b1, -⟩ | ⟨l, b1, b2, b3, b4⟩
    · rw [a1, b1]
    · simp at b3
  · rcases h2 with ⟨b1, rfl⟩ | ⟨l', b1, b2, b3, b4⟩
    · simp at a3
    · have hl : l = l' := by
        rw [a1] at b1
        exact_mod_cast b1
      subst hl
      rw [a4, div_left_inj' hp] at b4
      exact_mod_cast b4

/-- C72, different points have different levels and indices. -/
theorem C72_injective (dims : List (ℕ × ℕ)) (h : ∀ s ∈ dims, s.1 ≤ 28 ∧ s.2 ≤ 2) (e e' : ℕ)
    (he : e < (sizes dims).prod) (he' : e' < (sizes dims).prod) (heq : getLI dims e = getLI dims e') :
    e = e' := by
  obtain ⟨h1, h2⟩ := getVectorIndex_spec (sizes dims) e he
  obtain ⟨h1', h2'⟩ := getVectorIndex_spec (sizes dims) e' he'
  obtain ⟨r, a1, a2⟩ := C72_level_index dims h _ h1
  obtain ⟨r', b1, b2⟩ := C72_level_index dims h _ h1'
  rw [h2] at a1
  rw [h2'] at b1
  rw [← heq, a1] at b1
  have hr : r = r' := by injection b1
  subst hr
  have key : ∀ (dims : List (ℕ × ℕ)) (js js' : List ℕ) (r : List (ℤ × ℕ)), js.length = dims.length →
      js'.length = dims.length →
      List.Forall₂ (fun (a : (ℕ × ℕ) × ℕ) q => IsLevelIndex a.1.1 (pos a.1.2 a.2) q) (dims.zip js) r →
      List.Forall₂ (fun (a : (ℕ × ℕ) × ℕ) q => IsLevelIndex a.1.1 (pos a.1.2 a.2) q) (dims.zip js') r →
      js = js' := by
    intro dims
    induction dims with
    | nil =>
      intro js js' r l1 l2 _ _
      rw [List.length_nil, List.length_eq_zero_iff] at l1 l2
      rw [l1, l2]
    | cons s dims ih =>
      intro js js' r l1 l2 f1 f2
      cases js with
      | nil => simp at l1
      | cons j js =>
        cases js' with
        | nil => simp at l2
        | cons j' js' =>
          rw [List.zip_cons_cons] at f1 f2
          cases f1 with
          | cons x1 x2 =>
            cases f2 with
            | cons y1 y2 =>
              have hp := x1.inj y1
              simp only at hp
              have hj : j = j' := by
                unfold pos at hp
                split_ifs at hp <;> omega
              rw [hj, ih js js' _ (by simpa using l1) (by simpa using l2) x2 y2]
  have hl : ∀ js, List.Forall₂ (· < ·) js (sizes dims) → js.length = dims.length := fun js hjs => by
    rw [hjs.length_eq, sizes, List.length_map]
  have := key dims _ _ r (hl _ h1) (hl _ h1') a2 b2
  rw [← h2, this, h2']

/-- C72, the left boundary has level and index 0, the right one level 0 and index 1, the middle level 1 and
index 1. -/
example : (List.range 5).map (fun e => getLI [(2, 2)] e) =
      [.ok [(0, 0)], .ok [(2, 1)], .ok [(1, 1)], .ok [(2, 3)], .ok [(0, 1)]] ∧
    getLI [(1, 2), (3, 0), (2, 1)] 41 = .ok [(0, 1), (3, 7), (2, 1)] ∧
    sequentialIndex (sizes [(1, 2), (3, 0), (2, 1)]) [2, 6, 1] = 41 ∧
    List.Forall₂ (· < ·) [2, 6, 1] (sizes [(1, 2), (3, 0), (2, 1)]) ∧
    ∀ s ∈ [((1 : ℕ), (2 : ℕ)), (3, 0), (2, 1)], s.1 ≤ 28 ∧ s.2 ≤ 2 := by
  refine ⟨by decide, by decide, by decide, ?_, by decide⟩
  decide

end Verif.FullGridEval

import Verif.Model.Storage
import Mathlib.Data.List.GetD
import Mathlib.Data.Nat.Bitwise
import Mathlib.Data.List.Basic

/-!
# Lemmas on the subspace votes
-/

namespace Verif

theorem mapM_eq_some_map {α β : Type} (l : List α) (f : α → Option β) (g : α → β)
    (h : ∀ a ∈ l, f a = some (g a)) : l.mapM f = some (l.map g) := by
  induction l with
  | nil => rfl
  | cons a l ih =>
    rw [List.mapM_cons, h a (by simp), ih fun b hb => h b (by simp [hb])]
    rfl

theorem foldl_lor (vs : List (List ℕ)) (acc : List ℕ) (n : ℕ) (hacc : acc.length = n)
    (hvs : ∀ v ∈ vs, v.length = n) :
    (vs.foldl (List.zipWith (· ||| ·)) acc).length = n ∧
      ∀ i r, ((vs.foldl (List.zipWith (· ||| ·)) acc).getD i 0).testBit r = true ↔
        (acc.getD i 0).testBit r = true ∨ ∃ v ∈ vs, (v.getD i 0).testBit r = true := by
  induction vs generalizing acc with
  | nil => simpa using hacc
  | cons v vs ih =>
    have hv := hvs v (by simp)
    obtain ⟨h1, h2⟩ := ih (List.zipWith (· ||| ·) acc v) (by simp [hacc, hv])
      (fun w hw => hvs w (by simp [hw]))
    refine ⟨h1, fun i r => ?_⟩
    rw [List.foldl_cons, h2]
    have e : (List.zipWith (· ||| ·) acc v).getD i 0 = acc.getD i 0 ||| v.getD i 0 := by
      by_cases hi : i < n
      · rw [List.getD_eq_getElem _ _ (by simp [hacc, hv, hi]), List.getD_eq_getElem _ _ (by omega),
          List.getD_eq_getElem _ _ (by omega), List.getElem_zipWith]
      · rw [List.getD_eq_default _ _ (by simp; omega), List.getD_eq_default _ _ (by omega),
          List.getD_eq_default _ _ (by omega)]
        rfl
    rw [e, Nat.testBit_or, Bool.or_eq_true]
    simp only [List.mem_cons, exists_eq_or_imp]
    tauto

/-- rank `r` holds subspace `i` -/
def Holds (sizes : List (List ℕ)) (r i : ℕ) : Prop := ∃ s, sizes[r]? = some s ∧ 0 < s.getD i 0

theorem getSubspaceVote_spec (n : ℕ) (sizes : List (List ℕ)) (hn : ∀ s ∈ sizes, s.length = n)
    (hr : sizes.length ≤ 256) :
    ∃ votes, getSubspaceVote n sizes = some votes ∧ votes.length = n ∧
      ∀ i r, (votes.getD i 0).testBit r = true ↔ Holds sizes r i := by
  have hm := mapM_eq_some_map ((List.range sizes.length).zip sizes) (fun p => ownVote p.1 p.2)
    (fun p => p.2.map fun s => if s > 0 then 1 <<< p.1 else 0) (by
      rintro ⟨r, s⟩ hp
      have := (List.of_mem_zip hp).1
      rw [List.mem_range] at this
      unfold ownVote
      rw [if_neg (by simp only; omega)])
  have hl := foldl_lor (((List.range sizes.length).zip sizes).map
    fun p => p.2.map fun s => if s > 0 then 1 <<< p.1 else 0) (List.replicate n 0) n (by simp) (by
      intro v hv
      obtain ⟨p, hp, rfl⟩ := List.mem_map.1 hv
      rw [List.length_map]
      exact hn _ (List.of_mem_zip hp).2)
  refine ⟨_, by unfold getSubspaceVote; rw [hm]; rfl, hl.1, fun i r => ?_⟩
  rw [hl.2]
  have e0 : ((List.replicate n 0).getD i 0).testBit r = false := by
    have : (List.replicate n 0).getD i 0 = 0 := by
      by_cases hi : i < n
      · rw [List.getD_eq_getElem _ _ (by simpa using hi), List.getElem_replicate]
      · rw [List.getD_eq_default _ _ (by simp; omega)]
    rw [this, Nat.zero_testBit]
  rw [e0]
  simp only [Bool.false_eq_true, false_or, List.mem_map, exists_exists_and_eq_and]
  have own : ∀ (r' : ℕ) (s : List ℕ), ((s.map fun s => if s > 0 then 1 <<< r' else 0).getD i 0).testBit r
      = true ↔ r' = r ∧ 0 < s.getD i 0 := by
    intro r' s
    by_cases hi : i < s.length
    · rw [List.getD_eq_getElem _ _ (by simpa using hi), List.getD_eq_getElem _ _ hi,
        List.getElem_map]
      by_cases hp : s[i] > 0
      · rw [if_pos hp, Nat.one_shiftLeft, Nat.testBit_two_pow]
        simp [hp]
      · rw [if_neg hp, Nat.zero_testBit]
        simp
        omega
    · rw [List.getD_eq_default _ _ (by simpa using hi), List.getD_eq_default _ _ (by omega),
        Nat.zero_testBit]
      simp
  constructor
  · rintro ⟨⟨r', s⟩, hp, h⟩
    rw [own] at h
    obtain ⟨rfl, h⟩ := h
    obtain ⟨k, hk, he⟩ := List.mem_iff_getElem.1 hp
    simp only [List.getElem_zip, List.getElem_range, Prod.mk.injEq] at he
    refine ⟨s, ?_, h⟩
    rw [← he.1, ← he.2]
    simp at hk
    exact List.getElem?_eq_getElem hk
  · rintro ⟨s, hs, h⟩
    refine ⟨(r, s), ?_, (own r s).2 ⟨rfl, h⟩⟩
    obtain ⟨hk, he⟩ := List.getElem?_eq_some_iff.1 hs
    rw [List.mem_iff_getElem]
    exact ⟨r, by simpa using hk, by simp [he]⟩

theorem manyBits_iff (v : ℕ) :
    manyBits v = true ↔ ∃ r r', r ≠ r' ∧ v.testBit r = true ∧ v.testBit r' = true := by
  unfold manyBits
  rw [Bool.and_eq_true, decide_eq_true_iff, decide_eq_true_iff]
  constructor
  · rintro ⟨h0, h1⟩
    rw [Ne, Nat.and_sub_one_eq_zero_iff_isPowerOfTwo h0] at h1
    obtain ⟨r, hr⟩ := Nat.exists_testBit_of_ne_zero h0
    by_contra hc
    push Not at hc
    apply h1
    refine ⟨r, Nat.eq_of_testBit_eq fun i => ?_⟩
    rw [Nat.testBit_two_pow]
    by_cases hi : r = i
    · subst hi; simp [hr]
    · have := hc r i hi hr
      simp [hi, this]
  · rintro ⟨r, r', hne, h, h'⟩
    have h0 : v ≠ 0 := by
      rintro rfl
      simp at h
    refine ⟨h0, ?_⟩
    rw [Ne, Nat.and_sub_one_eq_zero_iff_isPowerOfTwo h0]
    rintro ⟨k, rfl⟩
    rw [Nat.testBit_two_pow] at h h'
    simp at h h'
    omega

theorem mem_ranksOfVote (v r : ℕ) : r ∈ ranksOfVote v ↔ r < 256 ∧ v.testBit r = true := by
  unfold ranksOfVote
  rw [List.mem_filter, List.mem_range, decide_eq_true_iff, Nat.one_shiftLeft]
  apply and_congr_right
  intro _
  rw [← Nat.one_shiftLeft, Nat.one_shiftLeft, Nat.and_two_pow]
  cases v.testBit r <;> simp

/-! ### The map of votes -/

theorem mem_mapPushBack (v i : ℕ) (m : List (ℕ × List ℕ))
    (hs : m.Pairwise fun a b => a.1 < b.1) :
    ((mapPushBack v i m).Pairwise fun a b => a.1 < b.1) ∧
    (∀ e ∈ mapPushBack v i m, e.1 = v ∨ e ∈ m) ∧
    ∀ w is, (w, is) ∈ mapPushBack v i m ↔
      (w ≠ v ∧ (w, is) ∈ m) ∨
      (w = v ∧ ((∃ is0, (v, is0) ∈ m ∧ is = is0 ++ [i]) ∨ ((∀ is0, (v, is0) ∉ m) ∧ is = [i]))) := by
  induction m with
  | nil =>
    refine ⟨by simp [mapPushBack], by simp [mapPushBack], fun w is => ?_⟩
    simp [mapPushBack]
  | cons a m ih =>
    obtain ⟨u, us⟩ := a
    rw [List.pairwise_cons] at hs
    obtain ⟨ih1, ih2, ih3⟩ := ih hs.2
    unfold mapPushBack
    by_cases h1 : v < u
    · rw [if_pos h1]
      have hno : ∀ e ∈ (u, us) :: m, v < e.1 := by
        intro e he
        rcases List.mem_cons.1 he with rfl | he
        · exact h1
        · have := hs.1 e he
          simp only at this
          omega
      refine ⟨List.pairwise_cons.2 ⟨fun e he => hno e he, List.pairwise_cons.2 hs⟩, ?_, ?_⟩
      · intro e he
        rcases List.mem_cons.1 he with rfl | he
        · exact Or.inl rfl
        · exact Or.inr he
      · intro w is
        rw [List.mem_cons, Prod.mk.injEq]
        constructor
        · rintro (⟨rfl, rfl⟩ | h)
          · exact Or.inr ⟨rfl, Or.inr ⟨fun is0 h => by have := hno _ h; simp at this, rfl⟩⟩
          · exact Or.inl ⟨by have := hno _ h; simp only at this; omega, h⟩
        · rintro (⟨_, h⟩ | ⟨rfl, ⟨is0, h, _⟩ | ⟨_, rfl⟩⟩)
          · exact Or.inr h
          · have := hno _ h
            simp at this
          · exact Or.inl ⟨rfl, rfl⟩
    · rw [if_neg h1]
      by_cases h2 : v = u
      · subst h2
        rw [if_pos rfl]
        have hno : ∀ is0, (v, is0) ∉ m := fun is0 h => by have := hs.1 _ h; simp at this
        refine ⟨List.pairwise_cons.2 ⟨fun e he => hs.1 e he, hs.2⟩, ?_, ?_⟩
        · intro e he
          rcases List.mem_cons.1 he with rfl | he
          · exact Or.inl rfl
          · exact Or.inr (by simp [he])
        · intro w is
          rw [List.mem_cons, Prod.mk.injEq]
          constructor
          · rintro (⟨rfl, rfl⟩ | h)
            · exact Or.inr ⟨rfl, Or.inl ⟨us, by simp, rfl⟩⟩
            · refine Or.inl ⟨?_, by simp [h]⟩
              rintro rfl
              exact hno _ h
          · rintro (⟨hw, h⟩ | ⟨rfl, ⟨is0, h, rfl⟩ | ⟨h, _⟩⟩)
            · rcases List.mem_cons.1 h with h | h
              · rw [Prod.mk.injEq] at h
                exact absurd h.1 hw
              · exact Or.inr h
            · rcases List.mem_cons.1 h with h | h
              · rw [Prod.mk.injEq] at h
                exact Or.inl ⟨rfl, by rw [h.2]⟩
              · exact absurd h (hno _)
            · exact absurd (List.mem_cons_self) (h us)
      · rw [if_neg h2]
        refine ⟨List.pairwise_cons.2 ⟨?_, ih1⟩, ?_, ?_⟩
        · intro e he
          rcases ih2 e he with h | h
          · simp only [h]
            omega
          · exact hs.1 e h
        · intro e he
          rcases List.mem_cons.1 he with rfl | he
          · exact Or.inr (by simp)
          · rcases ih2 e he with h | h
            · exact Or.inl h
            · exact Or.inr (by simp [h])
        · intro w is
          rw [List.mem_cons, ih3]
          have hv : ∀ is0, (v, is0) ∈ (u, us) :: m ↔ (v, is0) ∈ m := by
            intro is0
            rw [List.mem_cons, Prod.mk.injEq]
            exact ⟨fun h => h.resolve_left fun h => h2 h.1, Or.inr⟩
          simp only [hv, List.mem_cons]
          constructor
          · rintro (h | h | h)
            · refine Or.inl ⟨?_, Or.inl h⟩
              rw [Prod.mk.injEq] at h
              omega
            · exact Or.inl ⟨h.1, Or.inr h.2⟩
            · exact Or.inr h
          · rintro (⟨h, h' | h'⟩ | h)
            · exact Or.inl h'
            · exact Or.inr (Or.inl ⟨h, h'⟩)
            · exact Or.inr (Or.inr h)

/-- subspaces below `k` with vote `w` -/
def withVote (votes : List ℕ) (k w : ℕ) : List ℕ :=
  (List.range k).filter fun i => decide (votes[i]? = some w)

theorem withVote_succ (votes : List ℕ) (k w : ℕ) :
    withVote votes (k + 1) w = withVote votes k w ++ if votes[k]? = some w then [k] else [] := by
  unfold withVote
  rw [List.range_succ, List.filter_append]
  congr 1
  by_cases h : votes[k]? = some w <;> simp [h]

theorem subspacesByVote_prefix (votes : List ℕ) (k : ℕ) (hk : k ≤ votes.length) :
    let m := (List.range k).foldl
      (fun m i => match votes[i]? with
        | some v => if manyBits v then mapPushBack v i m else m
        | none => m) ([] : List (ℕ × List ℕ))
    (m.Pairwise fun a b => a.1 < b.1) ∧
      ∀ w is, (w, is) ∈ m ↔ manyBits w = true ∧ is = withVote votes k w ∧ is ≠ [] := by
  induction k with
  | zero =>
    refine ⟨by simp, fun w is => ?_⟩
    simp only [List.range_zero, List.foldl_nil, List.not_mem_nil, withVote, List.filter_nil,
      false_iff]
    tauto
  | succ k ih =>
    obtain ⟨h1, h2⟩ := ih (by omega)
    simp only [List.range_succ, List.foldl_append, List.foldl_cons, List.foldl_nil]
    have hkl : k < votes.length := by omega
    rw [List.getElem?_eq_getElem hkl]
    simp only
    generalize hm : (List.range k).foldl
      (fun m i => match votes[i]? with
        | some v => if manyBits v then mapPushBack v i m else m
        | none => m) ([] : List (ℕ × List ℕ)) = m at h1 h2 ⊢
    generalize hv : votes[k] = v
    have hvk : votes[k]? = some v := by rw [List.getElem?_eq_getElem hkl, hv]
    by_cases hb : manyBits v = true
    · rw [if_pos hb]
      obtain ⟨p1, p2, p3⟩ := mem_mapPushBack v k m h1
      refine ⟨p1, fun w is => ?_⟩
      rw [p3, withVote_succ, hvk]
      simp only [h2, Option.some.injEq]
      by_cases hw : w = v
      · subst hw
        simp only [ne_eq, not_true_eq_false, false_and, hb, true_and, false_or, if_true]
        constructor
        · rintro (⟨is0, ⟨rfl, _⟩, rfl⟩ | ⟨h, rfl⟩)
          · exact ⟨rfl, by simp⟩
          · have : withVote votes k w = [] := by
              by_contra hne
              exact h _ ⟨rfl, hne⟩
            rw [this]
            exact ⟨rfl, by simp⟩
        · rintro ⟨rfl, _⟩
          by_cases he : withVote votes k w = []
          · rw [he]
            exact Or.inr ⟨fun is0 h => h.2 h.1, rfl⟩
          · exact Or.inl ⟨_, ⟨rfl, he⟩, rfl⟩
      · have : ¬ v = w := fun h => hw h.symm
        simp [hw, this]
    · rw [if_neg hb]
      refine ⟨h1, fun w is => ?_⟩
      rw [h2, withVote_succ, hvk]
      by_cases hw : v = w
      · subst hw
        simp [hb]
      · simp [hw]

theorem mem_withVote {votes : List ℕ} {k w i : ℕ} :
    i ∈ withVote votes k w ↔ i < k ∧ votes[i]? = some w := by
  simp [withVote]

theorem subspacesForMany_prefix (votes : List ℕ) (k : ℕ) (hk : k ≤ votes.length) :
    let m := (List.range k).foldl
      (fun m i => match votes[i]? with
        | some v => if manyBits v then (m.1 ++ [i], m.2 ||| v) else m
        | none => m) (([], 0) : List ℕ × ℕ)
    m.1 = ((List.range k).filter fun i => manyBits (votes.getD i 0)) ∧
      ∀ r, m.2.testBit r = true ↔ ∃ i ∈ m.1, (votes.getD i 0).testBit r = true := by
  induction k with
  | zero => simp
  | succ k ih =>
    obtain ⟨h1, h2⟩ := ih (by omega)
    simp only [List.range_succ, List.foldl_append, List.foldl_cons, List.foldl_nil]
    have hkl : k < votes.length := by omega
    rw [List.getElem?_eq_getElem hkl]
    simp only
    have hg : votes.getD k 0 = votes[k] := List.getD_eq_getElem _ _ hkl
    by_cases hb : manyBits votes[k] = true
    · rw [if_pos hb, List.filter_append]
      simp only
      refine ⟨by rw [h1, List.filter_singleton, hg, hb]; rfl, fun r => ?_⟩
      rw [Nat.testBit_or, Bool.or_eq_true, h2]
      simp only [List.mem_append, List.mem_singleton]
      constructor
      · rintro (⟨i, hi, h⟩ | h)
        · exact ⟨i, Or.inl hi, h⟩
        · exact ⟨k, Or.inr rfl, by rw [hg]; exact h⟩
      · rintro ⟨i, hi | rfl, h⟩
        · exact Or.inl ⟨i, hi, h⟩
        · exact Or.inr (by rw [hg] at h; exact h)
    · rw [if_neg hb, List.filter_append]
      refine ⟨by rw [h1, List.filter_singleton, hg, Bool.eq_false_iff.2 hb]; exact (List.append_nil _).symm, h2⟩

end Verif

import Verif.Model.SchemeFile
import Verif.Lemmas.SchemeGenerator
import Verif.Props.WorkDistribution

/-!
# Lemmas about combination schemes in files
-/

namespace Verif.SchemeFile

/-! ### Reading -/

lemma getInt_repr (v : ℤ) (h1 : -2 ^ 31 ≤ v) (h2 : v < 2 ^ 31) : getInt v.repr = some v := by
  unfold getInt
  rw [Int.toInt?_repr]
  simp only
  rw [if_pos ⟨h1, h2⟩]

lemma leVecZ_iff (a b : List ℤ) : leVecZ a b = true ↔ List.Forall₂ (· ≤ ·) a b := by
  induction a generalizing b with
  | nil => cases b <;> simp [leVecZ]
  | cons x a ih => cases b <;> simp [leVecZ, ih]

lemma fillLevel_ok (ts : List String) : ∀ (i : ℕ) (vs lvl : List ℤ),
    List.Forall₂ (fun t v => getInt t = some v) ts vs → i + ts.length ≤ lvl.length →
    fillLevel i ts lvl = .ok (lvl.take i ++ vs ++ lvl.drop (i + ts.length)) := by
  induction ts with
  | nil =>
    intro i vs lvl h hi
    cases h
    simp [fillLevel]
  | cons t ts ih =>
    intro i vs lvl h hi
    cases h with
    | @cons _ v _ vs h1 h2 =>
      simp only [List.length_cons] at hi
      unfold fillLevel
      rw [h1]
      simp only
      rw [if_pos (by omega), ih (i + 1) vs _ h2 (by rw [List.length_set]; omega)]
      congr 1
      have e1 : (lvl.set i v).take (i + 1) = lvl.take i ++ [v] := by
        rw [List.take_add_one, List.take_set_of_le (by omega), List.getElem?_set_self (by omega)]
        rfl
      have e2 : (lvl.set i v).drop (i + 1 + ts.length) = lvl.drop (i + (t :: ts).length) := by
        rw [List.drop_set_of_lt (by omega), List.length_cons]
        congr 1
        omega
      rw [e1, e2]
      simp

/-- Reading a list of as many elements as dimensions. -/
lemma fillLevel_all (ts : List String) (vs : List ℤ)
    (h : List.Forall₂ (fun t v => getInt t = some v) ts vs) :
    fillLevel 0 ts (List.replicate vs.length 0) = .ok vs := by
  rw [fillLevel_ok ts 0 vs _ h (by rw [h.length_eq]; simp)]
  simp [h.length_eq]

lemma fillLevel_length (ts : List String) : ∀ (i : ℕ) (lvl r : List ℤ),
    fillLevel i ts lvl = .ok r → r.length = lvl.length := by
  induction ts with
  | nil =>
    intro i lvl r h
    unfold fillLevel at h
    injection h with h
    rw [h]
  | cons t ts ih =>
    intro i lvl r h
    unfold fillLevel at h
    split at h
    · cases h
    · split at h
      · rw [ih _ _ _ h, List.length_set]
      · cases h

section
variable {K : Type} {readReal : String → Option K} {dim : ℕ} {lmin lmax : List ℤ}

/-- The entries `coeff`, `level` and, if there is a group number, `group_no`, with texts that are read as the
coefficient, the level and the group number, in any order. -/
def Describes (readReal : String → Option K) (c : Component) (e : K × List ℤ × Option ℤ) : Prop :=
  ∃ a b d, readReal a.data = some e.1 ∧
    List.Forall₂ (fun t v => getInt t = some v) b.elements e.2.1 ∧
    (∀ g, e.2.2 = some g → getInt d.data = some g) ∧
    c.Perm (("coeff", a) :: ("level", b) :: e.2.2.toList.map fun _ => ("group_no", d))

/-- What one entry contributes. -/
structure Part (K : Type) where
  c : List K
  l : List (List ℤ)
  g : List ℤ

lemma readFields_parts (cs : Component) (part : String × Field → Part K)
    (h : ∀ f ∈ cs, ∀ s : FileScheme K, readField readReal dim lmin lmax s f =
      .ok ⟨s.coefficients ++ (part f).c, s.combiSpaces ++ (part f).l, s.groupNumbers ++ (part f).g⟩) :
    ∀ s : FileScheme K, readFields readReal dim lmin lmax cs s =
      .ok ⟨s.coefficients ++ cs.flatMap fun f => (part f).c, s.combiSpaces ++ cs.flatMap fun f => (part f).l,
        s.groupNumbers ++ cs.flatMap fun f => (part f).g⟩ := by
  induction cs with
  | nil => intro s; simp [readFields]
  | cons f cs ih =>
    intro s
    unfold readFields
    rw [h f (by simp)]
    simp only [Outcome.bind]
    rw [ih fun f hf => h f (by simp [hf])]
    simp

lemma readFields_ok (cs : Component) (e : K × List ℤ × Option ℤ) (h : Describes readReal cs e)
    (hdim : e.2.1.length = dim) (h1 : List.Forall₂ (· ≤ ·) lmin e.2.1)
    (h2 : List.Forall₂ (· ≤ ·) e.2.1 lmax) (s : FileScheme K) :
    readFields readReal dim lmin lmax cs s =
      .ok ⟨s.coefficients ++ [e.1], s.combiSpaces ++ [e.2.1], s.groupNumbers ++ e.2.2.toList⟩ := by
  obtain ⟨a, b, d, ha, hb, hd, hp⟩ := h
  let part : String × Field → Part K := fun f =>
    ⟨if f.1 = "coeff" then [e.1] else [], if f.1 = "level" then [e.2.1] else [],
      if f.1 = "group_no" then e.2.2.toList else []⟩
  have key := readFields_parts (readReal := readReal) (dim := dim) (lmin := lmin) (lmax := lmax) cs part (by
    intro f hf s
    rw [hp.mem_iff, List.mem_cons, List.mem_cons, List.mem_map] at hf
    rcases hf with rfl | rfl | ⟨g, hg, rfl⟩
    · simp [readField, part, ha]
    · have : fillLevel 0 b.elements (List.replicate dim 0) = .ok e.2.1 := by
        rw [← hdim]; exact fillLevel_all _ _ hb
      simp [readField, part, this, Outcome.bind, (leVecZ_iff _ _).2 h1, (leVecZ_iff _ _).2 h2]
    · have hg' : e.2.2 = some g := by simpa using hg
      simp [readField, part, hd g hg', hg']) s
  rw [key]
  have f1 : (cs.flatMap fun f => (part f).c) = [e.1] := by
    refine List.perm_singleton.1 ((hp.flatMap_right _).trans ?_)
    cases e.2.2 <;> simp [part]
  have f2 : (cs.flatMap fun f => (part f).l) = [e.2.1] := by
    refine List.perm_singleton.1 ((hp.flatMap_right _).trans ?_)
    cases e.2.2 <;> simp [part]
  have f3 : (cs.flatMap fun f => (part f).g) = e.2.2.toList := by
    have := hp.flatMap_right fun f => (part f).g
    cases hg : e.2.2 with
    | none => rw [hg] at this; simp [part, hg]
    | some g => rw [hg] at this; simpa [part, hg] using this
  rw [f1, f2, f3]

lemma length_filterMap_some (es : List (K × List ℤ × Option ℤ)) (h : ∀ e ∈ es, e.2.2 ≠ none) :
    (es.filterMap fun e => e.2.2).length = es.length := by
  induction es with
  | nil => rfl
  | cons e es ih =>
    obtain ⟨g, hg⟩ := Option.ne_none_iff_exists'.1 (h e (by simp))
    rw [List.filterMap_cons_some (f := fun e : K × List ℤ × Option ℤ => e.2.2) hg]
    simp [ih fun x hx => h x (by simp [hx])]

lemma length_filterMap_none (es : List (K × List ℤ × Option ℤ)) (h : ∀ e ∈ es, e.2.2 = none) :
    es.filterMap (fun e => e.2.2) = [] := by
  rw [List.filterMap_eq_nil_iff]
  exact h

lemma readComponents_ok (es : List (K × List ℤ × Option ℤ)) : ∀ (t : SchemeTree)
    (done : List (K × List ℤ × Option ℤ)),
    List.Forall₂ (fun c e => c.1 = "" ∧ Describes readReal c.2 e) t es →
    (∀ e ∈ es, e.2.1.length = dim ∧ List.Forall₂ (· ≤ ·) lmin e.2.1 ∧ List.Forall₂ (· ≤ ·) e.2.1 lmax) →
    ((∀ e ∈ done ++ es, e.2.2 ≠ none) ∨ ∀ e ∈ done ++ es, e.2.2 = none) →
    readComponents readReal dim lmin lmax t
      ⟨done.map Prod.fst, done.map fun e => e.2.1, done.filterMap fun e => e.2.2⟩ =
      .ok ⟨(done ++ es).map Prod.fst, (done ++ es).map fun e => e.2.1, (done ++ es).filterMap fun e => e.2.2⟩ := by
  induction es with
  | nil =>
    intro t done h _ _
    cases h
    simp [readComponents]
  | cons e es ih =>
    intro t done h hl hg
    cases h with
    | @cons c _ t _ hc ht =>
      unfold readComponents readComponent
      obtain ⟨h1, h2, h3⟩ := hl e (by simp)
      rw [if_neg (by rw [hc.1]; simp), readFields_ok c.2 e hc.2 h1 h2 h3]
      have hst : (⟨done.map Prod.fst ++ [e.1], (done.map fun e => e.2.1) ++ [e.2.1],
          (done.filterMap fun e => e.2.2) ++ e.2.2.toList⟩ : FileScheme K) =
          ⟨(done ++ [e]).map Prod.fst, (done ++ [e]).map fun e => e.2.1,
            (done ++ [e]).filterMap fun e => e.2.2⟩ := by
        cases hg : e.2.2 <;> simp [hg]
      simp only
      rw [hst]
      have e2 : done ++ e :: es = (done ++ [e]) ++ es := by simp
      have hg2 : (∀ x ∈ (done ++ [e]) ++ es, x.2.2 ≠ none) ∨ ∀ x ∈ (done ++ [e]) ++ es, x.2.2 = none := by
        rw [← e2]; exact hg
      simp only [Outcome.bind]
      rw [if_pos]
      · simp only
        rw [ih t (done ++ [e]) ht (fun x hx => hl x (by simp [hx])) hg2, e2]
      · refine ⟨by simp, ?_⟩
        rcases hg2 with hg2 | hg2
        · left
          rw [length_filterMap_some _ fun x hx => hg2 x (List.mem_append_left _ hx), List.length_map]
        · right
          rw [length_filterMap_none _ fun x hx => hg2 x (List.mem_append_left _ hx), List.length_nil]

/-! ### What is accepted -/

/-- Sizes and levels after each component. -/
def Sound (dim : ℕ) (lmin lmax : List ℤ) (s : FileScheme K) : Prop :=
  s.coefficients.length = s.combiSpaces.length ∧
    (s.groupNumbers.length = s.combiSpaces.length ∨ s.groupNumbers.length = 0) ∧
    ∀ l ∈ s.combiSpaces, l.length = dim ∧ List.Forall₂ (· ≤ ·) lmin l ∧ List.Forall₂ (· ≤ ·) l lmax

lemma readField_levels {s r : FileScheme K} {f : String × Field}
    (h : readField readReal dim lmin lmax s f = .ok r) :
    ∀ l ∈ r.combiSpaces, l ∈ s.combiSpaces ∨
      (l.length = dim ∧ List.Forall₂ (· ≤ ·) lmin l ∧ List.Forall₂ (· ≤ ·) l lmax) := by
  unfold readField at h
  split at h
  · split at h
    · cases h
    · injection h with h
      subst h
      intro l hl
      exact Or.inl hl
  · split at h
    · cases hf : fillLevel 0 f.2.elements (List.replicate dim 0) with
      | error => rw [hf] at h; cases h
      | stuck => rw [hf] at h; cases h
      | ok lvl =>
        rw [hf] at h
        simp only [Outcome.bind] at h
        split at h
        · rename_i hle
          injection h with h
          subst h
          rw [Bool.and_eq_true, leVecZ_iff, leVecZ_iff] at hle
          intro l hl
          rcases List.mem_append.1 hl with hl | hl
          · exact Or.inl hl
          · rw [List.mem_singleton] at hl
            subst hl
            refine Or.inr ⟨?_, hle.2, hle.1⟩
            rw [fillLevel_length _ _ _ _ hf, List.length_replicate]
        · cases h
    · split at h
      · split at h
        · cases h
        · injection h with h
          subst h
          intro l hl
          exact Or.inl hl
      · cases h

lemma readFields_levels (cs : Component) : ∀ {s r : FileScheme K},
    readFields readReal dim lmin lmax cs s = .ok r →
    (∀ l ∈ s.combiSpaces, l.length = dim ∧ List.Forall₂ (· ≤ ·) lmin l ∧ List.Forall₂ (· ≤ ·) l lmax) →
    ∀ l ∈ r.combiSpaces, l.length = dim ∧ List.Forall₂ (· ≤ ·) lmin l ∧ List.Forall₂ (· ≤ ·) l lmax := by
  induction cs with
  | nil =>
    intro s r h hs
    unfold readFields at h
    injection h with h
    rw [← h]
    exact hs
  | cons c cs ih =>
    intro s r h hs
    unfold readFields at h
    cases hf : readField readReal dim lmin lmax s c with
    | error => rw [hf] at h; cases h
    | stuck => rw [hf] at h; cases h
    | ok s1 =>
      rw [hf] at h
      refine ih h fun l hl => ?_
      rcases readField_levels hf l hl with h1 | h1
      · exact hs l h1
      · exact h1

lemma readComponents_sound (t : SchemeTree) : ∀ {s r : FileScheme K},
    readComponents readReal dim lmin lmax t s = .ok r → Sound dim lmin lmax s → Sound dim lmin lmax r := by
  induction t with
  | nil =>
    intro s r h hs
    unfold readComponents at h
    injection h with h
    rw [← h]
    exact hs
  | cons c t ih =>
    intro s r h hs
    unfold readComponents readComponent at h
    split at h
    · cases h
    · cases hf : readFields readReal dim lmin lmax c.2 s with
      | error => rw [hf] at h; cases h
      | stuck => rw [hf] at h; cases h
      | ok s1 =>
        rw [hf] at h
        by_cases hc : s1.coefficients.length = s1.combiSpaces.length ∧
            (s1.groupNumbers.length = s1.combiSpaces.length ∨ s1.groupNumbers.length = 0)
        · simp only [Outcome.bind] at h
          rw [if_pos hc] at h
          exact ih h ⟨hc.1, hc.2, readFields_levels _ hf hs.2.2⟩
        · simp only [Outcome.bind] at h
          rw [if_neg hc] at h
          cases h

end

/-! ### The grids of a group -/

section
variable {K : Type}

lemma pushGrids_ok (es : List (K × List ℤ × Option ℤ)) (gs : List ℤ) : ∀ (ts : List ℕ) (r : GroupGrids K),
    (∀ t ∈ ts, t < es.length) →
    pushGrids ⟨es.map Prod.fst, es.map fun e => e.2.1, gs⟩ ts r =
      some ⟨r.levels ++ ts.filterMap fun t => es[t]?.map fun e => e.2.1,
        r.coeffs ++ ts.filterMap fun t => es[t]?.map Prod.fst, r.taskNumbers ++ ts⟩ := by
  intro ts
  induction ts with
  | nil => intro r _; simp [pushGrids]
  | cons t ts ih =>
    intro r h
    have ht := h t (by simp)
    unfold pushGrids pushGrid
    simp only [List.getElem?_map, List.getElem?_eq_getElem ht, Option.map_some, Option.bind_some]
    rw [ih _ fun x hx => h x (by simp [hx])]
    simp [List.getElem?_eq_getElem ht]

lemma foldl_min_le (l : List ℤ) (a : ℤ) : l.foldl min a ≤ a ∧ ∀ x ∈ l, l.foldl min a ≤ x := by
  induction l generalizing a with
  | nil => simp
  | cons b l ih =>
    obtain ⟨h1, h2⟩ := ih (min a b)
    refine ⟨h1.trans (min_le_left _ _), ?_⟩
    intro x hx
    rcases List.mem_cons.1 hx with rfl | hx
    · exact h1.trans (min_le_right _ _)
    · exact h2 x hx

lemma foldl_min_mem (l : List ℤ) (a : ℤ) : l.foldl min a = a ∨ l.foldl min a ∈ l := by
  induction l generalizing a with
  | nil => simp
  | cons b l ih =>
    rw [List.foldl_cons]
    rcases ih (min a b) with h | h
    · rw [h]
      rcases min_choice a b with h' | h'
      · exact Or.inl h'
      · rw [h']; exact Or.inr (by simp)
    · exact Or.inr (by simp [h])

lemma minNumber_eq (l : List ℤ) (h0 : 0 ∈ l) (hp : ∀ x ∈ l, 0 ≤ x) : minNumber l = some 0 := by
  cases l with
  | nil => simp at h0
  | cons a l =>
    unfold minNumber
    obtain ⟨h1, h2⟩ := foldl_min_le l a
    have h3 : (0 : ℤ) ≤ l.foldl min a := by
      rcases foldl_min_mem l a with h | h
      · rw [h]; exact hp a (by simp)
      · exact hp _ (by simp [h])
    have h4 : l.foldl min a ≤ 0 := by
      rcases List.mem_cons.1 h0 with h | h
      · rw [h]; exact h1
      · exact h2 0 h
    simp only [le_antisymm h4 h3]

/-- Selecting by position. -/
lemma filterMap_positions {β : Type} (es : List β) (p : β → Bool) :
    ((List.range es.length).filter fun t => (es[t]?.map p).getD false).filterMap (fun t => es[t]?) =
      es.filter p := by
  induction es using List.reverseRecOn with
  | nil => rfl
  | append_singleton es e ih =>
    rw [List.length_append, List.length_singleton, List.range_succ, List.filter_append,
      List.filterMap_append, List.filter_append]
    congr 1
    · rw [← ih]
      have hf : (List.range es.length).filter (fun t => ((es ++ [e])[t]?.map p).getD false) =
          (List.range es.length).filter fun t => (es[t]?.map p).getD false := by
        apply List.filter_congr
        intro t ht
        rw [List.mem_range] at ht
        rw [List.getElem?_append_left ht]
      rw [hf]
      apply List.filterMap_congr
      intro t ht
      have := (List.mem_filter.1 ht).1
      rw [List.mem_range] at this
      rw [List.getElem?_append_left this]
    · by_cases hp : p e <;> simp [hp]

lemma length_filterMap_positions {β γ : Type} (es : List β) (f : β → γ) (ts : List ℕ)
    (h : ∀ i ∈ ts, i < es.length) : (ts.filterMap fun t => es[t]?.map f).length = ts.length := by
  induction ts with
  | nil => rfl
  | cons a ts ih =>
    have ha := h a (by simp)
    rw [List.filterMap_cons_some (f := fun t => es[t]?.map f) (b := f es[a]) (by simp [ha])]
    simp [ih fun i hi => h i (by simp [hi])]

lemma map_filterMap_positions {β γ : Type} (es : List β) (f : β → γ) (ts : List ℕ)
    (h : ∀ i ∈ ts, i < es.length) :
    (ts.filterMap fun t => es[t]?.map f).map some = ts.map fun t => es[t]?.map f := by
  induction ts with
  | nil => rfl
  | cons a ts ih =>
    have ha := h a (by simp)
    rw [List.filterMap_cons_some (f := fun t => es[t]?.map f) (b := f es[a]) (by simp [ha])]
    simp [ih fun i hi => h i (by simp [hi]), ha]

lemma dof_pos (level boundary : List ℕ) (h : ∀ x ∈ level, 0 < x) :
    0 < getCombiDegreesOfFreedom level boundary := by
  unfold getCombiDegreesOfFreedom
  induction level generalizing boundary with
  | nil => simp
  | cons a level ih =>
    cases boundary with
    | nil => simp
    | cons b boundary =>
      rw [List.zipWith_cons_cons, List.prod_cons]
      refine Nat.mul_pos ?_ (ih boundary fun x hx => h x (by simp [hx]))
      unfold numDof1d
      have ha : 0 < a := h a (by simp)
      rw [if_pos ha]
      have : 2 ^ 1 ≤ 2 ^ a := Nat.pow_le_pow_right (by omega) ha
      omega

/-- After enough tasks every group has one. -/
lemma loadBalanceLoop_nonempty (dof : ℕ → ℕ) (tasks : List ℕ) (hd : ∀ t ∈ tasks, 0 < dof t) :
    ∀ (loads : List ℕ), loads ≠ [] → loads.count 0 ≤ tasks.length →
      0 ∉ (loadBalanceLoop dof tasks loads).1 := by
  induction tasks with
  | nil =>
    intro loads _ h
    simp only [loadBalanceLoop]
    simp only [List.length_nil, Nat.le_zero] at h
    exact List.count_eq_zero.1 h
  | cons t ts ih =>
    intro loads hne h
    simp only [loadBalanceLoop]
    obtain ⟨hm1, hm2⟩ := minGroup_spec loads hne
    have hpos := hd t (by simp)
    refine ih (fun x hx => hd x (by simp [hx])) _ ?_ ?_
    · intro hc
      have := congrArg List.length hc
      simp at this
      exact hne this
    · rw [List.count_set hm1]
      have hge : loads.getD (minGroup loads) 0 = loads[minGroup loads] := List.getD_eq_getElem _ _ hm1
      by_cases h0 : 0 ∈ loads
      · have : loads[minGroup loads] = 0 := by
          have := hm2 0 h0
          rw [hge] at this
          omega
        rw [this, hge, this]
        have hne0 : ¬ 0 + dof t = 0 := by omega
        simp only [beq_iff_eq, hne0, if_false, if_true, Nat.add_zero]
        simp only [List.length_cons] at h
        omega
      · have h1 : loads.count 0 = 0 := List.count_eq_zero.2 h0
        have hne0 : ¬ loads.getD (minGroup loads) 0 + dof t = 0 := by omega
        simp only [beq_iff_eq, hne0, if_false, h1, Nat.add_zero]
        omega

end

end Verif.SchemeFile

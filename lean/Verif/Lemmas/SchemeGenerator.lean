import Mathlib.Data.Int.CardIntervalMod
import Verif.Model.SchemeGenerator
import Verif.Lemmas.Classical

/-! Lemmas about `Model/SchemeGenerator`. -/

namespace Verif.SchemeGenerator

/-! ### Products and down sets -/

lemma mem_product (rs : List (List ℕ)) (l : List ℕ) : l ∈ product rs ↔ List.Forall₂ (fun x r => x ∈ r) l rs := by
  induction rs generalizing l with
  | nil => simp [product]
  | cons r rs ih =>
    simp only [product, List.mem_flatMap, List.mem_map]
    constructor
    · rintro ⟨x, hx, l', hl', rfl⟩
      exact .cons hx ((ih l').1 hl')
    · intro h
      cases h with
      | cons hx hl => exact ⟨_, hx, _, (ih _).2 hl, rfl⟩

lemma nodup_product (rs : List (List ℕ)) (h : ∀ r ∈ rs, r.Nodup) : (product rs).Nodup := by
  induction rs with
  | nil => simp [product]
  | cons r rs ih =>
    rw [product, List.nodup_flatMap]
    have ih := ih fun r hr => h r (by simp [hr])
    refine ⟨fun x _ => ih.map fun a b hab => by simpa using hab, ?_⟩
    refine List.Pairwise.imp ?_ (h r (by simp))
    intro a b hab l h1 h2
    obtain ⟨l1, -, rfl⟩ := List.mem_map.1 h1
    obtain ⟨l2, -, h3⟩ := List.mem_map.1 h2
    simp only [List.cons.injEq] at h3
    exact hab h3.1.symm

lemma mem_downSet (l k : List ℕ) : k ∈ downSet l ↔ VecLe k l := by
  unfold downSet
  rw [mem_product, List.forall₂_map_right_iff]
  constructor <;> intro h <;> exact h.imp fun a b hab => by
    first
    | exact Nat.lt_succ_iff.1 (List.mem_range.1 hab)
    | exact List.mem_range.2 (Nat.lt_succ_iff.2 hab)

lemma nodup_downSet (l : List ℕ) : (downSet l).Nodup := by
  apply nodup_product
  intro r hr
  obtain ⟨x, -, rfl⟩ := List.mem_map.1 hr
  exact List.nodup_range

/-! ### Dictionaries -/

lemma Dict.mem_set (d : Dict) (k l : List ℕ) (v : ℤ) : l ∈ (d.set k v).keys ↔ l ∈ d.keys ∨ l = k := by
  unfold Dict.set
  split_ifs with h
  · constructor
    · exact Or.inl
    · rintro (h' | rfl)
      · exact h'
      · exact h
  · simp

lemma Dict.nodup_set (d : Dict) (k : List ℕ) (v : ℤ) (h : d.keys.Nodup) : (d.set k v).keys.Nodup := by
  unfold Dict.set
  split_ifs with hk
  · exact h
  · simp only
    rw [List.nodup_append]
    refine ⟨h, by simp, ?_⟩
    rintro a ha b hb rfl
    exact hk (by simpa using (by simpa using hb : a = k) ▸ ha)

/-- The sum of the values of the keys above `k`. -/
def Dict.above (d : Dict) (k : List ℕ) : ℤ := ((d.keys.filter fun l => decide (VecLe k l)).map d.val).sum

lemma sum_filter_update (L : List (List ℕ)) (hnd : L.Nodup) (s : List ℕ) (hs : s ∈ L) (p : List ℕ → Bool)
    (f g : List ℕ → ℤ) (hfg : ∀ l, l ≠ s → f l = g l) :
    ((L.filter p).map f).sum = ((L.filter p).map g).sum + if p s then f s - g s else 0 := by
  induction L with
  | nil => simp at hs
  | cons a L ih =>
    rw [List.nodup_cons] at hnd
    by_cases has : a = s
    · subst has
      have hrest : ((L.filter p).map f) = ((L.filter p).map g) := by
        apply List.map_congr_left
        intro l hl
        apply hfg
        rintro rfl
        exact hnd.1 (List.mem_filter.1 hl).1
      by_cases hp : p a = true
      · rw [List.filter_cons_of_pos hp, List.map_cons, List.map_cons, List.sum_cons, List.sum_cons, hrest,
          if_pos hp]
        ring
      · rw [List.filter_cons_of_neg hp, hrest, if_neg hp, add_zero]
    · have hs' : s ∈ L := by
        rcases List.mem_cons.1 hs with h | h
        · exact absurd h.symm has
        · exact h
      have ih := ih hnd.2 hs'
      by_cases hp : p a = true
      · rw [List.filter_cons_of_pos hp, List.map_cons, List.map_cons, List.sum_cons, List.sum_cons, ih,
          hfg a has]
        ring
      · rw [List.filter_cons_of_neg hp, ih]

lemma above_set (d : Dict) (hnd : d.keys.Nodup) (s k : List ℕ) (v : ℤ) :
    (d.set s v).above k = d.above k +
      if VecLe k s then v - (if s ∈ d.keys then d.val s else 0) else 0 := by
  unfold Dict.above Dict.set
  by_cases hs : s ∈ d.keys
  · simp only [if_pos hs]
    rw [sum_filter_update d.keys hnd s hs _ (fun l => if l = s then v else d.val l) d.val
      (fun l hl => if_neg hl)]
    simp
  · simp only [if_neg hs]
    rw [List.filter_append, List.map_append, List.sum_append]
    have hmap : (d.keys.filter fun l => decide (VecLe k l)).map (fun l => if l = s then v else d.val l) =
        (d.keys.filter fun l => decide (VecLe k l)).map d.val := by
      apply List.map_congr_left
      intro l hl
      rw [if_neg]
      rintro rfl
      exact hs (List.mem_filter.1 hl).1
    rw [hmap]
    congr 1
    by_cases h : VecLe k s <;> simp [h]

lemma above_del (d : Dict) (s k : List ℕ) (h0 : d.val s = 0) :
    (d.del s).above k = d.above k := by
  unfold Dict.above Dict.del
  simp only
  by_cases hs : s ∈ d.keys
  · have hp := List.perm_cons_erase hs
    have := ((hp.filter fun l => decide (VecLe k l)).map d.val).sum_eq
    rw [this]
    by_cases hk : VecLe k s
    · rw [List.filter_cons_of_pos (by simpa using hk), List.map_cons, List.sum_cons, h0, zero_add]
    · rw [List.filter_cons_of_neg (by simpa using hk)]
  · rw [List.erase_of_not_mem hs]

/-! ### Counting the subspaces -/

lemma countOne_val (d : Dict) (s l : List ℕ) (hz : ∀ l, l ∉ d.keys → d.val l = 0) :
    (countOne d s).val l = d.val l + if l = s then 1 else 0 := by
  unfold countOne
  split_ifs with h h2 h2
  · subst h2; simp [Dict.set]
  · simp [Dict.set, h2]
  · subst h2; simp [Dict.set, hz l h]
  · simp [Dict.set, h2]

lemma countOne_keys (d : Dict) (s l : List ℕ) : l ∈ (countOne d s).keys ↔ l ∈ d.keys ∨ l = s := by
  unfold countOne
  split_ifs <;> rw [Dict.mem_set]

lemma countOne_fold (S : List (List ℕ)) (hS : S.Nodup) (d : Dict) (hz : ∀ l, l ∉ d.keys → d.val l = 0)
    (hnd : d.keys.Nodup) :
    (∀ l, (S.foldl countOne d).val l = d.val l + if l ∈ S then 1 else 0) ∧
    (∀ l, l ∈ (S.foldl countOne d).keys ↔ l ∈ d.keys ∨ l ∈ S) ∧
    (∀ l, l ∉ (S.foldl countOne d).keys → (S.foldl countOne d).val l = 0) ∧
    (S.foldl countOne d).keys.Nodup := by
  induction S generalizing d with
  | nil => simp [hnd]; exact hz
  | cons s S ih =>
    rw [List.nodup_cons] at hS
    rw [List.foldl_cons]
    have hz' : ∀ l, l ∉ (countOne d s).keys → (countOne d s).val l = 0 := by
      intro l hl
      rw [countOne_keys] at hl
      push Not at hl
      rw [countOne_val d s l hz, hz l hl.1, if_neg hl.2, add_zero]
    have hnd' : (countOne d s).keys.Nodup := by
      unfold countOne
      split_ifs <;> exact Dict.nodup_set _ _ _ hnd
    obtain ⟨h1, h2, h3, h4⟩ := ih hS.2 (countOne d s) hz' hnd'
    refine ⟨?_, ?_, h3, h4⟩
    · intro l
      rw [h1, countOne_val d s l hz]
      by_cases hls : l = s
      · subst hls
        simp [hS.1]
      · simp [hls]
    · intro l
      rw [h2, countOne_keys, List.mem_cons]
      tauto

lemma count_fold (A : List (List ℕ)) (d : Dict) (hz : ∀ l, l ∉ d.keys → d.val l = 0) (hnd : d.keys.Nodup) :
    (∀ l, (A.foldl (fun d l => (downSet l).foldl countOne d) d).val l =
      d.val l + ((A.filter fun a => decide (VecLe l a)).map fun _ => (1 : ℤ)).sum) ∧
    (∀ l, l ∈ (A.foldl (fun d l => (downSet l).foldl countOne d) d).keys ↔
      l ∈ d.keys ∨ ∃ a ∈ A, VecLe l a) ∧
    (A.foldl (fun d l => (downSet l).foldl countOne d) d).keys.Nodup := by
  induction A generalizing d with
  | nil => simp [hnd]
  | cons a A ih =>
    rw [List.foldl_cons]
    obtain ⟨h1, h2, h3, h4⟩ := countOne_fold (downSet a) (nodup_downSet a) d hz hnd
    obtain ⟨g1, g2, g3⟩ := ih _ h3 h4
    refine ⟨?_, ?_, g3⟩
    · intro l
      rw [g1, h1]
      by_cases hl : VecLe l a
      · rw [if_pos ((mem_downSet a l).2 hl), List.filter_cons_of_pos (by simpa using hl), List.map_cons,
          List.sum_cons]
        ring
      · rw [if_neg (fun h => hl ((mem_downSet a l).1 h)), List.filter_cons_of_neg (by simpa using hl)]
        ring
    · intro l
      rw [g2, h2, mem_downSet]
      simp only [List.mem_cons, exists_eq_or_imp]
      tauto

lemma initial_fold (A : List (List ℕ)) (d : Dict) (hA : (d.keys ++ A).Nodup) (hv : ∀ l ∈ d.keys, d.val l = 1) :
    (A.foldl (fun d l => d.set l 1) d).keys = d.keys ++ A ∧
      ∀ l ∈ d.keys ++ A, (A.foldl (fun d l => d.set l 1) d).val l = 1 := by
  induction A generalizing d with
  | nil => simpa using hv
  | cons a A ih =>
    rw [List.foldl_cons]
    have hna : a ∉ d.keys := by
      intro h
      rw [List.nodup_append] at hA
      exact hA.2.2 a h a (by simp) rfl
    have hk : (d.set a 1).keys = d.keys ++ [a] := by simp [Dict.set, hna]
    have := ih (d.set a 1) (by rw [hk]; simpa using hA) (by
      intro l hl
      by_cases h : l = a
      · simp [Dict.set, h]
      · rw [hk] at hl
        have : l ∈ d.keys := by simpa [h] using hl
        simp [Dict.set, h, hv l this])
    rw [hk] at this
    simpa using this

/-! ### The loop -/

/-- What holds throughout the loop: `U` are the subspaces. -/
structure Inv (U : List (List ℕ)) (st : Dict × Dict) : Prop where
  counts_keys : st.2.keys = U
  down : ∀ k l, VecLe k l → l ∈ U → k ∈ U
  sub : ∀ l ∈ st.1.keys, l ∈ U
  nodup : st.1.keys.Nodup
  nonzero : ∀ l ∈ st.1.keys, st.1.val l ≠ 0
  count : ∀ k ∈ U, st.2.val k = st.1.above k

lemma subAll_eq (diff : ℤ) (L : List (List ℕ)) (hL : L.Nodup) (d : Dict) (h : ∀ l ∈ L, l ∈ d.keys) :
    ∃ d', subAll diff L d = some d' ∧ d'.keys = d.keys ∧
      ∀ k, d'.val k = d.val k - if k ∈ L then diff else 0 := by
  induction L generalizing d with
  | nil => exact ⟨d, rfl, rfl, by simp⟩
  | cons l L ih =>
    rw [List.nodup_cons] at hL
    have hl := h l (by simp)
    have hk : (d.set l (d.val l - diff)).keys = d.keys := by simp [Dict.set, hl]
    obtain ⟨d', h1, h2, h3⟩ := ih hL.2 (d.set l (d.val l - diff)) (by
      intro l' hl'
      rw [hk]
      exact h l' (by simp [hl']))
    refine ⟨d', ?_, by rw [h2, hk], ?_⟩
    · rw [subAll, Dict.sub, if_pos hl]
      exact h1
    · intro k
      rw [h3]
      by_cases hkl : k = l
      · subst hkl
        simp [Dict.set, hL.1]
      · simp [Dict.set, hkl]

lemma correct_inv {U : List (List ℕ)} {st : Dict × Dict} (inv : Inv U st) {s : List ℕ} (hs : s ∈ U) :
    ∃ st', correct st s = some st' ∧ Inv U st' ∧ st'.2.val s = 1 ∧
      (st.2.val s = 1 → st' = st) ∧
      ∀ k, ¬ VecLe k s → st'.2.val k = st.2.val k := by
  by_cases h1 : st.2.val s = 1
  · refine ⟨st, ?_, inv, h1, fun _ => rfl, fun _ _ => rfl⟩
    unfold correct
    simp [h1]
  · set diff := st.2.val s - 1 with hdiff
    obtain ⟨counts', hc1, hc2, hc3⟩ := subAll_eq diff (downSet s) (nodup_downSet s) st.2 (by
      intro l hl
      rw [inv.counts_keys]
      exact inv.down l s ((mem_downSet s l).1 hl) hs)
    set scheme' := if s ∈ st.1.keys then
        (if (st.1.set s (st.1.val s - diff)).val s = 0 then (st.1.set s (st.1.val s - diff)).del s
          else st.1.set s (st.1.val s - diff))
      else st.1.set s (-diff) with hsch
    have hcor : correct st s = some (scheme', counts') := by
      unfold correct
      simp only [ne_eq, h1, not_false_eq_true, if_true]
      rw [← hdiff, hc1]
      rfl
    have hd0 : diff ≠ 0 := by omega
    have habove : ∀ k, scheme'.above k = st.1.above k - if VecLe k s then diff else 0 := by
      intro k
      rw [hsch]
      by_cases hm : s ∈ st.1.keys
      · rw [if_pos hm]
        have e := above_set st.1 inv.nodup s k (st.1.val s - diff)
        rw [if_pos hm] at e
        by_cases h0 : (st.1.set s (st.1.val s - diff)).val s = 0
        · rw [if_pos h0, above_del _ s k h0, e]
          split_ifs <;> ring
        · rw [if_neg h0, e]
          split_ifs <;> ring
      · rw [if_neg hm, above_set st.1 inv.nodup s k, if_neg hm]
        split_ifs <;> ring
    have hsnd : (st.1.set s (st.1.val s - diff)).keys.Nodup := Dict.nodup_set _ _ _ inv.nodup
    refine ⟨_, hcor, ?_, ?_, fun h => absurd h h1, ?_⟩
    · refine ⟨by simpa [inv.counts_keys] using hc2, inv.down, ?_, ?_, ?_, ?_⟩
      · intro l hl
        simp only [hsch] at hl
        split_ifs at hl with hm h0
        · have := (Dict.mem_set _ _ _ _).1 (List.mem_of_mem_erase hl)
          rcases this with h | rfl
          · exact inv.sub l h
          · exact hs
        · rcases (Dict.mem_set _ _ _ _).1 hl with h | rfl
          · exact inv.sub l h
          · exact hs
        · rcases (Dict.mem_set _ _ _ _).1 hl with h | rfl
          · exact inv.sub l h
          · exact hs
      · simp only [hsch]
        split_ifs with hm h0
        · exact hsnd.erase s
        · exact hsnd
        · exact Dict.nodup_set _ _ _ inv.nodup
      · intro l hl
        simp only [hsch] at hl ⊢
        split_ifs at hl ⊢ with hm h0
        · have hls : l ≠ s := by
            rintro rfl
            exact (List.Nodup.not_mem_erase hsnd) hl
          have := (Dict.mem_set _ _ _ _).1 (List.mem_of_mem_erase hl)
          have hl' : l ∈ st.1.keys := this.resolve_right hls
          simp only [Dict.del, Dict.set, if_neg hls]
          exact inv.nonzero l hl'
        · by_cases hls : l = s
          · rw [hls]; exact h0
          · have hl' : l ∈ st.1.keys := ((Dict.mem_set _ _ _ _).1 hl).resolve_right hls
            simp only [Dict.set, if_neg hls]
            exact inv.nonzero l hl'
        · by_cases hls : l = s
          · subst hls
            simp only [Dict.set, if_true]
            omega
          · have hl' : l ∈ st.1.keys := ((Dict.mem_set _ _ _ _).1 hl).resolve_right hls
            simp only [Dict.set, if_neg hls]
            exact inv.nonzero l hl'
      · intro k hk
        simp only
        rw [hc3, habove, inv.count k hk]
        simp only [mem_downSet]
    · simp only
      rw [hc3, if_pos ((mem_downSet s s).2 (VecLe.refl s))]
      omega
    · intro k hk
      simp only
      rw [hc3, if_neg (fun h => hk ((mem_downSet s k).1 h)), sub_zero]

/-- One round: the subspaces with the next smaller sum become right. -/
lemma round_inv {U : List (List ℕ)} (L : List (List ℕ)) (hLU : ∀ l ∈ L, l ∈ U) (N : ℕ) (done : List (List ℕ))
    {st : Dict × Dict} (inv : Inv U st) (h1 : ∀ k ∈ U, N < k.sum → st.2.val k = 1)
    (h2 : ∀ k ∈ done, k.sum = N → st.2.val k = 1) (hd : ∀ k ∈ done, k ∈ U) :
    ∃ st', L.foldlM correct st = some st' ∧ Inv U st' ∧ (∀ k ∈ U, N < k.sum → st'.2.val k = 1) ∧
      ∀ k ∈ done ++ L, k.sum = N → st'.2.val k = 1 := by
  induction L generalizing st done with
  | nil => exact ⟨st, rfl, inv, h1, by simpa using h2⟩
  | cons s L ih =>
    have hs := hLU s (by simp)
    obtain ⟨st', g1, g2, g3, g4, g5⟩ := correct_inv inv hs
    have keep : ∀ k ∈ U, N ≤ k.sum → st.2.val k = 1 → st'.2.val k = 1 := by
      intro k hk hkN hk1
      by_cases hks : VecLe k s
      · by_cases he : k = s
        · rw [he]; exact g3
        · have hlt : N < s.sum := by
            have := hks.sum_le
            by_contra hc
            exact he (hks.eq_of_sum (by omega))
          rw [g4 (h1 s hs hlt)]
          exact hk1
      · rw [g5 k hks]; exact hk1
    obtain ⟨st'', f1, f2, f3, f4⟩ := ih (fun l hl => hLU l (by simp [hl])) (done ++ [s]) g2
      (fun k hk hN => keep k hk hN.le (h1 k hk hN)) (by
        intro k hk hN
        rcases List.mem_append.1 hk with h | h
        · exact keep k (hd k h) hN.ge (h2 k h hN)
        · have : k = s := by simpa using h
          rw [this]; exact g3) (by
        intro k hk
        rcases List.mem_append.1 hk with h | h
        · exact hd k h
        · have : k = s := by simpa using h
          rw [this]; exact hs)
    refine ⟨st'', ?_, f2, f3, ?_⟩
    · rw [List.foldlM_cons, g1]
      exact f1
    · intro k hk
      exact f4 k (by simpa using hk)

lemma loop_ok {U : List (List ℕ)} (hU : U ≠ []) (fuel : ℕ) : ∀ (N : ℕ) {st : Dict × Dict}, Inv U st →
    (∀ k ∈ U, N ≤ k.sum → st.2.val k = 1) → N + 1 ≤ fuel →
    ∃ scheme, correctLoop fuel st = .ok scheme ∧ ∃ counts, Inv U (scheme, counts) ∧
      ∀ k ∈ U, counts.val k = 1 := by
  induction fuel with
  | zero => intro N st _ _ h; omega
  | succ fuel ih =>
    intro N st inv h1 hf
    rw [correctLoop]
    by_cases hu : unfinished st.2 = true
    · rw [if_pos hu, inv.counts_keys]
      cases N with
      | zero =>
        exfalso
        unfold unfinished at hu
        rw [inv.counts_keys] at hu
        simp only [Bool.or_eq_true, List.isEmpty_iff, List.any_eq_true, decide_eq_true_eq] at hu
        rcases hu with hu | ⟨k, hk, hk1⟩
        · exact hU hu
        · exact hk1 (h1 k hk (by omega))
      | succ N =>
        obtain ⟨st', g1, g2, g3, g4⟩ := round_inv U (fun l hl => hl) N [] inv
          (fun k hk hN => h1 k hk (by omega)) (by simp) (by simp)
        rw [g1]
        simp only
        refine ih N g2 ?_ (by omega)
        intro k hk hN
        rcases Nat.lt_or_ge N k.sum with h | h
        · exact g3 k hk h
        · exact g4 k (by simpa using hk) (by omega)
    · rw [if_neg hu]
      refine ⟨st.1, rfl, st.2, inv, ?_⟩
      intro k hk
      unfold unfinished at hu
      rw [inv.counts_keys] at hu
      simp only [Bool.or_eq_true, List.any_eq_true, decide_eq_true_eq, not_or, not_exists, not_and] at hu
      have := hu.2 k hk
      simpa using this

/-! ### The active set -/

lemma foldl_max_spec (l : List ℤ) (a : ℤ) :
    (l.foldl max a = a ∨ l.foldl max a ∈ l) ∧ a ≤ l.foldl max a ∧ ∀ x ∈ l, x ≤ l.foldl max a := by
  induction l generalizing a with
  | nil => simp
  | cons b l ih =>
    rw [List.foldl_cons]
    obtain ⟨h1, h2, h3⟩ := ih (max a b)
    refine ⟨?_, le_trans (le_max_left _ _) h2, ?_⟩
    · rcases h1 with h | h
      · rcases le_total a b with hab | hab
        · right
          rw [h, max_eq_right hab]
          simp
        · left
          rw [h, max_eq_left hab]
      · right
        simp [h]
    · intro x hx
      rcases List.mem_cons.1 hx with rfl | hx
      · exact le_trans (le_max_right _ _) h2
      · exact h3 x hx

lemma argmax_spec (l : List ℤ) (hl : l ≠ []) :
    ∃ h : argmax l < l.length, ∀ x ∈ l, x ≤ l[argmax l] := by
  cases l with
  | nil => exact absurd rfl hl
  | cons a l =>
    obtain ⟨h1, h2, h3⟩ := foldl_max_spec (a :: l) a
    have hmem : (a :: l).foldl max a ∈ a :: l := by
      rcases h1 with h | h
      · rw [h]; simp
      · exact h
    have ha : argmax (a :: l) = (a :: l).idxOf ((a :: l).foldl max a) := rfl
    refine ⟨by rw [ha]; exact List.idxOf_lt_length_of_mem hmem, ?_⟩
    intro x hx
    simp only [ha]
    rw [List.getElem_idxOf (List.idxOf_lt_length_of_mem hmem)]
    exact h3 x hx

lemma sum_set (l : List ℕ) (i : ℕ) (h : i < l.length) (x : ℕ) : (l.set i x).sum + l[i] = l.sum + x := by
  induction l generalizing i with
  | nil => simp at h
  | cons a l ih =>
    cases i with
    | zero => simp; omega
    | succ i =>
      have := ih i (by simpa using h)
      simp
      omega

/-- The levels between `lmin` and `lmax`, and the largest difference. -/
lemma levelMinima_sum (lmin lmax : List ℕ) (hlen : lmin.length = lmax.length) (hne : lmin ≠ []) (m : ℤ)
    (hm1 : ∀ i (h : i < lmin.length), (lmax[i] : ℤ) - lmin[i] ≤ m)
    (hm2 : ∃ i, ∃ h : i < lmin.length, (lmax[i] : ℤ) - lmin[i] = m) :
    ((levelMinima lmin lmax).sum : ℤ) = lmin.sum + m := by
  set D := List.zipWith (fun (a b : ℕ) => (a : ℤ) - b) lmax lmin with hD
  have hDl : D.length = lmin.length := by simp [hD, hlen]
  have hDi : ∀ i (h : i < D.length), D[i] = (lmax[i]'(by omega) : ℤ) - lmin[i]'(by omega) := by
    intro i h
    simp [hD]
  obtain ⟨h1, h2⟩ := argmax_spec D (by
    intro h
    rw [h] at hDl
    exact hne (List.length_eq_zero_iff.1 hDl.symm))
  have hmax : D[argmax D] = m := by
    obtain ⟨i, hi, hi'⟩ := hm2
    have h3 := h2 (D[i]'(by omega)) (List.getElem_mem _)
    rw [hDi i (by omega), hi'] at h3
    have h4 := hm1 (argmax D) (by omega)
    rw [← hDi _ h1] at h4
    omega
  have hs := sum_set lmin (argmax D) (by omega) (lmax[argmax D]'(by omega))
  rw [hDi _ h1] at hmax
  unfold levelMinima
  simp only
  rw [← hD, List.getD_eq_getElem _ _ (by omega)]
  omega

lemma mem_activeSet (lmin lmax : List ℕ) (hlen : lmin.length = lmax.length) (hne : lmin ≠ []) (m diag : ℤ)
    (hm1 : ∀ i (h : i < lmin.length), (lmax[i] : ℤ) - lmin[i] ≤ m)
    (hm2 : ∃ i, ∃ h : i < lmin.length, (lmax[i] : ℤ) - lmin[i] = m) (a : List ℕ) :
    a ∈ activeSet lmin lmax diag ↔ VecLe lmin a ∧ VecLe a lmax ∧ (a.sum : ℤ) = lmin.sum + m + diag := by
  unfold activeSet
  simp only
  rw [List.mem_filter, levelMinima_sum lmin lmax hlen hne m hm1 hm2, Bool.and_eq_true, decide_eq_true_eq,
    leVec_iff]
  have := mem_downSet lmax a
  unfold downSet at this
  rw [this]
  tauto

lemma nodup_activeSet (lmin lmax : List ℕ) (diag : ℤ) : (activeSet lmin lmax diag).Nodup :=
  (nodup_downSet lmax).filter _

/-- The state before the loop. -/
lemma init_inv (A : List (List ℕ)) (hA : A.Nodup) :
    let scheme := A.foldl (fun d l => d.set l 1) Dict.empty
    ∃ U, Inv U (scheme, countSubspaces scheme) ∧ ∀ k, k ∈ U ↔ ∃ a ∈ A, VecLe k a := by
  intro scheme
  obtain ⟨h1, h2⟩ := initial_fold A Dict.empty (by simpa [Dict.empty] using hA) (by simp [Dict.empty])
  have hk : scheme.keys = A := by rw [show Dict.empty.keys = [] from rfl, List.nil_append] at h1; exact h1
  have hv : ∀ l ∈ A, scheme.val l = 1 := by rw [show Dict.empty.keys = [] from rfl, List.nil_append] at h2; exact h2
  obtain ⟨g1, g2, g3⟩ := count_fold A Dict.empty (by simp [Dict.empty]) (by simp [Dict.empty])
  have hc : countSubspaces scheme = A.foldl (fun d l => (downSet l).foldl countOne d) Dict.empty := by
    rw [countSubspaces, hk]
  have hmem : ∀ k, k ∈ (countSubspaces scheme).keys ↔ ∃ a ∈ A, VecLe k a := by
    intro k
    rw [hc, g2]
    simp [Dict.empty]
  refine ⟨(countSubspaces scheme).keys, ⟨rfl, ?_, ?_, ?_, ?_, ?_⟩, hmem⟩
  · intro k l hkl hl
    rw [hmem] at hl ⊢
    obtain ⟨a, ha, hla⟩ := hl
    exact ⟨a, ha, hkl.trans hla⟩
  · intro l hl
    rw [hmem]
    exact ⟨l, by simpa only [hk] using hl, VecLe.refl l⟩
  · simp only [hk]; exact hA
  · intro l hl
    simp only [hk] at hl
    simp [hv l hl]
  · intro k _
    simp only
    rw [hc, g1, Dict.above, hk]
    simp only [Dict.empty, zero_add]
    congr 1
    apply List.map_congr_left
    intro l hl
    exact (hv l (List.mem_filter.1 hl).1).symm

/-- The coefficient of a level, zero if it is not in the scheme. -/
def Dict.coeff (d : Dict) (k : List ℕ) : ℤ := if k ∈ d.keys then d.val k else 0

lemma above_eq_coeff (d : Dict) (hnd : d.keys.Nodup) (k : List ℕ) :
    d.above k = d.coeff k + ((d.keys.filter fun l => decide (VecLe k l ∧ l ≠ k)).map d.val).sum := by
  unfold Dict.above Dict.coeff
  generalize d.val = f
  revert hnd
  generalize d.keys = L
  intro hnd
  induction L with
  | nil => simp
  | cons a L ih =>
    rw [List.nodup_cons] at hnd
    have ih := ih hnd.2
    by_cases hak : a = k
    · subst hak
      rw [if_neg hnd.1] at ih
      rw [List.filter_cons_of_pos (by simp), List.filter_cons_of_neg (by simp), List.map_cons,
        List.sum_cons, ih, if_pos (by simp), zero_add]
    · by_cases hle : VecLe k a
      · rw [List.filter_cons_of_pos (by simpa using hle), List.filter_cons_of_pos (by simp [hle, hak]),
          List.map_cons, List.map_cons, List.sum_cons, List.sum_cons, ih]
        have : (k ∈ a :: L) ↔ k ∈ L := by
          simp only [List.mem_cons]
          constructor
          · rintro (h | h)
            · exact absurd h.symm hak
            · exact h
          · exact Or.inr
        simp only [this]
        ring
      · rw [List.filter_cons_of_neg (by simpa using hle), List.filter_cons_of_neg (by simp [hle]), ih]
        have : (k ∈ a :: L) ↔ k ∈ L := by
          simp only [List.mem_cons]
          constructor
          · rintro (h | h)
            · exact absurd h.symm hak
            · exact h
          · exact Or.inr
        simp only [this]

/-- After the loop no grid lies below `lmin`. -/
lemma keys_above_lmin {U : List (List ℕ)} {d counts : Dict} (inv : Inv U (d, counts))
    (h1 : ∀ k ∈ U, counts.val k = 1) (lmin : List ℕ)
    (hU : ∀ k ∈ U, ∃ a ∈ U, VecLe k a ∧ VecLe lmin a) : ∀ g ∈ d.keys, VecLe lmin g := by
  have habove : ∀ k ∈ U, d.above k = 1 := fun k hk => by
    have := inv.count k hk
    rw [h1 k hk] at this
    exact this.symm
  by_contra hc
  push Not at hc
  obtain ⟨g0, hg0, hn0⟩ := hc
  -- a counterexample with the largest sum
  obtain ⟨g, hg, hn, hmax⟩ : ∃ g ∈ d.keys, ¬ VecLe lmin g ∧
      ∀ g' ∈ d.keys, g.sum < g'.sum → VecLe lmin g' := by
    by_contra hall
    push Not at hall
    have : ∀ n : ℕ, ∃ g ∈ d.keys, ¬ VecLe lmin g ∧ n ≤ g.sum := by
      intro n
      induction n with
      | zero => exact ⟨g0, hg0, hn0, by omega⟩
      | succ n ih =>
        obtain ⟨g, h2, h3, h4⟩ := ih
        obtain ⟨g', h5, h6, h7⟩ := hall g h2 h3
        exact ⟨g', h5, h7, by omega⟩
    obtain ⟨g, h2, -, h4⟩ := this ((d.keys.map fun l => l.sum).sum + 1)
    have := List.single_le_sum (l := d.keys.map fun l => l.sum) (by simp) g.sum (List.mem_map_of_mem h2)
    omega
  have hgU := inv.sub g hg
  obtain ⟨a, haU, hga, hla⟩ := hU g hgU
  have hlen : g.length = lmin.length := by rw [hga.length_eq, hla.length_eq]
  have hvU : vecMax g lmin ∈ U := inv.down _ a (vecMax_le hga hla) haU
  have e1 := habove g hgU
  have e2 := habove _ hvU
  rw [above_eq_coeff d inv.nodup, Dict.coeff, if_pos hg] at e1
  have hf : (d.keys.filter fun l => decide (VecLe g l ∧ l ≠ g)) =
      d.keys.filter fun l => decide (VecLe (vecMax g lmin) l) := by
    apply List.filter_congr
    intro l hl
    rw [decide_eq_decide, vecMax_le_iff hlen]
    constructor
    · rintro ⟨h2, h3⟩
      refine ⟨h2, hmax l hl ?_⟩
      by_contra hc
      exact h3 (h2.eq_of_sum (by omega)).symm
    · rintro ⟨h2, h3⟩
      refine ⟨h2, ?_⟩
      rintro rfl
      exact hn h3
  rw [hf] at e1
  unfold Dict.above at e2
  rw [e2] at e1
  exact inv.nonzero g hg (by simp only; omega)

/-- The coefficients are determined by their sums. -/
lemma coeff_unique {d d' : Dict} (hnd : d.keys.Nodup) (hnd' : d'.keys.Nodup) (U : List (List ℕ))
    (hU : ∀ k ∈ d.keys, k ∈ U) (hU' : ∀ k ∈ d'.keys, k ∈ U) (h : ∀ k ∈ U, d.above k = d'.above k) (k : List ℕ) :
    d.coeff k = d'.coeff k := by
  by_cases hkU : k ∈ U
  swap
  · unfold Dict.coeff
    rw [if_neg fun h => hkU (hU k h), if_neg fun h => hkU (hU' k h)]
  suffices hs : ∀ n : ℕ, ∀ k ∈ U, (U.map fun l => l.sum).sum < k.sum + n → d.coeff k = d'.coeff k by
    exact hs ((U.map fun l => l.sum).sum + 1) k hkU (by omega)
  intro n
  induction n with
  | zero =>
    intro k hk hlt
    have := List.single_le_sum (l := U.map fun l => l.sum) (by simp) k.sum (List.mem_map_of_mem hk)
    omega
  | succ n ih =>
    intro k hk hlt
    have e := h k hk
    rw [above_eq_coeff d hnd, above_eq_coeff d' hnd'] at e
    have hcoeff : ∀ (d : Dict) (p : List ℕ → Bool), (d.keys.filter p).map d.val = (d.keys.filter p).map d.coeff := by
      intro d p
      apply List.map_congr_left
      intro l hl
      rw [Dict.coeff, if_pos (List.mem_filter.1 hl).1]
    have hsum : ∀ (d : Dict), d.keys.Nodup → (∀ k ∈ d.keys, k ∈ U) →
        ((d.keys.filter fun l => decide (VecLe k l ∧ l ≠ k)).map d.val).sum =
          ∑ l ∈ U.toFinset.filter (fun l => VecLe k l ∧ l ≠ k), d.coeff l := by
      intro d hd hdU
      rw [hcoeff, list_sum_eq_finset _ (hd.filter _)]
      apply Finset.sum_subset
      · intro l hl
        simp only [List.mem_toFinset, List.mem_filter, decide_eq_true_eq] at hl
        simp only [Finset.mem_filter, List.mem_toFinset]
        exact ⟨hdU l hl.1, hl.2⟩
      · intro l hl hn
        simp only [Finset.mem_filter, List.mem_toFinset] at hl
        simp only [List.mem_toFinset, List.mem_filter, decide_eq_true_eq] at hn
        rw [Dict.coeff, if_neg fun h => hn ⟨h, hl.2⟩]
    rw [hsum d hnd hU, hsum d' hnd' hU'] at e
    have hrest : ∑ l ∈ U.toFinset.filter (fun l => VecLe k l ∧ l ≠ k), d.coeff l =
        ∑ l ∈ U.toFinset.filter (fun l => VecLe k l ∧ l ≠ k), d'.coeff l := by
      apply Finset.sum_congr rfl
      intro l hl
      simp only [Finset.mem_filter, List.mem_toFinset] at hl
      refine ih l hl.1 ?_
      have h1 := hl.2.1.sum_le
      have h2 : k.sum ≠ l.sum := fun h => hl.2.2 (hl.2.1.eq_of_sum (by omega)).symm
      omega
    omega

/-! ### The binomial formula -/

lemma binomialStep_fold (lmin : List ℕ) (c : ℤ) (q : ℕ) (T : List (List ℕ)) (hT : T.Nodup) (d : Dict)
    (hdisj : ∀ g ∈ T, (g.sum : ℤ) = lmin.sum + c - q → g ∉ d.keys) :
    (T.foldl (binomialStep lmin c q) d).keys =
      d.keys ++ T.filter (fun g => decide ((g.sum : ℤ) = lmin.sum + c - q) && leVec lmin g) ∧
    (∀ l ∈ d.keys, (T.foldl (binomialStep lmin c q) d).val l = d.val l) ∧
    ∀ l ∈ T.filter (fun g => decide ((g.sum : ℤ) = lmin.sum + c - q) && leVec lmin g),
      (T.foldl (binomialStep lmin c q) d).val l = (-1) ^ q * ((lmin.length - 1).choose q : ℤ) := by
  induction T generalizing d with
  | nil => simp
  | cons g T ih =>
    rw [List.nodup_cons] at hT
    rw [List.foldl_cons]
    by_cases hp : (decide ((g.sum : ℤ) = lmin.sum + c - q) && leVec lmin g) = true
    · have hg : g ∉ d.keys := hdisj g (by simp) (by
        rw [Bool.and_eq_true, decide_eq_true_eq] at hp
        exact hp.1)
      have hst : binomialStep lmin c q d g = d.set g ((-1) ^ q * ((lmin.length - 1).choose q : ℤ)) := by
        unfold binomialStep
        rw [if_pos hp]
      have hk : (d.set g ((-1) ^ q * ((lmin.length - 1).choose q : ℤ))).keys = d.keys ++ [g] := by
        simp [Dict.set, hg]
      rw [hst]
      obtain ⟨h1, h2, h3⟩ := ih hT.2 (d.set g ((-1) ^ q * ((lmin.length - 1).choose q : ℤ))) (by
        intro g' hg' hs hmem
        rw [Dict.mem_set] at hmem
        rcases hmem with h | rfl
        · exact hdisj g' (by simp [hg']) hs h
        · exact hT.1 hg')
      rw [hk] at h1 h2
      rw [List.filter_cons, if_pos hp]
      refine ⟨by rw [h1]; simp, ?_, ?_⟩
      · intro l hl
        rw [h2 l (by simp [hl])]
        have : l ≠ g := by rintro rfl; exact hg hl
        simp [Dict.set, this]
      · intro l hl
        rcases List.mem_cons.1 hl with rfl | hl
        · rw [h2 l (by simp)]
          simp [Dict.set]
        · exact h3 l hl
    · have hst : binomialStep lmin c q d g = d := by
        unfold binomialStep
        rw [if_neg hp]
      rw [hst, List.filter_cons, if_neg hp]
      exact ih hT.2 d fun g' hg' => hdisj g' (by simp [hg'])

lemma nodup_levelRanges (lmin lmax : List ℕ) : ∀ r ∈ levelRanges lmin lmax, r.Nodup := by
  intro r hr
  unfold levelRanges at hr
  obtain ⟨i, hi, rfl⟩ := List.mem_iff_getElem.1 hr
  rw [List.getElem_zipWith]
  exact List.nodup_range.map fun a b h => by simpa using h

lemma mem_levelRanges (lmin lmax g : List ℕ) (hlen : lmin.length = lmax.length) :
    g ∈ product (levelRanges lmin lmax) ↔ VecLe lmin g ∧ VecLe g lmax := by
  rw [mem_product]
  unfold levelRanges
  induction lmin generalizing lmax g with
  | nil =>
    cases lmax with
    | nil => cases g <;> simp
    | cons b lmax => simp at hlen
  | cons a lmin ih =>
    cases lmax with
    | nil => simp at hlen
    | cons b lmax =>
      cases g with
      | nil => simp
      | cons x g =>
        simp only [List.zipWith_cons_cons, List.forall₂_cons]
        rw [ih lmax g (by simpa using hlen), List.mem_map]
        constructor
        · rintro ⟨⟨i, hi, rfl⟩, h1, h2⟩
          have := List.mem_range.1 hi
          exact ⟨⟨by omega, h1⟩, by omega, h2⟩
        · rintro ⟨⟨h1, h2⟩, h3, h4⟩
          exact ⟨⟨x - a, List.mem_range.2 (by omega), by omega⟩, h2, h4⟩

/-- The scheme of the binomial formula. -/
lemma binomialScheme_spec (lmin lmax : List ℕ) (hlen : lmin.length = lmax.length) (c : ℤ) :
    (binomialScheme lmin lmax c).keys.Nodup ∧
    (∀ g, g ∈ (binomialScheme lmin lmax c).keys ↔ VecLe lmin g ∧ VecLe g lmax ∧
      (g.sum : ℤ) ≤ lmin.sum + c ∧ lmin.sum + c < (g.sum : ℤ) + lmin.length) ∧
    ∀ g ∈ (binomialScheme lmin lmax c).keys, (binomialScheme lmin lmax c).val g =
      (-1) ^ (lmin.sum + c - g.sum).toNat * ((lmin.length - 1).choose (lmin.sum + c - g.sum).toNat : ℤ) := by
  set T := product (levelRanges lmin lmax) with hT
  have hTnd : T.Nodup := nodup_product _ (nodup_levelRanges lmin lmax)
  have hTm := fun g => mem_levelRanges lmin lmax g hlen
  suffices h : ∀ n : ℕ, ((List.range n).foldl (fun d q => T.foldl (binomialStep lmin c q) d) Dict.empty).keys.Nodup ∧
      (∀ g, g ∈ ((List.range n).foldl (fun d q => T.foldl (binomialStep lmin c q) d) Dict.empty).keys ↔
        VecLe lmin g ∧ VecLe g lmax ∧ (g.sum : ℤ) ≤ lmin.sum + c ∧ lmin.sum + c < (g.sum : ℤ) + n) ∧
      ∀ g ∈ ((List.range n).foldl (fun d q => T.foldl (binomialStep lmin c q) d) Dict.empty).keys,
        ((List.range n).foldl (fun d q => T.foldl (binomialStep lmin c q) d) Dict.empty).val g =
        (-1) ^ (lmin.sum + c - g.sum).toNat * ((lmin.length - 1).choose (lmin.sum + c - g.sum).toNat : ℤ) from
    h lmin.length
  intro n
  induction n with
  | zero =>
    refine ⟨by simp [Dict.empty], ?_, by simp [Dict.empty]⟩
    intro g
    simp only [List.range_zero, List.foldl_nil, Dict.empty, List.not_mem_nil, false_iff]
    rintro ⟨_, _, h1, h2⟩
    omega
  | succ n ih =>
    rw [List.range_succ, List.foldl_append, List.foldl_cons, List.foldl_nil]
    set d := (List.range n).foldl (fun d q => T.foldl (binomialStep lmin c q) d) Dict.empty with hd
    obtain ⟨i1, i2, i3⟩ := ih
    obtain ⟨h1, h2, h3⟩ := binomialStep_fold lmin c n T hTnd d (by
      intro g _ hs hmem
      have := ((i2 g).1 hmem).2.2
      omega)
    have hfil : ∀ g, g ∈ T.filter (fun g => decide ((g.sum : ℤ) = lmin.sum + c - n) && leVec lmin g) ↔
        VecLe lmin g ∧ VecLe g lmax ∧ (g.sum : ℤ) = lmin.sum + c - n := by
      intro g
      rw [List.mem_filter, hTm, Bool.and_eq_true, decide_eq_true_eq, leVec_iff]
      tauto
    refine ⟨?_, ?_, ?_⟩
    · rw [h1, List.nodup_append]
      refine ⟨i1, hTnd.filter _, ?_⟩
      rintro a ha b hb rfl
      have h4 := ((i2 a).1 ha).2.2
      have h5 := ((hfil a).1 hb).2.2
      omega
    · intro g
      rw [h1, List.mem_append, i2, hfil, Nat.cast_succ]
      constructor
      · rintro (⟨h4, h5, h6, h7⟩ | ⟨h4, h5, h6⟩)
        · exact ⟨h4, h5, h6, by omega⟩
        · exact ⟨h4, h5, by omega, by omega⟩
      · rintro ⟨h4, h5, h6, h7⟩
        by_cases h8 : (g.sum : ℤ) = lmin.sum + c - n
        · exact Or.inr ⟨h4, h5, h8⟩
        · exact Or.inl ⟨h4, h5, h6, by omega⟩
    · intro g hg
      rw [h1, List.mem_append] at hg
      rcases hg with hg | hg
      · rw [h2 g hg]; exact i3 g hg
      · rw [h3 g hg]
        have h5 := ((hfil g).1 hg).2.2
        rw [show (lmin.sum + c - g.sum : ℤ).toNat = n by omega]

/-! ### The assignment -/

/-- The order in which the grids are assigned. -/
def order (scheme : Dict) : List (List ℕ) :=
  (gridSizes scheme).flatMap fun size => scheme.keys.filter fun key => decide (key.sum = size)

theorem gridSizes_fold (l : List (List ℕ)) : ∀ acc : List ℕ, acc.Nodup →
    (l.foldl (fun l k => if k.sum ∈ l then l else l ++ [k.sum]) acc).Nodup ∧
      ∀ n, n ∈ l.foldl (fun l k => if k.sum ∈ l then l else l ++ [k.sum]) acc ↔
        n ∈ acc ∨ ∃ k ∈ l, k.sum = n := by
  induction l with
  | nil => intro acc h; exact ⟨h, by simp⟩
  | cons k l ih =>
    intro acc h
    rw [List.foldl_cons]
    by_cases hk : k.sum ∈ acc
    · rw [if_pos hk]
      refine ⟨(ih acc h).1, fun n => ?_⟩
      rw [(ih acc h).2 n]
      constructor
      · rintro (h1 | ⟨a, h1, h2⟩)
        · exact .inl h1
        · exact .inr ⟨a, List.mem_cons_of_mem _ h1, h2⟩
      · rintro (h1 | ⟨a, h1, h2⟩)
        · exact .inl h1
        · rcases List.mem_cons.1 h1 with rfl | h1
          · exact .inl (h2 ▸ hk)
          · exact .inr ⟨a, h1, h2⟩
    · rw [if_neg hk]
      have h' : (acc ++ [k.sum]).Nodup := by
        rw [List.nodup_append]
        refine ⟨h, by simp, ?_⟩
        intro a ha b hb
        rw [List.mem_singleton] at hb
        subst hb
        rintro rfl
        exact hk ha
      refine ⟨(ih _ h').1, fun n => ?_⟩
      rw [(ih _ h').2 n, List.mem_append, List.mem_singleton]
      constructor
      · rintro ((h1 | h1) | ⟨a, h1, h2⟩)
        · exact .inl h1
        · exact .inr ⟨k, List.mem_cons_self, h1.symm⟩
        · exact .inr ⟨a, List.mem_cons_of_mem _ h1, h2⟩
      · rintro (h1 | ⟨a, h1, h2⟩)
        · exact .inl (.inl h1)
        · rcases List.mem_cons.1 h1 with rfl | h1
          · exact .inl (.inr h2.symm)
          · exact .inr ⟨a, h1, h2⟩

theorem nodup_gridSizes (scheme : Dict) : (gridSizes scheme).Nodup :=
  (gridSizes_fold scheme.keys [] List.nodup_nil).1

theorem mem_gridSizes (scheme : Dict) (n : ℕ) : n ∈ gridSizes scheme ↔ ∃ k ∈ scheme.keys, k.sum = n := by
  unfold gridSizes
  rw [(gridSizes_fold scheme.keys [] List.nodup_nil).2 n]
  simp

theorem mem_order (scheme : Dict) (k : List ℕ) : k ∈ order scheme ↔ k ∈ scheme.keys := by
  unfold order
  rw [List.mem_flatMap]
  constructor
  · rintro ⟨n, _, h⟩
    exact (List.mem_filter.1 h).1
  · intro h
    exact ⟨k.sum, (mem_gridSizes scheme _).2 ⟨k, h, rfl⟩, List.mem_filter.2 ⟨h, by simp⟩⟩

theorem nodup_order (scheme : Dict) (h : scheme.keys.Nodup) : (order scheme).Nodup := by
  unfold order
  rw [List.nodup_flatMap]
  refine ⟨fun n _ => h.filter _, ?_⟩
  refine (nodup_gridSizes scheme).imp ?_
  intro a b hab k hk hk'
  have h1 := (List.mem_filter.1 hk).2
  have h2 := (List.mem_filter.1 hk').2
  rw [decide_eq_true_eq] at h1 h2
  exact hab (h1.symm.trans h2)

/-- What group `g` has after the grids of `l`. -/
def dealt (groups g : ℕ) (l : List (List ℕ)) : List (List ℕ) :=
  (l.zipIdx.filter fun p => decide (p.2 % groups = g)).map Prod.fst

theorem deal (groups : ℕ) (scheme : Dict) (l : List (List ℕ)) (hl : l.Nodup) :
    (∀ g, ((l.foldl (assignOne groups scheme) (fun _ => .empty, 0)).1 g).keys = dealt groups g l ∧
      ∀ k ∈ dealt groups g l,
        ((l.foldl (assignOne groups scheme) (fun _ => .empty, 0)).1 g).val k = scheme.val k) ∧
    (l.foldl (assignOne groups scheme) (fun _ => .empty, 0)).2 = l.length % groups := by
  induction l using List.reverseRecOn with
  | nil => exact ⟨fun g => ⟨rfl, by simp [dealt]⟩, by simp⟩
  | append_singleton l a ih =>
    rw [List.nodup_append] at hl
    obtain ⟨h1, -, h2⟩ := hl
    obtain ⟨i1, i2⟩ := ih h1
    rw [List.foldl_append, List.foldl_cons, List.foldl_nil]
    set st := l.foldl (assignOne groups scheme) (fun _ => .empty, 0) with hst
    have hd : ∀ g, dealt groups g (l ++ [a]) =
        dealt groups g l ++ (if l.length % groups = g then [a] else []) := by
      intro g
      unfold dealt
      rw [List.zipIdx_append, List.filter_append, List.map_append]
      congr 1
      by_cases h : l.length % groups = g
      · simp [h]
      · simp [h]
    have hna : ∀ g, a ∉ dealt groups g l := by
      intro g h
      unfold dealt at h
      obtain ⟨p, hp, hpa⟩ := List.mem_map.1 h
      have := List.fst_mem_of_mem_zipIdx (List.mem_filter.1 hp).1
      exact h2 p.1 this a (by simp) hpa
    refine ⟨fun g => ?_, ?_⟩
    · rw [hd g]
      unfold assignOne
      simp only
      rw [i2]
      by_cases h : g = l.length % groups
      · rw [if_pos h, if_pos h.symm]
        have hk : a ∉ (st.1 g).keys := by rw [(i1 g).1]; exact hna g
        constructor
        · simp only [Dict.set]
          rw [if_neg hk, (i1 g).1]
        · intro k hk'
          simp only [Dict.set]
          by_cases hka : k = a
          · rw [if_pos hka, hka]
          · rw [if_neg hka]
            apply (i1 g).2
            simpa [hka] using hk'
      · rw [if_neg h, if_neg (fun e => h e.symm), List.append_nil]
        exact i1 g
    · unfold assignOne
      simp only
      rw [i2, List.length_append, List.length_singleton, Nat.mod_add_mod]

theorem assign_eq (groups : ℕ) (scheme : Dict) :
    assign groups scheme = ((order scheme).foldl (assignOne groups scheme) (fun _ => .empty, 0)).1 := by
  unfold assign order
  rw [List.foldl_flatMap]
  congr 1
  congr 1
  funext st size
  rw [List.foldl_filter]
  simp only [decide_eq_true_eq]

/-- Among consecutive numbers, two residues occur equally often up to one. -/
theorem residues (groups : ℕ) (hg : 0 < groups) (a n g g' : ℕ) (h : g < groups) (h' : g' < groups) :
    (List.range' a n).countP (fun i => decide (i % groups = g)) ≤
      (List.range' a n).countP (fun i => decide (i % groups = g')) + 1 := by
  have key : ∀ g, g < groups →
      a / groups + (if g < a % groups then 1 else 0) +
        (List.range' a n).countP (fun i => decide (i % groups = g)) =
      (a + n) / groups + if g < (a + n) % groups then 1 else 0 := by
    intro g h
    have h1 := Nat.count_modEq_card a hg g
    have h2 := Nat.count_modEq_card (a + n) hg g
    rw [Nat.mod_eq_of_lt h] at h1 h2
    unfold Nat.count at h1 h2
    rw [← h2, ← h1]
    have hp : (fun i : ℕ => decide (i ≡ g [MOD groups])) = fun i => decide (i % groups = g) := by
      funext i
      rw [Bool.eq_iff_iff, decide_eq_true_eq, decide_eq_true_eq, Nat.ModEq, Nat.mod_eq_of_lt h]
    rw [hp, List.range_eq_range', List.range_eq_range', ← List.countP_append]
    congr 1
    have := List.range'_append (s := 0) (m := a) (n := n) (step := 1)
    simpa using this
  have h1 := key g h
  have h2 := key g' h'
  generalize (List.range' a n).countP (fun i => decide (i % groups = g)) = c at *
  generalize (List.range' a n).countP (fun i => decide (i % groups = g')) = c' at *
  generalize (a + n) / groups = x at *
  generalize a / groups = y at *
  generalize (a + n) % groups = z at *
  generalize a % groups = w at *
  split_ifs at h1 h2 <;> omega

theorem dealt_block (groups g : ℕ) (p : List ℕ → Bool) (A B C : List (List ℕ))
    (hA : ∀ k ∈ A, p k = false) (hB : ∀ k ∈ B, p k = true) (hC : ∀ k ∈ C, p k = false) :
    ((dealt groups g (A ++ B ++ C)).filter p).length =
      (List.range' A.length B.length).countP (fun i => decide (i % groups = g)) := by
  have none : ∀ (l : List (List ℕ)) (i : ℕ), (∀ k ∈ l, p k = false) →
      (((l.zipIdx i).filter fun p => decide (p.2 % groups = g)).map Prod.fst).filter p = [] := by
    intro l i h
    rw [List.filter_eq_nil_iff]
    intro k hk
    obtain ⟨q, hq, rfl⟩ := List.mem_map.1 hk
    rw [h q.1 (List.fst_mem_of_mem_zipIdx (List.mem_filter.1 hq).1)]
    simp
  unfold dealt
  rw [List.zipIdx_append, List.zipIdx_append, List.filter_append, List.filter_append, List.map_append,
    List.map_append, List.filter_append, List.filter_append, none A _ hA, none C _ hC, List.nil_append,
    List.append_nil, List.filter_eq_self.2]
  · rw [List.length_map, ← List.countP_eq_length_filter, Nat.zero_add, ← List.zipIdx_map_snd, List.countP_map]
    rfl
  · intro k hk
    obtain ⟨q, hq, rfl⟩ := List.mem_map.1 hk
    exact hB q.1 (List.fst_mem_of_mem_zipIdx (List.mem_filter.1 hq).1)

end Verif.SchemeGenerator

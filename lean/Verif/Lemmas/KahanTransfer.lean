import Verif.Lemmas.Transfer

/-! Adding full grids to the sparse grid with the operations of a machine. -/

namespace Verif

variable {K : Type}

variable (A : Adder K) (mul : K → K → K)

/-- value and residual at position `j` after adding the points `ps` at `sp` -/
def added (c : K) (x s k : ℕ → K) (sp : ℕ) (ps : List ℕ) (j : ℕ) : K × K :=
  if sp ≤ j ∧ j < sp + ps.length then kahanStep A (s j, k j) (mul c (x (ps.getD (j - sp) 0)))
  else (s j, k j)

theorem addPointsWith_eq (c : K) (x : Buf K) (ps : List ℕ) (s k : Buf K) (sp : ℕ)
    (hx : ∀ p ∈ ps, p < x.len) (hs : sp + ps.length ≤ s.len) (hk : sp + ps.length ≤ k.len) :
    addPointsWith A mul c x s k sp sp ps =
      some (⟨s.len, fun j => (added A mul c x.val s.val k.val sp ps j).1⟩,
        ⟨k.len, fun j => (added A mul c x.val s.val k.val sp ps j).2⟩) := by
  induction ps generalizing s k sp with
  | nil =>
    have : ∀ j, added A mul c x.val s.val k.val sp [] j = (s.val j, k.val j) := by
      intro j
      unfold added
      rw [if_neg (by rw [List.length_nil]; omega)]
    simp only [addPointsWith, this]
  | cons p ps ih =>
    rw [List.length_cons] at hs hk
    have hp := hx p (by simp)
    rw [addPointsWith]
    simp only [Buf.get?, Buf.set?, if_pos hp, if_pos (show sp < k.len by omega),
      if_pos (show sp < s.len by omega), Option.bind_eq_bind, Option.bind_some]
    rw [ih ⟨s.len, _⟩ ⟨k.len, _⟩ (sp + 1) (fun q hq => hx q (by simp [hq])) (by simp only; omega)
      (by simp only; omega)]
    have key : ∀ j, added A mul c x.val
        (Function.update s.val sp (kahanStep A (s.val sp, k.val sp) (mul c (x.val p))).1)
        (Function.update k.val sp (kahanStep A (s.val sp, k.val sp) (mul c (x.val p))).2) (sp + 1) ps j =
        added A mul c x.val s.val k.val sp (p :: ps) j := by
      intro j
      unfold added
      rw [List.length_cons]
      by_cases hj : j = sp
      · subst hj
        rw [if_neg (by omega), if_pos (by omega), Function.update_self, Function.update_self, Nat.sub_self,
          List.getD_cons_zero]
      · rw [Function.update_of_ne hj, Function.update_of_ne hj]
        by_cases hj2 : sp + 1 ≤ j ∧ j < sp + 1 + ps.length
        · rw [if_pos hj2, if_pos (by omega)]
          obtain ⟨n, rfl⟩ : ∃ n, j = sp + (n + 1) := ⟨j - sp - 1, by omega⟩
          simp only [show sp + (n + 1) - (sp + 1) = n by omega,
            show sp + (n + 1) - sp = n + 1 by omega, List.getD_cons_succ]
        · rw [if_neg hj2, if_neg (by omega)]
    simp only [key]

/-- the summand of grid `g` with coefficient `c` at position `j` of subspace `i` -/
def summand (d : Dsg K) (g : Dfg K) (c : K) (i j : ℕ) : K :=
  mul c (g.data.val ((getFGPointsOfSubspace g.dims (d.levels.getD i [])).getD j 0))

theorem addStepWith_eq [Zero K] {d : Dsg K} (hd : Allocated d) (fully : Bool)
    (hf : fully = true → ∀ i < d.sizes.length, i ∈ d.sel) (g : Dfg K) (c : K) (l : List ℕ)
    (i : ℕ) (hi : i < d.levels.length) (hl : d.levels[i] = l) (hint : ℤ)
    (hidx : getIndexFlat d.levels l hint = some (i : ℤ))
    (hsize : 0 < d.sizes.getD i 0 → d.sizes.getD i 0 = (getFGPointsOfSubspace g.dims l).length)
    (hrange : ∀ p ∈ getFGPointsOfSubspace g.dims l, p < g.data.len) :
    ∃ v w, addStepWith A mul fully g c (d, hint) l =
        some ({ d with data := ⟨d.data.len, v⟩, kahan := ⟨d.kahan.len, w⟩ }, (i : ℤ)) ∧
      ∀ j, (v j, w j) =
        if selOffset d.sizes d.sel i ≤ j ∧ j < selOffset d.sizes d.sel i + selSize d.sizes d.sel i
        then kahanStep A (d.data.val j, d.kahan.val j) (summand mul d g c i (j - selOffset d.sizes d.sel i))
        else (d.data.val j, d.kahan.val j) := by
  have hi' : i < d.sizes.length := by rw [hd.len]; exact hi
  unfold addStepWith
  simp only [hidx, Option.bind_eq_bind,
    Option.bind_some, shouldBeCopied_eq fully hf i hi', Int.toNat_natCast, hd.ptr i hi',
    hd.kptr i hi']
  have hlev : d.levels.getD i [] = l := by rw [List.getD_eq_getElem _ _ hi, hl]
  by_cases hc : i ∈ d.sel ∧ 0 < d.sizes.getD i 0
  · rw [if_pos (by simpa using hc)]
    have hsz := hsize hc.2
    have hle := storage_le (sel := d.sel) hi'
    rw [selSize_of_mem hc.1] at hle ⊢
    rw [addPointsWith_eq A mul c g.data _ d.data d.kahan _ hrange (by rw [hd.dataLen]; omega)
      (by rw [hd.kahanLen]; omega)]
    refine ⟨_, _, rfl, fun j => ?_⟩
    rw [Prod.mk.eta, added, summand, hlev, hsz]
  · rw [if_neg (by simpa using hc)]
    have hz : selSize d.sizes d.sel i = 0 := by
      unfold selSize
      split
      · rename_i hm
        by_contra hne
        exact hc ⟨hm, by omega⟩
      · rfl
    refine ⟨d.data.val, d.kahan.val, rfl, fun j => ?_⟩
    rw [if_neg (by omega)]

theorem addLoopWith_eq [Zero K] (fully : Bool) (g : Dfg K) (c : K) (ls : List (List ℕ))
    (hls : ls.Pairwise (· < ·)) {d : Dsg K} (hd : Allocated d)
    (hf : fully = true → ∀ i < d.sizes.length, i ∈ d.sel) (hfit : Fits d g ls) (hint : ℤ)
    (hh : HintOk d.levels ls hint) :
    ∃ v w h', ls.foldlM (addStepWith A mul fully g c) (d, hint) =
        some ({ d with data := ⟨d.data.len, v⟩, kahan := ⟨d.kahan.len, w⟩ }, h') ∧
      ∀ i ∈ d.sel, ∀ j < selSize d.sizes d.sel i,
        (v (selOffset d.sizes d.sel i + j), w (selOffset d.sizes d.sel i + j)) =
          if d.levels.getD i [] ∈ ls
          then kahanStep A (d.data.val (selOffset d.sizes d.sel i + j),
            d.kahan.val (selOffset d.sizes d.sel i + j)) (summand mul d g c i j)
          else (d.data.val (selOffset d.sizes d.sel i + j), d.kahan.val (selOffset d.sizes d.sel i + j)) := by
  induction ls generalizing d hint with
  | nil => exact ⟨d.data.val, d.kahan.val, hint, rfl, by simp⟩
  | cons l ls ih =>
    have hnext := hh.next hd.sorted hls hfit.first
    rw [List.pairwise_cons] at hls
    rcases hnext with ⟨i, hi, hl, hidx, hh'⟩ | ⟨hmem, hidx, hh'⟩
    swap
    · have hstep : addStepWith A mul fully g c (d, hint) l = some (d, -1) := by
        unfold addStepWith
        simp only [hidx, Option.bind_eq_bind, Option.bind_some]
        rfl
      obtain ⟨v, w, h', e1, e2⟩ := ih hls.2 hd hf hfit.tail (-1) hh'
      refine ⟨v, w, h', by rw [List.foldlM_cons, hstep]; exact e1, fun i hi j hj => ?_⟩
      rw [e2 i hi j hj]
      have hil : i < d.levels.length := by rw [← hd.len]; exact hd.selRange i hi
      have : d.levels.getD i [] ≠ l := by
        rw [List.getD_eq_getElem _ _ hil]
        exact fun e => hmem (e ▸ List.getElem_mem hil)
      simp only [List.mem_cons, this, false_or]
    obtain ⟨v1, w1, hstep, hvw⟩ := addStepWith_eq A mul hd fully hf g c l i hi hl hint hidx
      (fun hp => by rw [← hl]; exact hfit.size i hi (by simp [hl]) hp)
      (hfit.range l (by simp))
    rw [List.foldlM_cons, hstep]
    have hd' : Allocated ({ d with data := ⟨d.data.len, v1⟩, kahan := ⟨d.kahan.len, w1⟩ } : Dsg K) :=
      ⟨hd.sorted, hd.len, hd.selRange, hd.ptr, hd.kptr, hd.dataLen, hd.kahanLen⟩
    obtain ⟨v, w, h', e1, e2⟩ := ih hls.2 hd' hf
      hfit.tail i hh'
    refine ⟨v, w, h', e1, ?_⟩
    intro i' hi'm j hj
    have := e2 i' hi'm j hj
    simp only at this
    have hsum : summand mul ({ d with data := ⟨d.data.len, v1⟩, kahan := ⟨d.kahan.len, w1⟩ } : Dsg K) g c i' j =
      summand mul d g c i' j := rfl
    rw [this, hsum, hvw]
    have hi'l : i' < d.levels.length := by rw [← hd.len]; exact hd.selRange i' hi'm
    by_cases hii : i' = i
    · subst hii
      have hlev : d.levels.getD i' [] = l := by rw [List.getD_eq_getElem _ _ hi, hl]
      have hnot : l ∉ ls := fun h => lt_irrefl _ (hls.1 l h)
      rw [hlev, if_neg hnot, if_pos List.mem_cons_self, if_pos ⟨by omega, by omega⟩,
        show selOffset d.sizes d.sel i' + j - selOffset d.sizes d.sel i' = j by omega]
    · have hlev : d.levels.getD i' [] ≠ l := by
        rw [List.getD_eq_getElem _ _ hi'l, ← hl]
        intro he
        have hnd : d.levels.Nodup := hd.sorted.imp fun h => ne_of_lt h
        exact hii (hnd.getElem_inj_iff.1 he)
      have hno : ¬ (selOffset d.sizes d.sel i ≤ selOffset d.sizes d.sel i' + j ∧
          selOffset d.sizes d.sel i' + j < selOffset d.sizes d.sel i + selSize d.sizes d.sel i) := by
        rintro ⟨a, b⟩
        have := storage_inj (sizes := d.sizes) (sel := d.sel) (i := i') (i' := i) (j := j)
          (j' := selOffset d.sizes d.sel i' + j - selOffset d.sizes d.sel i) hj (by omega) (by omega)
        exact hii this.1
      rw [if_neg hno]
      by_cases hm : d.levels.getD i' [] ∈ ls
      · rw [if_pos hm, if_pos (List.mem_cons_of_mem _ hm)]
      · rw [if_neg hm, if_neg (by rw [List.mem_cons, not_or]; exact ⟨hlev, hm⟩)]

/-- adding grids one after the other -/
def addAllWith (fully : Bool) (d : Dsg K) (gs : List (K × Dfg K)) : Option (Dsg K) :=
  gs.foldlM (fun d g => addDistributedFullGridWith A mul fully d g.2 g.1) d

theorem addAllWith_eq [Zero K] (fully : Bool) (gs : List (K × Dfg K)) {d : Dsg K}
    (hd : Allocated d) (hf : fully = true → ∀ i < d.sizes.length, i ∈ d.sel)
    (hfit : ∀ g ∈ gs, Fits d g.2 (getDownSet g.2.levels)) :
    ∃ v w, addAllWith A mul fully d gs =
        some { d with data := ⟨d.data.len, v⟩, kahan := ⟨d.kahan.len, w⟩ } ∧
      ∀ i ∈ d.sel, ∀ j < selSize d.sizes d.sel i,
        (v (selOffset d.sizes d.sel i + j), w (selOffset d.sizes d.sel i + j)) =
          ((gs.filter fun g => decide (d.levels.getD i [] ∈ getDownSet g.2.levels)).map fun g =>
            summand mul d g.2 g.1 i j).foldl (kahanStep A)
          (d.data.val (selOffset d.sizes d.sel i + j), d.kahan.val (selOffset d.sizes d.sel i + j)) := by
  induction gs generalizing d with
  | nil => exact ⟨d.data.val, d.kahan.val, rfl, by simp⟩
  | cons g gs ih =>
    obtain ⟨v1, w1, h', e1, e2⟩ := addLoopWith_eq A mul fully g.2 g.1 (getDownSet g.2.levels)
      (C01_downSet _).2 hd hf (hfit g (by simp)) 0 (HintOk.zero _ _)
    have hadd : addDistributedFullGridWith A mul fully d g.2 g.1 =
        some { d with data := ⟨d.data.len, v1⟩, kahan := ⟨d.kahan.len, w1⟩ } := by
      unfold addDistributedFullGridWith
      rw [e1]
      rfl
    have hd' : Allocated ({ d with data := ⟨d.data.len, v1⟩, kahan := ⟨d.kahan.len, w1⟩ } : Dsg K) :=
      ⟨hd.sorted, hd.len, hd.selRange, hd.ptr, hd.kptr, hd.dataLen, hd.kahanLen⟩
    obtain ⟨v, w, f1, f2⟩ := ih hd' hf (fun g' hg' =>
      let h := hfit g' (by simp [hg']); ⟨h.first, h.size, h.range⟩)
    refine ⟨v, w, ?_, ?_⟩
    · unfold addAllWith at f1 ⊢
      rw [List.foldlM_cons, hadd]
      exact f1
    · intro i hi j hj
      have a := e2 i hi j hj
      have b := f2 i hi j hj
      simp only at b
      rw [b, a, List.filter_cons]
      by_cases hm : d.levels.getD i [] ∈ getDownSet g.2.levels
      · rw [if_pos hm, if_pos (by simpa using hm), List.map_cons, List.foldl_cons]
        rfl
      · rw [if_neg hm, if_neg (by simpa using hm)]
        rfl

end Verif

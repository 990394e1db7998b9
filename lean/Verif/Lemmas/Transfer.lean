import Verif.Props.Storage
import Verif.Lemmas.Kahan
import Verif.Props.SubspacePoints
import Verif.Props.LevelSets

/-!
# Lemmas on the transfer between full grids and the sparse grid
-/

namespace Verif

variable {K : Type}

/-- Sparse grid with allocated data. -/
structure WellAllocated [Zero K] (d : Dsg K) : Prop where
  sorted : d.levels.Pairwise (· < ·)
  len : d.sizes.length = d.levels.length
  selRange : ∀ i ∈ d.sel, i < d.sizes.length
  ptr : ∀ i < d.sizes.length, d.ptr[i]? = some (selOffset d.sizes d.sel i)
  kptr : ∀ i < d.sizes.length, d.kptr[i]? = some (selOffset d.sizes d.sel i)
  dataLen : d.data.len = selOffset d.sizes d.sel d.sizes.length
  kahanLen : d.kahan.len = selOffset d.sizes d.sel d.sizes.length
  kahanZero : d.kahan.val = fun _ => 0

/-- Sparse grid with allocated data and residuals. -/
structure Allocated (d : Dsg K) : Prop where
  sorted : d.levels.Pairwise (· < ·)
  len : d.sizes.length = d.levels.length
  selRange : ∀ i ∈ d.sel, i < d.sizes.length
  ptr : ∀ i < d.sizes.length, d.ptr[i]? = some (selOffset d.sizes d.sel i)
  kptr : ∀ i < d.sizes.length, d.kptr[i]? = some (selOffset d.sizes d.sel i)
  dataLen : d.data.len = selOffset d.sizes d.sel d.sizes.length
  kahanLen : d.kahan.len = selOffset d.sizes d.sel d.sizes.length

theorem WellAllocated.allocated [Zero K] {d : Dsg K} (h : WellAllocated d) : Allocated d :=
  ⟨h.sorted, h.len, h.selRange, h.ptr, h.kptr, h.dataLen, h.kahanLen⟩

theorem storage_le {sizes sel : List ℕ} {i : ℕ} (hi : i < sizes.length) :
    selOffset sizes sel i + selSize sizes sel i ≤ selOffset sizes sel sizes.length := by
  have := selOffset_mono sizes sel (show i + 1 ≤ sizes.length from hi)
  rwa [selOffset_succ] at this

/-- positions in different subspaces are different -/
theorem storage_inj {sizes sel : List ℕ} {i i' j j' : ℕ} (hj : j < selSize sizes sel i)
    (hj' : j' < selSize sizes sel i')
    (h : selOffset sizes sel i + j = selOffset sizes sel i' + j') : i = i' ∧ j = j' := by
  have : i = i' := by
    by_contra hne
    rcases Nat.lt_or_gt_of_ne hne with hlt | hlt
    · have := selOffset_mono sizes sel (show i + 1 ≤ i' from hlt)
      rw [selOffset_succ] at this
      omega
    · have := selOffset_mono sizes sel (show i' + 1 ≤ i from hlt)
      rw [selOffset_succ] at this
      omega
  subst this
  exact ⟨rfl, by omega⟩

/-! ### Adding -/

theorem addPoints_eq [Ring K] (c : K) (x : Buf K) (ps : List ℕ) (s k : Buf K) (sp kp : ℕ)
    (hx : ∀ p ∈ ps, p < x.len) (hs : sp + ps.length ≤ s.len) (hk : kp + ps.length ≤ k.len)
    (k0 : k.val = fun _ => 0) :
    addPointsWith (Adder.exact K) (fun a b => a * b) c x s k sp kp ps = some (⟨s.len, fun j => s.val j +
      if sp ≤ j ∧ j < sp + ps.length then c * x.val (ps.getD (j - sp) 0) else 0⟩, k) := by
  induction ps generalizing s sp kp with
  | nil =>
    have : ∀ j, ¬ (sp ≤ j ∧ j < sp + ([] : List ℕ).length) := by
      intro j
      rw [List.length_nil]
      omega
    simp only [addPointsWith, this, if_false, add_zero]
  | cons p ps ih =>
    rw [List.length_cons] at hs hk
    have hp := hx p (by simp)
    have hk0 : (⟨k.len, Function.update k.val kp 0⟩ : Buf K) = k := by
      have : Function.update k.val kp 0 = k.val := by
        rw [k0]
        exact Function.update_eq_self kp (fun _ => (0 : K))
      rw [this]
    rw [addPointsWith]
    simp only [Buf.get?, Buf.set?, if_pos hp, if_pos (show kp < k.len by omega),
      if_pos (show sp < s.len by omega), Option.bind_eq_bind, Option.bind_some, k0, kahanStep_exact]
    rw [k0] at hk0
    rw [hk0, ih ⟨s.len, _⟩ (sp + 1) (kp + 1) (fun q hq => hx q (by simp [hq])) (by simp only; omega)
      (by omega)]
    congr 3
    funext j
    simp only [Function.update_apply, List.length_cons]
    by_cases hj : j = sp
    · subst hj
      simp
    · rw [if_neg hj]
      congr 1
      by_cases hj2 : sp + 1 ≤ j ∧ j < sp + 1 + ps.length
      · rw [if_pos hj2, if_pos (by omega)]
        obtain ⟨n, rfl⟩ : ∃ n, j = sp + (n + 1) := ⟨j - sp - 1, by omega⟩
        simp only [show sp + (n + 1) - (sp + 1) = n by omega,
          show sp + (n + 1) - sp = n + 1 by omega, List.getD_cons_succ]
      · rw [if_neg hj2, if_neg (by omega)]

/-- what grid `g` with coefficient `c` adds at position `j` of subspace `i` -/
def contrib [Ring K] (d : Dsg K) (g : Dfg K) (c : K) (i j : ℕ) : K :=
  c * g.data.val ((getFGPointsOfSubspace g.dims (d.levels.getD i [])).getD j 0)

/-- grid `g` fits into the sparse grid: sizes of allocated subspaces agree, points are in range -/
structure Fits [Zero K] (d : Dsg K) (g : Dfg K) (ls : List (List ℕ)) : Prop where
  first : Reachable d.levels ls
  size : ∀ i (hi : i < d.levels.length), d.levels[i] ∈ ls → 0 < d.sizes.getD i 0 →
    d.sizes.getD i 0 = (getFGPointsOfSubspace g.dims d.levels[i]).length
  range : ∀ l ∈ ls, ∀ p ∈ getFGPointsOfSubspace g.dims l, p < g.data.len

theorem Fits.tail [Zero K] {d : Dsg K} {g : Dfg K} {l : List ℕ} {ls : List (List ℕ)}
    (h : Fits d g (l :: ls)) {b k : Buf K} :
    Fits ({ d with data := b, kahan := k } : Dsg K) g ls :=
  ⟨fun l' h' => h.first l' (by simp [h']), fun i' hi' h' => h.size i' hi' (by simp [h']),
    fun l' h' => h.range l' (by simp [h'])⟩

theorem shouldBeCopied_eq [Zero K] {d : Dsg K} (fully : Bool)
    (hf : fully = true → ∀ i < d.sizes.length, i ∈ d.sel) (i : ℕ) (hi : i < d.sizes.length) :
    shouldBeCopied fully d (i : ℤ) = some (decide (i ∈ d.sel ∧ 0 < d.sizes.getD i 0)) := by
  unfold shouldBeCopied
  rw [if_pos (by omega), Int.toNat_natCast, List.getElem?_eq_getElem hi,
    List.getD_eq_getElem _ _ hi]
  simp only [Option.bind_eq_bind, Option.bind_some]
  cases fully with
  | false => simp [Bool.and_comm]
  | true => simp [hf rfl i hi]

theorem addStep_eq [Ring K] {d : Dsg K} (hd : WellAllocated d) (fully : Bool)
    (hf : fully = true → ∀ i < d.sizes.length, i ∈ d.sel) (g : Dfg K) (c : K) (l : List ℕ)
    (i : ℕ) (hi : i < d.levels.length) (hl : d.levels[i] = l) (hint : ℤ)
    (hidx : getIndexFlat d.levels l hint = some (i : ℤ))
    (hsize : 0 < d.sizes.getD i 0 → d.sizes.getD i 0 = (getFGPointsOfSubspace g.dims l).length)
    (hrange : ∀ p ∈ getFGPointsOfSubspace g.dims l, p < g.data.len) :
    addStepWith (Adder.exact K) (fun a b => a * b) fully g c (d, hint) l = some ({ d with data := ⟨d.data.len, fun j => d.data.val j +
      if selOffset d.sizes d.sel i ≤ j ∧ j < selOffset d.sizes d.sel i + selSize d.sizes d.sel i
        then contrib d g c i (j - selOffset d.sizes d.sel i) else 0⟩ }, (i : ℤ)) := by
  have hi' : i < d.sizes.length := by rw [hd.len]; exact hi
  unfold addStepWith
  simp only [hidx, Option.bind_eq_bind,
    Option.bind_some, shouldBeCopied_eq fully hf i hi', Int.toNat_natCast, hd.ptr i hi',
    hd.kptr i hi']
  have hlev : d.levels.getD i [] = l := by rw [List.getD_eq_getElem _ _ hi, hl]
  by_cases hc : i ∈ d.sel ∧ 0 < d.sizes.getD i 0
  · rw [if_pos (by simpa using hc)]
    have hsz := hsize hc.2
    have hle := storage_le (sel := d.sel) hi'
    rw [selSize_of_mem hc.1] at hle ⊢
    rw [addPoints_eq c g.data _ d.data d.kahan _ _ hrange (by rw [hd.dataLen]; omega)
      (by rw [hd.kahanLen]; omega) hd.kahanZero]
    simp only [Option.bind_some, contrib, hlev, hsz]
    rfl
  · rw [if_neg (by simpa using hc)]
    have hz : selSize d.sizes d.sel i = 0 := by
      unfold selSize
      split
      · rename_i hm
        by_contra hne
        exact hc ⟨hm, by omega⟩
      · rfl
    have hno : ∀ j, ¬ (selOffset d.sizes d.sel i ≤ j ∧
        j < selOffset d.sizes d.sel i + selSize d.sizes d.sel i) := by
      omega
    simp only [hno, if_false, add_zero]
    rfl

theorem addLoop_eq [Ring K] (fully : Bool) (g : Dfg K) (c : K) (ls : List (List ℕ))
    (hls : ls.Pairwise (· < ·)) {d : Dsg K} (hd : WellAllocated d)
    (hf : fully = true → ∀ i < d.sizes.length, i ∈ d.sel) (hfit : Fits d g ls) (hint : ℤ)
    (hh : HintOk d.levels ls hint) :
    ∃ v h', ls.foldlM (addStepWith (Adder.exact K) (fun a b => a * b) fully g c) (d, hint) =
        some ({ d with data := ⟨d.data.len, v⟩ }, h') ∧
      ∀ i ∈ d.sel, ∀ j < selSize d.sizes d.sel i,
        v (selOffset d.sizes d.sel i + j) = d.data.val (selOffset d.sizes d.sel i + j) +
          if d.levels.getD i [] ∈ ls then contrib d g c i j else 0 := by
  induction ls generalizing d hint with
  | nil => exact ⟨d.data.val, hint, rfl, by simp⟩
  | cons l ls ih =>
    have hnext := hh.next hd.sorted hls hfit.first
    rw [List.pairwise_cons] at hls
    rcases hnext with ⟨i, hi, hl, hidx, hh'⟩ | ⟨hmem, hidx, hh'⟩
    swap
    · have hstep : addStepWith (Adder.exact K) (fun a b => a * b) fully g c (d, hint) l = some (d, -1) := by
        unfold addStepWith
        simp only [hidx, Option.bind_eq_bind, Option.bind_some]
        rfl
      obtain ⟨v, h', e1, e2⟩ := ih hls.2 hd hf hfit.tail (-1) hh'
      refine ⟨v, h', by rw [List.foldlM_cons, hstep]; exact e1, fun i hi j hj => ?_⟩
      rw [e2 i hi j hj]
      have hil : i < d.levels.length := by rw [← hd.len]; exact hd.selRange i hi
      have : d.levels.getD i [] ≠ l := by
        rw [List.getD_eq_getElem _ _ hil]
        exact fun e => hmem (e ▸ List.getElem_mem hil)
      simp only [List.mem_cons, this, false_or]
    have hstep := addStep_eq hd fully hf g c l i hi hl hint hidx
      (fun hp => by rw [← hl]; exact hfit.size i hi (by simp [hl]) hp)
      (hfit.range l (by simp))
    rw [List.foldlM_cons, hstep]
    generalize hw : (fun j => d.data.val j +
      if selOffset d.sizes d.sel i ≤ j ∧ j < selOffset d.sizes d.sel i + selSize d.sizes d.sel i
        then contrib d g c i (j - selOffset d.sizes d.sel i) else 0) = w
    have hd' : WellAllocated ({ d with data := ⟨d.data.len, w⟩ } : Dsg K) :=
      ⟨hd.sorted, hd.len, hd.selRange, hd.ptr, hd.kptr, hd.dataLen, hd.kahanLen, hd.kahanZero⟩
    obtain ⟨v, h', e1, e2⟩ := ih hls.2 hd' hf
      hfit.tail i hh'
    refine ⟨v, h', e1, ?_⟩
    intro i' hi'm j hj
    have := e2 i' hi'm j hj
    simp only at this
    rw [this, ← hw]
    simp only
    have hi'l : i' < d.levels.length := by rw [← hd.len]; exact hd.selRange i' hi'm
    have hcontr : contrib ({ d with data := ⟨d.data.len, w⟩ } : Dsg K) g c i' j =
      contrib d g c i' j := rfl
    by_cases hii : i' = i
    · subst hii
      have hlev : d.levels.getD i' [] = l := by rw [List.getD_eq_getElem _ _ hi, hl]
      have hnot : l ∉ ls := fun h => lt_irrefl _ (hls.1 l h)
      rw [hlev, if_neg hnot, add_zero, if_pos List.mem_cons_self, if_pos ⟨by omega, by omega⟩]
      congr 2
      omega
    · have hlev : d.levels.getD i' [] ≠ l := by
        rw [List.getD_eq_getElem _ _ hi'l, ← hl]
        intro he
        have hnd : d.levels.Nodup := hd.sorted.imp fun h => ne_of_lt h
        exact hii (hnd.getElem_inj_iff.1 he)
      have hno : ¬ (selOffset d.sizes d.sel i ≤ selOffset d.sizes d.sel i' + j ∧
          selOffset d.sizes d.sel i' + j < selOffset d.sizes d.sel i + selSize d.sizes d.sel i) := by
        rintro ⟨a, b⟩
        have := storage_inj (sizes := d.sizes) (sel := d.sel) (i := i') (i' := i) (j := j)
          (j' := selOffset d.sizes d.sel i' + j - selOffset d.sizes d.sel i) hj (by omega) (by omega)
        exact hii this.1
      rw [if_neg hno, add_zero]
      congr 1
      simp only [List.mem_cons, hlev, false_or]
      rfl

/-- adding grids one after the other -/
def addAll [Ring K] (fully : Bool) (d : Dsg K) (gs : List (K × Dfg K)) : Option (Dsg K) :=
  gs.foldlM (fun d g => addDistributedFullGrid fully d g.2 g.1) d

theorem addAll_eq [Ring K] (fully : Bool) (gs : List (K × Dfg K)) {d : Dsg K}
    (hd : WellAllocated d) (hf : fully = true → ∀ i < d.sizes.length, i ∈ d.sel)
    (hfit : ∀ g ∈ gs, Fits d g.2 (getDownSet g.2.levels)) :
    ∃ v, addAll fully d gs = some { d with data := ⟨d.data.len, v⟩ } ∧
      ∀ i ∈ d.sel, ∀ j < selSize d.sizes d.sel i,
        v (selOffset d.sizes d.sel i + j) = d.data.val (selOffset d.sizes d.sel i + j) +
          (gs.map fun g => if d.levels.getD i [] ∈ getDownSet g.2.levels
            then contrib d g.2 g.1 i j else 0).sum := by
  induction gs generalizing d with
  | nil => exact ⟨d.data.val, rfl, by simp⟩
  | cons g gs ih =>
    obtain ⟨w, h', e1, e2⟩ := addLoop_eq fully g.2 g.1 (getDownSet g.2.levels)
      (C01_downSet _).2 hd hf (hfit g (by simp)) 0 (HintOk.zero _ _)
    have hadd : addDistributedFullGrid fully d g.2 g.1 =
        some { d with data := ⟨d.data.len, w⟩ } := by
      unfold addDistributedFullGrid addDistributedFullGridWith
      rw [e1]
      rfl
    have hd' : WellAllocated ({ d with data := ⟨d.data.len, w⟩ } : Dsg K) :=
      ⟨hd.sorted, hd.len, hd.selRange, hd.ptr, hd.kptr, hd.dataLen, hd.kahanLen, hd.kahanZero⟩
    obtain ⟨v, f1, f2⟩ := ih hd' hf (fun g' hg' =>
      let h := hfit g' (by simp [hg']); ⟨h.first, h.size, h.range⟩)
    refine ⟨v, ?_, ?_⟩
    · unfold addAll at f1 ⊢
      rw [List.foldlM_cons, hadd]
      exact f1
    · intro i hi j hj
      have a := e2 i hi j hj
      have b := f2 i hi j hj
      simp only at b
      rw [b, a, List.map_cons, List.sum_cons, add_assoc]
      rfl

/-! ### Extracting -/

theorem extractPoints_eq (s : Buf K) (ps : List ℕ) (x : Buf K) (sp : ℕ)
    (hx : ∀ p ∈ ps, p < x.len) (hs : sp + ps.length ≤ s.len) (hnd : ps.Nodup) :
    ∃ v, extractPoints s x sp ps = some ⟨x.len, v⟩ ∧
      (∀ j (hj : j < ps.length), v ps[j] = s.val (sp + j)) ∧ ∀ p, p ∉ ps → v p = x.val p := by
  induction ps generalizing x sp with
  | nil => exact ⟨x.val, rfl, by simp, by simp⟩
  | cons p ps ih =>
    rw [List.length_cons] at hs
    rw [List.nodup_cons] at hnd
    have hp := hx p (by simp)
    obtain ⟨v, e1, e2, e3⟩ := ih ⟨x.len, Function.update x.val p (s.val sp)⟩ (sp + 1)
      (fun q hq => hx q (by simp [hq])) (by omega) hnd.2
    refine ⟨v, ?_, ?_, ?_⟩
    · rw [extractPoints]
      simp only [Buf.get?, Buf.set?, if_pos hp, if_pos (show sp < s.len by omega),
        Option.bind_eq_bind, Option.bind_some]
      exact e1
    · intro j hj
      cases j with
      | zero =>
        simp only [List.getElem_cons_zero, add_zero]
        rw [e3 p hnd.1]
        simp
      | succ j =>
        simp only [List.getElem_cons_succ]
        rw [e2 j (by simpa using hj)]
        congr 1
        omega
    · intro q hq
      rw [List.mem_cons, not_or] at hq
      rw [e3 q hq.2]
      simp [hq.1]

theorem extractLoop_eq [Ring K] (fully : Bool) (d : Dsg K) (hd : Allocated d)
    (hf : fully = true → ∀ i < d.sizes.length, i ∈ d.sel) (ls : List (List ℕ))
    (hls : ls.Pairwise (· < ·)) (g : Dfg K) (hfit : Fits d g ls)
    (hnd : ∀ l ∈ ls, (getFGPointsOfSubspace g.dims l).Nodup)
    (hdisj : ∀ l ∈ ls, ∀ l' ∈ ls, ∀ p, p ∈ getFGPointsOfSubspace g.dims l →
      p ∈ getFGPointsOfSubspace g.dims l' → l = l')
    (hint : ℤ) (hh : HintOk d.levels ls hint) :
    ∃ v h', ls.foldlM (extractStep fully d) (g, hint) =
        some ({ g with data := ⟨g.data.len, v⟩ }, h') ∧
      (∀ i (hi : i < d.levels.length), d.levels[i] ∈ ls → i ∈ d.sel → 0 < d.sizes.getD i 0 →
        ∀ j (hj : j < (getFGPointsOfSubspace g.dims d.levels[i]).length),
          v (getFGPointsOfSubspace g.dims d.levels[i])[j] =
            d.data.val (selOffset d.sizes d.sel i + j)) ∧
      (∀ p, (∀ i (hi : i < d.levels.length), d.levels[i] ∈ ls → i ∈ d.sel → 0 < d.sizes.getD i 0 →
        p ∉ getFGPointsOfSubspace g.dims d.levels[i]) → v p = g.data.val p) := by
  induction ls generalizing g hint with
  | nil => exact ⟨g.data.val, hint, rfl, by simp, by simp⟩
  | cons l ls ih =>
    have hnext := hh.next hd.sorted hls hfit.first
    rw [List.pairwise_cons] at hls
    have hndl : d.levels.Nodup := hd.sorted.imp fun h => ne_of_lt h
    rcases hnext with ⟨i, hi, hl, hidx, hh'⟩ | ⟨hmem, hidx, hh'⟩
    swap
    · -- the subspace is missing
      have hstep : extractStep fully d (g, hint) l = some (g, -1) := by
        unfold extractStep
        simp only [hidx, Option.bind_eq_bind, Option.bind_some]
        rfl
      obtain ⟨v, h', e1, e2, e3⟩ := ih hls.2 g hfit.tail (fun l' h => hnd l' (by simp [h]))
        (fun l1 h1 l2 h2 => hdisj l1 (by simp [h1]) l2 (by simp [h2])) (-1) hh'
      have hne : ∀ i (hi : i < d.levels.length), d.levels[i] ≠ l := by
        intro i hi h
        exact hmem (h ▸ List.getElem_mem hi)
      refine ⟨v, h', ?_, ?_, ?_⟩
      · rw [List.foldlM_cons, hstep]
        exact e1
      · intro i hi hm
        rcases List.mem_cons.1 hm with hm | hm
        · exact absurd hm (hne i hi)
        · exact e2 i hi hm
      · intro p hp
        exact e3 p fun i2 hi2 hm => hp i2 hi2 (by simp [hm])
    have hi' : i < d.sizes.length := by rw [hd.len]; exact hi
    -- the step
    obtain ⟨w, hstep, w1, w2⟩ : ∃ w, extractStep fully d (g, hint) l =
        some ({ g with data := ⟨g.data.len, w⟩ }, (i : ℤ)) ∧
        (i ∈ d.sel → 0 < d.sizes.getD i 0 →
          ∀ j (hj : j < (getFGPointsOfSubspace g.dims l).length),
            w (getFGPointsOfSubspace g.dims l)[j] = d.data.val (selOffset d.sizes d.sel i + j)) ∧
        (∀ p, (i ∈ d.sel → 0 < d.sizes.getD i 0 → p ∉ getFGPointsOfSubspace g.dims l) →
          w p = g.data.val p) := by
      unfold extractStep
      simp only [hidx, Option.bind_eq_bind, Option.bind_some, shouldBeCopied_eq fully hf i hi', Int.toNat_natCast, hd.ptr i hi']
      by_cases hc : i ∈ d.sel ∧ 0 < d.sizes.getD i 0
      · rw [if_pos (by simpa using hc)]
        have hsz := hfit.size i hi (by simp [hl]) hc.2
        rw [hl] at hsz
        have hle := storage_le (sel := d.sel) hi'
        rw [selSize_of_mem hc.1] at hle
        obtain ⟨v, e1, e2, e3⟩ := extractPoints_eq d.data (getFGPointsOfSubspace g.dims l) g.data
          (selOffset d.sizes d.sel i) (hfit.range l (by simp)) (by rw [hd.dataLen]; omega)
          (hnd l (by simp))
        rw [e1]
        exact ⟨v, rfl, fun _ _ => e2, fun p hp => e3 p (hp hc.1 hc.2)⟩
      · rw [if_neg (by simpa using hc)]
        exact ⟨g.data.val, rfl, fun a b => absurd ⟨a, b⟩ hc, fun _ _ => rfl⟩
    obtain ⟨v, h', e1, e2, e3⟩ := ih hls.2 { g with data := ⟨g.data.len, w⟩ }
      ⟨fun l' h => hfit.first l' (by simp [h]), fun i' hi' h => hfit.size i' hi' (by simp [h]),
        fun l' h => hfit.range l' (by simp [h])⟩ (fun l' h => hnd l' (by simp [h]))
      (fun l1 h1 l2 h2 => hdisj l1 (by simp [h1]) l2 (by simp [h2])) i hh'
    refine ⟨v, h', ?_, ?_, ?_⟩
    · rw [List.foldlM_cons, hstep]
      exact e1
    · intro i2 hi2 hm hs hp j hj
      rcases List.mem_cons.1 hm with hm | hm
      · have : i2 = i := hndl.getElem_inj_iff.1 (hm.trans hl.symm)
        subst this
        simp only [hl] at hj ⊢
        refine (e3 _ ?_).trans (w1 hs hp j hj)
        intro i3 hi3 hm3 _ _ hcon
        have := hdisj l (by simp) _ (List.mem_cons_of_mem _ hm3) _ (List.getElem_mem hj) hcon
        have h3 := hls.1 _ hm3
        rw [← this] at h3
        exact lt_irrefl _ h3
      · exact e2 i2 hi2 hm hs hp j hj
    · intro p hp
      rw [e3 p fun i2 hi2 hm => hp i2 hi2 (by simp [hm])]
      apply w2
      intro hs hpos
      have := hp i hi (by simp [hl]) hs hpos
      rwa [hl] at this

end Verif

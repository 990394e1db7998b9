import Verif.Model.DistributedGrid
import Verif.Props.DistributedHierarchization
import Verif.Props.GridTransform
import Verif.Lemmas.PoleRelation

/-!
# Lemmas on distributed grids
-/

namespace Verif

variable {K : Type}

/-! ### Lists -/

theorem mapM_map_some {α β : Type} {l : List α} {f : α → Option β} {f' : α → β}
    (h : ∀ a ∈ l, f a = some (f' a)) : l.mapM f = some (l.map f') := by
  induction l with
  | nil => rfl
  | cons a l ih =>
    rw [List.mapM_cons, h a (by simp), ih fun a ha => h a (by simp [ha])]
    rfl

theorem length_flatMap_map {β : Type} (N S : ℕ) (f : ℕ → ℕ → β) :
    ((List.range N).flatMap fun hi => (List.range S).map (f hi)).length = N * S := by
  induction N with
  | zero => simp
  | succ N ih =>
    rw [List.range_succ, List.flatMap_append, List.length_append, ih]
    simp [Nat.succ_mul]

theorem getElem?_flatMap_map {β : Type} {N S : ℕ} (f : ℕ → ℕ → β) {hi lo : ℕ} (h1 : hi < N)
    (h2 : lo < S) :
    ((List.range N).flatMap fun hi => (List.range S).map (f hi))[lo + hi * S]? =
      some (f hi lo) := by
  induction N with
  | zero => omega
  | succ N ih =>
    rw [List.range_succ, List.flatMap_append]
    by_cases h : hi < N
    · rw [List.getElem?_append_left, ih h]
      rw [length_flatMap_map]
      have : (hi + 1) * S ≤ N * S := Nat.mul_le_mul_right _ h
      rw [Nat.succ_mul] at this
      omega
    · obtain rfl : hi = N := by omega
      rw [List.getElem?_append_right (by rw [length_flatMap_map]; omega), length_flatMap_map]
      simp [h2]

theorem flatten_chunk {β : Type} {size : ℕ} (ls : List (List β)) (h : ∀ l ∈ ls, l.length = size)
    (j : ℕ) (hj : j < ls.length) : (ls.flatten.drop (j * size)).take size = ls[j] := by
  induction ls generalizing j with
  | nil => simp at hj
  | cons l ls ih =>
    have hl := h l (by simp)
    cases j with
    | zero =>
      simp only [Nat.zero_mul, List.drop_zero, List.flatten_cons, List.getElem_cons_zero]
      rw [List.take_append_of_le_length hl.ge, List.take_of_length_le hl.le]
    | succ j =>
      rw [List.flatten_cons, List.getElem_cons_succ,
        ← ih (fun l hl => h l (by simp [hl])) j (by simpa using hj)]
      rw [show (j + 1) * size = l.length + j * size by rw [hl]; ring, ← List.drop_drop,
        List.drop_left]

theorem recvSlices_eq {size : ℕ} (keys : List ℤ) (f : ℤ → List K)
    (h : ∀ i ∈ keys, (f i).length = size) :
    recvSlices size keys (keys.map f).flatten = some (keys.map fun i => (i, f i)) := by
  have hl : ∀ l ∈ keys.map f, l.length = size := by
    intro l hl
    obtain ⟨i, hi, rfl⟩ := List.mem_map.1 hl
    exact h i hi
  unfold recvSlices
  rw [if_pos]
  · congr 1
    apply List.ext_getElem
    · simp
    · intro j h1 h2
      have hj : j < keys.length := by simpa using h2
      simp only [List.getElem_map, List.getElem_zipIdx, Nat.zero_add]
      rw [flatten_chunk _ hl j (by simpa using hj), List.getElem_map]
  · rw [List.length_flatten, List.map_map]
    have : (keys.map (List.length ∘ f)) = keys.map fun _ => size :=
      List.map_congr_left fun i hi => h i hi
    rw [this]
    simp

/-! ### Splitting at a dimension -/

theorem partSizes_append (gs gs' : List DistDim) (cs cs' : List ℕ) (h : cs.length = gs.length) :
    partSizes (gs ++ gs') (cs ++ cs') = partSizes gs cs ++ partSizes gs' cs' := by
  unfold partSizes localSizes upperBounds lowerBounds
  rw [List.map_append, List.zipWith_append (by simp [h]), List.zipWith_append (by simp [h]),
    List.zipWith_append (by simp [h])]

/-- The number of points of the process with coordinate `a`. -/
def DistDim.size (s : DistDim) (a : ℕ) : ℕ :=
  (upperBound1d s.dec (poleLength s.dim.lmax s.dim.b) a).getD 0 - s.lower a

theorem partSizes_cons (s : DistDim) (gs : List DistDim) (a : ℕ) (cs : List ℕ) :
    partSizes (s :: gs) (a :: cs) = s.size a :: partSizes gs cs := rfl

/-- The lower bounds of a process. -/
def partLower (g : List DistDim) (c : List ℕ) : List ℕ := List.zipWith DistDim.lower g c

theorem partLower_eq (g : List DistDim) (c : List ℕ) :
    lowerBounds (g.map (·.toDim1)) c = partLower g c := by
  unfold lowerBounds partLower
  rw [List.zipWith_map_left]
  rfl

/-- The numbers of points of the grid. -/
def gridSizes (g : List DistDim) : List ℕ := g.map fun s => poleLength s.dim.lmax s.dim.b

theorem gridSizes_eq (g : List DistDim) : globalSizes (g.map (·.toDim1)) = gridSizes g := by
  unfold globalSizes gridSizes
  rw [List.map_map]
  rfl

theorem length_partSizes {g : List DistDim} {c : List ℕ} (h : c.length = g.length) :
    (partSizes g c).length = g.length := by
  unfold partSizes localSizes upperBounds lowerBounds
  simp [h]

/-- The local data `B` of process `c` are its part of the grid with the values `V`. -/
def IsPart (g : List DistDim) (V : Buf K) (c : List ℕ) (B : Buf K) : Prop :=
  B.len = (partSizes g c).prod ∧
    ∀ p < B.len, B.val p = V.val (getGlobalLinearIndex (g.map (·.toDim1)) c p)

theorem globalLinearIndex_eq {g : List DistDim} {c : List ℕ} (hc : c.length = g.length) (x : List ℕ)
    (hx : InBox (partSizes g c) x) :
    getGlobalLinearIndex (g.map (·.toDim1)) c (sequentialIndex (partSizes g c) x) =
      sequentialIndex (gridSizes g) (List.zipWith (· + ·) (partLower g c) x) := by
  unfold getGlobalLinearIndex
  have e : getVectorIndex (localSizes (g.map (·.toDim1)) c)
      (sequentialIndex (partSizes g c) x) = x := getVectorIndex_sequentialIndex _ _ hx
  simp only [e]
  rw [gridSizes_eq, partLower_eq, sequentialIndex_add]
  have h1 := hx.length_eq
  rw [length_partSizes hc] at h1
  unfold partLower
  rw [List.length_zipWith]
  omega

theorem isPart_iff {g : List DistDim} {V : Buf K} {c : List ℕ} (hc : c.length = g.length)
    {B : Buf K} : IsPart g V c B ↔ B.len = (partSizes g c).prod ∧ ∀ x, InBox (partSizes g c) x →
      B.val (sequentialIndex (partSizes g c) x) =
        V.val (sequentialIndex (gridSizes g) (List.zipWith (· + ·) (partLower g c) x)) := by
  unfold IsPart
  refine and_congr_right fun hlen => ?_
  have key := globalLinearIndex_eq hc
  constructor
  · intro h x hx
    rw [h _ (by rw [hlen]; exact sequentialIndex_lt _ _ hx), key x hx]
  · intro h p hp
    rw [hlen] at hp
    obtain ⟨h1, h2⟩ := getVectorIndex_spec _ p hp
    have := h _ h1
    rw [← key _ h1, h2] at this
    exact this

/-- A part of a grid that is split at one dimension: the value of the local point with indices `us` in
the lower dimensions, `i` in the dimension and `vs` in the higher ones. -/
theorem isPart_split {gs gs' : List DistDim} {s : DistDim} {V : Buf K} {cs cs' : List ℕ} {a : ℕ}
    (h : cs.length = gs.length) (h' : cs'.length = gs'.length) {B : Buf K} :
    IsPart (gs ++ s :: gs') V (cs ++ a :: cs') B ↔
      B.len = (partSizes gs' cs').prod * ((partSizes gs cs).prod * s.size a) ∧
      ∀ us vs i, InBox (partSizes gs cs) us → InBox (partSizes gs' cs') vs → i < s.size a →
        B.val (sequentialIndex (partSizes gs' cs') vs * ((partSizes gs cs).prod * s.size a) +
          sequentialIndex (partSizes gs cs) us + i * (partSizes gs cs).prod) =
        V.val (sequentialIndex (gridSizes (gs ++ s :: gs'))
          (List.zipWith (· + ·) (partLower gs cs) us ++ (s.lower a + i) ::
            List.zipWith (· + ·) (partLower gs' cs') vs)) := by
  rw [isPart_iff (by simp [h, h']), partSizes_append _ _ _ _ h, partSizes_cons]
  refine and_congr ?_ ?_
  · rw [List.prod_append, List.prod_cons]
    constructor <;> intro h <;> rw [h] <;> ring
  · have hlow : ∀ us i vs, us.length = gs.length →
        List.zipWith (· + ·) (partLower (gs ++ s :: gs') (cs ++ a :: cs')) (us ++ i :: vs) =
        List.zipWith (· + ·) (partLower gs cs) us ++ (s.lower a + i) ::
            List.zipWith (· + ·) (partLower gs' cs') vs := by
      intro us i vs hu
      unfold partLower
      rw [List.zipWith_append (by simp [h]), List.zipWith_cons_cons,
        List.zipWith_append (by simp [h, hu]), List.zipWith_cons_cons]
    have hlp := length_partSizes h
    constructor
    · intro hB us vs i hu hv hi
      have hul : us.length = gs.length := by rw [hu.length_eq, hlp]
      have hx : InBox (partSizes gs cs ++ s.size a :: partSizes gs' cs') (us ++ i :: vs) :=
        List.rel_append hu (.cons hi hv)
      have := hB _ hx
      rw [sequentialIndex_split _ _ _ _ _ _ hu.length_eq, hlow _ _ _ hul] at this
      exact this
    · intro hB x hx
      obtain ⟨us, vs', h1, h2, rfl⟩ : ∃ us vs, List.Forall₂ (· < ·) us (partSizes gs cs) ∧
          List.Forall₂ (· < ·) vs (s.size a :: partSizes gs' cs') ∧ x = us ++ vs :=
        ⟨x.take (partSizes gs cs).length, x.drop (partSizes gs cs).length,
          List.forall₂_take_append _ _ _ hx, List.forall₂_drop_append _ _ _ hx,
          (List.take_append_drop _ _).symm⟩
      obtain ⟨i, vs, hi, h3, rfl⟩ : ∃ i vs, i < s.size a ∧
          List.Forall₂ (· < ·) vs (partSizes gs' cs') ∧ vs' = i :: vs := by
        cases h2 with
        | cons a b => exact ⟨_, _, a, b, rfl⟩
      have hul : us.length = gs.length := by rw [h1.length_eq, hlp]
      rw [sequentialIndex_split _ _ _ _ _ _ h1.length_eq, hlow _ _ _ hul]
      exact hB us vs i h1 h3 hi

/-! ### Loops over poles with any transform -/

/-- The loops over the poles when what happens to a pole is known for the initial values. -/
theorem poles_known {S n : ℕ} {T : ℕ → Buf K → Option (Buf K)} {F : ℕ → ℕ → ℕ → K} (N : ℕ)
    (d0 : Buf K)
    (hT : ∀ hi < N, ∀ lo < S, ∀ loc : Buf K, loc.len = n →
      (∀ i < n, loc.val i = d0.val (hi * (S * n) + lo + i * S)) →
      ∃ m, T (lo + hi * S) loc = some m ∧ m.len = n ∧ ∀ i < n, m.val i = F hi lo i)
    (ps : List (ℕ × ℕ)) (hnd : ps.Nodup) (hps : ∀ p ∈ ps, p.1 < N ∧ p.2 < S) (d : Buf K)
    (hd : d.len = N * (S * n))
    (hsame : ∀ p ∈ ps, ∀ i < n, d.val (p.1 * (S * n) + p.2 + i * S) =
      d0.val (p.1 * (S * n) + p.2 + i * S)) :
    ∃ r, ps.foldlM (poleStep S n T) d = some r ∧ r.len = d.len ∧
      (∀ hi lo, (hi, lo) ∈ ps → ∀ i < n, r.val (hi * (S * n) + lo + i * S) = F hi lo i) ∧
      ∀ hi lo, lo < S → (hi, lo) ∉ ps → ∀ i < n,
        r.val (hi * (S * n) + lo + i * S) = d.val (hi * (S * n) + lo + i * S) := by
  induction ps generalizing d with
  | nil => exact ⟨d, rfl, rfl, by simp, fun _ _ _ _ _ _ => rfl⟩
  | cons p ps ih =>
    obtain ⟨hi, lo⟩ := p
    obtain ⟨h1, h2⟩ := hps (hi, lo) (by simp)
    obtain ⟨m, m1, m2, m3⟩ := hT hi h1 lo h2 ⟨n, fun i => d.val (hi * (S * n) + lo + i * S)⟩ rfl
      (hsame (hi, lo) (by simp))
    have hb : ∀ i < n, hi * (S * n) + lo + i * S < d.len := by
      intro i hi'
      rw [hd]
      have r1 : (hi + 1) * (S * n) ≤ N * (S * n) := Nat.mul_le_mul_right _ h1
      have r2 : (i + 1) * S ≤ n * S := Nat.mul_le_mul_right _ hi'
      nlinarith
    obtain ⟨r, f1, f2, f3, f4⟩ := write_pole S (hi * (S * n) + lo) (by omega) m d n m2.ge hb
    rw [List.nodup_cons] at hnd
    have hother : ∀ hi' lo', lo' < S → (hi', lo') ≠ (hi, lo) → ∀ i < n,
        r.val (hi' * (S * n) + lo' + i * S) = d.val (hi' * (S * n) + lo' + i * S) := by
      intro hi' lo' h3 hne i h4
      apply f4
      intro j hj e
      obtain ⟨q1, q2, -⟩ := pole_decode h3 h4 h2 hj e
      exact hne (by rw [q1, q2])
    obtain ⟨t, g1, g2, g3, g4⟩ := ih hnd.2 (fun p hp => hps p (by simp [hp])) r (by rw [f2, hd]) (by
      intro p hp i hi'
      rw [hother p.1 p.2 (hps p (by simp [hp])).2 (fun e => hnd.1 (e ▸ hp)) i hi',
        hsame p (by simp [hp]) i hi'])
    refine ⟨t, ?_, by rw [g2, f2], ?_, ?_⟩
    · rw [List.foldlM_cons]
      have : poleStep S n T d (hi, lo) = some r := by
        unfold poleStep
        simp only [m1, Option.bind_some]
        exact f1
      rw [this]
      exact g1
    · intro hi' lo' hm i hi''
      rcases List.mem_cons.1 hm with e | hm
      · obtain ⟨rfl, rfl⟩ := Prod.mk.inj e
        rw [g4 _ _ h2 hnd.1 i hi'', f3 i hi'', m3 i hi'']
      · rw [g3 _ _ hm i hi'']
    · intro hi' lo' h3 hm i hi''
      rw [List.mem_cons, not_or] at hm
      rw [g4 _ _ h3 hm.2 i hi'', hother _ _ h3 hm.1 i hi'']

theorem mapPoles_known (as bs : List ℕ) (n : ℕ) (hn : 0 < as.prod * n)
    {T : ℕ → Buf K → Option (Buf K)} {F : ℕ → ℕ → ℕ → K} (d : Buf K)
    (hd : d.len = bs.prod * (as.prod * n))
    (hT : ∀ hi < bs.prod, ∀ lo < as.prod, ∀ loc : Buf K, loc.len = n →
      (∀ i < n, loc.val i = d.val (hi * (as.prod * n) + lo + i * as.prod)) →
      ∃ m, T (lo + hi * as.prod) loc = some m ∧ m.len = n ∧ ∀ i < n, m.val i = F hi lo i) :
    ∃ r, mapPoles (as ++ n :: bs) T d as.length = some r ∧ r.len = d.len ∧
      ∀ hi < bs.prod, ∀ lo < as.prod, ∀ i < n,
        r.val (hi * (as.prod * n) + lo + i * as.prod) = F hi lo i := by
  obtain ⟨r, e1, e2, e3, -⟩ := poles_known bs.prod d hT _ (poles_nodup bs.prod as.prod) (by
    intro p hp
    simp only [List.mem_flatMap, List.mem_range, List.mem_map] at hp
    obtain ⟨hi, h1, lo, h2, rfl⟩ := hp
    exact ⟨h1, h2⟩) d hd fun _ _ _ _ => rfl
  refine ⟨r, ?_, e2, ?_⟩
  · unfold mapPoles
    have h1 : (as ++ n :: bs)[as.length]? = some n := by simp
    rw [h1, tensorOffsets_split as bs n]
    simp only [Option.bind_some]
    rw [if_neg hn.ne', hd, Nat.mul_div_cancel _ hn]
    exact e1
  · intro hi h1 lo h2 i h3
    refine e3 hi lo ?_ i h3
    simp only [List.mem_flatMap, List.mem_range, List.mem_map, Prod.mk.injEq]
    exact ⟨hi, h1, lo, h2, rfl, rfl⟩

/-! ### The exchange -/

theorem subarray_split (as bs : List ℕ) (n : ℕ) : subarray (as ++ n :: bs) as.length =
    some ((List.range bs.prod).flatMap fun hi =>
      (List.range as.prod).map fun lo => hi * (as.prod * n) + lo) := by
  unfold subarray
  rw [tensorOffsets_split as bs n]
  simp

/-- What is sent for the index `lower + i`. -/
theorem sendSlice_eq (as bs : List ℕ) (n lower : ℕ) (B : Buf K)
    (hB : B.len = bs.prod * (as.prod * n)) (i : ℕ) (hi : i < n) :
    sendSlice (as ++ n :: bs) as.length lower B ((lower + i : ℕ) : ℤ) =
      some ((List.range bs.prod).flatMap fun h => (List.range as.prod).map fun lo =>
        B.val (h * (as.prod * n) + lo + i * as.prod)) := by
  unfold sendSlice
  rw [subarray_split, tensorOffsets_split as bs n]
  simp only [Option.bind_some]
  rw [if_pos (by omega), mapM_map_some (f' := fun p => B.val (i * as.prod + p))]
  · congr 1
    rw [List.map_flatMap]
    congr 1
    funext h
    rw [List.map_map]
    apply List.map_congr_left
    intro lo _
    simp only [Function.comp]
    congr 1
    ring
  · intro p hp
    simp only [List.mem_flatMap, List.mem_range, List.mem_map] at hp
    obtain ⟨h, h1, lo, h2, rfl⟩ := hp
    have e : ((lower + i : ℕ) : ℤ) - (lower : ℤ) = (i : ℤ) := by push_cast; ring
    rw [e, Int.toNat_natCast]
    unfold Buf.get?
    rw [if_pos]
    rw [hB]
    have r1 : (h + 1) * (as.prod * n) ≤ bs.prod * (as.prod * n) := Nat.mul_le_mul_right _ h1
    have r2 : (i + 1) * as.prod ≤ n * as.prod := Nat.mul_le_mul_right _ hi
    nlinarith

/-- The index of a message is one that its sender stores. -/
theorem DistDim.owns {s : DistDim} {a x : ℕ} (h : Owns1d s.dec (poleLength s.dim.lmax s.dim.b) a x) :
    ∃ i < s.size a, x = s.lower a + i := by
  obtain ⟨lo, hi, e1, e2, h1, h2⟩ := h
  refine ⟨x - lo, ?_, ?_⟩
  · unfold DistDim.size DistDim.lower
    rw [e1, e2]
    simp only [Option.getD_some]
    omega
  · unfold DistDim.lower
    rw [e1]
    simp only [Option.getD_some]
    omega

/-- The exchange in dimension `s` of a grid whose processes store their parts of `V`: the received
slices have the expected indices, and their elements are the values of `V`. -/
theorem exchangeSlices_spec {ex : Pole → Option (List (ℤ × ℤ) × List (ℤ × ℤ))}
    {gs gs' : List DistDim} {s : DistDim} (hdec : ValidDec s.dec (poleLength s.dim.lmax s.dim.b))
    {E : ℕ → List (ℤ × ℤ) × List (ℤ × ℤ)} (hE : ∀ a < s.dec.length, ex (s.pole a) = some (E a))
    (hM : Matched s.dec (poleLength s.dim.lmax s.dim.b) E) {cs cs' : List ℕ} {a : ℕ}
    (h : cs.length = gs.length) (h' : cs'.length = gs'.length) (ha : a < s.dec.length)
    (hsize : 0 < s.size a) {V : Buf K} {S : List ℕ → Buf K}
    (hS : ∀ r < s.dec.length, IsPart (gs ++ s :: gs') V (cs ++ r :: cs') (S (cs ++ r :: cs'))) :
    ∃ slices, exchangeSlices ex (gs ++ s :: gs') gs.length S (cs ++ a :: cs') = some slices ∧
      (∀ x ∈ slices, (∃ i : ℕ, x.1 = i ∧ i < poleLength s.dim.lmax s.dim.b ∧
        ∀ us vs, InBox (partSizes gs cs) us → InBox (partSizes gs' cs') vs →
          x.2[sequentialIndex (partSizes gs cs) us +
            sequentialIndex (partSizes gs' cs') vs * (partSizes gs cs).prod]? =
          some (V.val (sequentialIndex (gridSizes (gs ++ s :: gs'))
            (List.zipWith (· + ·) (partLower gs cs) us ++ i ::
              List.zipWith (· + ·) (partLower gs' cs') vs)))) ∧
        ∃ y ∈ (E a).2, y.2 = x.1) ∧
      ∀ y ∈ (E a).2, ∃ x ∈ slices, x.1 = y.2 := by
  have hset : ∀ r, (cs ++ a :: cs').set gs.length r = cs ++ r :: cs' := by
    intro r
    rw [← h]
    simp
  have hsz : ∀ r, partSizes (gs ++ s :: gs') (cs ++ r :: cs') =
      partSizes gs cs ++ s.size r :: partSizes gs' cs' := by
    intro r
    rw [partSizes_append _ _ _ _ h, partSizes_cons]
  have hlen : (partSizes gs cs).length = gs.length := length_partSizes h
  -- the slice of an index
  let slice : ℕ → ℤ → List K := fun r x =>
    (List.range (partSizes gs' cs').prod).flatMap fun hi => (List.range (partSizes gs cs).prod).map
      fun lo => (S (cs ++ r :: cs')).val (hi * ((partSizes gs cs).prod * s.size r) + lo +
        (x.toNat - s.lower r) * (partSizes gs cs).prod)
  have hone : ∀ r < s.dec.length, r ≠ a → (ex (s.pole r)).bind (fun e' =>
      let sent := (message e'.1 a).sort
      let keys := (message (E a).2 r).sort
      if sent.head? = keys.head? then
        if keys = [] then some []
        else if s.size a = 0 then none
        else (sent.mapM (sendSlice (partSizes (gs ++ s :: gs') ((cs ++ a :: cs').set gs.length r))
          gs.length (s.lower r) (S ((cs ++ a :: cs').set gs.length r)))).bind fun slices =>
            recvSlices ((partSizes (gs ++ s :: gs') (cs ++ a :: cs')).prod / s.size a) keys
              slices.flatten
      else none) = some ((message (E a).2 r).sort.map fun i => (i, slice r i)) := by
    intro r hr hra
    rw [hE r hr, Option.bind_some, hM.same r hr a ha]
    simp only [if_true]
    split_ifs with hk h0
    · rw [hk]; rfl
    · omega
    · rw [hset, hsz, hsz]
      have hsend : ((message (E a).2 r).sort).mapM (sendSlice
          (partSizes gs cs ++ s.size r :: partSizes gs' cs') gs.length (s.lower r)
          (S (cs ++ r :: cs'))) = some (((message (E a).2 r).sort).map (slice r)) := by
        apply mapM_map_some
        intro x hx
        rw [Finset.mem_sort, mem_message] at hx
        obtain ⟨k, rfl, hk⟩ := hM.received a ha r x hx
        rw [Int.toNat_natCast] at hk
        obtain ⟨i, hi, rfl⟩ := DistDim.owns hk
        have hB := ((isPart_split h h').1 (hS r hr)).1
        rw [← hlen, sendSlice_eq _ _ _ _ _ hB i hi]
        simp only [slice, Int.toNat_natCast, Nat.add_sub_cancel_left]
      rw [hsend, Option.bind_some, show (partSizes gs cs ++ s.size a :: partSizes gs' cs').prod /
        s.size a = (partSizes gs' cs').prod * (partSizes gs cs).prod from ?_, recvSlices_eq]
      · intro i _
        exact length_flatMap_map _ _ _
      · rw [List.prod_append, List.prod_cons]
        exact Nat.div_eq_of_eq_mul_left hsize (by ring)
  let slices : List (ℤ × List K) := ((List.range s.dec.length).map fun r =>
    if r = a then [] else (message (E a).2 r).sort.map fun i => (i, slice r i)).flatten
  refine ⟨slices, ?_, ?_, ?_⟩
  · unfold exchangeSlices
    have e1 : (gs ++ s :: gs')[gs.length]? = some s := by simp
    have e2 : (cs ++ a :: cs')[gs.length]? = some a := by rw [← h]; simp
    have e3 : (partSizes (gs ++ s :: gs') (cs ++ a :: cs'))[gs.length]? = some (s.size a) := by
      rw [hsz, ← hlen]; simp
    rw [e1, e2, e3, Option.bind_some, Option.bind_some, Option.bind_some, hE a ha, Option.bind_some]
    rw [if_pos]
    · rw [mapM_map_some (f' := fun r => if r = a then [] else
        (message (E a).2 r).sort.map fun i => (i, slice r i))]
      · rfl
      · intro r hr
        by_cases hra : r = a
        · rw [if_pos hra, if_pos hra]
        · rw [if_neg hra, if_neg hra]
          exact hone r (List.mem_range.1 hr) hra
    · rw [List.all_eq_true]
      intro p hp
      obtain ⟨c', e, h1, h2⟩ := hM.partners a ha p.1 p.2 hp
      simp only [decide_eq_true_eq]
      omega
  · intro x hx
    simp only [slices, List.mem_flatten, List.mem_map, List.mem_range] at hx
    obtain ⟨l, ⟨r, hr, rfl⟩, hx⟩ := hx
    split_ifs at hx with hra
    · simp at hx
    · obtain ⟨y, hy, rfl⟩ := List.mem_map.1 hx
      rw [Finset.mem_sort, mem_message] at hy
      obtain ⟨k, rfl, hk⟩ := hM.received a ha r y hy
      rw [Int.toNat_natCast] at hk
      have hkn : k < poleLength s.dim.lmax s.dim.b := by
        obtain ⟨lo, hi, e1, e2, h1, h2⟩ := hk
        obtain ⟨lo', hi', f1, f2, f3, f4⟩ := bounds1d hdec hr
        rw [f2] at e2
        cases e2
        omega
      obtain ⟨i, hi, rfl⟩ := DistDim.owns hk
      refine ⟨⟨s.lower r + i, rfl, hkn, ?_⟩, ⟨_, hy, rfl⟩⟩
      intro us vs hu hv
      simp only [slice, Int.toNat_natCast, Nat.add_sub_cancel_left]
      rw [getElem?_flatMap_map _ (sequentialIndex_lt _ _ hv) (sequentialIndex_lt _ _ hu)]
      rw [((isPart_split h h').1 (hS r hr)).2 us vs i hu hv hi]
  · intro y hy
    obtain ⟨r, hr1, hr2, hr3⟩ := hM.partners a ha y.1 y.2 (by simp [hy])
    refine ⟨(y.2, slice r y.2), ?_, rfl⟩
    simp only [slices, List.mem_flatten, List.mem_map, List.mem_range]
    refine ⟨_, ⟨r, hr2, rfl⟩, ?_⟩
    rw [if_neg hr3]
    refine List.mem_map.2 ⟨y.2, ?_, rfl⟩
    rw [Finset.mem_sort, mem_message, ← hr1]
    exact hy

/-! ### One pole -/

theorem foldl_update_eq (v : ℕ → K) (remote : List (ℕ × K)) (hr : ∀ p ∈ remote, p.2 = v p.1)
    (junk : ℕ → K) (q : ℕ) : ((∃ p ∈ remote, p.1 = q) →
      remote.foldl (fun v r => Function.update v r.1 r.2) junk q = v q) ∧
    ((¬ ∃ p ∈ remote, p.1 = q) →
      remote.foldl (fun v r => Function.update v r.1 r.2) junk q = junk q) := by
  refine ⟨fun h => foldl_update_known v remote hr junk q (Or.inl h), fun h => ?_⟩
  induction remote generalizing junk with
  | nil => rfl
  | cons p ps ih =>
    rw [List.foldl_cons, ih (fun p hp => hr p (by simp [hp])) _
      (fun ⟨p', hp', e⟩ => h ⟨p', by simp [hp'], e⟩), Function.update_of_ne]
    exact fun e => h ⟨p, by simp, e.symm⟩

/-- Two lists of received values of the same pole that have the same indices. -/
structure SameRemote (v : ℕ → K) (n : ℕ) (remote remote' : List (ℕ × K)) : Prop where
  val : ∀ p ∈ remote, p.1 < n ∧ p.2 = v p.1
  val' : ∀ p ∈ remote', p.1 < n ∧ p.2 = v p.1
  keys : ∀ q, (∃ p ∈ remote, p.1 = q) ↔ ∃ p ∈ remote', p.1 = q

theorem fillScratch_congr {v : ℕ → K} {n gstart : ℕ} {remote remote' : List (ℕ × K)}
    (h : SameRemote v n remote remote') {loc loc' tmp : Buf K} (hl : loc.len = loc'.len)
    (hv : ∀ i < loc.len, loc.val i = loc'.val i) (hloc : gstart + loc.len ≤ n) (ht : n ≤ tmp.len) :
    fillScratch gstart remote loc tmp = fillScratch gstart remote' loc' tmp := by
  rw [fillScratch_eq _ _ _ _ (fun r hr => (h.val r hr).1.trans_le ht) (hloc.trans ht),
    fillScratch_eq _ _ _ _ (fun r hr => (h.val' r hr).1.trans_le ht) (by omega)]
  congr 2
  funext q
  unfold filled
  rw [← hl]
  split_ifs with hq
  · exact hv _ (by omega)
  · obtain ⟨a1, a2⟩ := foldl_update_eq v remote (fun p hp => (h.val p hp).2) tmp.val q
    obtain ⟨b1, b2⟩ := foldl_update_eq v remote' (fun p hp => (h.val' p hp).2) tmp.val q
    by_cases hk : ∃ p ∈ remote, p.1 = q
    · rw [a1 hk, b1 ((h.keys q).1 hk)]
    · rw [a2 hk, b2 ((h.keys q).not.1 hk)]

theorem copyBack_congr {gstart : ℕ} {loc loc' : Buf K} (hl : loc.len = loc'.len) :
    copyBack gstart loc = copyBack gstart loc' := by
  funext tmp
  unfold copyBack
  rw [hl]

variable [Field K]

theorem pole_congr {v : ℕ → K} {β : Basis} {b lmax lmin gstart : ℕ}
    {remote remote' : List (ℕ × K)} (h : SameRemote v (poleLength lmax b) remote remote')
    (hlt : lmin < lmax) {loc loc' : Buf K} (hl : loc.len = loc'.len)
    (hv : ∀ i < loc.len, loc.val i = loc'.val i) (hloc : gstart + loc.len ≤ poleLength lmax b)
    (junk : ℕ → K) :
    hierPole β b lmax lmin gstart remote junk loc =
      hierPole β b lmax lmin gstart remote' junk loc' ∧
    dehierPole β b lmax lmin gstart remote junk loc =
      dehierPole β b lmax lmin gstart remote' junk loc' := by
  have h1 : ∀ kernel, withBoundaryPole (b == 1) kernel (poleLength lmax b) gstart remote junk loc =
      withBoundaryPole (b == 1) kernel (poleLength lmax b) gstart remote' junk loc' := by
    intro kernel
    unfold withBoundaryPole
    rw [fillScratch_congr h hl hv hloc (by simp only; split <;> omega), copyBack_congr hl]
  have h2 : ∀ kernel, noBoundaryPole kernel (poleLength lmax b) gstart remote junk loc =
      noBoundaryPole kernel (poleLength lmax b) gstart remote' junk loc' := by
    intro kernel
    unfold noBoundaryPole
    rw [fillScratch_congr h hl hv hloc (le_refl _), copyBack_congr hl]
  unfold hierPole dehierPole
  simp only [if_neg (show ¬ lmin ≥ lmax by omega), h1, h2, hl, and_self]

/-- What a process computes from its part of a pole and from what it receives is its part of a transform
`F` of the whole pole. -/
def LocalPole (s : DistDim) (ex : Pole → Option (List (ℤ × ℤ) × List (ℤ × ℤ)))
    (T : ℕ → List (ℕ × K) → (ℕ → K) → Buf K → Option (Buf K)) (F : (ℕ → K) → ℕ → K) : Prop :=
  ∃ E : ℕ → List (ℤ × ℤ) × List (ℤ × ℤ), (∀ a < s.dec.length, ex (s.pole a) = some (E a)) ∧
    Matched s.dec (poleLength s.dim.lmax s.dim.b) E ∧
    ∀ a < s.dec.length, ∀ (v : ℕ → K) (junk : ℕ → K) (remote : List (ℕ × K)) (loc : Buf K),
      (∀ p ∈ remote, p.1 < poleLength s.dim.lmax s.dim.b ∧ p.2 = v p.1) →
      (∀ q : ℕ, (∃ p ∈ remote, p.1 = q) ↔ ∃ y ∈ (E a).2, y.2 = q) →
      loc.len = s.size a → (∀ i < loc.len, loc.val i = v (s.lower a + i)) →
      ∃ m, T (s.lower a) remote junk loc = some m ∧ m.len = loc.len ∧ ∀ i < loc.len,
        m.val i = F v (s.lower a + i)

omit [Field K] in
/-- `LocalPole` from C28. -/
theorem localPole_of {s : DistDim} (hdec : ValidDec s.dec (poleLength s.dim.lmax s.dim.b))
    {ex : Pole → Option (List (ℤ × ℤ) × List (ℤ × ℤ))} {E : ℕ → List (ℤ × ℤ) × List (ℤ × ℤ)}
    (hE : ∀ a < s.dec.length, ex (s.pole a) = some (E a))
    (hM : Matched s.dec (poleLength s.dim.lmax s.dim.b) E)
    {T : ℕ → List (ℕ × K) → (ℕ → K) → Buf K → Option (Buf K)} {F : (ℕ → K) → ℕ → K} (z : ℕ → K)
    (hser : FunPole (poleLength s.dim.lmax s.dim.b) (fun _ loc => T 0 [] z loc) F)
    (hcongr : ∀ gstart (v : ℕ → K) remote remote' (loc loc' : Buf K) junk,
      SameRemote v (poleLength s.dim.lmax s.dim.b) remote remote' → loc.len = loc'.len →
      (∀ i < loc.len, loc.val i = loc'.val i) →
      gstart + loc.len ≤ poleLength s.dim.lmax s.dim.b →
      T gstart remote junk loc = T gstart remote' junk loc')
    (hsame : ∀ v : Buf K, v.len = poleLength s.dim.lmax s.dim.b →
      SameAsSerial (fun a junk => (ex (s.pole a)).bind fun e => (remoteData s.dec v e.2).bind
        fun remote => T (s.lower a) remote junk (slicePole s.dec v a))
        (fun junk => T 0 [] junk v) s.dec (poleLength s.dim.lmax s.dim.b)) :
    LocalPole s ex T F := by
  refine ⟨E, hE, hM, ?_⟩
  intro a ha v junk remote loc hr hk hlen hv
  obtain ⟨m, t, lo, hi, h1, h2, h3, h4, h5, h6, h7⟩ :=
    hsame ⟨poleLength s.dim.lmax s.dim.b, v⟩ rfl a ha junk z
  obtain ⟨lo', hi', f1, f2, f3, f4⟩ := bounds1d hdec ha
  rw [h3] at f1
  cases f1
  rw [h4] at f2
  cases f2
  have hlow : s.lower a = lo := by unfold DistDim.lower; rw [h3]; rfl
  have hsz : s.size a = hi - lo := by unfold DistDim.size; rw [h4, hlow]; rfl
  beta_reduce at h1 h2
  rw [hE a ha, Option.bind_some] at h1
  have hrd : ∃ R, remoteData s.dec ⟨poleLength s.dim.lmax s.dim.b, v⟩ (E a).2 = some R ∧
      R = (E a).2.map fun p => (p.2.toNat, v p.2.toNat) := by
    refine ⟨_, ?_, rfl⟩
    unfold remoteData
    apply mapM_map_some
    rintro ⟨r, i⟩ hp
    obtain ⟨k, e1, lo', hi', g1, g2, g3, g4⟩ := hM.received a ha r i hp
    obtain ⟨r', rfl, hr', -⟩ := hM.partners a ha r i (by simp [hp])
    subst e1
    rw [Int.toNat_natCast] at g1 g2
    simp only [Int.toNat_natCast, g1, Option.getD_some]
    rw [if_pos (by omega)]
    unfold slicePole Buf.get?
    simp only [g1, g2, Option.getD_some]
    rw [if_pos (by omega), Option.map_some]
    have : lo' + ((k : ℤ) - (lo' : ℤ)).toNat = k := by omega
    rw [this]
  obtain ⟨R, hR1, hR2⟩ := hrd
  rw [hR1, Option.bind_some] at h1
  have hlin' := hser 0 ⟨poleLength s.dim.lmax s.dim.b, v⟩ rfl
  obtain ⟨t', k1, k2, k3⟩ := hlin'
  simp only at k1
  rw [h2] at k1
  cases k1
  refine ⟨m, ?_, by rw [h6, hlen, hsz], ?_⟩
  · rw [← h1, hlow]
    refine hcongr lo v _ _ _ _ junk ⟨hr, ?_, ?_⟩ ?_ ?_ ?_
    · intro p hp
      rw [hR2] at hp
      obtain ⟨⟨r, i⟩, hp', rfl⟩ := List.mem_map.1 hp
      refine ⟨?_, rfl⟩
      obtain ⟨k, e1, lo', hi', g1, g2, g3, g4⟩ := hM.received a ha r i hp'
      obtain ⟨r', rfl, hr', -⟩ := hM.partners a ha r i (by simp [hp'])
      rw [Int.toNat_natCast] at g1 g2
      obtain ⟨lo'', hi'', f1, f2, f3, f4⟩ := bounds1d hdec hr'
      rw [g2] at f2
      cases f2
      subst e1
      simp only [Int.toNat_natCast]
      omega
    · intro q
      rw [hk q, hR2]
      constructor
      · rintro ⟨y, hy, e⟩
        exact ⟨_, List.mem_map_of_mem hy, by simp [e]⟩
      · rintro ⟨p, hp, e⟩
        obtain ⟨⟨r, i⟩, hp', rfl⟩ := List.mem_map.1 hp
        obtain ⟨k, e1, -⟩ := hM.received a ha r i hp'
        refine ⟨_, hp', ?_⟩
        simp only at e e1 ⊢
        omega
    · rw [hlen, hsz]
      unfold slicePole
      simp only [h3, h4, Option.getD_some]
    · intro i hi
      rw [hv i hi, hlow]
      unfold slicePole
      simp only [h3, Option.getD_some]
    · rw [hlen, hsz]
      omega
  · intro i hi'
    rw [hlow, ← k3 (lo + i) (by omega), ← h7 (lo + i) (by omega) (by omega)]
    congr 1
    omega

/-! ### One dimension on all processes -/

/-- The coordinates of a process of the group. -/
def IsProcess (g : List DistDim) (c : List ℕ) : Prop :=
  List.Forall₂ (fun a (s : DistDim) => a < s.dec.length) c g

theorem mem_processes {g : List DistDim} {c : List ℕ} : c ∈ processes g ↔ IsProcess g c := by
  unfold processes IsProcess
  rw [List.mem_map, ← List.forall₂_map_right_iff (f := fun s : DistDim => s.dec.length)
    (R := fun a b : ℕ => a < b)]
  constructor
  · rintro ⟨p, hp, rfl⟩
    exact (getVectorIndex_spec _ p (List.mem_range.1 hp)).1
  · intro h
    exact ⟨_, List.mem_range.2 (sequentialIndex_lt _ _ h), getVectorIndex_sequentialIndex _ _ h⟩

theorem DistDim.lower_size {s : DistDim} (hdec : ValidDec s.dec (poleLength s.dim.lmax s.dim.b))
    {a : ℕ} (ha : a < s.dec.length) : s.lower a + s.size a ≤ poleLength s.dim.lmax s.dim.b := by
  obtain ⟨lo, hi, f1, f2, f3, f4⟩ := bounds1d hdec ha
  unfold DistDim.size DistDim.lower
  rw [f1, f2]
  simp only [Option.getD_some]
  omega

theorem inBox_shift {g : List DistDim}
    (hdec : ∀ s ∈ g, ValidDec s.dec (poleLength s.dim.lmax s.dim.b)) {c : List ℕ}
    (hc : IsProcess g c) {x : List ℕ} (hx : InBox (partSizes g c) x) :
    InBox (gridSizes g) (List.zipWith (· + ·) (partLower g c) x) := by
  unfold IsProcess at hc
  induction hc generalizing x with
  | nil =>
    cases hx
    exact .nil
  | @cons a s c g ha _ ih =>
    rw [partSizes_cons] at hx
    cases hx with
    | @cons i _ x _ hi hx =>
      refine .cons ?_ (ih (fun s hs => hdec s (by simp [hs])) hx)
      have := s.lower_size (hdec s (by simp)) ha
      simp only
      omega

theorem prod_pos_of {l : List ℕ} (h : ∀ n ∈ l, 0 < n) : 0 < l.prod := by
  induction l with
  | nil => simp
  | cons a l ih =>
    rw [List.prod_cons]
    exact Nat.mul_pos (h a (by simp)) (ih fun n hn => h n (by simp [hn]))

omit [Field K] in
theorem remoteOfPole_eq {slices : List (ℤ × List K)} {p : ℕ} {v : ℕ → K}
    (h : ∀ x ∈ slices, ∃ i : ℕ, x.1 = i ∧ x.2[p]? = some (v i)) :
    remoteOfPole slices p = some (slices.map fun x => (x.1.toNat, v x.1.toNat)) := by
  unfold remoteOfPole
  apply mapM_map_some
  intro x hx
  obtain ⟨i, e1, e2⟩ := h x hx
  rw [if_pos (by omega), e2, Option.map_some, e1, Int.toNat_natCast]

omit [Field K] in
/-- One dimension on one process, when all processes of the group store their parts of `V`. -/
theorem distributedDim_spec {ex : Basis → Pole → Option (List (ℤ × ℤ) × List (ℤ × ℤ))}
    {pole : Basis → ℕ → ℕ → ℕ → ℕ → List (ℕ × K) → (ℕ → K) → Buf K → Option (Buf K)}
    {gs gs' : List DistDim} {s : DistDim}
    (hdec : ∀ s' ∈ gs ++ s :: gs', ValidDec s'.dec (poleLength s'.dim.lmax s'.dim.b))
    {F : (ℕ → K) → ℕ → K}
    (hpole : s.dim.lmin < s.dim.lmax → LocalPole s (ex s.dim.basis)
      (pole s.dim.basis s.dim.b s.dim.lmax s.dim.lmin) F)
    (hid : s.dim.lmax ≤ s.dim.lmin → ∀ v : ℕ → K, ∀ i < poleLength s.dim.lmax s.dim.b, F v i = v i)
    {V W : Buf K} (hW : ∀ x, InBox (gridSizes (gs ++ s :: gs')) x →
      W.val (sequentialIndex (gridSizes (gs ++ s :: gs')) x) =
        F (fun j => V.val (sequentialIndex (gridSizes (gs ++ s :: gs')) (x.set gs.length j)))
          (x.getD gs.length 0))
    {S : List ℕ → Buf K}
    (hS : ∀ c, IsProcess (gs ++ s :: gs') c → IsPart (gs ++ s :: gs') V c (S c)) {c : List ℕ}
    (hc : IsProcess (gs ++ s :: gs') c) (hpos : ∀ n ∈ partSizes (gs ++ s :: gs') c, 0 < n)
    (junk : ℕ → ℕ → K) :
    ∃ B, distributedDim ex pole (gs ++ s :: gs') junk gs.length S c = some B ∧
      IsPart (gs ++ s :: gs') W c B := by
  obtain ⟨cs, cs0, h1, h2, rfl⟩ : ∃ cs cs', IsProcess gs cs ∧ IsProcess (s :: gs') cs' ∧
      c = cs ++ cs' := ⟨c.take gs.length, c.drop gs.length, List.forall₂_take_append _ _ _ hc,
        List.forall₂_drop_append _ _ _ hc, (List.take_append_drop _ _).symm⟩
  obtain ⟨a, cs', ha, h3, rfl⟩ : ∃ a cs', a < s.dec.length ∧ IsProcess gs' cs' ∧
      cs0 = a :: cs' := by
    cases h2 with
    | cons a b => exact ⟨_, _, a, b, rfl⟩
  have hl : cs.length = gs.length := h1.length_eq
  have hl' : cs'.length = gs'.length := h3.length_eq
  have hdecs := hdec s (by simp)
  rw [partSizes_append _ _ _ _ hl, partSizes_cons] at hpos
  have hsize : 0 < s.size a := hpos _ (by simp)
  have hprod : 0 < (partSizes gs cs).prod := prod_pos_of fun n hn => hpos n (by simp [hn])
  have hSr : ∀ r < s.dec.length, IsPart (gs ++ s :: gs') V (cs ++ r :: cs') (S (cs ++ r :: cs')) :=
    fun r hr => hS _ (List.rel_append h1 (.cons hr h3))
  -- the transformed values at the points of a pole
  have hWp : ∀ us vs i, InBox (partSizes gs cs) us → InBox (partSizes gs' cs') vs → i < s.size a →
      W.val (sequentialIndex (gridSizes (gs ++ s :: gs'))
        (List.zipWith (· + ·) (partLower gs cs) us ++ (s.lower a + i) ::
          List.zipWith (· + ·) (partLower gs' cs') vs)) =
      F (fun j => V.val (sequentialIndex (gridSizes (gs ++ s :: gs'))
          (List.zipWith (· + ·) (partLower gs cs) us ++ j ::
            List.zipWith (· + ·) (partLower gs' cs') vs))) (s.lower a + i) := by
    intro us vs i hu hv hi
    have b1 := inBox_shift (fun s hs => hdec s (by simp [hs])) h1 hu
    have b2 := inBox_shift (fun s hs => hdec s (by simp [hs])) h3 hv
    have b3 := s.lower_size hdecs ha
    have hb : InBox (gridSizes (gs ++ s :: gs')) (List.zipWith (· + ·) (partLower gs cs) us ++
        (s.lower a + i) :: List.zipWith (· + ·) (partLower gs' cs') vs) := by
      unfold gridSizes at b1 b2 ⊢
      rw [List.map_append, List.map_cons]
      exact List.rel_append b1 (.cons (by omega) b2)
    have hul : (List.zipWith (· + ·) (partLower gs cs) us).length = gs.length := by
      rw [b1.length_eq]; simp [gridSizes]
    rw [hW _ hb, ← hul]
    simp
  have e1 : (gs ++ s :: gs')[gs.length]? = some s := by simp
  have e2 : (cs ++ a :: cs')[gs.length]? = some a := by rw [← hl]; simp
  unfold distributedDim
  rw [e1, e2, Option.bind_some, Option.bind_some]
  by_cases hlm : s.dim.lmin ≥ s.dim.lmax
  · rw [if_pos hlm]
    refine ⟨_, rfl, ?_⟩
    rw [isPart_split hl hl']
    obtain ⟨p1, p2⟩ := (isPart_split hl hl').1 (hSr a ha)
    refine ⟨p1, fun us vs i hu hv hi => ?_⟩
    rw [p2 us vs i hu hv hi, hWp us vs i hu hv hi]
    have := s.lower_size hdecs ha
    exact (hid hlm (fun j => V.val (sequentialIndex (gridSizes (gs ++ s :: gs'))
          (List.zipWith (· + ·) (partLower gs cs) us ++ j ::
            List.zipWith (· + ·) (partLower gs' cs') vs))) (s.lower a + i) (by omega)).symm
  · rw [if_neg hlm]
    obtain ⟨E, hE, hM, hloc⟩ := hpole (by omega)
    obtain ⟨slices, x1, x2, x3⟩ := exchangeSlices_spec hdecs hE hM hl hl' ha hsize hSr
    rw [x1, Option.bind_some, partSizes_append _ _ _ _ hl, partSizes_cons]
    obtain ⟨p1, p2⟩ := (isPart_split hl hl').1 (hSr a ha)
    let us : ℕ → List ℕ := getVectorIndex (partSizes gs cs)
    let vs : ℕ → List ℕ := getVectorIndex (partSizes gs' cs')
    let pv : ℕ → ℕ → ℕ → K := fun hi lo j => V.val (sequentialIndex (gridSizes (gs ++ s :: gs'))
          (List.zipWith (· + ·) (partLower gs cs) (us lo) ++ j ::
            List.zipWith (· + ·) (partLower gs' cs') (vs hi)))
    obtain ⟨B, b1, b2, b3⟩ := mapPoles_known (K := K) (partSizes gs cs) (partSizes gs' cs')
      (s.size a) (Nat.mul_pos hprod hsize)
      (T := fun p loc => (remoteOfPole slices p).bind fun remote =>
        pole s.dim.basis s.dim.b s.dim.lmax s.dim.lmin (s.lower a) remote (junk p) loc)
      (F := fun hi lo i => F (pv hi lo) (s.lower a + i)) (S (cs ++ a :: cs')) p1 (by
        intro hi hhi lo hlo loc hlen hval
        obtain ⟨u1, u2⟩ := getVectorIndex_spec _ lo hlo
        obtain ⟨v1, v2⟩ := getVectorIndex_spec _ hi hhi
        have hrem : remoteOfPole slices (lo + hi * (partSizes gs cs).prod) =
            some (slices.map fun x => (x.1.toNat, pv hi lo x.1.toNat)) := by
          apply remoteOfPole_eq
          intro x hx
          obtain ⟨⟨i, i1, i2, i3⟩, -⟩ := x2 x hx
          refine ⟨i, i1, ?_⟩
          have := i3 _ _ u1 v1
          rw [u2, v2] at this
          exact this
        have hres := hloc a ha (pv hi lo) (junk (lo + hi * (partSizes gs cs).prod))
          (slices.map fun x => (x.1.toNat, pv hi lo x.1.toNat)) loc (by
            intro p hp
            obtain ⟨x, hx, rfl⟩ := List.mem_map.1 hp
            obtain ⟨⟨i, i1, i2, i3⟩, -⟩ := x2 x hx
            exact ⟨by simp only; omega, rfl⟩) (by
            intro q
            constructor
            · rintro ⟨p, hp, rfl⟩
              obtain ⟨x, hx, rfl⟩ := List.mem_map.1 hp
              obtain ⟨⟨i, i1, i2, i3⟩, y, hy, e⟩ := x2 x hx
              exact ⟨y, hy, by simp only; omega⟩
            · rintro ⟨y, hy, e⟩
              obtain ⟨x, hx, ex⟩ := x3 y hy
              exact ⟨_, List.mem_map_of_mem hx, by simp only; omega⟩) hlen (by
            intro i hi'
            rw [hlen] at hi'
            rw [hval i hi']
            have := p2 _ _ i u1 v1 hi'
            rw [u2, v2] at this
            exact this)
        obtain ⟨m, m1, m2, m3⟩ := hres
        refine ⟨m, ?_, by rw [m2, hlen], fun i hi' => m3 i (by rw [hlen]; exact hi')⟩
        simp only [hrem, Option.bind_some]
        exact m1)
    rw [length_partSizes hl] at b1
    refine ⟨B, b1, ?_⟩
    rw [isPart_split hl hl']
    refine ⟨by rw [b2, p1], fun u w i hu hw hi => ?_⟩
    rw [b3 _ (sequentialIndex_lt _ _ hw) _ (sequentialIndex_lt _ _ hu) i hi, hWp u w i hu hw hi]
    simp only [pv, us, vs, getVectorIndex_sequentialIndex _ _ hu,
      getVectorIndex_sequentialIndex _ _ hw]

omit [Field K] in
/-- The loop over the dimensions on all processes. -/
theorem distributedTransform_spec {ex : Basis → Pole → Option (List (ℤ × ℤ) × List (ℤ × ℤ))}
    {pole : Basis → ℕ → ℕ → ℕ → ℕ → List (ℕ × K) → (ℕ → K) → Buf K → Option (Buf K)}
    {g : List DistDim} (hdec : ∀ s ∈ g, ValidDec s.dec (poleLength s.dim.lmax s.dim.b))
    (hpos : ∀ c, IsProcess g c → ∀ n ∈ partSizes g c, 0 < n) (hpos' : ∀ n ∈ gridSizes g, 0 < n)
    {T : ℕ → ℕ → Buf K → Option (Buf K)} {F : ℕ → (ℕ → K) → ℕ → K} {dims : List ℕ}
    (hd : ∀ k ∈ dims, k < g.length)
    (hF : ∀ k (hk : k < g.length), k ∈ dims → FirstOnly (poleLength g[k].dim.lmax g[k].dim.b) (F k))
    (hT : ∀ k (hk : k < g.length), k ∈ dims → FunPole (poleLength g[k].dim.lmax g[k].dim.b) (T k) (F k))
    (hpole : ∀ k (hk : k < g.length), k ∈ dims → g[k].dim.lmin < g[k].dim.lmax →
      LocalPole g[k] (ex g[k].dim.basis)
        (pole g[k].dim.basis g[k].dim.b g[k].dim.lmax g[k].dim.lmin) (F k))
    (hid : ∀ k (hk : k < g.length), k ∈ dims → g[k].dim.lmax ≤ g[k].dim.lmin →
      ∀ p loc, T k p loc = some loc)
    (V : Buf K) (hV : V.len = (gridSizes g).prod) (S : List ℕ → Buf K)
    (hS : ∀ c, IsProcess g c → IsPart g V c (S c)) (junk : List ℕ → ℕ → ℕ → ℕ → K) :
    ∃ W S', transformGrid (gridSizes g) T dims V = some W ∧ W.len = V.len ∧
      distributedTransform ex pole g junk dims S = some S' ∧
      ∀ c, IsProcess g c → IsPart g W c (S' c) := by
  induction dims generalizing V S with
  | nil => exact ⟨V, S, rfl, rfl, rfl, hS⟩
  | cons k ks ih =>
    have hk := hd k (by simp)
    have hk' : k < (gridSizes g).length := by simpa [gridSizes] using hk
    have hgk : (gridSizes g)[k] = poleLength g[k].dim.lmax g[k].dim.b := by simp [gridSizes]
    have hTk := hT k hk (by simp)
    obtain ⟨W, w1, w2, w3⟩ := mapPoles_fun (gridSizes g) hpos' k hk'
      (F := F k) (by rw [hgk]; exact hF k hk (by simp)) (by rw [hgk]; exact hTk) V hV
    obtain ⟨gs, s, gs', hg, hgl⟩ : ∃ gs s gs', g = gs ++ s :: gs' ∧ gs.length = k :=
      ⟨g.take k, g[k], g.drop (k + 1), by simp, by simp; omega⟩
    have hs : g[k] = s := by
      subst hgl
      simp [hg]
    have hone : ∀ c, IsProcess g c → ∃ B, distributedDim ex pole g (junk c k) k S c = some B ∧
        IsPart g W c B := by
      intro c hc
      have h1 := hpole k hk (by simp)
      have h2 := hid k hk (by simp)
      have h3 := hpos c hc
      rw [hs] at h1 h2 hTk
      subst hgl
      subst hg
      refine distributedDim_spec hdec h1 ?_ w3 hS hc h3 (junk c gs.length)
      intro hle v i hi
      obtain ⟨m, m1, m2, m3⟩ := hTk 0 ⟨poleLength s.dim.lmax s.dim.b, v⟩ rfl
      rw [h2 hle] at m1
      cases m1
      exact (m3 i hi).symm
    have hall : onProcesses (processes g) (fun S c => distributedDim ex pole g (junk c k) k S c) S =
        some fun c => if c ∈ processes g then
          (distributedDim ex pole g (junk c k) k S c).getD (S c) else S c := by
      unfold onProcesses
      rw [if_pos]
      rw [List.all_eq_true]
      intro c hc
      obtain ⟨B, hB, -⟩ := hone c (mem_processes.1 hc)
      beta_reduce
      rw [hB]
      rfl
    obtain ⟨W', S', f1, f2, f3, f4⟩ := ih (fun k hk => hd k (by simp [hk]))
      (fun k hk hm => hF k hk (by simp [hm])) (fun k hk hm => hT k hk (by simp [hm]))
      (fun k hk hm => hpole k hk (by simp [hm]))
      (fun k hk hm => hid k hk (by simp [hm])) W (by rw [w2, hV])
      (fun c => if c ∈ processes g then
          (distributedDim ex pole g (junk c k) k S c).getD (S c) else S c) (by
        intro c hc
        obtain ⟨B, hB, hB'⟩ := hone c hc
        rw [if_pos (mem_processes.2 hc), hB]
        exact hB')
    refine ⟨W', S', ?_, by rw [f2, w2], ?_, f4⟩
    · unfold transformGrid at f1 ⊢
      rw [List.foldlM_cons, w1]
      exact f1
    · unfold distributedTransform at f3 ⊢
      rw [List.foldlM_cons, hall]
      exact f3

end Verif

import Verif.Lemmas.ThreadLoops
import Verif.Props.SubspacePoints
import Verif.Props.DistributedGrid
import Verif.Props.LevelSets
import Mathlib.Tactic.NormNum

/-!
# C106: loops run by several threads
-/

namespace Verif.Threads

variable {K : Type}

theorem points_disjoint (dims : List LocalDim) (hv : ∀ d ∈ dims, ValidLocal d) (L l l' : List ℕ)
    (hL : L.length = dims.length) (h : l ∈ getDownSet L) (h' : l' ∈ getDownSet L) (p : ℕ)
    (hp : p ∈ getFGPointsOfSubspace dims l) (hp' : p ∈ getFGPointsOfSubspace dims l') : l = l' := by
  have key : ∀ l ∈ getDownSet L, l.length = dims.length ∧ ∀ li ∈ l, 1 ≤ li := by
    intro l h
    rw [(C01_downSet L).1] at h
    refine ⟨h.length_eq.trans hL, ?_⟩
    clear hL h'
    revert h
    generalize L = L0
    intro h
    induction h with
    | nil => simp
    | cons a _ ih =>
      intro li hli
      rcases List.mem_cons.1 hli with rfl | hli
      · exact a.1
      · exact ih li hli
  have k1 := key l h
  have k2 := key l' h'
  have hlt := ((C19_enumeration dims hv l k1.2 k1.1).1 p).1 hp
  obtain ⟨m, -, hm⟩ := C19_partition dims hv p hlt.1
  exact (hm l ⟨k1, hp⟩).trans (hm l' ⟨k2, hp'⟩).symm

/-- C106, `extractFromUniformSG`: the subspaces of the full grid are distributed over any number of threads in any
way, but so that each thread gets its subspaces in ascending order. Whatever the threads do first, all of them
finish without a data race, and the full grid then contains what one thread alone would have written. -/
theorem C106_extract (fully : Bool) (d : Dsg K) (g g' : Dfg K) (hs : d.levels.Pairwise (· < ·))
    (hr : ∀ l ∈ getDownSet g.levels, ∃ h : 0 < d.levels.length, d.levels[0] ≤ l)
    (hv : ∀ x ∈ g.dims, ValidLocal x)
    (h : extractFromUniformSG fully g d = some g') (parts : List (List (List ℕ)))
    (hp : parts.flatten.Perm (getDownSet g.levels)) (hmono : ∀ p ∈ parts, p.Pairwise (· < ·)) :
    RunsTo (parallelFor (extractIter fully d g.dims g.data.len) 0 parts) (memory d g) (memory d g') := by
  unfold extractFromUniformSG at h
  cases h1 : (getDownSet g.levels).foldlM (extractStep fully d) (g, 0) with
  | none => rw [h1] at h; cases h
  | some r =>
    obtain ⟨g1, hint⟩ := r
    rw [h1] at h
    obtain rfl := Option.some.inj h
    refine parallel_fresh (fun l i => extractCore fully d g.dims g.data.len l i) _ d.levels hs
      (fun hint level i hi => extractIter_eq _ _ _ _ _ _ _ hi) (getDownSet g.levels) (C01_downSet _).2 hr
      (fun l a => ∃ p ∈ getFGPointsOfSubspace g.dims l, a = .full p) ?_ ?_ parts hp hmono _ _ hint
      (extractLoop_run _ _ _ _ _ _ _ h1)
    · rintro x hx y hy hne a ⟨p, hp1, rfl⟩ ⟨q, hq1, e⟩
      obtain rfl := Cell.full.inj e
      exact hne (points_disjoint g.dims hv g.levels x y (by simp [Dfg.levels]) hx hy p hp1 hq1)
    · intro x hx i hi
      refine within_ofOption _ _ fun b _ => ?_
      split
      · refine within_ofOption _ _ fun sp _ => within_extractPoints _ _ ?_ _ _ _ _ ?_
        · rintro i y hy hne ⟨p, -, e⟩
          cases e
        · intro p hp1
          exact ⟨p, hp1, rfl⟩
      · trivial

/-- C106, `addDistributedFullGrid`, in the arithmetic of the machine: the same for adding the full grid to the sparse
grid. The sparse grid is allocated, and the sizes of its subspaces are those of the full grid's. -/
theorem C106_add (A : Adder K) (mul : K → K → K) (fully : Bool) (d d' : Dsg K) (g : Dfg K) (coeff : K)
    (hd : Allocated d) (hf : fully = true → ∀ i < d.sizes.length, i ∈ d.sel)
    (hr : ∀ l ∈ getDownSet g.levels, ∃ h : 0 < d.levels.length, d.levels[0] ≤ l)
    (hsize : ∀ i (hi : i < d.levels.length), d.levels[i] ∈ getDownSet g.levels → 0 < d.sizes.getD i 0 →
      d.sizes.getD i 0 = (getFGPointsOfSubspace g.dims d.levels[i]).length)
    (h : addDistributedFullGridWith A mul fully d g coeff = some d') (parts : List (List (List ℕ)))
    (hp : parts.flatten.Perm (getDownSet g.levels)) (hmono : ∀ p ∈ parts, p.Pairwise (· < ·)) :
    RunsTo (parallelFor (addIter A mul fully d g coeff) 0 parts) (memory d g) (memory d' g) := by
  unfold addDistributedFullGridWith at h
  have hnd : d.levels.Nodup := hd.sorted.imp fun h => ne_of_lt h
  cases h1 : (getDownSet g.levels).foldlM (addStepWith A mul fully g coeff) (d, 0) with
  | none => rw [h1] at h; cases h
  | some r =>
    obtain ⟨d1, hint⟩ := r
    rw [h1] at h
    obtain rfl := Option.some.inj h
    refine parallel_fresh (fun l i => addCore A mul fully d g coeff l i) _ d.levels hd.sorted
      (fun hint level i hi => addIter_eq _ _ _ _ _ _ _ _ _ hi) (getDownSet g.levels) (C01_downSet _).2 hr
      (fun l a => ∃ i, ∃ hi : i < d.levels.length, d.levels[i] = l ∧ ∃ j < selSize d.sizes d.sel i,
        a = .sparse (selOffset d.sizes d.sel i + j) ∨ a = .kahan (selOffset d.sizes d.sel i + j))
      ?_ ?_ parts hp hmono _ _ hint (addLoop_run _ _ _ _ _ _ _ _ _ _ h1)
    · rintro x hx y hy hne a ⟨i, hi, rfl, j, hj, e⟩ ⟨i', hi', rfl, j', hj', e'⟩
      have hoff : selOffset d.sizes d.sel i + j = selOffset d.sizes d.sel i' + j' := by
        rcases e with rfl | rfl <;> rcases e' with e' | e'
        · exact Cell.sparse.inj e'
        · cases e'
        · cases e'
        · exact Cell.kahan.inj e'
      obtain ⟨rfl, -⟩ := storage_inj hj hj' hoff
      exact hne rfl
    · intro x hx i hi
      rcases (HintOk.zero d.levels [x]).next hd.sorted (by simp) (fun l hl => hr l (by
        rw [List.mem_singleton] at hl; exact hl ▸ hx)) with ⟨i', hi', hl, hidx, -⟩ | ⟨-, hidx, -⟩
      · rw [hi] at hidx
        obtain rfl := Option.some.inj hidx
        refine within_ofOption _ _ fun b hb => ?_
        have hi'' : i' < d.sizes.length := by rw [hd.len]; exact hi'
        unfold shouldBeCopied at hb
        rw [if_pos (by omega), Int.toNat_natCast, List.getElem?_eq_getElem hi''] at hb
        simp only [Option.bind_eq_bind, Option.bind_some] at hb
        split
        · rename_i hbt
          subst hbt
          have hb' := Option.some.inj hb
          rw [Bool.and_eq_true, Bool.or_eq_true, decide_eq_true_eq, decide_eq_true_eq] at hb'
          have hsel : i' ∈ d.sel := hb'.2.elim (fun e => hf e i' hi'') id
          have hpos : 0 < d.sizes.getD i' 0 := by
            rw [List.getD_eq_getElem _ _ hi'']; exact hb'.1
          have hsz := hsize i' hi' (by rw [hl]; exact hx) hpos
          have hss : selSize d.sizes d.sel i' = (getFGPointsOfSubspace g.dims x).length := by
            unfold selSize
            rw [if_pos hsel, hsz, hl]
          rw [Int.toNat_natCast, hd.ptr i' hi'', hd.kptr i' hi'']
          refine within_addPoints A mul coeff _ _ ?_ ?_ _ _ _ _ _ _ ?_
          · rintro k y hy hne ⟨_, _, _, _, _, e | e⟩ <;> cases e
          · rintro a ⟨i1, hi1, e1, j, hj, e⟩ y hy hne ⟨i2, hi2, e2, j', hj', e'⟩
            have hoff : selOffset d.sizes d.sel i1 + j = selOffset d.sizes d.sel i2 + j' := by
              rcases e with rfl | rfl <;> rcases e' with e' | e'
              · exact Cell.sparse.inj e'
              · cases e'
              · cases e'
              · exact Cell.kahan.inj e'
            obtain ⟨rfl, -⟩ := storage_inj hj hj' hoff
            exact hne (e2.symm.trans e1)
          · intro j hj
            exact ⟨⟨i', hi', hl, j, hss ▸ hj, Or.inl rfl⟩, ⟨i', hi', hl, j, hss ▸ hj, Or.inr rfl⟩⟩
        · trivial
      · rw [hi] at hidx
        obtain rfl := Option.some.inj hidx
        trivial

/-- C106, the loop over the poles: if the result for a pole does not depend on what is left in the scratch buffer of
the thread (`F` for the pole number and the local values), then any number of threads, whatever is in their scratch buffers
at first, and whichever poles they take in whichever order, finish without a data race and leave what one
thread alone would have written. -/
theorem C106_poles (sizes : List ℕ) (dim : ℕ) (n stride N : ℕ) (hn : sizes[dim]? = some n)
    (hstride : (tensorOffsets sizes)[dim]? = some stride) (T : ℕ → Buf K → Option (Buf K))
    (T' : (ℕ → K) → ℕ → List K → Option (Buf K × (ℕ → K))) (F : ℕ → List K → ℕ → K) (d d' : Buf K)
    (hlen : d.len = N * (stride * n))
    (hT : ∀ p < N * stride, ∀ B : Buf K, B.len = n → ∃ m, T p B = some m ∧ n ≤ m.len ∧
      ∀ i < n, m.val i = F p ((List.range n).map B.val) i)
    (hT' : ∀ p < N * stride, ∀ (tmp : ℕ → K) (loc : List K), loc.length = n →
      ∃ m t, T' tmp p loc = some (m, t) ∧ n ≤ m.len ∧ ∀ i < n, m.val i = F p loc i)
    (h : mapPoles sizes T d dim = some d') (parts : List ((ℕ → K) × List (ℕ × ℕ)))
    (hp : (parts.map (·.2)).flatten.Perm
      ((List.range N).flatMap fun hi => (List.range stride).map fun lo => (hi, lo))) :
    RunsTo (parts.map fun q => (threadLoop (poleIter d.len stride n T') q.1 q.2).void) d.val d'.val := by
  unfold mapPoles at h
  rw [hn, hstride, Option.bind_some, Option.bind_some] at h
  by_cases hj : stride * n = 0
  · rw [if_pos hj] at h; cases h
  rw [if_neg hj, hlen, Nat.mul_div_cancel _ (Nat.pos_of_ne_zero hj)] at h
  have hs : 0 < stride := Nat.pos_of_ne_zero fun e => hj (by rw [e, Nat.zero_mul])
  have hall : ∀ p ∈ ((List.range N).flatMap fun hi => (List.range stride).map fun lo => (hi, lo)),
      p.1 < N ∧ p.2 < stride := by
    intro p hp
    simp only [List.mem_flatMap, List.mem_range, List.mem_map] at hp
    obtain ⟨hi, h1, lo, h2, rfl⟩ := hp
    exact ⟨h1, h2⟩
  have hnum : ∀ p : ℕ × ℕ, p.1 < N → p.2 < stride → p.2 + p.1 * stride < N * stride := by
    intro p h1 h2
    have : (p.1 + 1) * stride ≤ N * stride := Nat.mul_le_mul_right _ h1
    rw [Nat.add_mul] at this
    omega
  exact parallel_poles stride n N hs T T' F _ (poles_nodup N stride) hall d d' hlen
    (fun p hp => hT _ (hnum p (hall p hp).1 (hall p hp).2))
    (fun p hp => hT' _ (hnum p (hall p hp).1 (hall p hp).2)) h parts hp

section Distributed
variable [Field K]

/-- The transform of one pole by a thread with scratch buffer `tmp`; `after` is what is left in it. -/
def threadPole (pole : ℕ → List (ℕ × K) → (ℕ → K) → Buf K → Option (Buf K)) (lower : ℕ)
    (slices : List (ℤ × List K)) (after : (ℕ → K) → ℕ → List K → ℕ → K) (n : ℕ) (tmp : ℕ → K) (p : ℕ)
    (loc : List K) : Option (Buf K × (ℕ → K)) :=
  (remoteOfPole slices p).bind fun remote =>
    (pole lower remote tmp ⟨n, fun i => loc.getD i 0⟩).map fun m => (m, after tmp p loc)

omit [Field K] in
theorem distributed_poles {ex : Basis → Pole → Option (List (ℤ × ℤ) × List (ℤ × ℤ))}
    {pole : Basis → ℕ → ℕ → ℕ → ℕ → List (ℕ × K) → (ℕ → K) → Buf K → Option (Buf K)}
    {gs gs' : List DistDim} {s : DistDim} (hdec : ValidDec s.dec (poleLength s.dim.lmax s.dim.b))
    {G : (ℕ → K) → ℕ → K}
    (hpole : LocalPole s (ex s.dim.basis) (pole s.dim.basis s.dim.b s.dim.lmax s.dim.lmin) G)
    {V : Buf K} {S : List ℕ → Buf K} {cs cs' : List ℕ} {a : ℕ}
    (hl : cs.length = gs.length) (hl' : cs'.length = gs'.length) (ha : a < s.dec.length)
    (hsize : 0 < s.size a)
    (hS : ∀ r < s.dec.length, IsPart (gs ++ s :: gs') V (cs ++ r :: cs') (S (cs ++ r :: cs')))
    (slices : List (ℤ × List K))
    (hsl : exchangeSlices (ex s.dim.basis) (gs ++ s :: gs') gs.length S (cs ++ a :: cs') = some slices) :
    ∃ F : ℕ → (ℕ → K) → ℕ → K, ∀ p < (partSizes gs' cs').prod * (partSizes gs cs).prod,
      ∀ (junk : ℕ → K) (v : ℕ → K) (loc : Buf K), loc.len = s.size a → (∀ i < s.size a, loc.val i = v i) →
      ∃ m, ((remoteOfPole slices p).bind fun remote =>
        pole s.dim.basis s.dim.b s.dim.lmax s.dim.lmin (s.lower a) remote junk loc) = some m ∧
        m.len = s.size a ∧ ∀ i < s.size a, m.val i = F p v i := by
  obtain ⟨E, hE, hM, hloc⟩ := hpole
  obtain ⟨slices', x1, x2, x3⟩ := exchangeSlices_spec hdec hE hM hl hl' ha hsize hS
  rw [hsl] at x1
  obtain rfl := Option.some.inj x1
  let us : ℕ → List ℕ := getVectorIndex (partSizes gs cs)
  let vs : ℕ → List ℕ := getVectorIndex (partSizes gs' cs')
  let pv : ℕ → ℕ → ℕ → K := fun hi lo j => V.val (sequentialIndex (gridSizes (gs ++ s :: gs'))
        (List.zipWith (· + ·) (partLower gs cs) (us lo) ++ j ::
          List.zipWith (· + ·) (partLower gs' cs') (vs hi)))
  let S0 := (partSizes gs cs).prod
  refine ⟨fun p v i => G (fun j =>
    if s.lower a ≤ j ∧ j < s.lower a + s.size a then v (j - s.lower a) else pv (p / S0) (p % S0) j)
      (s.lower a + i), ?_⟩
  intro p hp junk v loc hlen hv
  have hS0 : 0 < S0 := by
    rcases Nat.eq_zero_or_pos S0 with e | e
    · rw [show (partSizes gs cs).prod = 0 from e, Nat.mul_zero] at hp; omega
    · exact e
  have hlo : p % S0 < (partSizes gs cs).prod := Nat.mod_lt _ hS0
  have hhi : p / S0 < (partSizes gs' cs').prod := (Nat.div_lt_iff_lt_mul hS0).2 hp
  have hpe : p % S0 + p / S0 * S0 = p := by rw [mul_comm]; exact Nat.mod_add_div p S0
  obtain ⟨u1, u2⟩ := getVectorIndex_spec _ _ hlo
  obtain ⟨v1, v2⟩ := getVectorIndex_spec _ _ hhi
  have hrem : remoteOfPole slices p =
      some (slices.map fun x => (x.1.toNat, pv (p / S0) (p % S0) x.1.toNat)) := by
    apply remoteOfPole_eq
    intro x hx
    obtain ⟨⟨i, i1, i2, i3⟩, -⟩ := x2 x hx
    refine ⟨i, i1, ?_⟩
    have := i3 _ _ u1 v1
    rw [u2, v2, show p % S0 + p / S0 * (partSizes gs cs).prod = p from hpe] at this
    exact this
  rw [hrem]
  obtain ⟨m, m1, m2, m3⟩ := hloc a ha
    (fun j => if s.lower a ≤ j ∧ j < s.lower a + s.size a then v (j - s.lower a) else pv (p / S0) (p % S0) j)
    junk (slices.map fun x => (x.1.toNat, pv (p / S0) (p % S0) x.1.toNat)) loc (by
      intro q hq
      obtain ⟨x, hx, rfl⟩ := List.mem_map.1 hq
      obtain ⟨⟨i, i1, i2, i3⟩, y, hy, e⟩ := x2 x hx
      refine ⟨by simp only; omega, ?_⟩
      simp only
      rw [if_neg]
      rintro ⟨b1, b2⟩
      obtain ⟨r, hr1, hr2, hr3⟩ := hM.partners a ha y.1 y.2 (by simp [hy])
      obtain ⟨k, hk1, hk2⟩ := hM.received a ha y.1 y.2 hy
      rw [hr1, Int.toNat_natCast] at hk2
      have hki : x.1.toNat = k := by omega
      rw [hki] at b1 b2
      have hkn : k < poleLength s.dim.lmax s.dim.b := by omega
      have hown : Owns1d s.dec (poleLength s.dim.lmax s.dim.b) a k := by
        obtain ⟨lo, hi, f1, f2, -, -⟩ := bounds1d hdec ha
        unfold DistDim.size DistDim.lower at b2
        unfold DistDim.lower at b1
        rw [f1] at b1 b2
        rw [f2] at b2
        simp only [Option.getD_some] at b1 b2
        exact ⟨lo, hi, f1, f2, b1, by omega⟩
      have e1 := (owns1d_iff hdec a k hkn).1 hown
      have e2 := (owns1d_iff hdec r k hkn).1 hk2
      omega) (by
      intro q
      constructor
      · rintro ⟨q, hq, rfl⟩
        obtain ⟨x, hx, rfl⟩ := List.mem_map.1 hq
        obtain ⟨⟨i, i1, i2, i3⟩, y, hy, e⟩ := x2 x hx
        exact ⟨y, hy, by simp only; omega⟩
      · rintro ⟨y, hy, e⟩
        obtain ⟨x, hx, ex⟩ := x3 y hy
        exact ⟨_, List.mem_map_of_mem hx, by simp only; omega⟩) hlen (by
      intro i hi
      rw [hlen] at hi
      rw [hv i hi, if_pos (by omega), Nat.add_sub_cancel_left])
  refine ⟨m, m1, by rw [m2, hlen], fun i hi => ?_⟩
  rw [m3 i (by rw [hlen]; exact hi)]

theorem distributed_threads {ex : Basis → Pole → Option (List (ℤ × ℤ) × List (ℤ × ℤ))}
    {pole : Basis → ℕ → ℕ → ℕ → ℕ → List (ℕ × K) → (ℕ → K) → Buf K → Option (Buf K)}
    (g : List DistDim) (hg : ∀ s ∈ g, s.Ok) (k : ℕ) (hk : k < g.length) {G : (ℕ → K) → ℕ → K}
    (hpole : LocalPole g[k] (ex g[k].dim.basis) (pole g[k].dim.basis g[k].dim.b g[k].dim.lmax g[k].dim.lmin) G)
    (hlt : g[k].dim.lmin < g[k].dim.lmax) (V : Buf K) (S : List ℕ → Buf K)
    (hS : ∀ c, IsProcess g c → IsPart g V c (S c)) (c : List ℕ) (hc : IsProcess g c)
    (hne : ∀ n ∈ partSizes g c, 0 < n) (junk : ℕ → ℕ → K) (B : Buf K)
    (hB : distributedDim ex pole g junk k S c = some B) :
    ∃ slices n stride, exchangeSlices (ex g[k].dim.basis) g k S c = some slices ∧
      (partSizes g c)[k]? = some n ∧ (tensorOffsets (partSizes g c))[k]? = some stride ∧
      ∀ after (parts : List ((ℕ → K) × List (ℕ × ℕ))), (parts.map (·.2)).flatten.Perm
        ((List.range ((S c).len / (stride * n))).flatMap fun hi => (List.range stride).map fun lo => (hi, lo)) →
      RunsTo (parts.map fun q => (threadLoop (poleIter (S c).len stride n
        (threadPole (pole g[k].dim.basis g[k].dim.b g[k].dim.lmax g[k].dim.lmin) (g[k].lower (c.getD k 0)) slices
          after n)) q.1 q.2).void) (S c).val B.val := by
  obtain ⟨gs, s, gs', rfl, rfl⟩ : ∃ gs s gs', g = gs ++ s :: gs' ∧ gs.length = k :=
    ⟨g.take k, g[k], g.drop (k + 1), by simp, by simp; omega⟩
  have hs : (gs ++ s :: gs')[gs.length] = s := by simp
  rw [hs] at hpole hlt ⊢
  have hok := hg s (by simp)
  obtain ⟨cs, cs0, h1, h2, rfl⟩ : ∃ cs cs', IsProcess gs cs ∧ IsProcess (s :: gs') cs' ∧
      c = cs ++ cs' := ⟨c.take gs.length, c.drop gs.length, List.forall₂_take_append _ _ _ hc,
        List.forall₂_drop_append _ _ _ hc, (List.take_append_drop _ _).symm⟩
  obtain ⟨a, cs', ha, h3, rfl⟩ : ∃ a cs', a < s.dec.length ∧ IsProcess gs' cs' ∧
      cs0 = a :: cs' := by
    cases h2 with
    | cons a b => exact ⟨_, _, a, b, rfl⟩
  have hl : cs.length = gs.length := h1.length_eq
  have hl' : cs'.length = gs'.length := h3.length_eq
  have hpart : partSizes (gs ++ s :: gs') (cs ++ a :: cs') =
      partSizes gs cs ++ s.size a :: partSizes gs' cs' := by
    rw [partSizes_append _ _ _ _ hl, partSizes_cons]
  have hpl := length_partSizes hl
  rw [hpart] at hne ⊢
  have hsize : 0 < s.size a := hne _ (by simp)
  have hprod : 0 < (partSizes gs cs).prod := prod_pos_of fun n hn => hne n (by simp [hn])
  have hSr : ∀ r < s.dec.length, IsPart (gs ++ s :: gs') V (cs ++ r :: cs') (S (cs ++ r :: cs')) :=
    fun r hr => hS _ (List.rel_append h1 (.cons hr h3))
  have e1 : (gs ++ s :: gs')[gs.length]? = some s := by simp
  have e2 : (cs ++ a :: cs')[gs.length]? = some a := by rw [← hl]; simp
  have e3 : (cs ++ a :: cs').getD gs.length 0 = a := by rw [← hl]; simp
  unfold distributedDim at hB
  rw [e1, e2, Option.bind_some, Option.bind_some, if_neg (by omega), hpart] at hB
  cases hsl : exchangeSlices (ex s.dim.basis) (gs ++ s :: gs') gs.length S (cs ++ a :: cs') with
  | none => rw [hsl] at hB; cases hB
  | some slices =>
    rw [hsl, Option.bind_some] at hB
    obtain ⟨F, hF⟩ := distributed_poles hok.1 hpole hl hl' ha hsize hSr slices hsl
    refine ⟨slices, s.size a, (partSizes gs cs).prod, rfl, by rw [← hpl]; simp,
      by rw [← hpl]; exact tensorOffsets_split _ _ _, fun after parts hp => ?_⟩
    obtain ⟨p1, -⟩ := (isPart_split hl hl').1 (hSr a ha)
    rw [p1, Nat.mul_div_cancel _ (Nat.mul_pos hprod hsize)] at hp
    rw [e3]
    refine C106_poles (partSizes gs cs ++ s.size a :: partSizes gs' cs') gs.length (s.size a)
      (partSizes gs cs).prod (partSizes gs' cs').prod (by rw [← hpl]; simp)
      (by rw [← hpl]; exact tensorOffsets_split _ _ _) _ _ (fun p loc i => F p (fun j => loc.getD j 0) i)
      _ B p1 ?_ ?_ hB parts hp
    · intro p hp loc hlen
      obtain ⟨m, m1, m2, m3⟩ := hF p hp (junk p) (fun j => ((List.range (s.size a)).map loc.val).getD j 0) loc hlen
        (by
          intro i hi
          rw [List.getD_eq_getElem _ _ (by simpa using hi)]
          simp)
      exact ⟨m, m1, m2.ge, m3⟩
    · intro p hp tmp loc hlen
      obtain ⟨m, m1, m2, m3⟩ := hF p hp tmp (fun j => loc.getD j 0) ⟨s.size a, fun i => loc.getD i 0⟩ rfl
        fun _ _ => rfl
      refine ⟨m, after tmp p loc, ?_, m2.ge, m3⟩
      unfold threadPole
      cases hr : remoteOfPole slices p with
      | none => rw [hr] at m1; cases m1
      | some remote =>
        rw [hr, Option.bind_some] at m1
        rw [Option.bind_some, m1]
        rfl

omit [Field K] in
theorem distributedDim_of_transform {ex : Basis → Pole → Option (List (ℤ × ℤ) × List (ℤ × ℤ))}
    {pole : Basis → ℕ → ℕ → ℕ → ℕ → List (ℕ × K) → (ℕ → K) → Buf K → Option (Buf K)} {g : List DistDim}
    {junk : List ℕ → ℕ → ℕ → ℕ → K} {k : ℕ} {S S' : List ℕ → Buf K}
    (h : distributedTransform ex pole g junk [k] S = some S') (c : List ℕ) (hc : IsProcess g c) :
    distributedDim ex pole g (junk c k) k S c = some (S' c) := by
  unfold distributedTransform at h
  rw [List.foldlM_cons] at h
  cases h1 : onProcesses (processes g) (fun S c => distributedDim ex pole g (junk c k) k S c) S with
  | none => rw [h1] at h; cases h
  | some S1 =>
    rw [h1] at h
    obtain rfl := Option.some.inj h
    unfold onProcesses at h1
    split at h1
    · rename_i hall
      obtain rfl := Option.some.inj h1
      have hm := mem_processes.2 hc
      have := List.all_eq_true.1 hall c hm
      beta_reduce at this ⊢
      rw [if_pos hm]
      cases hd : distributedDim ex pole g (junk c k) k S c with
      | none => rw [hd] at this; cases this
      | some B => rfl
    · cases h1

/-- C106, `hierarchize` of one dimension of a distributed grid on one process: any number of threads, with anything in their
scratch buffers at first and after each pole, and any distribution of the poles, finish without a data race and leave
what one thread alone would have written (`S' c`, see C91). -/
theorem C106_hierarchize (g : List DistDim) (hg : ∀ s ∈ g, s.Ok)
    (hne : ∀ c, IsProcess g c → ∀ n ∈ partSizes g c, 0 < n)
    (hl : ∀ s ∈ g, s.dim.b = 0 → 0 < s.dim.lmax) (k : ℕ) (hk : k < g.length)
    (hlt : g[k].dim.lmin < g[k].dim.lmax)
    (V : Buf K) (hV : V.len = (g.map fun s => nodal s.dim.lmax s.dim.b).prod) (S : List ℕ → Buf K)
    (hS : ∀ c, IsProcess g c → IsPart g V c (S c)) (junk : List ℕ → ℕ → ℕ → ℕ → K) :
    ∃ S', distributedHierarchize g junk [k] S = some S' ∧ ∀ c, IsProcess g c →
      ∃ slices n stride, exchangeSlices (hierExchange g[k].dim.basis) g k S c = some slices ∧
        (partSizes g c)[k]? = some n ∧ (tensorOffsets (partSizes g c))[k]? = some stride ∧
        ∀ after (parts : List ((ℕ → K) × List (ℕ × ℕ))), (parts.map (·.2)).flatten.Perm
          ((List.range ((S c).len / (stride * n))).flatMap fun hi => (List.range stride).map fun lo => (hi, lo)) →
        RunsTo (parts.map fun q => (threadLoop (poleIter (S c).len stride n
          (threadPole (hierPole g[k].dim.basis g[k].dim.b g[k].dim.lmax g[k].dim.lmin) (g[k].lower (c.getD k 0))
            slices after n)) q.1 q.2).void) (S c).val (S' c).val := by
  obtain ⟨W, S', -, -, h, -⟩ := C91_hierarchize g hg hne hl [k] (by simpa using hk) V hV S hS junk fun _ _ _ => 0
  obtain ⟨A, B, hAB⟩ := distGrid_poles (K := K) g hg
  exact ⟨S', h, fun c hc => distributed_threads g hg k hk ((hAB k hk).2 hlt).1 hlt V S hS c hc (hne c hc) _ _
    (distributedDim_of_transform h c hc)⟩

/-- C106, `dehierarchize`. -/
theorem C106_dehierarchize (g : List DistDim) (hg : ∀ s ∈ g, s.Ok)
    (hne : ∀ c, IsProcess g c → ∀ n ∈ partSizes g c, 0 < n)
    (hl : ∀ s ∈ g, s.dim.b = 0 → 0 < s.dim.lmax) (k : ℕ) (hk : k < g.length)
    (hlt : g[k].dim.lmin < g[k].dim.lmax)
    (V : Buf K) (hV : V.len = (g.map fun s => nodal s.dim.lmax s.dim.b).prod) (S : List ℕ → Buf K)
    (hS : ∀ c, IsProcess g c → IsPart g V c (S c)) (junk : List ℕ → ℕ → ℕ → ℕ → K) :
    ∃ S', distributedDehierarchize g junk [k] S = some S' ∧ ∀ c, IsProcess g c →
      ∃ slices n stride, exchangeSlices (dehierExchange g[k].dim.basis) g k S c = some slices ∧
        (partSizes g c)[k]? = some n ∧ (tensorOffsets (partSizes g c))[k]? = some stride ∧
        ∀ after (parts : List ((ℕ → K) × List (ℕ × ℕ))), (parts.map (·.2)).flatten.Perm
          ((List.range ((S c).len / (stride * n))).flatMap fun hi => (List.range stride).map fun lo => (hi, lo)) →
        RunsTo (parts.map fun q => (threadLoop (poleIter (S c).len stride n
          (threadPole (dehierPole g[k].dim.basis g[k].dim.b g[k].dim.lmax g[k].dim.lmin) (g[k].lower (c.getD k 0))
            slices after n)) q.1 q.2).void) (S c).val (S' c).val := by
  obtain ⟨W, S', -, -, h, -⟩ := C91_dehierarchize g hg hne hl [k] (by simpa using hk) V hV S hS junk fun _ _ _ => 0
  obtain ⟨A, B, hAB⟩ := distGrid_poles (K := K) g hg
  exact ⟨S', h, fun c hc => distributed_threads g hg k hk ((hAB k hk).2 hlt).2 hlt V S hS c hc (hne c hc) _ _
    (distributedDim_of_transform h c hc)⟩

end Distributed

/-- C106, the reduction operation `addIndexedElements`: blocks that do not overlap can be distributed over threads in any
way; every element of a block is added once and the others are left alone, without a data race. -/
theorem C106_blocks (add : K → K → K) (blocks : List (ℤ × ℕ)) (hnd : blocks.Nodup)
    (hdis : blocks.Pairwise fun b c => b.1 + (b.2 : ℤ) ≤ c.1 ∨ c.1 + (c.2 : ℤ) ≤ b.1)
    (parts : List (List (ℤ × ℕ))) (hp : parts.flatten.Perm blocks) (m m' : OpCell → K)
    (harg : ∀ i, m' (.arg i) = m (.arg i))
    (hin : ∀ i, (∃ b ∈ blocks, b.1 ≤ i ∧ i < b.1 + b.2) → m' (.inout i) = add (m (.inout i)) (m (.arg i)))
    (hout : ∀ i, (¬ ∃ b ∈ blocks, b.1 ≤ i ∧ i < b.1 + b.2) → m' (.inout i) = m (.inout i)) :
    RunsTo (parallelFor (addBlockIter add) () parts) m m' := by
  have e : parallelFor (addBlockIter add) () parts =
      parts.map (loopCode fun b : ℤ × ℕ => addBlock add b.1 b.2) := by
    unfold parallelFor
    apply List.map_congr_left
    intro p _
    refine (threadLoop_void (fun _ _ => True) ?_ p () trivial).void
    rintro ⟨⟩ x xs -
    unfold addBlockIter
    have := same_done (Q := fun _ : Unit => True) (addBlock add x.1 x.2) () trivial
    have hb : ∀ c : Code OpCell K Unit, (c.bind fun _ => Code.done ()) = c := by
      intro c
      induction c with
      | done r => rfl
      | read a k ih => exact congrArg (Code.read a) (funext ih)
      | write a v k ih => exact congrArg (Code.write a v) ih
      | fail => rfl
    rwa [hb] at this
  rw [e]
  have hsym : ∀ b ∈ blocks, ∀ c ∈ blocks, b ≠ c → b.1 + (b.2 : ℤ) ≤ c.1 ∨ c.1 + (c.2 : ℤ) ≤ b.1 := by
    intro b hb c hc hne
    obtain ⟨i, hi, rfl⟩ := List.mem_iff_getElem.1 hb
    obtain ⟨j, hj, rfl⟩ := List.mem_iff_getElem.1 hc
    rw [List.pairwise_iff_getElem] at hdis
    rcases Nat.lt_trichotomy i j with h | rfl | h
    · exact hdis i j hi hj h
    · exact absurd rfl hne
    · exact (hdis j i hj hi h).symm
  refine parts_run hnd (W := fun (b : ℤ × ℕ) a => ∃ i, b.1 ≤ i ∧ i < b.1 + (b.2 : ℤ) ∧ a = .inout i) ?_ ?_ parts
    hp m m' ?_
  · rintro x hx y hy hne a ⟨i, h1, h2, rfl⟩ ⟨j, h3, h4, e⟩
    obtain rfl := OpCell.inout.inj e
    rcases hsym x hx y hy hne with h | h <;> omega
  · intro x hx
    refine within_addBlock add _ _ ?_ ?_ _ _ ?_
    · rintro i y hy hne ⟨j, -, -, e⟩
      cases e
    · rintro a ⟨i, h1, h2, rfl⟩ y hy hne ⟨j, h3, h4, e⟩
      obtain rfl := OpCell.inout.inj e
      rcases hsym x hx y hy hne.symm with h | h <;> omega
    · intro i h1 h2
      exact ⟨i, h1, h2, rfl⟩
  · rw [addBlocks_run add blocks hdis]
    congr 2
    funext a
    cases a with
    | arg i => exact (harg i).symm
    | inout i =>
      by_cases h : ∃ b ∈ blocks, b.1 ≤ i ∧ i < b.1 + b.2
      · simp only [if_pos h, hin i h]
      · simp only [if_neg h, hout i h]

/-! ### Orders and races -/

/-- Some steps of the threads with these numbers. -/
def advance {A V : Type} [DecidableEq A] (x : Team A V) : List ℕ → Team A V
  | [] => x
  | i :: is => advance (match x.threads[i]? with
      | some (.read a k) => ⟨x.threads.set i (k (x.mem a)), x.mem⟩
      | some (.write a v k) => ⟨x.threads.set i k, Function.update x.mem a v⟩
      | _ => x) is

theorem reaches_advance {A V : Type} [DecidableEq A] (x : Team A V) (is : List ℕ) :
    Reaches Step x (advance x is) := by
  induction is generalizing x with
  | nil => exact .refl _
  | cons i is ih =>
    rw [advance]
    split
    · rename_i a k h
      exact .tail _ _ _ (Step.read i a k x.threads x.mem h) (ih _)
    · rename_i a v k h
      exact .tail _ _ _ (Step.write i a v k x.threads x.mem h) (ih _)
    · exact ih _

theorem RunsTo.final {A V : Type} [DecidableEq A] {ts : List (Code A V Unit)} {m m' : A → V} (h : RunsTo ts m m')
    (y : Team A V) (hy : Reaches Step ⟨ts, m⟩ y) (hd : y.Done) : y.mem = m' := by
  have hstep : ∀ z, ¬ Step y z := by
    intro z hz
    cases hz with
    | read i a k ts m hi => cases hd _ (List.mem_of_getElem? hi)
    | write i a v k ts m hi => cases hd _ (List.mem_of_getElem? hi)
  cases h.1.of_reaches hy with
  | here _ hp _ => exact hp.2
  | step _ hex _ => exact absurd hex.choose_spec (hstep _)

theorem done_of {A V : Type} {x : Team A V} (h : x.threads.all (fun c => match c with
    | .done _ => true
    | _ => false) = true) : x.Done := by
  intro c hc
  have := List.all_eq_true.1 h c hc
  cases c with
  | done r => rfl
  | read a k => cases this
  | write a v k => cases this
  | fail => cases this

theorem racy_of {A V : Type} {x : Team A V} (i j : ℕ) (a : A) (hij : i ≠ j)
    (hi : x.threads[i]?.bind Code.access = some (a, true)) (hj : x.threads[j]?.bind Code.access = some (a, true)) :
    x.Racy := by
  rw [Option.bind_eq_some_iff] at hi hj
  obtain ⟨c, h1, h2⟩ := hi
  obtain ⟨d, h3, h4⟩ := hj
  exact ⟨i, j, c, d, a, true, true, hij, h1, h3, h2, h4, Or.inl rfl⟩

/-- Level 2 in one dimension without boundary: three points. -/
def threadGrid : Dfg ℚ := ⟨[⟨2, 0, 0, 3⟩], ⟨3, fun _ => 0⟩⟩

/-- The sparse grid with the subspaces of the levels 1 and 2. -/
def threadSparse : Dsg ℚ :=
  ⟨[[1], [2]], [1, 2], [0, 1], ⟨3, fun i => i + 5⟩, [0, 1], ⟨3, fun _ => 0⟩, [0, 1]⟩

/-- C106: if a thread gets its subspaces in another order than the ascending one, which OpenMP allows since version 5.0 for
`schedule(guided)` and `schedule(dynamic)` without the modifier `monotonic`, then the private `sIndex` is too large for
the smaller subspaces, and they are silently not copied. -/
theorem C106_order_violated : ∃ (g g' : Dfg ℚ) (d : Dsg ℚ) (parts : List (List (List ℕ))), Allocated d ∧
    parts.flatten.Perm (getDownSet g.levels) ∧ extractFromUniformSG true g d = some g' ∧
    ∃ y, Reaches Step ⟨parallelFor (extractIter true d g.dims g.data.len) 0 parts, memory d g⟩ y ∧ y.Done ∧
      y.mem (.full 1) = 0 ∧ memory d g' (.full 1) = 5 ∧
      ¬ RunsTo (parallelFor (extractIter true d g.dims g.data.len) 0 parts) (memory d g) (memory d g') := by
  have h : (extractFromUniformSG true threadGrid threadSparse).map (fun g => g.data.val 1) = some 5 := by
    decide +kernel
  cases hg : extractFromUniformSG true threadGrid threadSparse with
  | none => rw [hg] at h; cases h
  | some g' =>
    rw [hg] at h
    have h5 : memory threadSparse g' (.full 1) = 5 := Option.some.inj h
    have hd : (advance ⟨parallelFor (extractIter true threadSparse threadGrid.dims threadGrid.data.len) 0
        [[[2], [1]]], memory threadSparse threadGrid⟩ [0, 0, 0, 0]).Done := by
      exact done_of (by decide +kernel)
    have h0 : (advance ⟨parallelFor (extractIter true threadSparse threadGrid.dims threadGrid.data.len) 0
        [[[2], [1]]], memory threadSparse threadGrid⟩ [0, 0, 0, 0]).mem (.full 1) = 0 := by decide +kernel
    refine ⟨threadGrid, g', threadSparse, [[[2], [1]]], ?_, ?_, hg, _, reaches_advance _ [0, 0, 0, 0], hd, h0, h5, ?_⟩
    · refine ⟨by decide, rfl, by decide, ?_, ?_, rfl, rfl⟩ <;> decide
    · decide
    · intro hr
      have := hr.final _ (reaches_advance _ [0, 0, 0, 0]) hd
      rw [this, h5] at h0
      norm_num at h0

/-- The hypotheses of `C106_extract` and `C106_add` hold for these grids and two threads that share the subspaces. -/
example : Allocated threadSparse ∧ (∀ i < threadSparse.sizes.length, i ∈ threadSparse.sel) ∧
    (∀ l ∈ getDownSet threadGrid.levels, ∃ h : 0 < threadSparse.levels.length, threadSparse.levels[0] ≤ l) ∧
    (∀ x ∈ threadGrid.dims, ValidLocal x) ∧ (extractFromUniformSG true threadGrid threadSparse).isSome ∧
    (addDistributedFullGridWith (Adder.exact ℚ) (· * ·) true threadSparse threadGrid 2).isSome ∧
    [[[2]], [[1]]].flatten.Perm (getDownSet threadGrid.levels) ∧
    (∀ p ∈ [[[2]], [[1]]], p.Pairwise (· < ·)) ∧
    (∀ i (hi : i < threadSparse.levels.length), threadSparse.levels[i] ∈ getDownSet threadGrid.levels →
      0 < threadSparse.sizes.getD i 0 →
      threadSparse.sizes.getD i 0 = (getFGPointsOfSubspace threadGrid.dims threadSparse.levels[i]).length) := by
  refine ⟨⟨by decide, rfl, by decide, by decide, by decide, rfl, rfl⟩, by decide, by decide, ?_, by decide +kernel,
    by decide +kernel, by decide, by decide, by decide +kernel⟩
  intro x hx
  obtain rfl : x = ⟨2, 0, 0, 3⟩ := by simpa [threadGrid] using hx
  exact ⟨by decide, by decide, by decide⟩

/-- The hypothesis of `C106_hierarchize` on the level holds for the grid for which C91 shows the others. -/
example : ∀ k (hk : k < distExample.length), distExample[k].dim.lmin < distExample[k].dim.lmax := by decide

/-- The hypotheses of `C106_blocks` hold for three blocks, of which one is empty. -/
example : ([(4, 2), (0, 3), (3, 0)] : List (ℤ × ℕ)).Nodup ∧
    ([(4, 2), (0, 3), (3, 0)] : List (ℤ × ℕ)).Pairwise
      (fun b c => b.1 + (b.2 : ℤ) ≤ c.1 ∨ c.1 + (c.2 : ℤ) ≤ b.1) := by decide

/-- The code only reads, if the memory is `m`. -/
inductive Quiet {A V : Type} (m : A → V) : Code A V Unit → ℕ → Prop where
  | done : Quiet m (.done ()) 0
  | read (a k n) : Quiet m (k (m a)) n → Quiet m (.read a k) (n + 1)

theorem quiet_runs {A V : Type} [DecidableEq A] (m : A → V) (ts : List (Code A V Unit)) (ns : List ℕ)
    (h : List.Forall₂ (Quiet m) ts ns) : RunsTo ts m m := by
  have hstep : ∀ (ts : List (Code A V Unit)) (ns : List ℕ), List.Forall₂ (Quiet m) ts ns → ∀ y, Step ⟨ts, m⟩ y →
      ∃ ts' ns', y = ⟨ts', m⟩ ∧ List.Forall₂ (Quiet m) ts' ns' ∧ ns'.sum < ns.sum := by
    intro ts ns h y hy
    obtain ⟨hlen, hq⟩ := List.forall₂_iff_get.1 h
    cases hy with
    | read i a k _ _ hi =>
      obtain ⟨hi', hik⟩ := List.getElem?_eq_some_iff.1 hi
      have hin : i < ns.length := by omega
      have hqi := hq i hi' hin
      simp only [List.get_eq_getElem] at hqi
      rw [hik] at hqi
      cases hn : ns[i] with
      | zero => rw [hn] at hqi; cases hqi
      | succ n =>
        rw [hn] at hqi
        cases hqi with
        | read _ _ _ hk =>
          refine ⟨_, ns.set i n, rfl, ?_, ?_⟩
          · rw [List.forall₂_iff_get]
            refine ⟨by simpa using hlen, fun j h1 h2 => ?_⟩
            simp only [List.get_eq_getElem, List.getElem_set]
            split
            · exact hk
            · exact hq j (by simpa using h1) (by simpa using h2)
          · rw [List.sum_set]
            rw [if_pos hin]
            have hsplit : ns.sum = (ns.take i).sum + (ns[i] + (ns.drop (i + 1)).sum) := by
              rw [← List.sum_cons, List.getElem_cons_drop hin, ← List.sum_append, List.take_append_drop]
            rw [hsplit, hn]
            omega
    | write i a v k _ _ hi =>
      obtain ⟨hi', hik⟩ := List.getElem?_eq_some_iff.1 hi
      have hqi := hq i hi' (by omega)
      simp only [List.get_eq_getElem] at hqi
      rw [hik] at hqi
      cases hqi
  constructor
  · generalize hN : ns.sum = N
    induction N using Nat.strong_induction_on generalizing ts ns with
    | _ N ih =>
      by_cases hex : ∃ y, Step (⟨ts, m⟩ : Team A V) y
      · refine .step _ hex fun y hy => ?_
        obtain ⟨ts', ns', rfl, h', hlt⟩ := hstep ts ns h y hy
        exact ih _ (hN ▸ hlt) ts' ns' h' rfl
      · refine .here _ ⟨?_, rfl⟩ fun y hy => hex ⟨y, hy⟩
        intro c (hc : c ∈ ts)
        obtain ⟨i, hi, rfl⟩ := List.mem_iff_getElem.1 hc
        obtain ⟨hlen, hq⟩ := List.forall₂_iff_get.1 h
        have hqi := hq i hi (by omega : i < ns.length)
        simp only [List.get_eq_getElem] at hqi
        have hg : ts[i]? = some ts[i] := List.getElem?_eq_getElem hi
        revert hg
        generalize ts[i] = c at hqi
        intro hg
        generalize ns[i] = n at hqi
        cases hqi with
        | done => rfl
        | read a k n _ => exact absurd ⟨_, Step.read i a k ts m hg⟩ hex
  · intro y hy
    have key : ∀ x y, Reaches Step x y → ∀ (ts : List (Code A V Unit)) ns, List.Forall₂ (Quiet m) ts ns →
        x = ⟨ts, m⟩ → ∃ ts' ns', y = ⟨ts', m⟩ ∧ List.Forall₂ (Quiet m) ts' ns' := by
      intro x y hr
      induction hr with
      | refl x => exact fun ts ns h e => ⟨ts, ns, e, h⟩
      | tail x y z hxy _ ih =>
        intro ts ns h e
        subst e
        obtain ⟨ts', ns', e', h', -⟩ := hstep ts ns h y hxy
        exact ih ts' ns' h' e'
    obtain ⟨ts', ns', rfl, h'⟩ := key _ _ hy ts ns h rfl
    rintro ⟨i, j, c, d, a, v, w, hij, hc, hd, ac, ad, hvw⟩
    have hw : ∀ (i : ℕ) (c : Code A V Unit), ts'[i]? = some c → c.access ≠ some (a, true) := by
      intro i c hc hac
      obtain ⟨hi, rfl⟩ := List.getElem?_eq_some_iff.1 hc
      obtain ⟨hlen, hq⟩ := List.forall₂_iff_get.1 h'
      have hqi := hq i hi (by omega : i < ns'.length)
      simp only [List.get_eq_getElem] at hqi
      generalize ts'[i] = c at hqi hac
      generalize ns'[i] = n at hqi
      cases hqi <;> cases hac
    rcases hvw with rfl | rfl
    · exact hw i c hc ac
    · exact hw j d hd ad

/-- C106: `registerDistributedFullGrid` for a grid whose subspaces have been registered before only reads: no data
race, and nothing changes. What is missing: the first registration, see `C106_register_violated`. -/
theorem C106_register_partial (levels : List (List ℕ)) (np nk : ℕ) (dims : List LocalDim)
    (hs : levels.Pairwise (· < ·))
    (hr : ∀ l ∈ getDownSet (dims.map (·.level)), ∃ h : 0 < levels.length, levels[0] ≤ l) (m : RegCell → ℕ)
    (hreg : ∀ i (hi : i < levels.length), levels[i] ∈ getDownSet (dims.map (·.level)) → m (.size i) ≠ 0)
    (parts : List (List (List ℕ))) (hp : parts.flatten.Perm (getDownSet (dims.map (·.level))))
    (hmono : ∀ p ∈ parts, p.Pairwise (· < ·)) :
    RunsTo (parallelFor (registerIter levels levels.length np nk dims) 0 parts) m m := by
  have key : ∀ (ls : List (List ℕ)) (hint : ℤ), HintOk levels ls hint → ls.Pairwise (· < ·) →
      (∀ l ∈ ls, l ∈ getDownSet (dims.map (·.level))) →
      ∃ n, Quiet m (threadLoop (registerIter levels levels.length np nk dims) hint ls).void n := by
    intro ls
    induction ls with
    | nil => exact fun _ _ _ _ => ⟨0, .done⟩
    | cons l ls ih =>
      intro hint hh hls hm
      have hm' : ∀ l ∈ ls, l ∈ getDownSet (dims.map (·.level)) := fun l' h' => hm l' (by simp [h'])
      have hls' := (List.pairwise_cons.1 hls).2
      rcases hh.next hs hls (fun l' h' => hr l' (hm l' h')) with ⟨i, hi, hl, hidx, hok⟩ | ⟨-, hidx, hok⟩
      · obtain ⟨n, hn⟩ := ih i hok hls' hm'
        refine ⟨n + 1, ?_⟩
        have hne := hreg i hi (hl ▸ hm l (by simp))
        rw [threadLoop, registerIter, hidx]
        simp only [Code.ofOption, Code.bind, Int.toNat_natCast]
        rw [if_pos (by omega), if_pos hi]
        refine .read _ _ _ ?_
        beta_reduce
        rw [if_neg hne]
        exact hn
      · obtain ⟨n, hn⟩ := ih (-1) hok hls' hm'
        refine ⟨n, ?_⟩
        rw [threadLoop, registerIter, hidx]
        exact hn
  have hall : ∀ p ∈ parts, ∃ n, Quiet m (threadLoop (registerIter levels levels.length np nk dims) 0 p).void n := by
    intro p hpm
    refine key p 0 (HintOk.zero _ _) (hmono p hpm) fun l hl => ?_
    rw [← hp.mem_iff, List.mem_flatten]
    exact ⟨p, hpm, hl⟩
  obtain ⟨ns, hns⟩ : ∃ ns, List.Forall₂ (Quiet m)
      (parallelFor (registerIter levels levels.length np nk dims) 0 parts) ns := by
    clear hp hmono
    unfold parallelFor
    induction parts with
    | nil => exact ⟨[], .nil⟩
    | cons p ps ih =>
      obtain ⟨n, hn⟩ := hall p (by simp)
      obtain ⟨ns, hns⟩ := ih fun q hq => hall q (by simp [hq])
      exact ⟨n :: ns, .cons hn hns⟩
  exact quiet_runs m _ ns hns

/-- The hypotheses of `C106_register_partial` hold for the sizes of `threadSparse`. -/
example : ([[1], [2]] : List (List ℕ)).Pairwise (· < ·) ∧ getDownSet (threadGrid.dims.map (·.level)) = [[1], [2]] ∧
    ∃ m : RegCell → ℕ, ∀ i < 2, m (.size i) ≠ 0 :=
  ⟨by decide, rfl, fun _ => 1, by decide⟩

/-- C106: when a full grid is registered for the first time, two threads that set the sizes of different subspaces both
overwrite all pointers to subspaces (`deleteSubspaceData` in `setDataSize`): a data race, which is undefined
behaviour. (All of them write null pointers.) -/
theorem C106_register_violated : ∃ (levels : List (List ℕ)) (dims : List LocalDim) (parts : List (List (List ℕ))),
    parts.flatten.Perm (getDownSet (dims.map (·.level))) ∧ (∀ p ∈ parts, p.Pairwise (· < ·)) ∧
    ∃ y, Reaches Step ⟨parallelFor (registerIter levels levels.length levels.length levels.length dims) 0 parts,
      fun _ => 0⟩ y ∧ y.Racy := by
  refine ⟨[[1], [2]], [⟨2, 0, 0, 3⟩], [[[1]], [[2]]], by decide, by decide, _,
    reaches_advance _ [0, 0, 0, 0, 1, 1, 1, 1], racy_of 0 1 (RegCell.ptr 0) (by decide) ?_ ?_⟩ <;> decide +kernel

/-- C106: the same data race in `maxReduceSubspaceSizes`, if the sizes of two subspaces grow. -/
theorem C106_maxReduce_violated : ∃ (other : List ℕ) (parts : List (List ℕ)),
    parts.flatten.Perm (List.range other.length) ∧ (∀ p ∈ parts, p.Pairwise (· < ·)) ∧
    ∃ y, Reaches Step ⟨parallelFor (maxReduceIter other other.length other.length other.length) () parts,
      fun _ => 0⟩ y ∧ y.Racy := by
  refine ⟨[1, 2], [[0], [1]], by decide, by decide, _,
    reaches_advance _ [0, 0, 0, 0, 1, 1, 1, 1], racy_of 0 1 (RegCell.ptr 0) (by decide) ?_ ?_⟩ <;> decide +kernel

end Verif.Threads

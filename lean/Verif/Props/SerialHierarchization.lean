import Verif.Lemmas.SerialHierarchization
import Verif.Props.GridTransform

/-!
# C70: hierarchization of full grids that are not distributed
-/

namespace Verif.Serial

variable {K : Type} [Field K]

/-- A dimension without boundary points or with both boundary points, of a level the kernels and the
table of powers of two are defined for. -/
def Good (s : ℕ × ℕ) : Prop := (s.2 = 0 ∨ s.2 = 2) ∧ 0 < s.1 ∧ s.1 ≤ 28

instance (s : ℕ × ℕ) : Decidable (Good s) := by unfold Good; infer_instance

/-- The same grid as described to the hierarchization of distributed grids: hat functions, minimum
level 0. -/
def asDistributed (g : List (ℕ × ℕ)) : List GridDim := g.map fun s => ⟨.hat, s.2, s.1, 0⟩

theorem points_eq {s : ℕ × ℕ} (h : Good s) : points s = poleLength s.1 s.2 := by
  obtain ⟨h1, -, -⟩ := h
  unfold points poleLength
  rcases h1 with h1 | h1 <;> simp [h1]

theorem points_pos {s : ℕ × ℕ} (h : Good s) : 0 < points s := by
  obtain ⟨-, h2, -⟩ := h
  unfold points
  split_ifs
  · have := Nat.one_lt_two_pow h2.ne'
    omega
  · exact Nat.succ_pos _

theorem map_points {g : List (ℕ × ℕ)} (hg : ∀ s ∈ g, Good s) :
    g.map points = (asDistributed g).map fun s => poleLength s.lmax s.b := by
  unfold asDistributed
  rw [List.map_map]
  exact List.map_congr_left fun s hs => points_eq (hg s hs)

theorem serial_eq_aux (g : List (ℕ × ℕ)) (hg : ∀ s ∈ g, Good s) (d : Buf K)
    (hlen : d.len = (g.map fun s => 2 ^ s.1 + s.2 - 1).prod) (junk : ℕ → ℕ → ℕ → K)
    (order : List ℕ) (ho : order.Perm (List.range g.length)) :
    (∃ m m', dimLoop hierKernel g 1 d = some m ∧
      hierarchizeGrid (asDistributed g) junk order d = some m' ∧
      m.len = d.len ∧ m'.len = d.len ∧ ∀ i < d.len, m.val i = m'.val i) ∧
    (∃ m m', dimLoop dehierKernel g 1 d = some m ∧
      dehierarchizeGrid (asDistributed g) junk order d = some m' ∧
      m.len = d.len ∧ m'.len = d.len ∧ ∀ i < d.len, m.val i = m'.val i) := by
  have hlen' : d.len = (g.map points).prod := by
    rw [hlen]
    congr 1
    exact List.map_congr_left fun s hs => (points_eq (hg s hs)).symm
  have hpos : ∀ n ∈ g.map points, 0 < n := by
    intro n hn
    obtain ⟨s, hs, rfl⟩ := List.mem_map.1 hn
    exact points_pos (hg s hs)
  have hex : ∀ k, ∃ A B : ℕ → ℕ → K, ∀ hk : k < g.length,
      LinPole (points g[k]) (fun _ => hierKernel g[k] 0 1) A ∧
      LinPole (points g[k]) (fun _ => dehierKernel g[k] 0 1) B ∧
      ∀ junk : ℕ → ℕ → K,
      LinPole (points g[k]) (fun p loc => hierPole .hat g[k].2 g[k].1 0 0 [] (junk p) loc) A ∧
      LinPole (points g[k]) (fun p loc => dehierPole .hat g[k].2 g[k].1 0 0 [] (junk p) loc) B := by
    intro k
    by_cases hk : k < g.length
    · have hgk := hg _ (List.getElem_mem hk)
      obtain ⟨A, B, h⟩ := serial_linPole (K := K) hgk.1 hgk.2.1 (by have := hgk.2.2; omega)
      refine ⟨A, B, fun _ => ?_⟩
      rw [points_eq hgk]
      exact h
    · exact ⟨fun _ _ => 0, fun _ _ => 0, fun h => absurd h hk⟩
  choose A B hAB using hex
  have hsz : ∀ k (hk : k < g.length), (g.map points).getD k 0 = points g[k] := by
    intro k hk
    rw [List.getD_eq_getElem _ _ (by simpa using hk)]
    simp
  have hlt : ∀ k ∈ List.range g.length, k < (g.map points).length := by simp
  have hdist : ∀ k (hk : k < g.length), (asDistributed g)[k]? = some ⟨.hat, g[k].2, g[k].1, 0⟩ := by
    intro k hk
    simp [asDistributed, hk]
  constructor
  · rw [dimLoop_eq hierKernel g (fun s _ => hierKernel_strided s) (fun s hs => points_pos (hg s hs))
      (fun s hs => by
        obtain ⟨A, B, h⟩ := serial_linPole (K := K) (hg s hs).1 (hg s hs).2.1
          (by have := (hg s hs).2.2; omega)
        exact ⟨A, by rw [points_eq (hg s hs)]; exact h.1⟩) d hlen']
    unfold hierarchizeGrid
    rw [← map_points hg]
    refine C30_order_independent (g.map points) hpos _ _ A _ _ ho.symm hlt ?_ ?_ d hlen'
    · intro k hk
      have hk' : k < g.length := by simpa using hk
      rw [hsz k hk']
      simpa [hk'] using (hAB k hk').1
    · intro k hk
      have hk' : k < g.length := by simpa using hk
      rw [hsz k hk']
      simp only [hdist k hk', Option.bind_some]
      exact ((hAB k hk').2.2 (junk k)).1
  · rw [dimLoop_eq dehierKernel g (fun s _ => dehierKernel_strided s)
      (fun s hs => points_pos (hg s hs))
      (fun s hs => by
        obtain ⟨A, B, h⟩ := serial_linPole (K := K) (hg s hs).1 (hg s hs).2.1
          (by have := (hg s hs).2.2; omega)
        exact ⟨B, by rw [points_eq (hg s hs)]; exact h.2.1⟩) d hlen']
    unfold dehierarchizeGrid
    rw [← map_points hg]
    refine C30_order_independent (g.map points) hpos _ _ B _ _ ho.symm hlt ?_ ?_ d hlen'
    · intro k hk
      have hk' : k < g.length := by simpa using hk
      rw [hsz k hk']
      simpa [hk'] using (hAB k hk').2.1
    · intro k hk
      have hk' : k < g.length := by simpa using hk
      rw [hsz k hk']
      simp only [hdist k hk', Option.bind_some]
      exact ((hAB k hk').2.2 (junk k)).2

/-- C70: on a grid all of whose dimensions have no boundary points or both, the two transforms of
`Hierarchization.hpp` succeed, set the flag of the grid, and give the same values as those of
`DistributedHierarchization.hpp` with hat functions in all dimensions, in whatever order of dimensions
and with whatever in the scratch buffers. Missing for the full claim: dimensions with one boundary
point, for which it is false (`C70_onesided_violated`), and dimensions of level 0, where the code
shifts by a negative number. -/
theorem C70_same_as_distributed_partial (g : List (ℕ × ℕ)) (hg : ∀ s ∈ g, Good s) (hne : g ≠ [])
    (d : Buf K) (hlen : d.len = (g.map fun s => 2 ^ s.1 + s.2 - 1).prod) (junk : ℕ → ℕ → ℕ → K)
    (order : List ℕ) (ho : order.Perm (List.range g.length)) :
    (∃ m m', hierarchize ⟨g, false, d⟩ = some ⟨g, true, m⟩ ∧
      hierarchizeGrid (asDistributed g) junk order d = some m' ∧
      m.len = d.len ∧ m'.len = d.len ∧ ∀ i < d.len, m.val i = m'.val i) ∧
    (∃ m m', dehierarchize ⟨g, true, d⟩ = some ⟨g, false, m⟩ ∧
      dehierarchizeGrid (asDistributed g) junk order d = some m' ∧
      m.len = d.len ∧ m'.len = d.len ∧ ∀ i < d.len, m.val i = m'.val i) := by
  obtain ⟨⟨m, m', h1, h2⟩, ⟨r, r', h3, h4⟩⟩ := serial_eq_aux g hg d hlen junk order ho
  refine ⟨⟨m, m', ?_, h2⟩, ⟨r, r', ?_, h4⟩⟩
  · unfold hierarchize
    have h5 : dimLoop (fun s start stride => if s.2 = 0 then hierNB s.1 start stride
        else hierB s.1 start stride) g 1 d = some m := by
      rw [← h1]
      congr 1
      funext s start stride d
      unfold hierKernel
      split_ifs <;> rfl
    simp [hne, h5]
  · unfold dehierarchize
    have h5 : dimLoop (fun s start stride => if s.2 = 0 then dehierNB s.1 start stride
        else dehierB s.1 start stride) g 1 d = some r := by
      rw [← h3]
      congr 1
      funext s start stride d
      unfold dehierKernel
      split_ifs <;> rfl
    simp [hne, h5]

/-- C70: on such grids, dehierarchizing after hierarchizing restores the values and the flag. -/
theorem C70_roundtrip_partial [CharZero K] (g : List (ℕ × ℕ)) (hg : ∀ s ∈ g, Good s) (hne : g ≠ [])
    (d : Buf K) (hlen : d.len = (g.map fun s => 2 ^ s.1 + s.2 - 1).prod) :
    ∃ m r, hierarchize ⟨g, false, d⟩ = some m ∧ dehierarchize m = some ⟨g, false, r⟩ ∧
      r.len = d.len ∧ ∀ i < d.len, r.val i = d.val i := by
  obtain ⟨⟨m, m', h1, h2, h3, h4, h5⟩, -⟩ := C70_same_as_distributed_partial g hg hne d hlen
    (fun _ _ _ => 0) _ (List.Perm.refl _)
  obtain ⟨-, ⟨r, r', g1, g2, g3, g4, g5⟩⟩ := C70_same_as_distributed_partial g hg hne m
    (by rw [h3, hlen]) (fun _ _ _ => 0) _ (List.Perm.refl _)
  have hInv : ∀ s ∈ asDistributed g, s.Invertible := by
    intro s hs
    obtain ⟨t, ht, rfl⟩ := List.mem_map.1 hs
    have := hg t ht
    unfold Good at this
    exact ⟨Or.inl ⟨rfl, by simp only; omega, by simp only; omega⟩, Or.inl rfl⟩
  have hl : ∀ s ∈ asDistributed g, s.b = 0 → 0 < s.lmax := by
    intro s hs _
    obtain ⟨t, ht, rfl⟩ := List.mem_map.1 hs
    exact (hg t ht).2.1
  have hlen2 : d.len = ((asDistributed g).map fun s => nodal s.lmax s.b).prod := by
    rw [hlen]
    unfold asDistributed
    rw [List.map_map]
    rfl
  obtain ⟨a, b, f1, f2, f3, f4⟩ := C30_roundtrip (asDistributed g) hInv hl (List.range g.length)
    (by simp [asDistributed]) (fun _ _ _ => 0) (fun _ _ _ => 0) d hlen2
  rw [h2] at f1
  cases f1
  -- the dehierarchization of arrays that agree up to their length
  obtain ⟨A, B, hAB⟩ := grid_linPoles (K := K) (asDistributed g) fun s hs => (hInv s hs).1
  have hT : ∀ k ∈ List.range g.length, LinPole
      (((asDistributed g).map fun s => poleLength s.lmax s.b).getD k 0)
      (fun p loc => ((asDistributed g)[k]?).bind fun s =>
        dehierPole s.basis s.b s.lmax s.lmin 0 [] ((fun _ _ _ => 0 : ℕ → ℕ → ℕ → K) k p) loc) (B k) :=
    fun k hk => (hAB k (by simpa [asDistributed] using hk) fun _ _ _ => 0).2
  have hlt : ∀ k ∈ List.range g.length,
      k < ((asDistributed g).map fun s => poleLength s.lmax s.b).length := by simp [asDistributed]
  obtain ⟨u, p1, p2, p3⟩ := transformGrid_eq (grid_pos _ hl) hlt hT m (by rw [h3, hlen2]; rfl)
  obtain ⟨v, q1, q2, q3⟩ := transformGrid_eq (grid_pos _ hl) hlt hT m' (by rw [h4, hlen2]; rfl)
  have e1 : u = r' := by
    have := p1.symm.trans g2
    exact Option.some.inj this
  have e2 : v = b := by
    have := q1.symm.trans f2
    exact Option.some.inj this
  subst e1 e2
  refine ⟨⟨g, true, m⟩, r, h1, g1, by omega, fun i hi => ?_⟩
  rw [g5 i (by omega), ← f4 i hi]
  have hprod : i < ((asDistributed g).map fun s => poleLength s.lmax s.b).prod := by
    have : d.len = ((asDistributed g).map fun s => poleLength s.lmax s.b).prod := hlen2
    omega
  obtain ⟨x1, x2⟩ := getVectorIndex_spec _ i hprod
  have y1 := p3 _ x1
  have y2 := q3 _ x1
  simp only [x2] at y1 y2
  rw [y1, y2]
  refine actAll_congr hlt B ?_ _ x1
  intro x hx
  refine h5 _ ?_
  have : sequentialIndex ((asDistributed g).map fun s => poleLength s.lmax s.b) x <
      ((asDistributed g).map fun s => poleLength s.lmax s.b).prod := sequentialIndex_lt _ _ hx
  rw [hlen2]
  exact this

/-- C70: a grid is not hierarchized twice, and a grid that is not hierarchized is not dehierarchized: this is
an error. -/
theorem C70_twice (g : Grid K) :
    (g.hierarchized = true → hierarchize g = none) ∧ (g.hierarchized = false → dehierarchize g = none) := by
  constructor <;> intro h <;> simp [hierarchize, dehierarchize, h]

example : (⟨[(2, 2)], true, ⟨5, fun _ => 0⟩⟩ : Grid ℚ).hierarchized = true := rfl

/-- C70: what hierarchization does in one dimension with both boundary points: the end points keep
their values, and at every odd multiple of `2 ^ e` the mean of the values at distance `2 ^ e` is
subtracted. -/
theorem C70_surplus_boundary (level : ℕ) (hl : 0 < level) (d : Buf K)
    (hlen : d.len = 2 ^ level + 1) :
    ∃ m, hierarchize ⟨[(level, 2)], false, d⟩ = some ⟨[(level, 2)], true, m⟩ ∧
      m.val 0 = d.val 0 ∧ m.val (2 ^ level) = d.val (2 ^ level) ∧
      ∀ e j, (2 * j + 1) * 2 ^ e < 2 ^ level → m.val ((2 * j + 1) * 2 ^ e) =
        d.val ((2 * j + 1) * 2 ^ e) -
          2⁻¹ * d.val (2 * j * 2 ^ e) - 2⁻¹ * d.val ((2 * j + 2) * 2 ^ e) := by
  have h1 : hierB level 0 1 d = some ⟨d.len, (List.range level).foldl (hatStep (2 ^ level)) d.val⟩ := by
    rw [hierB_one, hierHat_eq level 0 hl d hlen, Nat.sub_zero]
  have hp : points (level, 2) = 2 ^ level + 1 := by simp [points]
  refine ⟨⟨d.len, (List.range level).foldl (hatStep (2 ^ level)) d.val⟩, ?_, ?_, ?_, ?_⟩
  · have h2 : d.len / (2 ^ level + 1) = 1 := by rw [hlen]; exact Nat.div_self (by positivity)
    have h3 : poleLoop (hierB level) 1 (points (level, 2)) d =
        some ⟨d.len, (List.range level).foldl (hatStep (2 ^ level)) d.val⟩ := by
      unfold poleLoop
      rw [hp, if_neg (Nat.succ_ne_zero _)]
      simp [h2, h1]
    simp [hierarchize, dimLoop, h3]
  · exact (hat_foldl_closed level level (le_refl _) d.val).1 _ (Or.inl (by simp))
  · exact (hat_foldl_closed level level (le_refl _) d.val).1 _ (Or.inl (by simp))
  · intro e j hlt
    have he : e < level := by
      by_contra hc
      have h1 : 2 ^ level ≤ 2 ^ e := Nat.pow_le_pow_right (by norm_num) (by omega)
      have h2 : 1 * 2 ^ e ≤ (2 * j + 1) * 2 ^ e := Nat.mul_le_mul_right _ (by omega)
      omega
    have := (hat_foldl_closed level level (le_refl _) d.val).2 e he _ hlt (by
      rw [show (2 * j + 1) * 2 ^ e = 2 ^ e + 2 * 2 ^ e * j by ring, Nat.add_mul_mod_self_left,
        Nat.mod_eq_of_lt (by have : 0 < 2 ^ e := by positivity
                             omega)])
    simp only
    rw [this]
    have a1 : (2 * j + 1) * 2 ^ e - 2 ^ e = 2 * j * 2 ^ e := by
      rw [add_mul, one_mul, Nat.add_sub_cancel]
    have a2 : (2 * j + 1) * 2 ^ e + 2 ^ e = (2 * j + 2) * 2 ^ e := by ring
    rw [a1, a2]

/-- C70: what hierarchization does in one dimension without boundary points, where the point with
index `i` is at position `i + 1`: at every odd multiple of `2 ^ e` the mean of the values at distance
`2 ^ e` is subtracted; the values at the ends are zero. -/
theorem C70_surplus_no_boundary (level : ℕ) (hl : 0 < level) (d : Buf K)
    (hlen : d.len = 2 ^ level - 1) :
    ∃ m, hierarchize ⟨[(level, 0)], false, d⟩ = some ⟨[(level, 0)], true, m⟩ ∧
      ∀ e j, (2 * j + 1) * 2 ^ e < 2 ^ level → m.val ((2 * j + 1) * 2 ^ e - 1) =
        d.val ((2 * j + 1) * 2 ^ e - 1) -
          2⁻¹ * (if j = 0 then 0 else d.val (2 * j * 2 ^ e - 1)) -
          2⁻¹ * (if (2 * j + 2) * 2 ^ e = 2 ^ level then 0 else d.val ((2 * j + 2) * 2 ^ e - 1)) := by
  obtain ⟨m, h1, h2, h3⟩ := hierNB_one level hl d hlen
  have hp : points (level, 0) = 2 ^ level - 1 := by simp [points]
  have hone := Nat.one_lt_two_pow hl.ne'
  refine ⟨m, ?_, ?_⟩
  · have h2 : d.len / (2 ^ level - 1) = 1 := by rw [hlen]; exact Nat.div_self (by omega)
    have h3 : poleLoop (hierNB level) 1 (points (level, 0)) d = some m := by
      unfold poleLoop
      rw [hp, if_neg (by omega)]
      simp [h2, h1]
    simp [hierarchize, dimLoop, h3]
  · intro e j hlt
    have hw : 0 < 2 ^ e := by positivity
    have he : e < level := by
      by_contra hc
      have h1 : 2 ^ level ≤ 2 ^ e := Nat.pow_le_pow_right (by norm_num) (by omega)
      have h2 : 1 * 2 ^ e ≤ (2 * j + 1) * 2 ^ e := Nat.mul_le_mul_right _ (by omega)
      omega
    have hmod : ((2 * j + 1) * 2 ^ e) % (2 * 2 ^ e) = 2 ^ e := by
      rw [show (2 * j + 1) * 2 ^ e = 2 ^ e + 2 * 2 ^ e * j by ring, Nat.add_mul_mod_self_left,
        Nat.mod_eq_of_lt (by omega)]
    have := (hat_foldl_closed level level (le_refl _) (pad (2 ^ level - 1) d.val)).2 e he _ hlt hmod
    rw [← h3] at this
    have hpos : 0 < (2 * j + 1) * 2 ^ e := by positivity
    have a1 : (2 * j + 1) * 2 ^ e - 2 ^ e = 2 * j * 2 ^ e := by
      rw [add_mul, one_mul, Nat.add_sub_cancel]
    have a2 : (2 * j + 1) * 2 ^ e + 2 ^ e = (2 * j + 2) * 2 ^ e := by ring
    have hle : (2 * j + 2) * 2 ^ e ≤ 2 ^ level := by
      have hsp := two_pow_split he
      have q1 : 2 ^ e * (2 * j + 1) < 2 ^ e * (2 * 2 ^ (level - e - 1)) := by
        calc _ = (2 * j + 1) * 2 ^ e := by ring
          _ < 2 ^ level := hlt
          _ = _ := by rw [hsp]; ring
      have q2 := Nat.lt_of_mul_lt_mul_left q1
      calc (2 * j + 2) * 2 ^ e = 2 ^ e * (2 * j + 2) := by ring
        _ ≤ 2 ^ e * (2 * 2 ^ (level - e - 1)) := Nat.mul_le_mul_left _ (by omega)
        _ = 2 ^ level := by rw [hsp]; ring
    rw [a1, a2] at this
    unfold pad at this
    rw [if_neg (by omega), if_neg (by omega)] at this
    rw [this]
    congr 2
    · congr 1
      by_cases hj : j = 0
      · rw [if_pos hj, if_pos (Or.inl (by simp [hj]))]
      · have : 0 < 2 * j * 2 ^ e := by positivity
        rw [if_neg hj, if_neg (by omega)]
    · by_cases hj : (2 * j + 2) * 2 ^ e = 2 ^ level
      · rw [if_pos hj, if_pos (Or.inr (by omega))]
      · have : 0 < (2 * j + 2) * 2 ^ e := by positivity
        rw [if_neg hj, if_neg (by omega)]

/-- C70 is violated for dimensions with one boundary point: in one dimension the grid has `2 ^ level`
points, the code counts no complete pole, and the grid is marked as hierarchized with its nodal
values. -/
theorem C70_onesided_violated (level : ℕ) (d : Buf K) (hlen : d.len = 2 ^ level + 1 - 1) :
    hierarchize ⟨[(level, 1)], false, d⟩ = some ⟨[(level, 1)], true, d⟩ := by
  have hp : points (level, 1) = 2 ^ level + 1 := by simp [points]
  have h3 : poleLoop (hierB level) 1 (points (level, 1)) d = some d := by
    unfold poleLoop
    rw [hp, if_neg (Nat.succ_ne_zero _), Nat.div_eq_of_lt (by rw [hlen]; exact Nat.lt_succ_self _)]
    rfl
  simp [hierarchize, dimLoop, h3]

/-- C70 is violated for dimensions with one boundary point: on the grid with two times two points the
code reads beyond the end of the array. -/
theorem C70_onesided_2d_violated (d : Buf K) (hlen : d.len = 4) :
    hierarchize ⟨[(1, 1), (1, 1)], false, d⟩ = none := by
  obtain ⟨len, val⟩ := d
  simp only at hlen
  subst hlen
  simp [hierarchize, dimLoop, poleLoop, points, hierB, hierBLevels, inner, Buf.get?, Buf.getInt?,
    Buf.set?, List.range_succ]

/-- The hypotheses hold for a grid with three dimensions, and the transform changes its data. -/
example :
    let g : List (ℕ × ℕ) := [(2, 0), (1, 2), (3, 2)]
    (∀ s ∈ g, Good s) ∧ g ≠ [] ∧ 81 = (g.map fun s => 2 ^ s.1 + s.2 - 1).prod ∧
    [2, 0, 1].Perm (List.range g.length) ∧
    (hierarchize ⟨g, false, (⟨81, fun i => (i ^ 2 : ℚ)⟩ : Buf ℚ)⟩).map
      (fun m => (List.range 81).map m.data.val) ≠ some ((List.range 81).map fun i => (i ^ 2 : ℚ)) := by
  refine ⟨by decide, by decide, by decide, by decide, by decide +kernel⟩

/-- On the grid with one boundary point, the hierarchization of distributed grids changes the data
that the serial one leaves. -/
example : (hierarchizeGrid [⟨.hat, 1, 1, 0⟩] (fun _ _ _ => 0) [0] (⟨2, fun i => (i + 1 : ℚ)⟩ : Buf ℚ)).map
      (fun m => (List.range 2).map m.val) = some [1, 1] := by
  decide +kernel

end Verif.Serial

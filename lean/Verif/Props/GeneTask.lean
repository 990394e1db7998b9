import Verif.Lemmas.GeneDecomposition

/-!
# C119: the grids hold what GENE computed, on any process grid, and GENE gets back what the grids hold

`C119_import` and `C119_import_global` describe all values of the grids after `setDFG` for flux-tube ("local") and
radially global runs of GENE: the points of GENE are copied, and the upper boundary in z is made from the lower one by the boundary
condition. `C119_roundtrip` states that `getDFG` gives back what `setDFG` took. The other theorems state where the
code does less than one would expect.
-/

namespace Verif.GeneTask

variable {K : Type}

/-- A flux-tube run: after `setDFG` the process with coordinates `k` has the values of GENE at the points of GENE.
At the upper boundary in z it has minus the values of the next mode at the lower boundary in z, except at the mode
`n.x / 2` and at the upper boundary in x. Everything else is as it was before. This does not depend on how w, v
and z are divided among processes. The values at the lower and at the upper boundary in x have to be zero. -/
theorem C119_import [CommRing K] [DecidableEq K] (c : Config K) (hg : c.isGlobal = false) (hlin : c.isLinear = true)
    (hb : c.xBoundaries = false) (hm : c.modes = 1) (hly : c.levelY = 1) (hby : c.boundaryY = false)
    (P : Parts) (n : Vec) (hP : P.Of n) (hpx : P.x.parts = 1) (hny : n.y = 1) (heven : n.x % 2 = 0) (ns : ℕ)
    (C O : ℕ → Arr K)
    (hzero : ∀ s < ns, ∀ t : Vec, t.w ≤ n.w → t.v ≤ n.v → t.z ≤ n.z → t.y = 0 → (t.x = 0 ∨ t.x = n.x) →
      (if Inside n t then C s t else O s t) = 0)
    (k : Vec) (hk : P.Has k) :
    ∃ r : ℕ → Arr K,
      setDFGs c (procOf true P n ns)
        (fun j => (List.range ns).map fun s => piece (procOf true P n ns j).lower (C s))
        (fun j => (List.range ns).map fun s => piece (procOf true P n ns j).lower (O s)) k =
          .ok ((List.range ns).map r) ∧
      ∀ s < ns, ∀ q t, Inside (procOf true P n ns k).dfg q → t = shift (procOf true P n ns k).lower q →
        (Inside n t → r s q = C s t) ∧
        (t.z = n.z → t.x < n.x → t.x ≠ n.x / 2 →
          r s q = -(if t.w < n.w ∧ t.v < n.v then C s ⟨t.w, t.v, 0, 0, (t.x + 1) % n.x⟩
            else O s ⟨t.w, t.v, 0, 0, (t.x + 1) % n.x⟩)) ∧
        (¬Inside n t → ¬(t.z = n.z ∧ t.x < n.x ∧ t.x ≠ n.x / 2) → r s q = O s t) := by
  have hP' := hP
  have hk' := hk
  obtain ⟨hw, hv, hz, hy, hx⟩ := hP'
  obtain ⟨kw, kv, kz, ky, kx⟩ := hk'
  have hkx : k.x = 0 := by omega
  have hxs := hx.one hpx
  have hpy : P.y.parts = 1 := by have := hy.parts_le; have := hy.1; omega
  have hky : k.y = 0 := by omega
  have hys := hy.one hpy
  have hdx : (procOf c.isLinear P n ns k).dfg.x = n.x + 1 := by
    show P.x.gridSize true k.x = _
    unfold Part.gridSize
    rw [hkx, hxs.2, if_pos ⟨by omega, rfl⟩]
  have hdy : (procOf c.isLinear P n ns k).dfg.y = 1 := by
    show P.y.gridSize (!c.isLinear) k.y = _
    unfold Part.gridSize
    rw [hky, hys.2, hlin, if_neg (by simp), hny]
  have hnkx : nkxOf (procOf c.isLinear P n ns k) = n.x := by
    unfold nkxOf
    rw [hdx, if_pos (by show k.x + 1 = P.x.parts; omega)]
    rfl
  have hnkg : nkxGlobalOf c (procOf c.isLinear P n ns k) = n.x := by
    unfold nkxGlobalOf
    rw [hb]
    rfl
  have hnky : nkyOf c (procOf c.isLinear P n ns k) = 1 := by
    unfold nkyOf
    rw [hdy, if_neg (by simp [hlin])]
  have hoff : ∀ l x, getOffsetAndFactor c l x = .ok (l, (-1) ^ l) := by
    intro l x
    unfold getOffsetAndFactor
    rw [if_pos hg, if_pos hm, if_pos ⟨hly, hby⟩, hm]
    simp
  obtain ⟨r, hr1, hr2⟩ := setDFGs_piece c hP ns hk C O
    (by
      intro s hs t h1 h2 h3 h4 h5
      rw [if_pos hlin] at h4
      exact hzero s hs t h1 h2 h3 (by omega) h5)
    (by rintro - ⟨-, h | h⟩ <;> omega) (fun y _ => y + 1) (fun y _ => (-1) ^ (y + 1)) _ (hoff 1 0)
    (by rw [hnkx, hnkg]) (by rw [hnkx, heven])
    (by
      intro y hy1 x hx1 _
      refine ⟨hoff _ _, ?_⟩
      rw [hnkx] at hx1 ⊢
      rw [hnkg]
      exact Nat.mod_lt _ (by omega))
  rw [hlin] at hr1 hr2 hdy hdx
  refine ⟨r, hr1, ?_⟩
  intro s hs q t hq ht
  have hrq := hr2 s hs q hq
  rw [← hlin, hnkx, hnkg, hnky, hlin, ← ht] at hrq
  have hq0 : q.y = 0 := by have := hq.2.2.2.1; omega
  have htx : t.x = q.x := by rw [ht]; show P.x.start k.x + q.x = q.x; rw [hkx, hxs.1]; omega
  have hty : t.y = 0 := by rw [ht]; show P.y.start k.y + q.y = 0; rw [hky, hys.1]; omega
  refine ⟨fun hin => ?_, fun h1 h2 h3 => ?_, fun h1 h2 => ?_⟩
  · rw [hrq, if_neg (by rintro ⟨h, -⟩; have := hin.2.2.1; omega)]
    unfold copied
    rw [if_pos hin]
  · rw [hrq, if_pos ⟨h1, by omega, by omega, by rintro ⟨-, h⟩; omega⟩]
    unfold copied
    rw [hkx, hxs.1, hq0]
    simp only [Nat.zero_add, pow_one, mul_neg, mul_one, ← htx, hty]
    congr 1
    have hz1 : 0 < n.z := by have := hz.parts_le; have := hz.1; omega
    by_cases hwv : t.w < n.w ∧ t.v < n.v
    · rw [if_pos hwv, if_pos ⟨hwv.1, hwv.2, hz1, by show 0 < n.y; omega, Nat.mod_lt _ (by omega)⟩]
    · rw [if_neg hwv, if_neg fun h => hwv ⟨h.1, h.2.1⟩]
  · rw [hrq, if_neg]
    · unfold copied
      rw [if_neg h1]
    · rintro ⟨g1, -, g2, g3⟩
      exact h2 ⟨g1, by omega, fun h => g3 ⟨hg, by omega⟩⟩

/-- A radially global run: as `C119_import`, but the boundary condition in z multiplies the values by the factor
of the safety factor profile at the same point in x, and x can be divided too (only if every process has an even
number of points of GENE, and not in linear runs with several processes in z). The runs can be linear or not. -/
theorem C119_import_global [CommRing K] [DecidableEq K] (c : Config K) (hg : c.isGlobal = true)
    (P : Parts) (n : Vec) (hP : P.Of n) (hpy : P.y.parts = 1) (hlin : c.isLinear = true → 1 < P.z.parts → P.x.parts = 1 ∧ n.y = 1)
    (heven : ∀ i < P.x.parts, P.x.size i % 2 = 0) (f : ℕ → ℕ → K)
    (hf : ∀ y < n.y, ∀ x < n.x, c.phase (y + 1) x = some (f y x)) (ns : ℕ) (C O : ℕ → Arr K)
    (hzero : ∀ s < ns, ∀ t : Vec, t.w ≤ n.w → t.v ≤ n.v → t.z ≤ n.z →
      t.y < (if c.isLinear then n.y else n.y + 1) → (t.x = 0 ∨ t.x = n.x) →
      (if Inside n t then C s t else O s t) = 0)
    (k : Vec) (hk : P.Has k) :
    ∃ r : ℕ → Arr K,
      setDFGs c (procOf c.isLinear P n ns)
        (fun j => (List.range ns).map fun s => piece (procOf c.isLinear P n ns j).lower (C s))
        (fun j => (List.range ns).map fun s => piece (procOf c.isLinear P n ns j).lower (O s)) k =
          .ok ((List.range ns).map r) ∧
      ∀ s < ns, ∀ q t, Inside (procOf c.isLinear P n ns k).dfg q → t = shift (procOf c.isLinear P n ns k).lower q →
        (Inside n t → r s q = C s t) ∧
        (t.z = n.z → t.y < n.y → t.x < n.x →
          r s q = (if t.w < n.w ∧ t.v < n.v then C s { t with z := 0 } else O s { t with z := 0 }) * f t.y t.x) ∧
        (¬Inside n t → ¬(t.z = n.z ∧ t.y < n.y ∧ t.x < n.x) → r s q = O s t) := by
  have hP' := hP
  have hk' := hk
  obtain ⟨hw, hv, hz, hy, hx⟩ := hP'
  obtain ⟨kw, kv, kz, ky, kx⟩ := hk'
  have hx0 : 0 < n.x := by have := hx.parts_le; have := hx.1; omega
  have hnkx : nkxOf (procOf c.isLinear P n ns k) = P.x.size k.x := by
    unfold nkxOf
    show (if k.x + 1 = P.x.parts then P.x.gridSize true k.x - 1 else P.x.gridSize true k.x) = _
    unfold Part.gridSize
    by_cases h : k.x + 1 = P.x.parts
    · rw [if_pos h, if_pos ⟨h, rfl⟩]; omega
    · rw [if_neg h, if_neg fun hh => h hh.1]; omega
  have hnky : nkyOf c (procOf c.isLinear P n ns k) = P.y.size k.y := by
    unfold nkyOf
    show (if k.y + 1 = P.y.parts ∧ c.isLinear = false then P.y.gridSize (!c.isLinear) k.y - 1
      else P.y.gridSize (!c.isLinear) k.y) = _
    unfold Part.gridSize
    by_cases h : k.y + 1 = P.y.parts ∧ c.isLinear = false
    · rw [if_pos h, if_pos ⟨h.1, by simp [h.2]⟩]; omega
    · rw [if_neg h, if_neg fun hh => h ⟨hh.1, by simpa using hh.2⟩]; omega
  have hnkg : n.x ≤ nkxGlobalOf c (procOf c.isLinear P n ns k) := by
    unfold nkxGlobalOf
    show n.x ≤ if c.xBoundaries = true then n.x + 1 else n.x + 1 - 1
    split <;> omega
  have hoff : ∀ y < n.y, ∀ x < n.x, getOffsetAndFactor c (y + 1) x = .ok (0, f y x) := by
    intro y h1 x h2
    unfold getOffsetAndFactor
    rw [if_neg (by simp [hg]), hf y h1 x h2]
  have hxe := hx.end_le kx
  have hky : k.y = 0 := by omega
  have hys := hy.one hpy
  have hy0 : 0 < n.y := by have := hy.parts_le; omega
  obtain ⟨r, hr1, hr2⟩ := setDFGs_piece c hP ns hk C O hzero
    (by rintro h1 ⟨h2, h | h⟩ <;> [exact h (hlin h2 h1).1; exact h (hlin h2 h1).2])
    (fun _ _ => 0) (fun y x => f y (P.x.start k.x + x)) _ (hoff 0 hy0 0 hx0)
    (by rw [hnkx]; omega) (by rw [hnkx]; exact heven _ kx)
    (by
      intro y hy1 x hx1 _
      rw [hnkx] at hx1 ⊢
      rw [hnky, hky, hys.2] at hy1
      refine ⟨?_, ?_⟩
      · rw [if_pos hg]
        exact hoff y hy1 (P.x.start k.x + x) (by omega)
      · rw [Nat.add_zero, Nat.mod_eq_of_lt (by omega)]
        exact hx1)
  refine ⟨r, hr1, ?_⟩
  intro s hs q t hq ht
  have hrq := hr2 s hs q hq
  rw [hnkx, hnky, ← ht] at hrq
  have htx : t.x = P.x.start k.x + q.x := by rw [ht]; rfl
  have hty : t.y = q.y := by rw [ht]; show P.y.start k.y + q.y = q.y; rw [hky, hys.1]; omega
  have hxin : q.x < P.x.size k.x ↔ t.x < n.x := by rw [htx]; exact hx.inside kx true hq.2.2.2.2
  rw [hky, hys.2] at hrq
  refine ⟨fun hin => ?_, fun h1 h2 h3 => ?_, fun h1 h2 => ?_⟩
  · rw [hrq, if_neg (by rintro ⟨h, -⟩; have := hin.2.2.1; omega)]
    unfold copied
    rw [if_pos hin]
  · rw [hrq, if_pos ⟨h1, by omega, hxin.2 h3, by simp [hg]⟩, Nat.add_zero, Nat.mod_eq_of_lt (by omega), ← htx,
      ← hty]
    congr 1
    unfold copied
    have hz1 : 0 < n.z := by have := hz.parts_le; have := hz.1; omega
    by_cases hwv : t.w < n.w ∧ t.v < n.v
    · rw [if_pos hwv, if_pos ⟨hwv.1, hwv.2, hz1, h2, h3⟩]
    · rw [if_neg hwv, if_neg fun h => hwv ⟨h.1, h.2.1⟩]
  · rw [hrq, if_neg]
    · unfold copied
      rw [if_neg h1]
    · rintro ⟨g1, g2, g3, -⟩
      exact h2 ⟨g1, by omega, hxin.1 g3⟩

/-- `getDFG` gives back what `setDFG` took: whatever the process, its arrays and the mode of the run, if `setDFG`
ends well then the checkpoint that `getDFG` writes has the values that `setDFG` read. -/
theorem C119_roundtrip [CommRing K] [DecidableEq K] (c : Config K) (pr : Proc) (hz : pr.coords.z < pr.p.z) (ns : ℕ)
    (received lcps dfgs as old : List (Arr K)) (hl : lcps.length = ns) (hd : dfgs.length = ns)
    (ho : old.length = ns) (hr : 1 < pr.p.z → pr.coords.z + 1 = pr.p.z → received.length = ns)
    (h : setDFG c pr received lcps dfgs = .ok as) :
    (getDFG pr as old).length = ns ∧
    ∀ s (hs : s < (getDFG pr as old).length) (h1 : s < lcps.length) (h2 : s < old.length) (q : Vec),
      (Inside pr.lcp q → (getDFG pr as old)[s] q = lcps[s] q) ∧
      (¬Inside pr.lcp q → (getDFG pr as old)[s] q = old[s] q) := by
  obtain ⟨ha, hall⟩ := setDFG_inv c pr received lcps dfgs as ns hl hd hr h
  have hlen : (getDFG pr as old).length = ns := by
    unfold getDFG
    rw [List.length_zipWith, ha, ho, min_self]
  refine ⟨hlen, fun s hs h1 h2 q => ?_⟩
  have h3 : s < as.length := by omega
  have hget : (getDFG pr as old)[s] = copyPoints pr.lcp as[s] old[s] := by
    simp only [getDFG, List.getElem_zipWith]
  rw [hget, copyPoints_apply]
  refine ⟨fun hq => ?_, fun hq => by rw [if_neg hq]⟩
  rw [if_pos hq]
  obtain ⟨a, hi, hk⟩ := hall s h1 (by omega) h3
  obtain ⟨hsh, rfl, -⟩ := importOne_inv c pr _ _ a hi
  have hcp : copyPoints pr.lcp lcps[s] (dfgs[s]'(by omega)) q = lcps[s] q := by
    rw [copyPoints_apply, if_pos hq]
  rcases hk with ⟨-, -, hk⟩ | ⟨hlast, source, hk⟩
  · rw [hk, hcp]
  · rw [kernel_off c pr source _ _ hk q, hcp]
    have hdz : pr.dfg.z = pr.lcp.z + 1 := by
      have hzl : pr.coords.z + 1 = pr.p.z := by
        by_cases h1 : 1 < pr.p.z
        · exact hlast h1
        · omega
      unfold shapesAgree at hsh
      simp only [Bool.and_eq_true] at hsh
      have := hsh.1.1.2
      rw [if_pos ⟨hzl, trivial⟩] at this
      exact beq_iff_eq.1 this
    have := hq.2.2.1
    omega

/-- What the checks of `setDFG` ask for: if it ends well on a process at the lower boundary in x, the values at
this boundary are zero, those of GENE and those that were in the grid at the upper boundaries of the other
dimensions. The same for the upper boundary in x. -/
theorem C119_zero_required [CommRing K] [DecidableEq K] (c : Config K) (pr : Proc) (ns : ℕ)
    (received lcps dfgs as : List (Arr K)) (hl : lcps.length = ns) (hd : dfgs.length = ns)
    (hr : 1 < pr.p.z → pr.coords.z + 1 = pr.p.z → received.length = ns)
    (h : setDFG c pr received lcps dfgs = .ok as) (s : ℕ) (h1 : s < lcps.length) (h2 : s < dfgs.length)
    (q : Vec) (hq : Inside pr.dfg q)
    (hx : (pr.coords.x = 0 ∧ q.x = 0) ∨ (pr.coords.x + 1 = pr.p.x ∧ q.x + 1 = pr.dfg.x)) :
    (if Inside pr.lcp q then lcps[s] q else dfgs[s] q) = 0 := by
  obtain ⟨ha, hall⟩ := setDFG_inv c pr received lcps dfgs as ns hl hd hr h
  obtain ⟨a, hi, -⟩ := hall s h1 h2 (by omega)
  obtain ⟨-, rfl, hu, hlo⟩ := importOne_inv c pr _ _ a hi
  rw [← copyPoints_apply]
  rcases hx with ⟨hx1, hx2⟩ | ⟨hx1, hx2⟩
  · exact ((zeroAt_iff _ _ _).1 (hlo hx1)).2 q hq.1 hq.2.1 hq.2.2.1 hq.2.2.2.1 hx2
  · exact ((zeroAt_iff _ _ _).1 (hu hx1)).2 q hq.1 hq.2.1 hq.2.2.1 hq.2.2.2.1 (by omega)

/-- The grids of a flux-tube run cannot be filled twice: if the mode 1 of GENE at the lower boundary in z is not
zero, the first `setDFG` puts minus this value at mode 0 of the upper boundary in z, and the next `setDFG` finds
it there and stops, whatever GENE has computed in the meantime. -/
theorem C119_second_violated [CommRing K] [DecidableEq K] (c : Config K) (hg : c.isGlobal = false)
    (hlin : c.isLinear = true) (hb : c.xBoundaries = false) (hm : c.modes = 1) (hly : c.levelY = 1)
    (hby : c.boundaryY = false) (P : Parts) (n : Vec) (hP : P.Of n) (hpx : P.x.parts = 1) (hny : n.y = 1)
    (heven : n.x % 2 = 0) (ns : ℕ) (C O : ℕ → Arr K)
    (hzero : ∀ s < ns, ∀ t : Vec, t.w ≤ n.w → t.v ≤ n.v → t.z ≤ n.z → t.y = 0 → (t.x = 0 ∨ t.x = n.x) →
      (if Inside n t then C s t else O s t) = 0)
    (k : Vec) (hk : P.Has k) (hkz : k.z + 1 = P.z.parts) (s : ℕ) (hs : s < ns) (q : Vec)
    (hq : Inside (procOf true P n ns k).dfg q) (hqz : q.z + 1 = (procOf true P n ns k).dfg.z) (hqx : q.x = 0)
    (hqw : q.w < P.w.size k.w) (hqv : q.v < P.v.size k.v)
    (hC : C s ⟨P.w.start k.w + q.w, P.v.start k.v + q.v, 0, 0, 1⟩ ≠ 0) :
    ∃ as, setDFGs c (procOf true P n ns)
        (fun j => (List.range ns).map fun s => piece (procOf true P n ns j).lower (C s))
        (fun j => (List.range ns).map fun s => piece (procOf true P n ns j).lower (O s)) k = .ok as ∧
      ∀ received lcps : List (Arr K), received.length = ns → lcps.length = ns →
        ∀ bs, setDFG c (procOf true P n ns k) received lcps as ≠ .ok bs := by
  obtain ⟨r, hr, hval⟩ := C119_import c hg hlin hb hm hly hby P n hP hpx hny heven ns C O hzero k hk
  refine ⟨_, hr, ?_⟩
  intro received lcps hre hlc bs hbs
  have hkx : k.x = 0 := by have := hk.2.2.2.2; omega
  have hx2 : 2 ≤ n.x := by have := hP.2.2.2.2.parts_le; have := hP.2.2.2.2.1; omega
  have hnot : ¬Inside (procOf true P n ns k).lcp q := by
    intro hin
    have h1 : q.z < P.z.size k.z := hin.2.2.1
    have h2 : q.z + 1 = P.z.gridSize true k.z := hqz
    unfold Part.gridSize at h2
    rw [if_pos ⟨hkz, rfl⟩] at h2
    omega
  have hz := C119_zero_required c (procOf true P n ns k) ns received lcps ((List.range ns).map r) bs hlc (by simp)
    (fun _ _ => hre) hbs s (by omega) (by simpa using hs) q hq (Or.inl ⟨hkx, hqx⟩)
  rw [if_neg hnot] at hz
  simp only [List.getElem_map, List.getElem_range] at hz
  have hw := hP.1.end_le hk.1
  have hv := hP.2.1.end_le hk.2.1
  have htx : (shift (procOf true P n ns k).lower q).x = 0 := by
    show P.x.start k.x + q.x = 0
    rw [hkx, hqx, hP.2.2.2.2.2.1]
  have hv2 := (hval s hs q _ hq rfl).2.1
    (by
      have h2 : q.z + 1 = P.z.gridSize true k.z := hqz
      unfold Part.gridSize at h2
      rw [if_pos ⟨hkz, rfl⟩] at h2
      have := hP.2.2.1.end_eq hkz
      show P.z.start k.z + q.z = n.z
      omega)
    (by omega) (by omega)
  rw [htx, Nat.zero_add, Nat.mod_eq_of_lt (by omega),
    if_pos ⟨by show P.w.start k.w + q.w < n.w; omega, by show P.v.start k.v + q.v < n.v; omega⟩, hz] at hv2
  exact hC (neg_eq_zero.1 hv2.symm)

/-- `writeLocalCheckpoint` never changes the flag for the boundaries in x: it tests whether a number is 1 modulo
1. -/
theorem C119_flag (isLinear : Bool) (nspecies : ℕ) (levels : List ℕ) (flag b : Bool) (sizes : List ℕ)
    (h : writeLocalCheckpoint isLinear nspecies levels flag sizes = .ok b) : b = flag := by
  unfold writeLocalCheckpoint at h
  simp only at h
  split at h
  · simp at h
  · split at h
    · simp at h
    · rename_i m _
      rw [if_neg (by omega)] at h
      simpa using h.symm

/-- The flag is not set by a checkpoint with an odd number of points in x. -/
theorem C119_flag_violated : ¬∀ (isLinear : Bool) (nspecies : ℕ) (levels : List ℕ) (flag b : Bool) (sizes : List ℕ)
    (nx : ℕ), sizes[5]? = some nx → nx % 2 = 1 → writeLocalCheckpoint isLinear nspecies levels flag sizes = .ok b →
      b = true := by
  intro h
  have := h true 1 [0, 1, 1, 1, 1, 1] false false [1, 2, 2, 2, 1, 1] 1 rfl rfl (by decide)
  simp at this

/-- Had the flag been set, flux-tube runs would stop: the mode after the last one would be the upper boundary in
x. -/
theorem C119_flag_set [CommRing K] [DecidableEq K] (c : Config K) (hg : c.isGlobal = false)
    (hb : c.xBoundaries = true) (pr : Proc) (ns : ℕ) (hns : 0 < ns) (received lcps dfgs : List (Arr K))
    (hl : lcps.length = ns) (hd : dfgs.length = ns)
    (hr : 1 < pr.p.z → pr.coords.z + 1 = pr.p.z → received.length = ns) (hz : pr.coords.z + 1 = pr.p.z)
    (hx : pr.coords.x + 1 = pr.p.x) (hdx : pr.dfg.x = pr.sizes.x) (hx5 : 5 ≤ pr.sizes.x)
    (hpos : Inside pr.dfg ⟨0, 0, 0, 0, 0⟩) (hlin : c.isLinear = true) :
    ∀ as, setDFG c pr received lcps dfgs ≠ .ok as := by
  intro as h
  obtain ⟨ha, hall⟩ := setDFG_inv c pr received lcps dfgs as ns hl hd hr h
  obtain ⟨a, hi, hk⟩ := hall 0 (by omega) (by omega) (by omega)
  rcases hk with ⟨-, hk, -⟩ | ⟨-, source, hk⟩
  · exact hk hz
  · obtain ⟨⟨of0, h0⟩, h1, h2, h3⟩ := kernel_inv c pr source a _ hk
    have hnkx : nkxOf pr = pr.sizes.x - 1 := by unfold nkxOf; rw [if_pos hx, hdx]
    have hnkg : nkxGlobalOf c pr = pr.sizes.x := by unfold nkxGlobalOf; rw [hb]; rfl
    have hnky : nkyOf c pr = pr.dfg.y := by unfold nkyOf; rw [if_neg (by simp [hlin])]
    obtain ⟨b, b', hst⟩ := loop_inv _ _ _ _ h3 ⟨0, 0, 0, 0, pr.sizes.x - 2⟩
      ((mem_points _ _).2 ⟨hpos.1, hpos.2.1, by simp, by rw [hnky]; exact hpos.2.2.2.1, by
        rw [hnkx]; show pr.sizes.x - 2 < pr.sizes.x - 1; omega⟩)
    unfold kernelStep at hst
    rw [hnkx, hnkg, if_neg (by rintro ⟨-, h⟩; simp only at h; omega)] at hst
    have hof : getOffsetAndFactor c (0 + 1) (if c.isGlobal = true then pr.lower.x + (pr.sizes.x - 2) else 0) =
        .ok (1, -1) := by
      unfold getOffsetAndFactor at h0 ⊢
      rw [if_pos hg] at h0 ⊢
      by_cases hm : c.modes = 1
      · rw [if_pos hm] at h0 ⊢
        by_cases hy : c.levelY = 1 ∧ c.boundaryY = false
        · rw [if_pos hy, hm]; simp
        · rw [if_neg hy] at h0; simp at h0
      · rw [if_neg hm] at h0; simp at h0
    simp only [hof, Outcome.bind] at hst
    rw [show pr.sizes.x - 2 + 1 = pr.sizes.x - 1 by omega, Nat.mod_eq_of_lt (by omega), if_neg (by omega)] at hst
    simp at hst

/-- Nonlinear flux-tube runs stop: the constructor asks for a boundary in y in nonlinear runs (l.56-61), the
boundary condition in z of flux-tube runs asks for none. -/
theorem C119_nonlinear_violated [CommRing K] [DecidableEq K] (c : Config K) (hg : c.isGlobal = false)
    (hby : c.boundaryY = true) (pr : Proc) (ns : ℕ) (hns : 0 < ns) (received lcps dfgs : List (Arr K))
    (hl : lcps.length = ns) (hd : dfgs.length = ns)
    (hr : 1 < pr.p.z → pr.coords.z + 1 = pr.p.z → received.length = ns) (hz : pr.coords.z + 1 = pr.p.z) :
    ∀ as, setDFG c pr received lcps dfgs ≠ .ok as := by
  intro as h
  obtain ⟨ha, hall⟩ := setDFG_inv c pr received lcps dfgs as ns hl hd hr h
  obtain ⟨a, hi, hk⟩ := hall 0 (by omega) (by omega) (by omega)
  rcases hk with ⟨-, hk, -⟩ | ⟨-, source, hk⟩
  · exact hk hz
  · obtain ⟨⟨of0, h0⟩, -⟩ := kernel_inv c pr source a _ hk
    unfold getOffsetAndFactor at h0
    rw [if_pos hg] at h0
    split at h0
    · rw [if_neg (by simp [hby])] at h0; simp at h0
    · simp at h0

/-- The value of the first species at the point `q` after `setDFG`. -/
def valueAt (o : Outcome (List (Arr ℤ))) (q : Vec) : Option ℤ :=
  match o with
  | .ok (a :: _) => some (a q)
  | _ => none

/-- One process for `n` points. -/
def single (n : ℕ) : Part := ⟨1, fun k => if k = 0 then 0 else n⟩

/-- A process for each of `n` points. -/
def each (n : ℕ) : Part := ⟨n, id⟩

/-- A nonlinear radially global run in which the factor of the mode `l` is `l`. -/
def runY : Config ℤ := ⟨true, false, false, 1, 1, true, fun l x => if x < 2 then some l else none⟩

/-- Radially global runs whose modes in y are divided among processes: the factor is that of the local index of
the mode, not of the mode. The values at the upper boundary in z depend on the division. -/
theorem C119_y_violated : ¬∀ (P P' : Parts) (n : Vec), P.Of n → P'.Of n → ∀ (C O : Arr ℤ) (k k' q q' : Vec) (a a' : ℤ),
    P.Has k → P'.Has k' → Inside (procOf false P n 1 k).dfg q → Inside (procOf false P' n 1 k').dfg q' →
    shift (procOf false P n 1 k).lower q = shift (procOf false P' n 1 k').lower q' →
    valueAt (setDFGs runY (procOf false P n 1) (fun j => [piece (procOf false P n 1 j).lower C])
      (fun j => [piece (procOf false P n 1 j).lower O]) k) q = some a →
    valueAt (setDFGs runY (procOf false P' n 1) (fun j => [piece (procOf false P' n 1 j).lower C])
      (fun j => [piece (procOf false P' n 1 j).lower O]) k') q' = some a' → a = a' := by
  intro h
  have hs : ∀ n, 0 < n → (single n).Of n := by
    intro n hn
    refine ⟨by simp [single], by simp [single], by simp [single], fun k hk => ?_⟩
    have : k = 0 := by simp [single] at hk; omega
    subst this
    simpa [single] using hn
  have he : (each 2).Of 2 := ⟨by decide, rfl, rfl, fun k _ => by simp [each]⟩
  have := h ⟨single 1, single 1, single 1, single 2, single 2⟩ ⟨single 1, single 1, single 1, each 2, single 2⟩
    ⟨1, 1, 1, 2, 2⟩
    ⟨hs 1 (by omega), hs 1 (by omega), hs 1 (by omega), hs 2 (by omega), hs 2 (by omega)⟩
    ⟨hs 1 (by omega), hs 1 (by omega), hs 1 (by omega), he, hs 2 (by omega)⟩
    (fun t => if t.x = 1 then 1 else 0) (fun _ => 0) ⟨0, 0, 0, 0, 0⟩ ⟨0, 0, 0, 1, 0⟩ ⟨0, 0, 1, 1, 1⟩ ⟨0, 0, 1, 0, 1⟩ 2 1
    (by unfold Parts.Has; decide) (by unfold Parts.Has; decide) (by decide) (by decide) (by decide)
    (by decide +kernel) (by decide +kernel)
  simp at this

/-- A linear flux-tube run. -/
def runX : Config ℤ := ⟨false, true, false, 1, 1, false, fun _ _ => none⟩

/-- The boundary condition in z of flux-tube runs does not hold at the mode `n.x / 2`: the grid keeps what it had
there. -/
theorem C119_mode_violated : ¬∀ (n : Vec) (C O : Arr ℤ) (t : Vec) (a b : ℤ), t.z = n.z → t.x < n.x →
    valueAt (setDFGs runX (procOf true ⟨single n.w, single n.v, single n.z, single n.y, single n.x⟩ n 1)
      (fun _ => [C]) (fun _ => [O]) ⟨0, 0, 0, 0, 0⟩) t = some a →
    valueAt (setDFGs runX (procOf true ⟨single n.w, single n.v, single n.z, single n.y, single n.x⟩ n 1)
      (fun _ => [C]) (fun _ => [O]) ⟨0, 0, 0, 0, 0⟩) { t with z := 0, x := (t.x + 1) % n.x } = some b → a = -b := by
  intro h
  have := h ⟨1, 1, 1, 1, 4⟩ (fun t => if t.x = 3 then 1 else 0) (fun _ => 0) ⟨0, 0, 1, 0, 2⟩ 0 1 rfl (by decide)
    (by decide +kernel) (by decide +kernel)
  simp at this

/-! ### The hypotheses can be met -/

/-- Two processes in z: the values of GENE are `1`, `2`, .. at the inner modes. -/
def sampleC : ℕ → Arr ℤ := fun s t => if t.x = 0 then 0 else s + t.x + 10 * t.z

/-- The division of the sample. -/
def sampleP : Parts := ⟨single 1, single 1, each 2, single 1, single 4⟩

theorem single_of (n : ℕ) (hn : 0 < n) : (single n).Of n := by
  refine ⟨by simp [single], by simp [single], by simp [single], fun k hk => ?_⟩
  have : k = 0 := by simp [single] at hk; omega
  subst this
  simpa [single] using hn

theorem each_of (n : ℕ) (hn : 0 < n) : (each n).Of n := ⟨hn, rfl, rfl, fun k _ => by simp [each]⟩

theorem sampleP_of : sampleP.Of ⟨1, 1, 2, 1, 4⟩ :=
  ⟨single_of 1 (by omega), single_of 1 (by omega), each_of 2 (by omega), single_of 1 (by omega),
    single_of 4 (by omega)⟩

theorem sample_zero : ∀ s < 2, ∀ t : Vec, t.w ≤ 1 → t.v ≤ 1 → t.z ≤ 2 → t.y = 0 → (t.x = 0 ∨ t.x = 4) →
    (if Inside ⟨1, 1, 2, 1, 4⟩ t then sampleC s t else (fun _ _ => (0 : ℤ)) s t) = 0 := by
  intro s _ t _ _ _ _ h
  rcases h with h | h
  · simp [sampleC, h]
  · rw [if_neg fun hh => by have := hh.2.2.2.2; simp only at this; omega]

/-- The hypotheses of `C119_import` and of `C119_second_violated`, and the values of the second process in z: -/
example : ∃ as, setDFGs runX (procOf true sampleP ⟨1, 1, 2, 1, 4⟩ 2)
    (fun j => (List.range 2).map fun s => piece (procOf true sampleP ⟨1, 1, 2, 1, 4⟩ 2 j).lower (sampleC s))
    (fun j => (List.range 2).map fun _ => piece (procOf true sampleP ⟨1, 1, 2, 1, 4⟩ 2 j).lower fun _ => 0)
    ⟨0, 0, 1, 0, 0⟩ = .ok as ∧
    ∀ received lcps : List (Arr ℤ), received.length = 2 → lcps.length = 2 →
      ∀ bs, setDFG runX (procOf true sampleP ⟨1, 1, 2, 1, 4⟩ 2 ⟨0, 0, 1, 0, 0⟩) received lcps as ≠ .ok bs :=
  C119_second_violated runX rfl rfl rfl rfl rfl rfl sampleP ⟨1, 1, 2, 1, 4⟩ sampleP_of rfl rfl rfl 2 sampleC
    (fun _ _ => 0) sample_zero ⟨0, 0, 1, 0, 0⟩ (by unfold Parts.Has; decide) rfl 0 (by omega) ⟨0, 0, 1, 0, 0⟩
    (by decide) (by decide) rfl (by decide) (by decide) (by decide)

example : (List.range 5).map (fun x => valueAt (setDFGs runX (procOf true sampleP ⟨1, 1, 2, 1, 4⟩ 2)
    (fun j => (List.range 2).map fun s => piece (procOf true sampleP ⟨1, 1, 2, 1, 4⟩ 2 j).lower (sampleC s))
    (fun j => (List.range 2).map fun _ => piece (procOf true sampleP ⟨1, 1, 2, 1, 4⟩ 2 j).lower fun _ => 0)
    ⟨0, 0, 1, 0, 0⟩) ⟨0, 0, 1, 0, x⟩) = [some (-1), some (-2), some 0, some 0, some 0] := by decide +kernel

/-- Two processes in z and two in x. -/
def sampleQ : Parts := ⟨single 1, single 1, each 2, single 2, ⟨2, fun k => 2 * k⟩⟩

theorem sampleQ_of : sampleQ.Of ⟨1, 1, 2, 2, 4⟩ :=
  ⟨single_of 1 (by omega), single_of 1 (by omega), each_of 2 (by omega), single_of 2 (by omega),
    by decide, rfl, rfl, fun k _ => by show 2 * k < 2 * (k + 1); omega⟩

/-- A nonlinear radially global run in which the factor of the mode `l` is `l`. -/
def runQ : Config ℤ := ⟨true, false, false, 1, 1, true, fun l x => if x < 4 then some l else none⟩

/-- The hypotheses of `C119_import_global` for the sample, and the values at the upper boundary in z of a process
that has part of it: -/
example : ∃ r : ℕ → Arr ℤ,
    setDFGs runQ (procOf runQ.isLinear sampleQ ⟨1, 1, 2, 2, 4⟩ 2)
      (fun j => (List.range 2).map fun s => piece (procOf runQ.isLinear sampleQ ⟨1, 1, 2, 2, 4⟩ 2 j).lower (sampleC s))
      (fun j => (List.range 2).map fun s => piece (procOf runQ.isLinear sampleQ ⟨1, 1, 2, 2, 4⟩ 2 j).lower
        ((fun _ _ => 0 : ℕ → Arr ℤ) s)) ⟨0, 0, 1, 0, 1⟩ = .ok ((List.range 2).map r) := by
  obtain ⟨r, hr, -⟩ := C119_import_global runQ rfl sampleQ ⟨1, 1, 2, 2, 4⟩ sampleQ_of rfl
    (fun h => by simp [runQ] at h) (fun i _ => by show (2 * (i + 1) - 2 * i) % 2 = 0; omega)
    (fun y _ => ((y + 1 : ℕ) : ℤ)) (fun y _ x hx => by simp only [runQ]; rw [if_pos hx]) 2 sampleC (fun _ _ => 0)
    (by
      intro s _ t _ _ _ _ h
      rcases h with h | h
      · simp [sampleC, h]
      · rw [if_neg fun hh => by have := hh.2.2.2.2; simp only at this h; omega])
    ⟨0, 0, 1, 0, 1⟩ (by unfold Parts.Has; decide)
  exact ⟨r, hr⟩

example : (List.range 2).map (fun y => (List.range 3).map fun x =>
    valueAt (setDFGs runQ (procOf false sampleQ ⟨1, 1, 2, 2, 4⟩ 2)
      (fun j => (List.range 2).map fun s => piece (procOf false sampleQ ⟨1, 1, 2, 2, 4⟩ 2 j).lower (sampleC s))
      (fun _ => (List.range 2).map fun _ _ => 0) ⟨0, 0, 1, 0, 1⟩) ⟨0, 0, 1, y, x⟩) =
    [[some 2, some 3, some 0], [some 4, some 6, some 0]] := by decide +kernel

/-- The hypotheses of `C119_roundtrip` and `C119_zero_required` are the success of `setDFG`, as in the examples
above; those of `C119_flag`: -/
example : writeLocalCheckpoint true 2 [2, 1, 1, 1, 1, 1] false [2, 2, 2, 2, 1, 4] = .ok false := by decide

/-- The hypotheses of `C119_flag_set`: -/
example : ∀ as, setDFG { runX with xBoundaries := true } (procOf true sampleP ⟨1, 1, 2, 1, 4⟩ 1 ⟨0, 0, 1, 0, 0⟩)
    [fun _ => 0] [fun _ => 0] [fun _ => 0] ≠ .ok as :=
  C119_flag_set _ rfl rfl _ 1 (by omega) _ _ _ rfl rfl (fun _ _ => rfl) rfl rfl rfl (by decide) (by decide) rfl

/-- The hypotheses of `C119_nonlinear_violated`: -/
example : ∀ as, setDFG { runX with isLinear := false, boundaryY := true }
    (procOf false sampleP ⟨1, 1, 2, 1, 4⟩ 1 ⟨0, 0, 1, 0, 0⟩) [fun _ => 0] [fun _ => 0] [fun _ => 0] ≠ .ok as :=
  C119_nonlinear_violated _ rfl rfl _ 1 (by omega) _ _ _ rfl rfl (fun _ _ => rfl) rfl

end Verif.GeneTask

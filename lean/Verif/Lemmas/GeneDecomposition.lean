import Verif.Lemmas.GeneTask

/-! # Lemmas about the pieces of the GENE grids -/

namespace Verif.GeneTask

/-- The division covers `n` points and every process has some. -/
def Part.Of (P : Part) (n : ℕ) : Prop :=
  0 < P.parts ∧ P.start 0 = 0 ∧ P.start P.parts = n ∧ ∀ k < P.parts, P.start k < P.start (k + 1)

/-- Every dimension is divided. -/
def Parts.Of (P : Parts) (n : Vec) : Prop :=
  P.w.Of n.w ∧ P.v.Of n.v ∧ P.z.Of n.z ∧ P.y.Of n.y ∧ P.x.Of n.x

/-- `k` are the coordinates of a process. -/
def Parts.Has (P : Parts) (k : Vec) : Prop :=
  k.w < P.w.parts ∧ k.v < P.v.parts ∧ k.z < P.z.parts ∧ k.y < P.y.parts ∧ k.x < P.x.parts

theorem Part.Of.mono {P : Part} {n : ℕ} (h : P.Of n) (j : ℕ) : ∀ i, i + j ≤ P.parts → P.start i ≤ P.start (i + j) := by
  induction j with
  | zero => intro i _; exact le_refl _
  | succ j ih =>
    intro i hi
    have h1 := ih i (by omega)
    have h2 := h.2.2.2 (i + j) (by omega)
    rw [Nat.add_assoc] at h2
    omega

theorem Part.Of.end_le {P : Part} {n : ℕ} (h : P.Of n) {k : ℕ} (hk : k < P.parts) : P.start k + P.size k ≤ n := by
  have h1 := h.mono (P.parts - (k + 1)) (k + 1) (by omega)
  have h2 := h.2.2.2 k hk
  rw [show k + 1 + (P.parts - (k + 1)) = P.parts by omega, h.2.2.1] at h1
  unfold Part.size
  omega

theorem Part.Of.end_eq {P : Part} {n : ℕ} (h : P.Of n) {k : ℕ} (hk : k + 1 = P.parts) : P.start k + P.size k = n := by
  have h2 := h.2.2.2 k (by omega)
  unfold Part.size
  rw [hk, h.2.2.1] at *
  omega

theorem Part.Of.size_pos {P : Part} {n : ℕ} (h : P.Of n) {k : ℕ} (hk : k < P.parts) : 0 < P.size k := by
  have h2 := h.2.2.2 k hk
  unfold Part.size
  omega

theorem Part.Of.inside {P : Part} {n : ℕ} (h : P.Of n) {k : ℕ} (hk : k < P.parts) (b : Bool) {q : ℕ}
    (hq : q < P.gridSize b k) : q < P.size k ↔ P.start k + q < n := by
  unfold Part.gridSize at hq
  by_cases hl : k + 1 = P.parts ∧ b = true
  · have := h.end_eq hl.1
    omega
  · have := h.end_le hk
    rw [if_neg hl] at hq
    omega

theorem Part.Of.grid_lt {P : Part} {n : ℕ} (h : P.Of n) {k : ℕ} (hk : k < P.parts) (b : Bool) {q : ℕ}
    (hq : q < P.gridSize b k) : P.start k + q < n + if b then 1 else 0 := by
  have := h.end_le hk
  unfold Part.gridSize at hq
  by_cases hl : k + 1 = P.parts ∧ b = true
  · have := h.end_eq hl.1
    rw [if_pos hl] at hq
    rw [if_pos hl.2]
    omega
  · rw [if_neg hl] at hq
    omega

theorem Part.Of.parts_le {P : Part} {n : ℕ} (h : P.Of n) : P.parts ≤ n := by
  have : ∀ k ≤ P.parts, k ≤ P.start k := by
    intro k
    induction k with
    | zero => intro _; omega
    | succ k ih =>
      intro hk
      have := ih (by omega)
      have := h.2.2.2 k (by omega)
      omega
  have := this P.parts (le_refl _)
  rw [h.2.2.1] at this
  exact this

/-- The single process that has everything. -/
theorem Part.Of.one {P : Part} {n : ℕ} (h : P.Of n) (h1 : P.parts = 1) : P.start 0 = 0 ∧ P.size 0 = n := by
  have := h.end_eq (k := 0) (by omega)
  rw [h.2.1] at this
  exact ⟨h.2.1, by omega⟩

theorem shapesAgree_procOf {K : Type} (c : Config K) (P : Parts) (n : Vec) (ns : ℕ) (k : Vec) :
    shapesAgree c (procOf c.isLinear P n ns k) = true := by
  have hup : ∀ (P : Part) (k : ℕ) (b : Bool),
      (if k + 1 = P.parts ∧ b = true then P.gridSize b k == P.size k + 1 else P.gridSize b k == P.size k) = true := by
    intro P k b
    unfold Part.gridSize
    split <;> simp
  unfold shapesAgree
  have hand : ∀ {a b : Bool}, a = true → b = true → (a && b) = true := by
    intro a b ha hb; rw [ha, hb]; rfl
  exact hand (hand (hand (hand (hand (by simp [procOf]) (hup P.w k.w true)) (hup P.v k.v true)) (hup P.z k.z true))
    (hup P.y k.y _)) (hup P.x k.x true)

variable {K : Type}

/-- The grid after the copy of the checkpoint. -/
def copied (n : Vec) (C O : Arr K) : Arr K := fun t => if Inside n t then C t else O t

theorem inside_iff {P : Parts} {n : Vec} (hP : P.Of n) (lin : Bool) (ns : ℕ) {k : Vec} (hk : P.Has k) {q : Vec}
    (hq : Inside (procOf lin P n ns k).dfg q) :
    Inside (procOf lin P n ns k).lcp q ↔ Inside n (shift (procOf lin P n ns k).lower q) := by
  obtain ⟨h1, h2, h3, h4, h5⟩ := hP
  obtain ⟨k1, k2, k3, k4, k5⟩ := hk
  obtain ⟨q1, q2, q3, q4, q5⟩ := hq
  unfold Inside shift
  exact and_congr (h1.inside k1 _ q1) (and_congr (h2.inside k2 _ q2) (and_congr (h3.inside k3 _ q3)
    (and_congr (h4.inside k4 _ q4) (h5.inside k5 _ q5))))

theorem copyPoints_piece {P : Parts} {n : Vec} (hP : P.Of n) (lin : Bool) (ns : ℕ) {k : Vec} (hk : P.Has k)
    (C O : Arr K) {q : Vec} (hq : Inside (procOf lin P n ns k).dfg q) :
    copyPoints (procOf lin P n ns k).lcp (piece (procOf lin P n ns k).lower C)
      (piece (procOf lin P n ns k).lower O) q = copied n C O (shift (procOf lin P n ns k).lower q) := by
  rw [copyPoints_apply]
  unfold copied piece
  by_cases h : Inside (procOf lin P n ns k).lcp q
  · rw [if_pos h, if_pos ((inside_iff hP lin ns hk hq).1 h)]
  · rw [if_neg h, if_neg fun h' => h ((inside_iff hP lin ns hk hq).2 h')]

/-- The import of one species succeeds. -/
theorem importOne_piece [CommRing K] [DecidableEq K] (c : Config K) {P : Parts} {n : Vec} (hP : P.Of n) (ns : ℕ)
    {k : Vec} (hk : P.Has k) (C O : Arr K)
    (hzero : ∀ t : Vec, t.w ≤ n.w → t.v ≤ n.v → t.z ≤ n.z → t.y < (if c.isLinear then n.y else n.y + 1) →
      (t.x = 0 ∨ t.x = n.x) → copied n C O t = 0) :
    importOne c (procOf c.isLinear P n ns k) (piece (procOf c.isLinear P n ns k).lower C)
      (piece (procOf c.isLinear P n ns k).lower O) =
        .ok (copyPoints (procOf c.isLinear P n ns k).lcp (piece (procOf c.isLinear P n ns k).lower C)
          (piece (procOf c.isLinear P n ns k).lower O)) := by
  have hP' := hP
  have hk' := hk
  obtain ⟨h1, h2, h3, h4, h5⟩ := hP
  obtain ⟨k1, k2, k3, k4, k5⟩ := hk
  refine importOne_ok c _ _ _ (shapesAgree_procOf c P n ns k) ?_ ?_
  · have := h5.size_pos k5
    show 0 < P.x.gridSize true k.x
    unfold Part.gridSize
    omega
  · intro q hq hx
    rw [copyPoints_piece hP' c.isLinear ns hk' C O hq]
    obtain ⟨q1, q2, q3, q4, q5⟩ := hq
    have g1 := h1.grid_lt k1 _ q1
    have g2 := h2.grid_lt k2 _ q2
    have g3 := h3.grid_lt k3 _ q3
    have g4 := h4.grid_lt k4 _ q4
    simp only [if_true] at g1 g2 g3
    refine hzero _ (by show P.w.start k.w + q.w ≤ n.w; omega) (by show P.v.start k.v + q.v ≤ n.v; omega)
      (by show P.z.start k.z + q.z ≤ n.z; omega) ?_ ?_
    · show P.y.start k.y + q.y < _
      cases hl : c.isLinear <;> simp only [hl, Bool.not_true, Bool.not_false, if_true] at g4 ⊢ <;> simpa using g4
    · rcases hx with ⟨hx1, hx2⟩ | ⟨hx1, hx2⟩
      · right
        have e1 : k.x + 1 = P.x.parts := hx1
        have e2 : q.x = P.x.gridSize true k.x - 1 := hx2
        have e3 := h5.end_eq e1
        unfold Part.gridSize at e2
        rw [if_pos ⟨e1, rfl⟩] at e2
        show P.x.start k.x + q.x = n.x
        omega
      · left
        have e1 : k.x = 0 := hx1
        show P.x.start k.x + q.x = 0
        rw [e1, h5.2.1]
        omega

/-- What the process with coordinates `k` has after `setDFG`. -/
theorem setDFGs_piece [CommRing K] [DecidableEq K] (c : Config K) {P : Parts} {n : Vec} (hP : P.Of n) (ns : ℕ)
    {k : Vec} (hk : P.Has k) (C O : ℕ → Arr K)
    (hzero : ∀ s < ns, ∀ t : Vec, t.w ≤ n.w → t.v ≤ n.v → t.z ≤ n.z →
      t.y < (if c.isLinear then n.y else n.y + 1) → (t.x = 0 ∨ t.x = n.x) → copied n (C s) (O s) t = 0)
    (hlin : P.z.parts > 1 → ¬(c.isLinear = true ∧ (P.x.parts ≠ 1 ∨ n.y ≠ 1)))
    (off : ℕ → ℕ → ℕ) (fac : ℕ → ℕ → K) (of0 : ℕ × K) (h0 : getOffsetAndFactor c 1 0 = .ok of0)
    (hle : nkxOf (procOf c.isLinear P n ns k) ≤ nkxGlobalOf c (procOf c.isLinear P n ns k))
    (heven : nkxOf (procOf c.isLinear P n ns k) % 2 = 0)
    (h : ∀ y < nkyOf c (procOf c.isLinear P n ns k), ∀ x < nkxOf (procOf c.isLinear P n ns k),
      ¬(c.isGlobal = false ∧ x = nkxGlobalOf c (procOf c.isLinear P n ns k) / 2) →
      getOffsetAndFactor c (y + 1) (if c.isGlobal then P.x.start k.x + x else 0) = .ok (off y x, fac y x) ∧
        (x + off y x) % nkxGlobalOf c (procOf c.isLinear P n ns k) < nkxOf (procOf c.isLinear P n ns k)) :
    ∃ r : ℕ → Arr K,
      setDFGs c (procOf c.isLinear P n ns)
        (fun j => (List.range ns).map fun s => piece (procOf c.isLinear P n ns j).lower (C s))
        (fun j => (List.range ns).map fun s => piece (procOf c.isLinear P n ns j).lower (O s)) k =
          .ok ((List.range ns).map r) ∧
      ∀ s < ns, ∀ q, Inside (procOf c.isLinear P n ns k).dfg q →
        r s q = if (shift (procOf c.isLinear P n ns k).lower q).z = n.z ∧
            q.y < nkyOf c (procOf c.isLinear P n ns k) ∧ q.x < nkxOf (procOf c.isLinear P n ns k) ∧
            ¬(c.isGlobal = false ∧ q.x = nkxGlobalOf c (procOf c.isLinear P n ns k) / 2) then
          copied n (C s) (O s) { shift (procOf c.isLinear P n ns k).lower q with
            z := 0
            x := P.x.start k.x + (q.x + off q.y q.x) % nkxGlobalOf c (procOf c.isLinear P n ns k) } * fac q.y q.x
          else copied n (C s) (O s) (shift (procOf c.isLinear P n ns k).lower q) := by
  set pr := procOf c.isLinear P n ns k with hpr
  obtain ⟨hw, hv, hz, hy, hx⟩ := hP
  obtain ⟨kw, kv, kz, ky, kx⟩ := hk
  have hP : P.Of n := ⟨hw, hv, hz, hy, hx⟩
  have hk : P.Has k := ⟨kw, kv, kz, ky, kx⟩
  have hk0 : P.Has { k with z := 0 } := ⟨kw, kv, by show 0 < P.z.parts; omega, ky, kx⟩
  let imp : Vec → ℕ → Arr K := fun j s => copyPoints (procOf c.isLinear P n ns j).lcp
    (piece (procOf c.isLinear P n ns j).lower (C s)) (piece (procOf c.isLinear P n ns j).lower (O s))
  let ker : Option (Arr K) → Arr K → Arr K := fun source a t =>
    if t.z = pr.dfg.z - 1 ∧ Inside ⟨pr.dfg.w, pr.dfg.v, 1, nkyOf c pr, nkxOf pr⟩ { t with z := 0 } ∧
        ¬(c.isGlobal = false ∧ t.x = nkxGlobalOf c pr / 2) then
      (source.getD a) { t with z := 0, x := (t.x + off t.y t.x) % nkxGlobalOf c pr } * fac t.y t.x
    else a t
  let src : ℕ → Option (Arr K) := fun s => if P.z.parts ≤ 1 then none else some (imp { k with z := 0 } s)
  let r : ℕ → Arr K := fun s => if k.z + 1 = P.z.parts then ker (src s) (imp k s) else imp k s
  have hker : ∀ source a, (source = none → 2 ≤ pr.dfg.z) → kernel c pr source a = .ok (ker source a) :=
    fun source a hs => kernel_ok c pr source a off fac hs of0 h0 hle heven h
  have hz2 : P.z.parts ≤ 1 → 2 ≤ pr.dfg.z := by
    intro h1
    have h2 := hz.one (by have := hz.1; omega)
    have h3 := hz.parts_le
    have h4 : k.z = 0 := by omega
    have h5 := hz.1
    show 2 ≤ P.z.gridSize true k.z
    unfold Part.gridSize
    rw [h4, if_pos ⟨by omega, rfl⟩]
    omega
  refine ⟨r, ?_, ?_⟩
  · refine setDFGs_ok c (procOf c.isLinear P n ns) ns
      (fun j s => piece (procOf c.isLinear P n ns j).lower (C s))
      (fun j s => piece (procOf c.isLinear P n ns j).lower (O s)) k rfl imp r ?_ ?_ ?_
    · rintro j (rfl | rfl) s hs
      · exact importOne_piece c hP ns hk (C s) (O s) (hzero s hs)
      · exact importOne_piece c hP ns hk0 (C s) (O s) (hzero s hs)
    · intro hp hcon
      refine hlin hp ⟨hcon.1, hcon.2.imp_right fun h => ?_⟩
      have : (if c.isLinear = true then n.y else n.y + 1) ≠ 1 := h
      rwa [if_pos hcon.1] at this
    · intro s hs
      refine ⟨fun h1 => ?_, fun h1 h2 => ?_, fun h1 h2 => ?_⟩
      · have h1 : P.z.parts ≤ 1 := h1
        have : k.z + 1 = P.z.parts := by omega
        simp only [r, src, if_pos this, if_pos h1]
        exact hker none (imp k s) fun _ => hz2 h1
      · have h1 : P.z.parts > 1 := h1
        have h2 : k.z + 1 = P.z.parts := h2
        simp only [r, src, if_pos h2, if_neg (show ¬P.z.parts ≤ 1 by omega)]
        exact hker _ _ fun h => by simp at h
      · have h2 : k.z + 1 ≠ P.z.parts := h2
        simp only [r, if_neg h2]
  · intro s hs q hq
    have hcopy := copyPoints_piece hP c.isLinear ns hk (C s) (O s) hq
    by_cases hlast : k.z + 1 = P.z.parts
    · simp only [r, if_pos hlast]
      simp only [ker]
      have hdz : pr.dfg.z = P.z.size k.z + 1 := by
        show P.z.gridSize true k.z = _
        unfold Part.gridSize
        rw [if_pos ⟨hlast, rfl⟩]
      have hend := hz.end_eq hlast
      have hzq : q.z = pr.dfg.z - 1 ↔ (shift pr.lower q).z = n.z := by
        show _ ↔ P.z.start k.z + q.z = n.z
        omega
      by_cases hcond : (shift pr.lower q).z = n.z ∧ q.y < nkyOf c pr ∧ q.x < nkxOf pr ∧
          ¬(c.isGlobal = false ∧ q.x = nkxGlobalOf c pr / 2)
      · obtain ⟨c1, c2, c3, c4⟩ := hcond
        rw [if_pos ⟨hzq.2 c1, ⟨hq.1, hq.2.1, by simp, c2, c3⟩, c4⟩, if_pos ⟨c1, c2, c3, c4⟩]
        congr 1
        have hkx := (h q.y c2 q.x c3 c4).2
        have hnkx : nkxOf pr ≤ pr.dfg.x := by unfold nkxOf; split <;> omega
        by_cases h1 : P.z.parts ≤ 1
        · simp only [src, if_pos h1, Option.getD_none]
          have hkz : k.z = 0 := by omega
          have hin : Inside pr.dfg
              { q with z := 0, x := (q.x + off q.y q.x) % nkxGlobalOf c pr } :=
            ⟨hq.1, hq.2.1, by show 0 < pr.dfg.z; omega, hq.2.2.2.1, lt_of_lt_of_le hkx hnkx⟩
          refine (copyPoints_piece hP c.isLinear ns hk (C s) (O s) hin).trans ?_
          congr 1
          have hst : P.z.start k.z = 0 := by rw [hkz]; exact hz.2.1
          ext <;> simp [shift, procOf, hst, hpr]
        · simp only [src, if_neg h1, Option.getD_some]
          have hin : Inside (procOf c.isLinear P n ns { k with z := 0 }).dfg
              { q with z := 0, x := (q.x + off q.y q.x) % nkxGlobalOf c pr } := by
            refine ⟨hq.1, hq.2.1, ?_, hq.2.2.2.1, lt_of_lt_of_le hkx hnkx⟩
            show 0 < P.z.gridSize true 0
            have := hz.size_pos (k := 0) (by omega)
            unfold Part.gridSize
            omega
          refine (copyPoints_piece hP c.isLinear ns hk0 (C s) (O s) hin).trans ?_
          congr 1
          ext <;> simp [shift, procOf, hz.2.1, hpr]
      · rw [if_neg hcond, if_neg]
        · exact hcopy
        · rintro ⟨d1, d2, d3⟩
          exact hcond ⟨hzq.1 d1, d2.2.2.2.1, d2.2.2.2.2, d3⟩
    · simp only [r, if_neg hlast]
      rw [if_neg]
      · exact hcopy
      · rintro ⟨d1, -⟩
        have h3 : q.z < P.z.gridSize true k.z := hq.2.2.1
        unfold Part.gridSize at h3
        rw [if_neg fun hh => hlast hh.1] at h3
        have h4 := hz.end_le kz
        have : P.z.start k.z + q.z = n.z := d1
        omega

end Verif.GeneTask

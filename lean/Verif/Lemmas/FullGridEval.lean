import Verif.Model.FullGridEval
import Verif.Lemmas.Interpolation
import Verif.Lemmas.Kernels

/-!
# Lemmas on the evaluation of full grids
-/

namespace Verif.FullGridEval

open Verif.Interpolation (hat)

variable {K : Type} [Field K] [LinearOrder K] [FloorRing K] {V : Type} [AddCommMonoid V] [Module K V]

/-- The coordinate in units of the mesh width, zero at the first point. -/
def rel (s : ℕ × ℕ) (x : K) : K := x * 2 ^ s.1 - if s.2 = 0 then 1 else 0

/-- The cell between two neighbouring points which contains the coordinate or is closest to it. -/
def nearestCell (s : ℕ × ℕ) (x : K) : ℤ := max 0 (min ⌊rel s x⌋ ((nodal s.1 s.2 : ℤ) - 2))

/-- Specification: the weight of the point `j` in the linear interpolation or extrapolation from the two
points of the nearest cell; if there is only one point, its hat function. -/
def basis (s : ℕ × ℕ) (x : K) (j : ℕ) : K :=
  if nodal s.1 s.2 = 1 then hat s.1 s.2 j x else
  if (j : ℤ) = nearestCell s x then 1 - (rel s x - nearestCell s x)
  else if (j : ℤ) = nearestCell s x + 1 then rel s x - nearestCell s x
  else 0

/-- Specification: the multilinear interpolant, a sum over all points. -/
def interpolant : List ((ℕ × ℕ) × K) → (List ℕ → V) → V
  | [], f => f []
  | a :: as, f => ∑ j ∈ Finset.range (nodal a.1.1 a.1.2),
      basis a.1 a.2 j • interpolant as fun js => f (j :: js)

/-- The weight of a corner. -/
def wt (c : Cell K) (v : ℕ) : K := if c.n = 1 then c.x else if v = 0 then 1 - c.t else c.t

def off (c : Cell K) (v : ℕ) : ℕ := if 1 < c.n then v else 0

def idx : List (Cell K) → ℕ → ℕ → ℕ
  | [], _, i => i
  | c :: cs, tmp, i => idx cs (tmp / 2) (i * c.n.toNat + c.a.toNat + off c (tmp % 2))

def coef : List (Cell K) → ℕ → K
  | [], _ => 1
  | c :: cs, tmp => wt c (tmp % 2) * coef cs (tmp / 2)

/-- A cell with two points, or one point with the coordinate in the left half. -/
def CellOk (c : Cell K) : Prop :=
  (0 ≤ c.a ∧ c.a + 1 < c.n) ∨ (c.n = 1 ∧ c.b = 0 ∧ c.a = 0 ∧ 0 ≤ c.x ∧ c.x ≤ 1 / 2)

/-- The sum over the corners. -/
def total (g : ℕ → V) : List (Cell K) → ℕ → V
  | [], i => g i
  | c :: cs, i => wt c 0 • total g cs (i * c.n.toNat + c.a.toNat + off c 0) +
      wt c 1 • total g cs (i * c.n.toNat + c.a.toNat + off c 1)

lemma sum_range_two_mul {M : Type} [AddCommMonoid M] (F : ℕ → M) (m : ℕ) :
    ∑ i ∈ Finset.range (2 * m), F i = ∑ j ∈ Finset.range m, (F (2 * j) + F (2 * j + 1)) := by
  induction m with
  | zero => rfl
  | succ m ih =>
    rw [Finset.sum_range_succ, ← ih, show 2 * (m + 1) = 2 * m + 1 + 1 by ring, Finset.sum_range_succ,
      Finset.sum_range_succ, add_assoc]

omit [LinearOrder K] [FloorRing K] in
lemma sum_corners (g : ℕ → V) (cs : List (Cell K)) (i : ℕ) :
    ∑ ii ∈ Finset.range (2 ^ cs.length), coef cs ii • g (idx cs ii i) = total g cs i := by
  induction cs generalizing i with
  | nil => simp [coef, idx, total]
  | cons c cs ih =>
    rw [List.length_cons, pow_succ', sum_range_two_mul, total, ← ih, ← ih, Finset.smul_sum,
      Finset.smul_sum, ← Finset.sum_add_distrib]
    refine Finset.sum_congr rfl fun j _ => ?_
    simp only [coef, idx]
    have h0 : 2 * j % 2 = 0 := by omega
    have h1 : (2 * j + 1) % 2 = 1 := by omega
    have h2 : 2 * j / 2 = j := by omega
    have h3 : (2 * j + 1) / 2 = j := by omega
    rw [h0, h1, h2, h3, mul_smul, mul_smul]

variable [IsStrictOrderedRing K]

omit [FloorRing K] in
lemma corner_eq (cs : List (Cell K)) (h : ∀ c ∈ cs, CellOk c) (tmp : ℕ) (base : K) (i : ℕ) :
    corner cs tmp base (i : ℤ) = .ok ((idx cs tmp i : ℕ), base * coef cs tmp) := by
  induction cs generalizing tmp base i with
  | nil => simp [corner, idx, coef]
  | cons c cs ih =>
    have hc := h c (List.mem_cons_self ..)
    have ih := ih fun c hc => h c (List.mem_cons_of_mem _ hc)
    unfold corner
    rcases hc with ⟨h1, h2⟩ | ⟨h1, h2, h3, h4, h5⟩
    · have hn : c.n ≠ 1 := by omega
      have hn' : 1 < c.n := by omega
      simp only [hn, if_false, hn', if_true]
      have e : (i : ℤ) * c.n + c.a + ((tmp % 2 : ℕ) : ℤ) =
          ((i * c.n.toNat + c.a.toNat + off c (tmp % 2) : ℕ) : ℤ) := by
        push_cast
        rw [Int.toNat_of_nonneg (by omega), Int.toNat_of_nonneg h1]
        simp [off, hn']
      rw [e, ih]
      simp only [idx, coef, wt, hn, if_false]
      rw [mul_assoc]
    · have hx : c.x ≤ 1 := by linarith
      have hx' : ¬ (1 / 2 < c.x) := not_lt.2 h5
      have hn' : ¬ 1 < c.n := by omega
      simp only [h1, h2, h3, hx, h4, hx', and_self, if_true, if_false, lt_irrefl]
      have e : (i : ℤ) * 1 + 0 + ((0 : ℕ) : ℤ) =
          ((i * c.n.toNat + c.a.toNat + off c (tmp % 2) : ℕ) : ℤ) := by
        simp [off, h1, h3]
      rw [e, ih]
      simp only [idx, coef, wt, h1, if_true]
      rw [mul_assoc]

omit [Field K] [LinearOrder K] [FloorRing K] [IsStrictOrderedRing K] in
lemma idx_lt (cs : List (Cell K)) (h : ∀ c ∈ cs, (0 ≤ c.a ∧ c.a + 1 < c.n) ∨ (c.n = 1 ∧ c.a = 0))
    (tmp i m : ℕ) (hi : i < m) : idx cs tmp i < m * (cs.map fun c => c.n.toNat).prod := by
  induction cs generalizing tmp i m with
  | nil => simpa [idx] using hi
  | cons c cs ih =>
    have hc := h c (List.mem_cons_self ..)
    rw [List.map_cons, List.prod_cons, ← mul_assoc]
    unfold idx
    apply ih fun c hc => h c (List.mem_cons_of_mem _ hc)
    have ha : c.a.toNat + off c (tmp % 2) < c.n.toNat := by
      unfold off
      rcases hc with hc | hc <;> split_ifs <;> omega
    calc i * c.n.toNat + c.a.toNat + off c (tmp % 2) < i * c.n.toNat + c.n.toNat := by omega
      _ = (i + 1) * c.n.toNat := by ring
      _ ≤ m * c.n.toNat := Nat.mul_le_mul_right _ hi

lemma readAt_eq (data : List V) (i : ℕ) (h : i < data.length) :
    readAt data (i : ℤ) = .ok (data.getD i 0) := by
  unfold readAt
  have : ¬ (i : ℤ) < 0 := by omega
  simp [this, h]

omit [FloorRing K] [IsStrictOrderedRing K] in
lemma CellOk.weak {c : Cell K} (h : CellOk c) : (0 ≤ c.a ∧ c.a + 1 < c.n) ∨ (c.n = 1 ∧ c.a = 0) := by
  rcases h with h | h
  · exact Or.inl h
  · exact Or.inr ⟨h.1, h.2.2.1⟩

omit [FloorRing K] in
lemma cornerLoop_eq (cs : List (Cell K)) (h : ∀ c ∈ cs, CellOk c) (data : List V)
    (hlen : data.length = (cs.map fun c => c.n.toNat).prod) (m : ℕ) (v0 : V) :
    cornerLoop cs data (List.range (m + 1)) v0 =
      .ok (∑ ii ∈ Finset.range (m + 1), coef cs ii • data.getD (idx cs ii 0) 0) := by
  have step : ∀ (l : List ℕ) (ret : V), (∀ ii ∈ l, ii ≠ 0) → cornerLoop cs data l ret =
      .ok (ret + (l.map fun ii => coef cs ii • data.getD (idx cs ii 0) 0).sum) := by
    intro l
    induction l with
    | nil => intro ret _; simp [cornerLoop]
    | cons ii l ih =>
      intro ret hl
      have hlt := idx_lt cs (fun c hc => (h c hc).weak) ii 0 1 one_pos
      rw [one_mul, ← hlen] at hlt
      have hc := corner_eq cs h ii 1 0
      rw [Nat.cast_zero] at hc
      unfold cornerLoop
      rw [hc]
      simp only [Outcome.bind]
      rw [readAt_eq _ _ hlt]
      simp only [if_neg (hl ii (List.mem_cons_self ..)), one_mul]
      rw [ih _ fun i hi => hl i (List.mem_cons_of_mem _ hi), List.map_cons, List.sum_cons, add_assoc]
  have hlt := idx_lt cs (fun c hc => (h c hc).weak) 0 0 1 one_pos
  rw [one_mul, ← hlen] at hlt
  have hc := corner_eq cs h 0 1 0
  rw [Nat.cast_zero] at hc
  rw [List.range_succ_eq_map]
  unfold cornerLoop
  rw [hc]
  simp only [Outcome.bind]
  rw [readAt_eq _ _ hlt]
  simp only [if_true, one_mul]
  rw [step _ _ (by simp)]
  congr 1
  rw [Finset.sum_range_succ', add_comm, List.map_map]
  rfl

/-- What `eval` needs of a dimension and a coordinate. -/
def DimOk (s : ℕ × ℕ) (x : K) : Prop :=
  s.1 ≤ 28 ∧ s.2 ≤ 2 ∧ 1 ≤ nodal s.1 s.2 ∧ (nodal s.1 s.2 = 1 → s.2 = 0) ∧ 0 ≤ x ∧ x ≤ 1

/-- The cell that the first loop computes. -/
def cellOf (s : ℕ × ℕ) (x : K) : Cell K :=
  match evalDim s x with
  | .ok (some c) => c
  | _ => ⟨0, 0, 0, 0, 0⟩

lemma evalDim_ok (s : ℕ × ℕ) (x : K) (h : DimOk s x) :
    evalDim s x = .ok (some (cellOf s x)) ∧ (cellOf s x).n = nodal s.1 s.2 ∧ (cellOf s x).b = s.2 ∧
      (cellOf s x).x = x ∧ (nodal s.1 s.2 = 1 → (cellOf s x).a = 0) ∧
      (2 ≤ nodal s.1 s.2 → (cellOf s x).a = nearestCell s x ∧
        (cellOf s x).t = rel s x - nearestCell s x) := by
  obtain ⟨L, b⟩ := s
  obtain ⟨h1, h2, h3, h4, h5, h6⟩ := h
  simp only at h1 h2 h3 h4
  have hp : 0 < 2 ^ L := Nat.two_pow_pos L
  have hn : ((2 ^ L : ℕ) : ℤ) + b - 1 = (nodal L b : ℤ) := by
    unfold nodal at h3 ⊢
    omega
  have hx : ¬ (x < 0 ∨ 1 < x) := by
    rw [not_or]
    exact ⟨not_lt.2 h5, not_lt.2 h6⟩
  have hf0 : 0 ≤ ⌊x * ((2 ^ L : ℕ) : K)⌋ := Int.floor_nonneg.2 (by positivity)
  set F := ⌊x * ((2 ^ L : ℕ) : K)⌋ with hF
  by_cases hb : 0 < b
  · have hr : rel (L, b) x = x * ((2 ^ L : ℕ) : K) := by
      unfold rel
      simp [hb.ne']
    have hA : (if (nodal L b : ℤ) - 1 ≤ F then (nodal L b : ℤ) - 2 else F) =
        nearestCell (L, b) x ∨ nodal L b = 1 := by
      unfold nearestCell
      rw [hr, ← hF]
      simp only
      by_cases h1 : nodal L b = 1
      · exact Or.inr h1
      · left
        split_ifs <;> omega
    have he : evalDim (L, b) x = .ok (some ⟨nodal L b, b, x,
        if (nodal L b : ℤ) - 1 ≤ F then (nodal L b : ℤ) - 2 else F, x * ((2 ^ L : ℕ) : K) -
          ((if (nodal L b : ℤ) - 1 ≤ F then (nodal L b : ℤ) - 2 else F : ℤ) : K)⟩) := by
      unfold evalDim
      rw [if_neg hx]
      simp only [powerOfTwo?_eq h1, hn, hb, if_true, ← hF, not_lt.2 hf0, if_false]
    have hc : cellOf (L, b) x = ⟨nodal L b, b, x,
        if (nodal L b : ℤ) - 1 ≤ F then (nodal L b : ℤ) - 2 else F, x * ((2 ^ L : ℕ) : K) -
          ((if (nodal L b : ℤ) - 1 ≤ F then (nodal L b : ℤ) - 2 else F : ℤ) : K)⟩ := by
      unfold cellOf
      rw [he]
    rw [he, hc]
    refine ⟨rfl, rfl, rfl, rfl, ?_, ?_⟩
    · intro h
      exact absurd (h4 h) hb.ne'
    · intro h
      have hA' : _ = _ := hA.resolve_right (by simp only at h; omega)
      simp only
      rw [hA', hr]
      exact ⟨rfl, rfl⟩
  · have hb0 : b = 0 := by omega
    subst hb0
    have hr : rel (L, 0) x = x * ((2 ^ L : ℕ) : K) - 1 := by
      unfold rel
      simp
    have hfl : ⌊rel (L, 0) x⌋ = F - 1 := by
      rw [hr, Int.floor_sub_one]
    set N : ℤ := (nodal L 0 : ℤ) with hN
    have hN1 : 1 ≤ N := by omega
    have he : ∃ r : ℤ × K, evalDim (L, 0) x = .ok (some ⟨N, 0, x, if r.1 - 1 < 0 then 0 else r.1 - 1, r.2⟩) ∧
        (N = 1 → r.1 ≤ 1) ∧ (2 ≤ N → r.1 - 1 = nearestCell (L, 0) x ∧
          r.2 = rel (L, 0) x - nearestCell (L, 0) x) := by
      have hn' : ((2 ^ L : ℕ) : ℤ) + ((0 : ℕ) : ℤ) - 1 = N := hn
      unfold evalDim
      rw [if_neg hx]
      simp only [powerOfTwo?_eq h1, hn', lt_irrefl, if_false, ← hF, not_lt.2 hf0]
      refine ⟨_, rfl, ?_, ?_⟩
      · intro h
        split_ifs <;> simp only <;> omega
      · intro h
        have hnc : nearestCell (L, 0) x = max 0 (min (F - 1) (N - 2)) := by
          unfold nearestCell
          rw [hfl]
        rw [hnc, hr]
        by_cases g1 : F ≤ 0
        · rw [if_pos (by split_ifs <;> omega), show max 0 (min (F - 1) (N - 2)) = 0 by omega]
          exact ⟨rfl, by push_cast; ring⟩
        · by_cases g2 : N - 1 ≤ F
          · rw [if_neg (by split_ifs <;> omega), if_pos (by split_ifs <;> omega),
              show max 0 (min (F - 1) (N - 2)) = N - 2 by omega]
            exact ⟨by simp only; omega, by push_cast; ring⟩
          · rw [if_neg (by split_ifs <;> omega), if_neg (by split_ifs <;> omega),
              show max 0 (min (F - 1) (N - 2)) = F - 1 by omega, if_neg (by omega)]
            exact ⟨rfl, by push_cast; ring⟩
    obtain ⟨r, e1, e2, e3⟩ := he
    have hc : cellOf (L, 0) x = ⟨N, 0, x, if r.1 - 1 < 0 then 0 else r.1 - 1, r.2⟩ := by
      unfold cellOf
      rw [e1]
    rw [e1, hc]
    refine ⟨rfl, rfl, rfl, rfl, ?_, ?_⟩
    · intro h
      have := e2 (by rw [hN]; exact_mod_cast h)
      simp only
      split_ifs <;> omega
    · intro h
      obtain ⟨e4, e5⟩ := e3 (by rw [hN]; exact_mod_cast h)
      have h0 : 0 ≤ nearestCell (L, 0) x := le_max_left _ _
      simp only
      rw [if_neg (by omega)]
      exact ⟨e4, e5⟩

/-- What `eval` needs of all dimensions: a dimension with a single point is the last one, or its coordinate
is in the left half. The dimensions are in the order of the loop, the last one first. -/
def Half (s : ℕ × ℕ) (x : K) : Prop := nodal s.1 s.2 = 1 → x ≤ 1 / 2

omit [AddCommMonoid V] [Module K V] in
lemma cellOf_ok (s : ℕ × ℕ) (x : K) (h : DimOk s x) (hh : Half s x) : CellOk (cellOf s x) := by
  obtain ⟨-, h1, h2, h3, h4, h5⟩ := evalDim_ok s x h
  obtain ⟨g1, g2, g3, g4, g5, g6⟩ := h
  by_cases hn : nodal s.1 s.2 = 1
  · right
    exact ⟨by rw [h1, hn]; rfl, by rw [h2, g4 hn], h4 hn, by rw [h3]; exact g5, by rw [h3]; exact hh hn⟩
  · left
    obtain ⟨e1, -⟩ := h5 (by omega)
    rw [e1, h1]
    unfold nearestCell
    omega

lemma evalDims_ok (l : List ((ℕ × ℕ) × K)) (h : ∀ a ∈ l, DimOk a.1 a.2) :
    evalDims l = .ok (some (l.map fun a => cellOf a.1 a.2)) := by
  induction l with
  | nil => rfl
  | cons a l ih =>
    obtain ⟨s, x⟩ := a
    unfold evalDims
    rw [(evalDim_ok s x (h (s, x) (List.mem_cons_self ..))).1]
    simp only [Outcome.bind]
    rw [ih fun a ha => h a (List.mem_cons_of_mem _ ha)]
    rfl

omit [IsStrictOrderedRing K] in
/-- A coordinate outside of the unit interval. -/
lemma evalDims_outside (l : List ((ℕ × ℕ) × K)) (h : ∀ a ∈ l, a.1.1 < 30)
    (ho : ∃ a ∈ l, a.2 < 0 ∨ 1 < a.2) : evalDims l = .ok none := by
  induction l with
  | nil => simp at ho
  | cons a l ih =>
    obtain ⟨s, x⟩ := a
    unfold evalDims
    by_cases hx : x < 0 ∨ 1 < x
    · have : evalDim s x = .ok none := by
        unfold evalDim
        rw [if_pos hx]
      rw [this]
      rfl
    · have hs : ∃ c, evalDim s x = .ok (some c) := by
        have hs : s.1 < powerOfTwoTable.length := h (s, x) (List.mem_cons_self ..)
        unfold evalDim
        rw [if_neg hx]
        unfold powerOfTwo?
        rw [List.getElem?_eq_getElem hs]
        simp only
        split_ifs <;> exact ⟨_, rfl⟩
      obtain ⟨c, hc⟩ := hs
      rw [hc]
      simp only [Outcome.bind]
      rw [ih (fun a ha => h a (List.mem_cons_of_mem _ ha)) (by
        obtain ⟨a, ha, h1⟩ := ho
        rcases List.mem_cons.1 ha with rfl | ha
        · exact absurd h1 hx
        · exact ⟨a, ha, h1⟩)]
      rfl

omit [IsStrictOrderedRing K] in
/-- The one-dimensional sum. -/
lemma sum_basis {M : Type} [AddCommMonoid M] [Module K M] (s : ℕ × ℕ) (x : K) (h : DimOk s x) (c : Cell K)
    (hc : CellOk c) (h1 : c.n = nodal s.1 s.2)
    (h2 : 2 ≤ nodal s.1 s.2 → c.a = nearestCell s x ∧ c.t = rel s x - nearestCell s x)
    (h3 : nodal s.1 s.2 = 1 → c.x + c.x = hat s.1 s.2 0 x) (G : ℕ → M) :
    wt c 0 • G (c.a.toNat + off c 0) + wt c 1 • G (c.a.toNat + off c 1) =
      ∑ j ∈ Finset.range (nodal s.1 s.2), basis s x j • G j := by
  by_cases hn : nodal s.1 s.2 = 1
  · have ha : c.a = 0 := by
      rcases hc.weak with hc | hc
      · omega
      · exact hc.2
    have hcn : c.n = 1 := by rw [h1, hn]; rfl
    rw [hn, Finset.sum_range_one]
    unfold basis
    rw [if_pos hn, ← h3 hn, add_smul]
    simp [wt, off, hcn, ha]
  · have hn2 : 2 ≤ nodal s.1 s.2 := by have := h.2.2.1; omega
    obtain ⟨e1, e2⟩ := h2 hn2
    have hr : 0 ≤ nearestCell s x ∧ nearestCell s x + 1 < nodal s.1 s.2 := by
      unfold nearestCell
      omega
    obtain ⟨m, hm⟩ := Int.eq_ofNat_of_zero_le hr.1
    have hcn : c.n ≠ 1 := by omega
    have hcn' : 1 < c.n := by omega
    have hb : ∀ j, basis s x j • G j = (if j = m then (1 - c.t) • G j else 0) +
        (if j = m + 1 then c.t • G j else 0) := by
      intro j
      unfold basis
      rw [if_neg hn, e2, hm]
      have i1 : ((j : ℤ) = (m : ℤ)) = (j = m) := by simp
      have i2 : ((j : ℤ) = (m : ℤ) + 1) = (j = m + 1) := by
        rw [eq_iff_iff]
        omega
      simp only [i1, i2]
      by_cases a1 : j = m
      · have a2 : ¬ j = m + 1 := by omega
        simp only [a1, if_true]
        simp
      · by_cases a2 : j = m + 1
        · simp [a2]
        · simp [a1, a2]
    rw [Finset.sum_congr rfl fun j _ => hb j, Finset.sum_add_distrib, Finset.sum_ite_eq',
      Finset.sum_ite_eq', if_pos (Finset.mem_range.2 (by omega)), if_pos (Finset.mem_range.2 (by omega))]
    simp only [wt, off, hcn, hcn', if_true, if_false, e1, hm]
    simp

omit [IsStrictOrderedRing K] in
lemma interpolant_congr (as : List ((ℕ × ℕ) × K)) (f g : List ℕ → V)
    (h : ∀ is, List.Forall₂ (· < ·) is (as.map fun a => nodal a.1.1 a.1.2) → f is = g is) :
    interpolant as f = interpolant as g := by
  induction as generalizing f g with
  | nil => exact h [] List.Forall₂.nil
  | cons a as ih =>
    unfold interpolant
    refine Finset.sum_congr rfl fun j hj => ?_
    rw [ih]
    intro is his
    exact h _ (List.Forall₂.cons (Finset.mem_range.1 hj) his)

omit [IsStrictOrderedRing K] in
lemma interpolant_append (as : List ((ℕ × ℕ) × K)) (a : (ℕ × ℕ) × K) (f : List ℕ → V) :
    interpolant (as ++ [a]) f = ∑ j ∈ Finset.range (nodal a.1.1 a.1.2),
      basis a.1 a.2 j • interpolant as fun is => f (is ++ [j]) := by
  induction as generalizing f with
  | nil => rfl
  | cons b as ih =>
    rw [List.cons_append]
    simp only [interpolant]
    simp only [ih, Finset.smul_sum]
    rw [Finset.sum_comm]
    refine Finset.sum_congr rfl fun j _ => Finset.sum_congr rfl fun i _ => ?_
    rw [smul_comm]
    rfl

/-- A cell that stands for a dimension and a coordinate. -/
def Stands (a : (ℕ × ℕ) × K) (c : Cell K) : Prop :=
  DimOk a.1 a.2 ∧ CellOk c ∧ c.n = nodal a.1.1 a.1.2 ∧
    (2 ≤ nodal a.1.1 a.1.2 → c.a = nearestCell a.1 a.2 ∧ c.t = rel a.1 a.2 - nearestCell a.1 a.2) ∧
    (nodal a.1.1 a.1.2 = 1 → c.x + c.x = hat a.1.1 a.1.2 0 a.2)

omit [IsStrictOrderedRing K] in
lemma total_eq (as : List ((ℕ × ℕ) × K)) (cs : List (Cell K)) (h : List.Forall₂ Stands as.reverse cs)
    (g : ℕ → V) (i : ℕ) : total g cs i = interpolant as fun is =>
      g (sequentialIndex (as.map fun a => nodal a.1.1 a.1.2) is +
        (as.map fun a => nodal a.1.1 a.1.2).prod * i) := by
  induction as using List.reverseRecOn generalizing cs i with
  | nil =>
    cases h
    simp [total, interpolant, sequentialIndex_nil]
  | append_singleton as a ih =>
    rw [List.reverse_append] at h
    cases h with
    | @cons _ c _ cs hc hcs =>
      obtain ⟨h1, h2, h3, h4, h5⟩ := hc
      rw [interpolant_append]
      unfold total
      rw [ih cs hcs, ih cs hcs]
      have hn : c.n.toNat = nodal a.1.1 a.1.2 := by rw [h3]; rfl
      have := sum_basis a.1 a.2 h1 c h2 h3 h4 h5 fun j => interpolant as fun is =>
        g (sequentialIndex (as.map fun a => nodal a.1.1 a.1.2) is +
          (as.map fun a => nodal a.1.1 a.1.2).prod * (i * nodal a.1.1 a.1.2 + j))
      rw [hn, add_assoc, add_assoc, this]
      refine Finset.sum_congr rfl fun j _ => ?_
      rw [interpolant_congr]
      intro is his
      rw [List.map_append, List.map_cons, List.map_nil, sequentialIndex_append _ _ _ _ his.length_eq,
        List.prod_append, List.prod_singleton]
      congr 1
      ring

lemma hat_single (x : K) (h0 : 0 ≤ x) (h1 : x ≤ 1) :
    hat 1 0 0 x = if x ≤ 1 / 2 then x + x else (1 - x) + (1 - x) := by
  have hp : ((pos 0 0 : ℕ) : K) = 1 := by simp [pos]
  unfold Interpolation.hat
  rw [hp]
  simp only [pow_one, zero_ne_one, false_and, if_false, add_zero]
  split_ifs with h
  · rw [abs_of_nonpos (by linarith), max_eq_right (by linarith)]
    ring
  · rw [abs_of_nonneg (by linarith), max_eq_right (by linarith)]
    ring

lemma single_eq {s : ℕ × ℕ} (hb : s.2 = 0) (hn : nodal s.1 s.2 = 1) : s = (1, 0) := by
  obtain ⟨L, b⟩ := s
  simp only at hb hn
  subst hb
  unfold nodal at hn
  have h2 : 2 ^ L = 2 ^ 1 := by omega
  rw [Nat.pow_right_injective (le_refl 2) h2]

lemma stands_half (a : (ℕ × ℕ) × K) (h : DimOk a.1 a.2) (hh : Half a.1 a.2) :
    Stands a (cellOf a.1 a.2) := by
  obtain ⟨-, h1, h2, h3, h4, h5⟩ := evalDim_ok _ _ h
  refine ⟨h, cellOf_ok _ _ h hh, h1, h5, fun hn => ?_⟩
  rw [h3, single_eq (h.2.2.2.1 hn) hn, hat_single _ h.2.2.2.2.1 h.2.2.2.2.2, if_pos (hh hn)]

/-- The mirrored cell for the right half of a dimension with one point. -/
def mirror (c : Cell K) : Cell K := if c.n = 1 ∧ 1 / 2 < c.x then { c with x := 1 - c.x } else c

lemma stands_mirror (a : (ℕ × ℕ) × K) (h : DimOk a.1 a.2) : Stands a (mirror (cellOf a.1 a.2)) := by
  unfold mirror
  obtain ⟨-, h1, h2, h3, h4, h5⟩ := evalDim_ok _ _ h
  split_ifs with hc
  · have hn : nodal a.1.1 a.1.2 = 1 := by
      have := hc.1
      rw [h1] at this
      exact_mod_cast this
    have hx := hc.2
    rw [h3] at hx
    have h01 := h.2.2.2.2
    refine ⟨h, Or.inr ⟨hc.1, by rw [h2, h.2.2.2.1 hn], h4 hn, ?_, ?_⟩, h1, fun h => by omega, fun _ => ?_⟩
    · simp only [h3]
      linarith
    · simp only [h3]
      linarith
    · simp only [h3]
      rw [single_eq (h.2.2.2.1 hn) hn, hat_single _ h01.1 h01.2, if_neg (not_le.2 hx)]
  · refine stands_half a h fun hn => ?_
    rw [not_and] at hc
    have := hc (by rw [h1, hn]; rfl)
    rw [h3] at this
    exact not_lt.1 this

omit [FloorRing K] in
lemma corner_mirror (c : Cell K) (hx : c.n = 1 → 0 ≤ c.x ∧ c.x ≤ 1) (cs : List (Cell K)) (tmp : ℕ) (i : ℤ) :
    corner (mirror c :: cs) tmp 1 i = corner (c :: cs) tmp 1 i := by
  unfold mirror
  split_ifs with hc
  · obtain ⟨h1, h2⟩ := hc
    obtain ⟨h3, h4⟩ := hx h1
    have h5 : ¬ (1 / 2 < 1 - c.x) := by
      rw [not_lt]
      linarith
    have h6 : 1 - c.x ≤ 1 := by linarith
    have h7 : 0 ≤ 1 - c.x := by linarith
    unfold corner
    simp only [h1, if_true, h2, h3, h4, h5, h6, h7, if_false, one_mul]
  · rfl

omit [FloorRing K] in
lemma cornerLoop_mirror (c : Cell K) (hx : c.n = 1 → 0 ≤ c.x ∧ c.x ≤ 1) (cs : List (Cell K)) (data : List V)
    (l : List ℕ) (v : V) : cornerLoop (mirror c :: cs) data l v = cornerLoop (c :: cs) data l v := by
  induction l generalizing v with
  | nil => rfl
  | cons ii l ih =>
    unfold cornerLoop
    rw [corner_mirror c hx]
    simp only [ih]

/-- `basis` is the hat function between the first and the last point. -/
def Inner (s : ℕ × ℕ) (x : K) : Prop :=
  (s.2 = 0 → 1 / 2 ^ s.1 ≤ x ∨ s.1 = 1) ∧ (s.2 < 2 → x ≤ 1 - 1 / 2 ^ s.1 ∨ (s.2 = 0 ∧ s.1 = 1))

lemma basis_eq_hat (s : ℕ × ℕ) (x : K) (h : DimOk s x) (hi : Inner s x) (j : ℕ) (hj : j < nodal s.1 s.2) :
    basis s x j = hat s.1 s.2 j x := by
  obtain ⟨L, b⟩ := s
  obtain ⟨h1, h2, h3, h4, h5, h6⟩ := h
  simp only at h1 h2 h3 h4 hj
  have hp : (0 : K) < 2 ^ L := by positivity
  have hpn : 0 < 2 ^ L := Nat.two_pow_pos L
  unfold basis
  by_cases hn : nodal L b = 1
  · rw [if_pos hn]
  rw [if_neg hn]
  have hL : ¬ (b = 0 ∧ L = 1) := by
    rintro ⟨rfl, rfl⟩
    exact hn rfl
  have hpos : ((pos b j : ℕ) : ℤ) = j + if b = 0 then 1 else 0 := by
    unfold pos
    split_ifs <;> simp
  have hN : ((nodal L b : ℕ) : ℤ) = 2 ^ L + b - 1 := by
    unfold nodal at h3 ⊢
    have : (((2 ^ L : ℕ)) : ℤ) = 2 ^ L := by push_cast; rfl
    omega
  -- the hat function
  have hv := Interpolation.hat_value ⟨L, 0, 0, 0, 0, 0⟩ x ((pos b j : ℕ) : ℤ)
  rw [Int.cast_natCast] at hv
  set C := Interpolation.cell ⟨L, 0, 0, 0, 0, 0⟩ x with hC
  set F := Interpolation.frac ⟨L, 0, 0, 0, 0, 0⟩ x with hF
  have hF0 := Interpolation.frac_nonneg ⟨L, 0, 0, 0, 0, 0⟩ x
  rw [← hF] at hF0
  have hy : x * 2 ^ L = C + F := by
    rw [hF, hC]
    unfold Interpolation.frac
    ring
  have hper : b = 1 → max 0 (1 - |x * 2 ^ L - (2 : K) ^ L|) = 0 := by
    intro hb
    subst hb
    have hx : x ≤ 1 - 1 / 2 ^ L := (hi.2 (by simp)).resolve_right (by simp)
    have hx2 : x * 2 ^ L ≤ 2 ^ L - 1 := by
      have := mul_le_mul_of_nonneg_right hx hp.le
      rwa [sub_mul, one_div, inv_mul_cancel₀ hp.ne', one_mul] at this
    rw [abs_of_nonpos (by linarith), max_eq_left (by linarith)]
  have hhat : hat L b j x = if ((pos b j : ℕ) : ℤ) = C then 1 - F else
      if ((pos b j : ℕ) : ℤ) = C + 1 then F else 0 := by
    unfold Interpolation.hat
    rw [← hv]
    split_ifs with hb
    · rw [hper hb.1, add_zero]
    · rw [add_zero]
  -- the range of the coordinate
  set σ : ℤ := if b = 0 then 1 else 0 with hσ
  have hrel : rel (L, b) x = C + F - σ := by
    unfold rel
    simp only
    rw [hy, hσ]
    split_ifs <;> simp
  have hfl : ⌊rel (L, b) x⌋ = C - σ := by
    have h1 : rel (L, b) x = x * 2 ^ L - (σ : ℤ) := by rw [hrel, hy]
    rw [h1, Int.floor_sub_intCast]
    rfl
  have hlo : σ ≤ C := by
    rw [hC]
    unfold Interpolation.cell
    rw [Int.le_floor, hσ]
    split_ifs with hb
    · have hx : 1 / 2 ^ L ≤ x := (hi.1 hb).resolve_right fun h => hL ⟨hb, h⟩
      have := mul_le_mul_of_nonneg_right hx hp.le
      rw [one_div, inv_mul_cancel₀ hp.ne'] at this
      simpa using this
    · simp only [Int.cast_zero]
      positivity
  have hhi : (C : K) + F - σ ≤ ((nodal L b : ℕ) : ℤ) - 1 := by
    rw [hN, ← hy, hσ]
    have hb3 : b = 0 ∨ b = 1 ∨ b = 2 := by omega
    have hle : ∀ y : K, x ≤ y → x * 2 ^ L ≤ y * 2 ^ L := fun y h => mul_le_mul_of_nonneg_right h hp.le
    have hinv : (1 - 1 / 2 ^ L : K) * 2 ^ L = 2 ^ L - 1 := by
      rw [sub_mul, one_div, inv_mul_cancel₀ hp.ne', one_mul]
    rcases hb3 with rfl | rfl | rfl
    · have hx := hle _ ((hi.2 (by simp)).resolve_right hL)
      rw [hinv] at hx
      push_cast
      linarith
    · have hx := hle _ ((hi.2 (by simp)).resolve_right (by simp))
      rw [hinv] at hx
      push_cast
      linarith
    · have hx := hle _ h6
      push_cast
      linarith
  have hCle : C - σ ≤ (nodal L b : ℤ) - 1 := by
    have : ((C - σ : ℤ) : K) ≤ (((nodal L b : ℕ) : ℤ) - 1 : ℤ) := by
      push_cast at hhi ⊢
      linarith
    exact_mod_cast this
  rw [hhat, hpos, hrel]
  by_cases hcase : C - σ ≤ (nodal L b : ℤ) - 2
  · have hnc : nearestCell (L, b) x = C - σ := by
      unfold nearestCell
      rw [hfl]
      simp only
      omega
    rw [hnc]
    have i1 : ((j : ℤ) = C - σ) = ((j : ℤ) + σ = C) := by rw [eq_iff_iff]; omega
    have i2 : ((j : ℤ) = C - σ + 1) = ((j : ℤ) + σ = C + 1) := by rw [eq_iff_iff]; omega
    simp only [i1, i2]
    push_cast
    rw [show (C : K) + F - σ - (C - σ) = F by ring]
  · have hnc : nearestCell (L, b) x = (nodal L b : ℤ) - 2 := by
      unfold nearestCell
      rw [hfl]
      simp only
      omega
    have hCe : C = (nodal L b : ℤ) - 1 + σ := by omega
    have hF00 : F = 0 := by
      rw [hCe] at hhi
      push_cast at hhi
      linarith
    rw [hnc, hF00]
    by_cases hj1 : (j : ℤ) = (nodal L b : ℤ) - 2
    · rw [if_pos hj1, if_neg (show ¬ (j : ℤ) + σ = C by omega), ite_self, hCe]
      push_cast
      ring
    · rw [if_neg hj1]
      by_cases hj2 : (j : ℤ) = (nodal L b : ℤ) - 2 + 1
      · rw [if_pos hj2, if_pos (show (j : ℤ) + σ = C by omega), hCe]
        push_cast
        ring
      · rw [if_neg hj2, if_neg (show ¬ (j : ℤ) + σ = C by omega), ite_self]

end Verif.FullGridEval

import Verif.Lemmas.Norms
import Verif.Props.GroupGrid
import Verif.Props.TaskLists
import Mathlib.Algebra.BigOperators.Ring.List

/-!
# Property C79: norms of distributed grids

* `C79_max_norm`: for `p = 0` the result is the largest absolute value at a grid point.
* `C79_l1_norm`: for `p = 1` the result is the integral of the piecewise multilinear function with the
  absolute values at the grid points, for every decomposition.
* `C79_constant`, `C79_l2_violated`: for the constant 1 the result is not 1 for `p = 2` (the default).
* `C79_combined_violated`: the combination of the norms is not a norm of the combined solution.
* `C79_manager`: the manager combines the norms of all grids with their coefficients.
-/

namespace Verif.GroupGrid

open Finset

/-! ### The spec -/

/-- The value of a function given at the grid points of one dimension (level `l`, boundary flag `b`) at the
node `j / 2 ^ l`: with two boundary points every node is a point; with one the last node is the first one;
without boundary points the function is zero at both ends. -/
def nodeValue (l b : ℕ) (E : ℕ → ℚ) (j : ℕ) : ℚ :=
  if b = 2 then E j
  else if b = 1 then E (j % 2 ^ l)
  else if j = 0 ∨ j = 2 ^ l then 0 else E (j - 1)

/-- The integral over the unit cube of the function that is linear between neighbouring nodes in every
dimension: in every dimension the sum over the cells of the width times the mean of the values at both
ends. -/
def trapezoid : List (ℕ × ℕ) → (List ℕ → ℚ) → ℚ
  | [], f => f []
  | (l, b) :: rest, f =>
    ∑ k ∈ range (2 ^ l), 1 / 2 ^ l *
      ((nodeValue l b (fun i => trapezoid rest fun x => f (i :: x)) k +
        nodeValue l b (fun i => trapezoid rest fun x => f (i :: x)) (k + 1)) / 2)

/-- The number of grid points in one dimension. -/
def pointsOf (a : ℕ × ℕ) : ℕ := 2 ^ a.1 + a.2 - 1

/-! ### Maximum -/

lemma foldl_max (l : List ℚ) (m : ℚ) :
    m ≤ l.foldl max m ∧ (∀ v ∈ l, v ≤ l.foldl max m) ∧ (l.foldl max m = m ∨ l.foldl max m ∈ l) := by
  induction l generalizing m with
  | nil => simp
  | cons a l ih =>
    obtain ⟨h1, h2, h3⟩ := ih (max m a)
    simp only [List.foldl_cons, List.mem_cons]
    refine ⟨(le_max_left _ _).trans h1, fun v hv => ?_, ?_⟩
    · rcases hv with rfl | hv
      · exact (le_max_right _ _).trans h1
      · exact h2 v hv
    · rcases h3 with h3 | h3
      · rw [h3]
        rcases max_choice m a with h | h
        · exact .inl h
        · exact .inr (.inl h)
      · exact .inr (.inr h3)

lemma foldl_max_abs (l : List ℚ) (m : ℚ) :
    l.foldl (fun m v => max m |v|) m = (l.map (|·|)).foldl max m := by
  rw [List.foldl_map]

/-- C79: the maximum norm is the largest absolute value at a point of the grid (and 0 if there is none). -/
theorem C79_max_norm (g : List Dim1) (hg : ValidGrid g) (cs : List (List ℕ))
    (hcs : ∀ c, c ∈ cs ↔ ValidCoords g c) (data : List ℕ → List ℚ) (V : List ℕ → ℚ)
    (hV : Represents g data V) :
    (∀ x, IsPoint g x → |V x| ≤ maxNorm cs data) ∧
      ((∃ x, IsPoint g x ∧ maxNorm cs data = |V x|) ∨
        (maxNorm cs data = 0 ∧ ∀ x, IsPoint g x → V x = 0)) := by
  obtain ⟨-, h2, h3⟩ := foldl_max (cs.map fun c => (data c).foldl (fun m v => max m |v|) 0) (-1)
  have hloc : ∀ c, ValidCoords g c → ∀ v ∈ data c, ∃ x, IsPoint g x ∧ v = V x := by
    intro c hc v hv
    obtain ⟨k, hk, rfl⟩ := List.mem_iff_getElem.1 hv
    obtain ⟨e1, e2⟩ := hV c hc
    obtain ⟨s1, s2⟩ := getVectorIndex_spec (localSizes g c) k (by omega)
    have h := e2 _ s1
    rw [s2, List.getElem?_eq_getElem hk] at h
    exact ⟨_, (here_of_local g hg c hc _ s1).2.2, Option.some.inj h⟩
  have hub : ∀ x, IsPoint g x → |V x| ≤ maxNorm cs data := by
    intro x hx
    obtain ⟨c, ⟨hc, hh⟩, -⟩ := C12_unique_owner g hg x hx
    obtain ⟨y, hy, rfl⟩ := (here_iff hg hc hx).1 hh
    have h := (hV c hc).2 y hy
    refine le_trans ?_ (h2 _ (List.mem_map.2 ⟨c, (hcs c).2 hc, rfl⟩))
    rw [foldl_max_abs]
    exact (foldl_max _ 0).2.1 _ (List.mem_map.2 ⟨_, List.mem_of_getElem? h, rfl⟩)
  refine ⟨hub, ?_⟩
  have hcoord : ∃ c, ValidCoords g c := by
    refine ⟨g.map fun _ => 0, ?_⟩
    unfold ValidCoords
    rw [List.forall₂_map_left_iff, List.forall₂_same]
    intro d hd
    have := (hg d hd).head
    cases hdec : d.dec with
    | nil => simp [hdec] at this
    | cons => simp
  have hnonneg : 0 ≤ maxNorm cs data := by
    obtain ⟨c, hc⟩ := hcoord
    refine le_trans ?_ (h2 _ (List.mem_map.2 ⟨c, (hcs c).2 hc, rfl⟩))
    rw [foldl_max_abs]
    exact (foldl_max _ 0).1
  change maxNorm cs data = -1 ∨ maxNorm cs data ∈ _ at h3
  rcases h3 with h3 | h3
  · rw [h3] at hnonneg
    exact absurd hnonneg (by norm_num)
  · rw [List.mem_map] at h3
    obtain ⟨c, hc, h4⟩ := h3
    rw [foldl_max_abs] at h4
    rcases (foldl_max ((data c).map (|·|)) 0).2.2 with h5 | h5
    · right
      have h0 : maxNorm cs data = 0 := by rw [← h4, h5]
      refine ⟨h0, fun x hx => ?_⟩
      have := hub x hx
      rw [h0] at this
      exact abs_eq_zero.1 (le_antisymm this (abs_nonneg _))
    · left
      rw [h4, List.mem_map] at h5
      obtain ⟨v, hv, h6⟩ := h5
      obtain ⟨x, hx, rfl⟩ := hloc c ((hcs c).1 hc) v hv
      exact ⟨x, hx, h6.symm⟩

/-! ### Sums -/

/-- Number of dimensions with two boundary points in which the point is on the boundary. -/
def onBoundary (bs x ns : List ℕ) : ℕ :=
  (List.zipWith (fun (b : ℕ) (xn : ℕ × ℕ) => decide (b = 2 ∧ (xn.1 = 0 ∨ xn.1 = xn.2 - 1))) bs
    (x.zip ns)).count true

lemma onBoundary_cons (b : ℕ) (bs : List ℕ) (i : ℕ) (x : List ℕ) (n : ℕ) (ns : List ℕ) :
    onBoundary (b :: bs) (i :: x) (n :: ns) =
      (if b = 2 ∧ (i = 0 ∨ i = n - 1) then 1 else 0) + onBoundary bs x ns := by
  unfold onBoundary
  simp only [List.zip_cons_cons, List.zipWith_cons_cons, List.count_cons]
  rw [Nat.add_comm]
  congr 1
  by_cases h : b = 2 ∧ (i = 0 ∨ i = n - 1) <;> simp [h]

lemma localPowerSum_eq (g : List Dim1) (hg : ValidGrid g) (bs : List ℕ) (p : ℕ) (c : List ℕ)
    (hc : ValidCoords g c) (data : List ℕ → List ℚ) (V : List ℕ → ℚ) (hV : Represents g data V) :
    localPowerSum g bs p c (data c) =
      ((Interpolation.allCoords (localSizes g c)).map fun y =>
        |V (List.zipWith (· + ·) (lowerBounds g c) y)| ^ p *
          (1 / 2 ^ onBoundary bs (List.zipWith (· + ·) (lowerBounds g c) y) (globalSizes g))).sum := by
  obtain ⟨e1, e2⟩ := hV c hc
  rw [← ((range_perm (localSizes g c)).map _).sum_eq, List.map_map]
  unfold localPowerSum
  have hfold : ∀ (l : List ℕ) (F : ℕ → ℚ) (a : ℚ),
      l.foldl (fun r i => r + F i) a = a + (l.map F).sum := by
    intro l F
    induction l with
    | nil => simp
    | cons b l ih =>
      intro a
      rw [List.foldl_cons, ih, List.map_cons, List.sum_cons, add_assoc]
  rw [hfold, zero_add, e1]
  congr 1
  refine List.map_congr_left fun k hk => ?_
  rw [List.mem_range] at hk
  obtain ⟨s1, s2⟩ := getVectorIndex_spec (localSizes g c) k hk
  obtain ⟨-, t2, -⟩ := C13_local_to_global g hg c hc k hk
  have h := e2 _ s1
  rw [s2] at h
  rw [List.getD_eq_getElem?_getD, h, Option.getD_some]
  simp only [Function.comp_apply, countBoundary, onBoundary]
  rw [t2]

/-- The sum over all processes is a sum over all points. -/
lemma sum_points (g : List Dim1) (hg : ValidGrid g) (cs : List (List ℕ)) (hn : cs.Nodup)
    (hcs : ∀ c, c ∈ cs ↔ ValidCoords g c) (bs : List ℕ) (p : ℕ) (data : List ℕ → List ℚ)
    (V : List ℕ → ℚ) (hV : Represents g data V) :
    (cs.map fun c => localPowerSum g bs p c (data c)).sum =
      ((Interpolation.allCoords (globalSizes g)).map fun x =>
        |V x| ^ p * (1 / 2 ^ onBoundary bs x (globalSizes g))).sum := by
  rw [← ((parts_perm g hg cs hn hcs).map _).sum_eq, List.flatMap_def, List.map_flatten,
    List.sum_flatten, List.map_map, List.map_map]
  congr 1
  refine List.map_congr_left fun c hc => ?_
  rw [localPowerSum_eq g hg bs p c ((hcs c).1 hc) data V hV]
  simp [Function.comp_def]

/-- The trapezoidal sum in one dimension. -/
lemma trapezoid_dim (l b : ℕ) (hb : b ≤ 2) (E : ℕ → ℚ) :
    ∑ k ∈ range (2 ^ l), 1 / 2 ^ l * ((nodeValue l b E k + nodeValue l b E (k + 1)) / 2) =
      1 / 2 ^ l * ∑ i ∈ range (pointsOf (l, b)),
        E i * (1 / 2 ^ (if b = 2 ∧ (i = 0 ∨ i = pointsOf (l, b) - 1) then 1 else 0)) := by
  rw [← mul_sum]
  congr 1
  have htel : ∀ (e : ℕ → ℚ) (n : ℕ), ∑ k ∈ range n, (e k + e (k + 1)) / 2 =
      ∑ k ∈ range n, e k + (e n - e 0) / 2 := by
    intro e n
    induction n with
    | zero => simp
    | succ n ih =>
      rw [sum_range_succ, sum_range_succ, ih]
      ring
  rw [htel]
  have hpos : 0 < 2 ^ l := by positivity
  obtain ⟨n, hn⟩ : ∃ n, 2 ^ l = n + 1 := ⟨2 ^ l - 1, by omega⟩
  have hN : pointsOf (l, b) = n + b := by
    unfold pointsOf
    simp only
    omega
  rw [hN, hn]
  interval_cases b
  · rw [sum_range_succ']
    simp only [nodeValue, hn]
    have : ∀ k ∈ range n, (if (0 : ℕ) = 2 then E (k + 1) else if (0 : ℕ) = 1 then E ((k + 1) % (n + 1))
        else if k + 1 = 0 ∨ k + 1 = n + 1 then 0 else E (k + 1 - 1)) = E k := by
      intro k hk
      rw [mem_range] at hk
      rw [if_neg (by omega), if_neg (by omega), if_neg (by omega), Nat.add_sub_cancel]
    rw [sum_congr rfl this]
    simp
  · have : ∀ k, nodeValue l 1 E k = E (k % (n + 1)) := by
      intro k
      rw [nodeValue, if_neg (by omega), if_pos rfl, hn]
    rw [sum_congr rfl fun k hk => (this k).trans (by rw [Nat.mod_eq_of_lt (mem_range.1 hk)]), this, this]
    simp
  · simp only [nodeValue, if_true]
    rw [show n + 2 - 1 = n + 1 by omega, sum_range_succ _ (n + 1), sum_range_succ' E n,
      sum_range_succ' _ n]
    have : ∀ k ∈ range n, E (k + 1) * (1 / 2 ^ (if (2 : ℕ) = 2 ∧ (k + 1 = 0 ∨ k + 1 = n + 1) then 1 else 0)) =
        E (k + 1) := by
      intro k hk
      rw [mem_range] at hk
      rw [if_neg (by omega)]
      simp
    simp only [true_and] at this ⊢
    rw [sum_congr rfl this]
    simp
    ring

lemma foldl_mul (l : List ℚ) (a : ℚ) : l.foldl (· * ·) a = a * l.prod := by
  induction l generalizing a with
  | nil => simp
  | cons b l ih => rw [List.foldl_cons, ih, List.prod_cons, mul_assoc]

lemma sum_trapezoid (axes : List (ℕ × ℕ)) (hb : ∀ a ∈ axes, a.2 ≤ 2) (f : List ℕ → ℚ) :
    ((Interpolation.allCoords (axes.map pointsOf)).map fun x =>
      f x * (1 / 2 ^ onBoundary (axes.map (·.2)) x (axes.map pointsOf))).sum *
        (axes.map fun a => (1 / 2 ^ a.1 : ℚ)).prod = trapezoid axes f := by
  induction axes generalizing f with
  | nil => simp [Interpolation.allCoords, trapezoid, onBoundary]
  | cons a rest ih =>
    obtain ⟨l, b⟩ := a
    rw [trapezoid, trapezoid_dim l b (hb (l, b) (by simp))]
    simp only [List.map_cons, List.prod_cons]
    rw [Interpolation.sum_allCoords_cons, mul_left_comm, sum_mul]
    congr 1
    refine sum_congr rfl fun i _ => ?_
    rw [← ih (fun a ha => hb a (by simp [ha])), mul_right_comm]
    congr 1
    rw [← List.sum_map_mul_right]
    congr 1
    refine List.map_congr_left fun x _ => ?_
    rw [onBoundary_cons, pow_add]
    field_simp

/-- C79: `getLpNorm(1)` is the integral of the multilinear interpolant of the absolute values, for every
decomposition of the grid (`axes`: level and boundary flag of each dimension). -/
theorem C79_l1_norm (g : List Dim1) (hg : ValidGrid g) (axes : List (ℕ × ℕ))
    (hb : ∀ a ∈ axes, a.2 ≤ 2) (hax : globalSizes g = axes.map pointsOf)
    (cs : List (List ℕ)) (hn : cs.Nodup) (hcs : ∀ c, c ∈ cs ↔ ValidCoords g c)
    (data : List ℕ → List ℚ) (V : List ℕ → ℚ) (hV : Represents g data V) :
    lpNormPow g (axes.map (·.1)) (axes.map (·.2)) cs data 1 = trapezoid axes fun x => |V x| := by
  unfold lpNormPow
  rw [sum_points g hg cs hn hcs _ 1 data V hV, foldl_mul, one_mul, pow_one, List.map_map, hax,
    ← sum_trapezoid axes hb]
  simp only [pow_one]
  rfl

lemma trapezoid_const (axes : List (ℕ × ℕ)) (hb : ∀ a ∈ axes, a.2 = 1 ∨ a.2 = 2) (r : ℚ) :
    trapezoid axes (fun _ => r) = r := by
  induction axes with
  | nil => rfl
  | cons a rest ih =>
    obtain ⟨l, b⟩ := a
    have hnode : ∀ j, nodeValue l b (fun _ => r) j = r := by
      intro j
      unfold nodeValue
      rcases hb (l, b) (by simp) with h | h <;> simp only at h <;> subst h <;> simp
    rw [trapezoid]
    simp only [ih fun a ha => hb a (by simp [ha]), hnode]
    rw [sum_const, card_range, nsmul_eq_mul]
    push_cast
    field_simp
    ring

/-- C79: for a function that is 1 everywhere (in a domain with boundary points) the `p`-th power of
`getLpNorm(p)` is the volume of a cell to the power `p - 1`. -/
theorem C79_constant (g : List Dim1) (hg : ValidGrid g) (axes : List (ℕ × ℕ))
    (hb : ∀ a ∈ axes, a.2 = 1 ∨ a.2 = 2) (hax : globalSizes g = axes.map pointsOf)
    (cs : List (List ℕ)) (hn : cs.Nodup) (hcs : ∀ c, c ∈ cs ↔ ValidCoords g c)
    (data : List ℕ → List ℚ) (hV : Represents g data fun _ => 1) (p : ℕ) :
    lpNormPow g (axes.map (·.1)) (axes.map (·.2)) cs data (p + 1) =
      (axes.map fun a => (1 / 2 ^ a.1 : ℚ)).prod ^ p := by
  have h := sum_trapezoid axes (fun a ha => by rcases hb a ha with h | h <;> omega) fun _ => 1
  rw [trapezoid_const axes hb] at h
  unfold lpNormPow
  rw [sum_points g hg cs hn hcs _ (p + 1) data _ hV, foldl_mul, one_mul, List.map_map, hax]
  simp only [abs_one, one_pow]
  change _ * (axes.map fun a => (1 / 2 ^ a.1 : ℚ)).prod ^ (p + 1) = _
  rw [pow_succ', ← mul_assoc, h, one_mul]

/-- C79: the "L2 norm" (the default of `ProcessManager::getLpNorm`) of the constant 1 is not 1: its square
is 1/2 on the grid of level 1 with both boundary points. -/
theorem C79_l2_violated :
    Represents [⟨[0], 3⟩] (fun _ => [1, 1, 1]) (fun _ => (1 : ℚ)) ∧
      trapezoid [(1, 2)] (fun _ => 1) = 1 ∧
      lpNormPow [⟨[0], 3⟩] [1] [2] [[0]] (fun _ => [1, 1, 1]) 2 = 1 / 2 := by
  refine ⟨fun c hc => ?_, trapezoid_const _ (by simp) 1, by decide +kernel⟩
  obtain ⟨hl, hb⟩ := (validCoords_iff _ c).1 hc
  have hc0 : c = [0] := by
    obtain ⟨a, rfl⟩ := List.length_eq_one_iff.1 hl
    have := hb 0 (by simp)
    simp [procsOf] at this
    rw [this]
  subst hc0
  refine ⟨rfl, fun y hy => ?_⟩
  have hy' := sequentialIndex_lt _ _ hy
  rw [show (localSizes [(⟨[0], 3⟩ : Dim1)] [0]).prod = 3 from rfl] at hy'
  generalize sequentialIndex (localSizes [(⟨[0], 3⟩ : Dim1)] [0]) y = k at hy'
  interval_cases k <;> rfl

/-- C79: the manager's result is not a norm "of the current combined solution". For the standard combination
of two grids of the levels (1, 2) and (2, 1) (and the coefficient -1 for (1, 1)), with both boundary points,
and the solution that is 1 in the middle and 0 at all other points, the combined L1 norm is 0. -/
theorem C79_combined_violated :
    trapezoid [(1, 2), (2, 2)] (fun x => if x = [1, 2] then 1 else 0) +
      trapezoid [(2, 2), (1, 2)] (fun x => if x = [2, 1] then 1 else 0) -
      trapezoid [(1, 2), (1, 2)] (fun x => if x = [1, 1] then 1 else 0) = 0 := by
  simp [trapezoid, nodeValue, sum_range_succ]
  norm_num

/-! ### The manager -/

lemma kahan_aux (l : List ℚ) (a : ℚ) :
    l.foldl (fun (acc : ℚ × ℚ) s =>
      let y := s - acc.2
      let t := acc.1 + y
      (t, (t - acc.1) - y)) (a, 0) = (a + l.sum, 0) := by
  induction l generalizing a with
  | nil => simp
  | cons s l ih =>
    rw [List.foldl_cons, List.sum_cons, ← add_assoc, ← ih (a + s)]
    congr 1
    simp

lemma kahanSum_eq (l : List ℚ) : kahanSum l = l.sum := by
  unfold kahanSum
  rw [kahan_aux]
  simp

lemma setNorm_new (norms : List (ℕ × ℚ)) (id : ℕ) (v : ℚ) (h : ∀ q ∈ norms, q.1 ≠ id) :
    setNorm norms id v = norms ++ [(id, v)] := by
  unfold setNorm
  rw [if_neg]
  simp only [List.any_eq_true, beq_iff_eq, not_exists, not_and]
  exact h

lemma groupNorms_eq (container : List ℕ) (msg : List ℚ) (norms : List (ℕ × ℚ))
    (hlen : msg.length = container.length) (hn : (norms.map (·.1) ++ container).Nodup) :
    groupNorms container msg norms = some (norms ++ container.zip msg) := by
  unfold groupNorms
  rw [if_neg (by omega)]
  congr 1
  have key : ∀ k ≤ container.length, (List.range k).foldl (fun acc j =>
      match container[j]? with
        | some id => setNorm acc id ((msg[j]?).getD 0)
        | none => acc) norms = norms ++ (container.zip msg).take k := by
    intro k hk
    induction k with
    | zero => simp
    | succ k ih =>
      rw [List.range_succ, List.foldl_append, ih (by omega), List.foldl_cons, List.foldl_nil,
        List.getElem?_eq_getElem (by omega), List.getElem?_eq_getElem (by omega)]
      simp only [Option.getD_some]
      rw [setNorm_new]
      · rw [List.append_assoc]
        congr 1
        rw [← List.take_concat_get' _ k (by simp; omega)]
        simp
      · intro q hq he
        rw [List.mem_append] at hq
        rcases hq with hq | hq
        · exact (List.nodup_append.1 hn).2.2 _ (List.mem_map.2 ⟨q, hq, rfl⟩) _
            (List.getElem_mem (by omega : k < container.length)) he
        · obtain ⟨i, hi, hq⟩ := List.mem_take_iff_getElem.1 hq
          rw [← hq] at he
          simp only [List.getElem_zip] at he
          have hnd := (List.nodup_append.1 hn).2.1
          have := (List.Nodup.getElem_inj_iff hnd).1 he
          omega
  exact (key _ (le_refl _)).trans (by rw [List.take_of_length_le (by simp)])

/-- C79: if the manager and the groups agree on which group holds which task and in which order (C48:
`Holds`), the norm the manager returns is the sum over all tasks of coefficient times norm. -/
theorem C79_manager (ts : List TaskLists.Task) (m : TaskLists.Manager) (h : TaskLists.Holds ts m)
    (hid : (ts.map (·.id)).Nodup) (norm : TaskLists.Task → ℚ) (coeff : ℕ → ℚ) :
    managerLpNorm coeff (m.groups.map fun g => (g.container.map (·.id), g.worker.map norm)) =
      some (ts.map fun t => coeff t.id * norm t).sum := by
  obtain ⟨hw, hp, -⟩ := h
  have hid' : ((m.groups.flatMap TaskLists.Group.worker).map (·.id)).Nodup :=
    ((hp.map _).nodup_iff).2 hid
  have hfold : ∀ (gs : List TaskLists.Group) (done : List TaskLists.Task),
      (∀ g ∈ gs, g.worker = g.container) →
      ((done ++ gs.flatMap TaskLists.Group.worker).map (·.id)).Nodup →
      (gs.map fun g => (g.container.map (·.id), g.worker.map norm)).foldlM
        (fun acc (g : List ℕ × List ℚ) => groupNorms g.1 g.2 acc)
          (done.map fun t => (t.id, norm t)) =
        some ((done ++ gs.flatMap TaskLists.Group.worker).map fun t => (t.id, norm t)) := by
    intro gs
    induction gs with
    | nil => intro done _ _; simp
    | cons g gs ih =>
      intro done hw hnd
      rw [List.map_cons, List.foldlM_cons]
      have hg := hw g (by simp)
      rw [List.flatMap_cons, ← List.append_assoc] at hnd
      rw [groupNorms_eq _ _ _ (by simp [hg])]
      · simp only [Option.bind_eq_bind, Option.bind_some]
        have he : (done.map fun t => (t.id, norm t)) ++
            (g.container.map (·.id)).zip (g.worker.map norm) =
            (done ++ g.worker).map fun t => (t.id, norm t) := by
          rw [List.map_append, ← hg, List.zip_map', ]
        rw [he, ih (done ++ g.worker) (fun g' h' => hw g' (by simp [h'])) hnd, List.flatMap_cons,
          List.append_assoc]
      · rw [List.map_append, List.nodup_append] at hnd
        have := hnd.1
        rw [List.map_append, hg] at this
        rw [List.map_map]
        exact this
  have := hfold m.groups [] hw (by simpa using hid')
  simp only [List.map_nil, List.nil_append] at this
  unfold managerLpNorm
  rw [this]
  simp only [Option.bind_eq_bind, Option.bind_some]
  rw [kahanSum_eq, List.map_map, ← (hp.map _).sum_eq]
  congr 2
  refine List.map_congr_left fun t _ => ?_
  simp [mul_comm]

/-! ### Examples -/

/-- C79: the hypotheses are met by the 3 × 4 grid of the levels (1, 2) with flags 2 and 1 on 2 × 2 processes
(for buffers see the example in `Verif/Props/GroupGrid.lean`). -/
example : ValidGrid exampleGrid ∧ (Verif.allCoords exampleGrid).Nodup ∧
    (∀ c, c ∈ Verif.allCoords exampleGrid ↔ ValidCoords exampleGrid c) ∧
    globalSizes exampleGrid = [(1, 2), (2, 1)].map pointsOf ∧
    ∀ a ∈ [(1, 2), (2, 1)], a.2 = 1 ∨ a.2 = 2 :=
  ⟨FullParts.validGrid (by simp [FullParts, exampleGrid]), by decide, fun c => Verif.mem_allCoords _ c,
    by decide, by decide⟩

/-- C79: two groups with two tasks. -/
example : TaskLists.Holds [⟨3, [1, 2]⟩, ⟨5, [2, 1]⟩]
    { tasks := [⟨3, [1, 2]⟩, ⟨5, [2, 1]⟩]
      groups := [⟨[⟨5, [2, 1]⟩], [.append ⟨5, [2, 1]⟩], false⟩,
        ⟨[⟨3, [1, 2]⟩], [.append ⟨3, [1, 2]⟩], false⟩] } := by
  refine ⟨by decide, by decide, by decide⟩

end Verif.GroupGrid

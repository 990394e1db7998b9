import Verif.Model.InterpolateValues
import Verif.Lemmas.HatSpace
import Verif.Props.Interpolation
import Verif.Props.CombineExact
import Verif.Lemmas.Kahan

/-!
# Interpolation of the combined solution (C74)

`C74_interpolateValues_partial`: for every distribution of tasks to groups, process grid, decomposition and
list of coordinates, every process ends up with the combination of the interpolants of all component grids,
at every coordinate. `C74_exact_partial`: functions of the sparse grid space (sums of hat functions of
levels that the scheme contains) are reproduced exactly at every coordinate.

What is missing for the full statement is the same as in C56: the right end of periodic dimensions.
-/

namespace Verif.Interpolation

variable {K : Type} [Field K] [LinearOrder K] [FloorRing K] [IsStrictOrderedRing K]
  {V : Type} [AddCommGroup V] [Module K V]

/-- One dimension of a distributed grid. -/
structure GridAxis where
  level : ℕ
  boundary : ℕ
  dec : List ℕ

/-- The dimension together with a coordinate. -/
def GridAxis.at (a : GridAxis) (x : K) : Axis K := ⟨a.level, a.boundary, a.dec, x⟩

/-- A component grid on the processes of a group: its coefficient, dimensions, values as a function of the
global index, and the local data of each rank. -/
structure CombiGrid (K V : Type) where
  coeff : K
  axes : List GridAxis
  f : List ℕ → V
  data : ℕ → List V

/-- The task as rank `r` with the coordinates `cs` in the process grid sees it. -/
def CombiGrid.on (t : CombiGrid K V) (cs : List ℕ) (r : ℕ) : EvalTask K V :=
  ⟨t.coeff, List.zipWith (fun a c => (a.at (0 : K)).dim c) t.axes cs, t.data r⟩

/-- The dimensions with the coordinates of a point. -/
def axesAt (axes : List GridAxis) (xs : List K) : List (Axis K) := List.zipWith GridAxis.at axes xs

/-- The ranks `0, …, p-1` are the processes of a process grid with `par` processes per dimension. -/
structure ProcGrid (p : ℕ) (cart : ℕ → List ℕ) (par : List ℕ) : Prop where
  nodup : ((List.range p).map cart).Nodup
  mem : ∀ c, c ∈ (List.range p).map cart ↔ List.Forall₂ (· < ·) c par

/-- A usable component grid: the decomposition belongs to the process grid, the ranks hold their parts of
the values. -/
structure CombiGrid.Ok (t : CombiGrid K V) (p : ℕ) (cart : ℕ → List ℕ) (par : List ℕ) : Prop where
  par : t.axes.map (fun a => a.dec.length) = par
  data : ∀ r < p, IsLocalData (t.axes.map (·.at (0 : K))) (cart r) t.f (t.data r)

/-- A coordinate that can be used on a grid, see `AxisOk`. -/
def CoordOk (t : CombiGrid K V) (xs : List K) : Prop :=
  xs.length = t.axes.length ∧ ∀ a ∈ axesAt t.axes xs, AxisOk a

omit [FloorRing K] [IsStrictOrderedRing K] [LinearOrder K] [AddCommGroup V] [Module K V] in
lemma localData_at (axes : List GridAxis) (xs : List K) (hx : xs.length = axes.length) (cs : List ℕ)
    (f : List ℕ → V) (data : List V) (h : IsLocalData (axes.map (·.at (0 : K))) cs f data) :
    IsLocalData (axesAt axes xs) cs f data := by
  have h1 : ∀ (axes : List GridAxis) (xs : List K) (cs : List ℕ), xs.length = axes.length →
      (dimsOf (axesAt axes xs) cs).map (fun p => p.1.size) =
        (dimsOf (axes.map (·.at (0 : K))) cs).map (fun p => p.1.size) ∧
      lowers (axesAt axes xs) cs = lowers (axes.map (·.at (0 : K))) cs := by
    intro axes
    induction axes with
    | nil => intro xs cs _; exact ⟨rfl, rfl⟩
    | cons a axes ih =>
      intro xs cs hl
      cases xs with
      | nil => simp at hl
      | cons x xs =>
        cases cs with
        | nil => exact ⟨rfl, rfl⟩
        | cons c cs =>
          obtain ⟨e1, e2⟩ := ih xs cs (by simpa using hl)
          refine ⟨?_, ?_⟩
          · simp only [axesAt, List.zipWith_cons_cons, dimsOf, List.map_cons] at e1 ⊢
            rw [e1]
            rfl
          · simp only [axesAt, List.zipWith_cons_cons, lowers, List.map_cons] at e2 ⊢
            rw [e2]
            rfl
  obtain ⟨e1, e2⟩ := h1 axes xs cs hx
  unfold IsLocalData at *
  rw [e1, e2]
  exact h

omit [FloorRing K] [IsStrictOrderedRing K] [LinearOrder K] in
lemma axesAt_dims (axes : List GridAxis) (xs : List K) (hx : xs.length = axes.length) (cs : List ℕ) :
    List.zipWith (fun a c => a.dim c) (axesAt axes xs) cs =
      List.zipWith (fun a c => (a.at (0 : K)).dim c) axes cs ∧
    (axesAt axes xs).map (·.x) = xs ∧
    (axesAt axes xs).map (fun a => a.dec.length) = axes.map fun a => a.dec.length := by
  induction axes generalizing xs cs with
  | nil =>
    cases xs with
    | nil => exact ⟨rfl, rfl, rfl⟩
    | cons x xs => simp at hx
  | cons a axes ih =>
    cases xs with
    | nil => simp at hx
    | cons x xs =>
      obtain ⟨e1, e2, e3⟩ := ih xs (by simpa using hx) cs.tail
      refine ⟨?_, ?_, ?_⟩
      · cases cs with
        | nil => rfl
        | cons c cs =>
          simp only [axesAt, List.zipWith_cons_cons, List.tail_cons] at e1 ⊢
          rw [e1]
          rfl
      · simp only [axesAt, List.zipWith_cons_cons, List.map_cons] at e2 ⊢
        rw [e2]
        rfl
      · simp only [axesAt, List.zipWith_cons_cons, List.map_cons] at e3 ⊢
        rw [e3]
        rfl

/-- The result of `evalLocal`. -/
def evalVal (e : EvalTask K V) (xs : List K) : V :=
  match evalLocal e.dims xs e.data with
  | .ok v => v
  | _ => 0

/-- One grid on one process, and the sum over the processes. -/
lemma grid_eval {p : ℕ} {cart : ℕ → List ℕ} {par : List ℕ} (hg : ProcGrid p cart par)
    {t : CombiGrid K V} (ht : t.Ok p cart par) {xs : List K} (hx : CoordOk t xs) :
    (∀ r < p, evalLocal (t.on (cart r) r).dims xs (t.on (cart r) r).data =
      .ok (evalVal (t.on (cart r) r) xs)) ∧
    ((List.range p).map fun r => evalVal (t.on (cart r) r) xs).sum = interp (axesAt t.axes xs) t.f := by
  obtain ⟨-, e2, e3⟩ := axesAt_dims t.axes xs hx.1 []
  have hinj : ∀ r < p, ∀ r' < p, cart r = cart r' → r = r' := by
    intro r hr r' hr' h
    exact List.inj_on_of_nodup_map hg.nodup (List.mem_range.2 hr) (List.mem_range.2 hr') h
  classical
  let rank : List ℕ → ℕ := fun c => ((List.range p).find? fun r => cart r = c).getD 0
  have hrank : ∀ r < p, rank (cart r) = r := by
    intro r hr
    have hex : ∃ r', (List.range p).find? (fun r' => cart r' = cart r) = some r' := by
      rw [← Option.isSome_iff_exists, List.find?_isSome]
      exact ⟨r, List.mem_range.2 hr, by simp⟩
    obtain ⟨r', hr'⟩ := hex
    have h1 := List.mem_range.1 (List.mem_of_find?_eq_some hr')
    have h2 := List.find?_some hr'
    simp only [decide_eq_true_eq] at h2
    simp only [rank, hr', Option.getD_some]
    exact hinj r' h1 r hr h2
  obtain ⟨v, h1, h2⟩ := C56_interpolation_partial (axesAt t.axes xs) hx.2 ((List.range p).map cart)
    hg.nodup (by rw [e3, ht.par]; exact hg.mem) t.f (fun c => t.data (rank c)) (by
      intro c hc
      obtain ⟨r, hr, rfl⟩ := List.mem_map.1 hc
      rw [hrank r (List.mem_range.1 hr)]
      exact localData_at _ _ hx.1 _ _ _ (ht.data r (List.mem_range.1 hr)))
  have h3 : ∀ r < p, evalLocal (t.on (cart r) r).dims xs (t.on (cart r) r).data = .ok (v (cart r)) := by
    intro r hr
    have := h1 _ (List.mem_map.2 ⟨r, List.mem_range.2 hr, rfl⟩)
    rw [(axesAt_dims t.axes xs hx.1 (cart r)).1, e2, hrank r hr] at this
    exact this
  have h4 : ∀ r < p, evalVal (t.on (cart r) r) xs = v (cart r) := by
    intro r hr
    unfold evalVal
    rw [h3 r hr]
  refine ⟨fun r hr => ?_, ?_⟩
  · rw [h3 r hr, h4 r hr]
  · rw [← h2, List.map_map]
    congr 1
    apply List.map_congr_left
    intro r hr
    exact h4 r (List.mem_range.1 hr)

omit [IsStrictOrderedRing K] in
lemma coordLoop_eq (e : EvalTask K V) (coords : List (List K))
    (h : ∀ xs ∈ coords, evalLocal e.dims xs e.data = .ok (evalVal e xs)) (A : List K → V) :
    coordLoopWith (Adder.exact V) e coords (coords.map fun xs => (A xs, 0)) =
      .ok (coords.map fun xs => (A xs + e.coeff • evalVal e xs, 0)) := by
  induction coords with
  | nil => rfl
  | cons x coords ih =>
    rw [List.map_cons, coordLoopWith, h x (by simp), ih fun xs hxs => h xs (by simp [hxs])]
    simp [Outcome.bind, kahanStep_exact]

omit [IsStrictOrderedRing K] in
lemma taskLoop_eq (es : List (EvalTask K V)) (coords : List (List K))
    (h : ∀ e ∈ es, ∀ xs ∈ coords, evalLocal e.dims xs e.data = .ok (evalVal e xs)) (A : List K → V) :
    taskLoopWith (Adder.exact V) coords es (coords.map fun xs => (A xs, 0)) =
      .ok (coords.map fun xs => (A xs + (es.map fun e => e.coeff • evalVal e xs).sum, 0)) := by
  induction es generalizing A with
  | nil => simp [taskLoopWith]
  | cons e es ih =>
    rw [taskLoopWith, coordLoop_eq e coords (h e (by simp)), Outcome.bind,
      ih (fun e he => h e (by simp [he]))]
    simp [add_assoc]

lemma gather_eq {β : Type} (f : ℕ → Outcome β) (F : ℕ → β) (is : List ℕ)
    (h : ∀ i ∈ is, f i = .ok (F i)) : gather f is = .ok (is.map F) := by
  induction is with
  | nil => rfl
  | cons i is ih =>
    rw [gather, h i (by simp), ih fun i hi => h i (by simp [hi])]
    rfl

omit [Field K] [LinearOrder K] [FloorRing K] [IsStrictOrderedRing K] [Module K V] in
lemma allreduce_eq (coords : List (List K)) (is : List ℕ) (F : ℕ → List K → V) :
    allreduce coords.length (is.map fun g => coords.map (F g)) =
      coords.map fun xs => (is.map fun g => F g xs).sum := by
  unfold allreduce
  apply List.ext_getElem
  · simp
  · intro i h1 h2
    have hi : i < coords.length := by simpa using h2
    simp only [List.getElem_map, List.getElem_range, List.map_map]
    congr 1
    apply List.map_congr_left
    intro g _
    simp only [Function.comp]
    rw [List.getD_eq_getElem _ _ (by simpa using hi), List.getElem_map]

lemma sum_swap {α M : Type} [AddCommMonoid M] (ts : List α) (is : List ℕ) (F : ℕ → α → M) :
    (is.map fun r => (ts.map (F r)).sum).sum = (ts.map fun t => (is.map fun r => F r t).sum).sum := by
  induction ts with
  | nil => simp
  | cons t ts ih =>
    simp only [List.map_cons, List.sum_cons]
    rw [← ih, List.sum_map_add]

/-- The combination of the interpolants of all component grids at one point. -/
def combined (n : ℕ) (T : ℕ → List (CombiGrid K V)) (xs : List K) : V :=
  ((List.range n).map fun g => ((T g).map fun t => t.coeff • interp (axesAt t.axes xs) t.f).sum).sum

/-- C74: every process ends up with the combined interpolants of all component grids. `cart` are the
coordinates of the ranks in the process grid. -/
theorem C74_interpolateValues_partial (n p : ℕ) (cart : ℕ → List ℕ) (par : List ℕ)
    (hg : ProcGrid p cart par) (T : ℕ → List (CombiGrid K V))
    (hT : ∀ g < n, ∀ t ∈ T g, t.Ok p cart par) (coords : List (List K))
    (hlen : coords.length < 2 ^ 31)
    (hx : ∀ g < n, ∀ t ∈ T g, ∀ xs ∈ coords, CoordOk t xs) :
    interpolateValues n p (fun g r => (T g).map fun t => t.on (cart r) r) coords =
      .ok (coords.map (combined n T)) := by
  have hloc : ∀ g < n, ∀ r < p, localValues ((T g).map fun t => t.on (cart r) r) coords =
      .ok (coords.map fun xs => ((T g).map fun t => t.coeff • evalVal (t.on (cart r) r) xs).sum) := by
    intro g hgn r hr
    unfold localValues localValuesWith
    rw [taskLoop_eq _ _ _ fun _ => 0]
    · simp only [Outcome.bind, List.map_map, zero_add]
      rfl
    · intro e he xs hxs
      obtain ⟨t, ht, rfl⟩ := List.mem_map.1 he
      exact (grid_eval hg (hT g hgn t ht) (hx g hgn t ht xs hxs)).1 r hr
  unfold interpolateValues
  rw [if_neg (by omega), gather_eq _ (fun g => coords.map fun xs =>
    ((List.range p).map fun r => ((T g).map fun t => t.coeff • evalVal (t.on (cart r) r) xs).sum).sum)]
  · simp only [Outcome.bind]
    rw [allreduce_eq]
    congr 1
    apply List.map_congr_left
    intro xs hxs
    unfold combined
    congr 1
    apply List.map_congr_left
    intro g hgn
    rw [sum_swap]
    congr 1
    apply List.map_congr_left
    intro t ht
    have := (grid_eval hg (hT g (List.mem_range.1 hgn) t ht)
      (hx g (List.mem_range.1 hgn) t ht xs hxs)).2
    rw [← this, List.smul_sum, List.map_map]
    rfl
  · intro g hgn
    rw [gather_eq _ _ _ fun r hr => hloc g (List.mem_range.1 hgn) r (List.mem_range.1 hr)]
    simp only [Outcome.bind]
    rw [allreduce_eq]

/-! ### Functions of the sparse grid space -/

/-- A term of a function of the sparse grid space: level and index of a hat function, and its factor. -/
structure BasisTerm (V : Type) where
  levels : List ℕ
  idx : List ℕ
  value : V

/-- The product of the hat functions in all dimensions, with the boundary flags `bs`, at the point `xs`. -/
def basisAt : (bs ls is : List ℕ) → (xs : List K) → K
  | b :: bs, l :: ls, i :: is, x :: xs => hat l b i x * basisAt bs ls is xs
  | _, _, _, _ => 1

/-- The function with the given terms. -/
def sparseFn (bs : List ℕ) (terms : List (BasisTerm V)) (xs : List K) : V :=
  (terms.map fun j => basisAt bs j.levels j.idx xs • j.value).sum

/-- The coordinates of the grid point with the global index `js`. -/
def gridPoint (axes : List GridAxis) (js : List ℕ) : List K :=
  List.zipWith (fun a j => ((pos a.boundary j : ℕ) : K) / 2 ^ a.level) axes js

/-- The indices of a grid. -/
def InGrid (axes : List GridAxis) (js : List ℕ) : Prop :=
  List.Forall₂ (fun j a => j < nodal a.level a.boundary) js axes

/-- In each dimension the term is a hat function whose centre is no point of a coarser grid. -/
def BasisTerm.Ok (bs : List ℕ) (j : BasisTerm V) : Prop :=
  j.levels.length = bs.length ∧ j.idx.length = bs.length ∧
    ∀ p ∈ bs.zip (j.levels.zip j.idx), BasisFn p.1 p.2.1 p.2.2

omit [FloorRing K] [IsStrictOrderedRing K] in
lemma interp_congr (axes : List GridAxis) (xs : List K) (hx : xs.length = axes.length)
    (f f' : List ℕ → V) (h : ∀ js, InGrid axes js → f js = f' js) :
    interp (axesAt axes xs) f = interp (axesAt axes xs) f' := by
  induction axes generalizing xs f f' with
  | nil => exact h [] .nil
  | cons a axes ih =>
    cases xs with
    | nil => simp at hx
    | cons x xs =>
      simp only [axesAt, List.zipWith_cons_cons, interp]
      refine Finset.sum_congr rfl fun i hi => ?_
      congr 1
      exact ih xs (by simpa using hx) _ _ fun js hjs =>
        h (i :: js) (.cons (Finset.mem_range.1 hi) hjs)

omit [FloorRing K] [IsStrictOrderedRing K] in
lemma interp_sum {α : Type} (as : List (Axis K)) (ts : List α) (F : α → List ℕ → V) :
    interp as (fun js => (ts.map fun t => F t js).sum) = (ts.map fun t => interp as (F t)).sum := by
  induction as generalizing F with
  | nil => rfl
  | cons a as ih =>
    simp only [interp, ih]
    clear ih
    induction ts with
    | nil => simp
    | cons t ts ih2 =>
      simp only [List.map_cons, List.sum_cons, smul_add, Finset.sum_add_distrib]
      rw [ih2]

omit [FloorRing K] [IsStrictOrderedRing K] in
lemma interp_smul_left (as : List (Axis K)) (c : K) (f : List ℕ → V) :
    interp as (fun js => c • f js) = c • interp as f := by
  induction as generalizing f with
  | nil => rfl
  | cons a as ih =>
    simp only [interp, ih, Finset.smul_sum]
    exact Finset.sum_congr rfl fun i _ => smul_comm _ _ _

/-- The interpolant of a basis function: the function itself on grids that contain its level, otherwise
zero. -/
lemma interp_term (axes : List GridAxis) (xs : List K) (hx : xs.length = axes.length)
    (hax : ∀ a ∈ axesAt axes xs, AxisOk a) (ls is : List ℕ) (hl : ls.length = axes.length)
    (hi : is.length = axes.length)
    (h : ∀ p ∈ (axes.map (·.boundary)).zip (ls.zip is), BasisFn p.1 p.2.1 p.2.2) (v : V) :
    interp (axesAt axes xs) (fun js =>
      basisAt (axes.map (·.boundary)) ls is (gridPoint (K := K) axes js) • v) =
      if VecLe ls (axes.map (·.level)) then basisAt (axes.map (·.boundary)) ls is xs • v else 0 := by
  induction axes generalizing xs ls is with
  | nil =>
    obtain rfl := List.length_eq_zero_iff.1 hl
    simp [axesAt, interp, basisAt, VecLe]
  | cons a axes ih =>
    match xs, ls, is, hx, hl, hi with
    | x :: xs, l :: ls, i :: is, hx, hl, hi =>
      simp only [axesAt, List.zipWith_cons_cons, List.mem_cons, forall_eq_or_imp, List.map_cons,
        List.zip_cons_cons] at hax h
      have ih := ih xs (by simpa using hx) hax.2 ls is (by simpa using hl) (by simpa using hi) h.2
      have ha := hax.1
      obtain ⟨m, hm, s, hs0, hs1, hs⟩ := exists_cell a.level x ha.lo ha.hi
      have hb := interp_basis a.level a.boundary l i ha.boundary h.1 x m hm s hs0 hs1 hs
      have e : ∀ j, interp (axesAt axes xs) (fun js => (hat l a.boundary i
          (((pos a.boundary j : ℕ) : K) / 2 ^ a.level) *
          basisAt (axes.map (·.boundary)) ls is (gridPoint (K := K) axes js)) • v) =
          hat l a.boundary i (((pos a.boundary j : ℕ) : K) / 2 ^ a.level) •
            if VecLe ls (axes.map (·.level)) then basisAt (axes.map (·.boundary)) ls is xs • v
            else 0 := by
        intro j
        rw [← ih, ← interp_smul_left]
        simp only [mul_smul]
      simp only [axesAt, List.zipWith_cons_cons, interp, List.map_cons, basisAt, gridPoint]
      simp only [axesAt, gridPoint] at e
      simp only [GridAxis.at] at e ⊢
      simp only [e, smul_smul]
      rw [← Finset.sum_smul, hb]
      by_cases h1 : l ≤ a.level
      · by_cases h2 : VecLe ls (axes.map (·.level))
        · rw [if_pos h1, if_pos h2, if_pos (List.Forall₂.cons h1 h2), mul_smul]
        · rw [if_pos h1, if_neg h2, if_neg (fun hc => h2 (List.forall₂_cons.1 hc).2), smul_zero]
      · rw [if_neg h1, if_neg (fun hc => h1 (List.forall₂_cons.1 hc).1), zero_smul]

/-- Sum of the coefficients of the component grids, on all groups, that contain level `l`. -/
def coeffsAbove (n : ℕ) (T : ℕ → List (CombiGrid K V)) (l : List ℕ) : K :=
  ((List.range n).map fun g =>
    ((T g).map fun t => if VecLe l (t.axes.map (·.level)) then t.coeff else 0).sum).sum

/-- C74: if the component grids hold the values of a function of the sparse grid space at their points, and
for the level of every term the coefficients of the grids that contain it add up to one, then every process
ends up with the values of this function at all coordinates. -/
theorem C74_exact_partial (n p : ℕ) (cart : ℕ → List ℕ) (par : List ℕ)
    (hg : ProcGrid p cart par) (T : ℕ → List (CombiGrid K V))
    (hT : ∀ g < n, ∀ t ∈ T g, t.Ok p cart par) (coords : List (List K))
    (hlen : coords.length < 2 ^ 31)
    (hx : ∀ g < n, ∀ t ∈ T g, ∀ xs ∈ coords, CoordOk t xs)
    (bs : List ℕ) (hbs : ∀ g < n, ∀ t ∈ T g, t.axes.map (·.boundary) = bs)
    (terms : List (BasisTerm V)) (hterms : ∀ j ∈ terms, j.Ok bs)
    (hc : ∀ j ∈ terms, coeffsAbove n T j.levels = 1)
    (hf : ∀ g < n, ∀ t ∈ T g, ∀ js, InGrid t.axes js →
      t.f js = sparseFn bs terms (gridPoint (K := K) t.axes js)) :
    interpolateValues n p (fun g r => (T g).map fun t => t.on (cart r) r) coords =
      .ok (coords.map (sparseFn bs terms)) := by
  rw [C74_interpolateValues_partial n p cart par hg T hT coords hlen hx]
  congr 1
  apply List.map_congr_left
  intro xs hxs
  have hgrid : ∀ g ∈ List.range n, ((T g).map fun t => t.coeff • interp (axesAt t.axes xs) t.f).sum =
      (terms.map fun j => ((T g).map fun t => if VecLe j.levels (t.axes.map (·.level)) then t.coeff
        else 0).sum • basisAt bs j.levels j.idx xs • j.value).sum := by
    intro g hgn
    have hgn := List.mem_range.1 hgn
    have : ∀ t ∈ T g, t.coeff • interp (axesAt t.axes xs) t.f =
        (terms.map fun j => (if VecLe j.levels (t.axes.map (·.level)) then t.coeff else 0) •
          basisAt bs j.levels j.idx xs • j.value).sum := by
      intro t ht
      have hco := hx g hgn t ht xs hxs
      have hb := hbs g hgn t ht
      rw [interp_congr t.axes xs hco.1 _ _ (hf g hgn t ht)]
      unfold sparseFn
      rw [interp_sum, List.smul_sum, List.map_map]
      congr 1
      apply List.map_congr_left
      intro j hj
      have hjo := hterms j hj
      have hlb : bs.length = t.axes.length := by rw [← hb, List.length_map]
      simp only [Function.comp]
      have := interp_term t.axes xs hco.1 hco.2 j.levels j.idx (by rw [hjo.1, hlb])
        (by rw [hjo.2.1, hlb]) (by rw [hb]; exact hjo.2.2) j.value
      rw [hb] at this
      rw [this]
      split_ifs
      · rfl
      · rw [smul_zero, zero_smul]
    rw [List.map_congr_left this]
    clear this hf hterms hc
    induction terms with
    | nil => simp
    | cons j terms ih =>
      simp only [List.map_cons, List.sum_cons, List.sum_map_add]
      rw [ih, List.sum_smul, List.map_map]
      rfl
  unfold combined sparseFn
  rw [List.map_congr_left hgrid, sum_swap]
  congr 1
  apply List.map_congr_left
  intro j hj
  have := hc j hj
  unfold coeffsAbove at this
  conv_rhs => rw [← one_smul K (basisAt bs j.levels j.idx xs • j.value), ← this, List.sum_smul,
    List.map_map]
  rfl

/-- The coefficients and levels of the component grids in the form of C73. -/
def levelTasks (T : ℕ → List (CombiGrid K V)) (g : ℕ) : List (K × List ℕ × (ℕ → K)) :=
  (T g).map fun t => (t.coeff, t.axes.map (·.level), fun _ => 0)

omit [FloorRing K] [IsStrictOrderedRing K] [LinearOrder K] [AddCommGroup V] [Module K V] in
lemma coeffsAbove_of_consistent {n : ℕ} {T : ℕ → List (CombiGrid K V)}
    (hc : Consistent n (levelTasks T)) {l : List ℕ}
    (hl : ∃ g < n, ∃ t ∈ T g, VecLe l (t.axes.map (·.level))) : coeffsAbove n T l = 1 := by
  obtain ⟨g, hg, t, ht, hle⟩ := hl
  have := hc g hg _ (List.mem_map.2 ⟨t, ht, rfl⟩) l hle
  rw [← this]
  unfold coeffsAbove coeffAbove levelTasks
  simp only [List.map_map]
  rfl

/-- C74 for the classical combination scheme without fixed dimensions, whose component grids are distributed
to the groups in any way: every sum of hat functions of levels that some component grid contains is
reproduced. -/
theorem C74_classical_partial (n p : ℕ) (cart : ℕ → List ℕ) (par : List ℕ)
    (hg : ProcGrid p cart par) (T : ℕ → List (CombiGrid K V))
    (hT : ∀ g < n, ∀ t ∈ T g, t.Ok p cart par) (coords : List (List K))
    (hlen : coords.length < 2 ^ 31)
    (hx : ∀ g < n, ∀ t ∈ T g, ∀ xs ∈ coords, CoordOk t xs)
    (bs : List ℕ) (hbs : ∀ g < n, ∀ t ∈ T g, t.axes.map (·.boundary) = bs)
    (lmin lmax : List ℕ) (hne : lmax ≠ []) (hpos : ∀ x ∈ lmin, 1 ≤ x)
    (hlt : List.Forall₂ (· < ·) lmin lmax) (fuel : ℕ) (s : Scheme)
    (hs : createClassicalCombischeme fuel lmin lmax = some s)
    (hsT : FromScheme n (levelTasks T) s)
    (terms : List (BasisTerm V)) (hterms : ∀ j ∈ terms, j.Ok bs)
    (hl : ∀ j ∈ terms, ∃ g < n, ∃ t ∈ T g, VecLe j.levels (t.axes.map (·.level)))
    (hf : ∀ g < n, ∀ t ∈ T g, ∀ js, InGrid t.axes js →
      t.f js = sparseFn bs terms (gridPoint (K := K) t.axes js)) :
    interpolateValues n p (fun g r => (T g).map fun t => t.on (cart r) r) coords =
      .ok (coords.map (sparseFn bs terms)) :=
  C74_exact_partial n p cart par hg T hT coords hlen hx bs hbs terms hterms
    (fun j hj => coeffsAbove_of_consistent
      (C73_classical lmin lmax hne hpos hlt fuel s hs n (levelTasks T) hsT) (hl j hj)) hf

/-- C74 is violated at the right end of periodic dimensions (C56): one grid with coefficient one that holds
a constant, on one process, evaluates to zero there. -/
theorem C74_violated (L : ℕ) (u : V) :
    interpolateValues 1 1 (fun _ _ => [(⟨1, [(⟨L, 1, [0], 1⟩ : Axis K).dim 0],
      List.replicate (2 ^ L) u⟩ : EvalTask K V)]) [[(1 : K)]] = .ok [0] := by
  have h := C56_violated (K := K) L u
  simp only [interpolateValues, gather, List.range_succ, List.range_zero, List.nil_append, localValues, localValuesWith,
    taskLoopWith, List.map_cons, List.map_nil, coordLoopWith, h, Outcome.bind, kahanStep_exact, allreduce]
  simp

/-! ### The hypotheses can be met -/

/-- The part of the values on the process with the coordinates `cs`. -/
def localPart (axes : List GridAxis) (cs : List ℕ) (f : List ℕ → V) : List V :=
  let sizes := (dimsOf (axes.map (·.at (0 : ℚ))) cs).map fun p => p.1.size
  (List.range sizes.prod).map fun q =>
    f (List.zipWith (· + ·) (lowers (axes.map (·.at (0 : ℚ))) cs) (getVectorIndex sizes q))

omit [AddCommGroup V] in
lemma isLocalData_localPart (axes : List GridAxis) (cs : List ℕ) (f : List ℕ → V) :
    IsLocalData (axes.map (·.at (0 : ℚ))) cs f (localPart axes cs f) := by
  refine ⟨by simp [localPart], fun is his => ?_⟩
  have hlt := sequentialIndex_lt _ is his
  unfold localPart
  simp only
  rw [List.getElem?_map, List.getElem?_range hlt, Option.map_some,
    getVectorIndex_sequentialIndex _ _ his]

/-- Dimensions of a component grid, with two processes in the first dimension. -/
def exAxes (l1 l2 : ℕ) : List GridAxis := [⟨l1, 2, [0, 2]⟩, ⟨l2, 0, [0]⟩]

/-- A function of the sparse grid space. -/
def exTerms : List (BasisTerm ℚ) := [⟨[0, 1], [1, 0], 3⟩, ⟨[2, 1], [3, 0], 2⟩, ⟨[1, 2], [1, 0], 5⟩]

/-- A component grid with the values of this function. -/
def exGrid (c : ℚ) (l1 l2 : ℕ) : CombiGrid ℚ ℚ :=
  let f := fun js => sparseFn [2, 0] exTerms (gridPoint (K := ℚ) (exAxes l1 l2) js)
  ⟨c, exAxes l1 l2, f, fun r => localPart (exAxes l1 l2) [r, 0] f⟩

/-- The component grids of the scheme from `(1, 1)` to `(2, 2)` on two groups. -/
def exGrids (g : ℕ) : List (CombiGrid ℚ ℚ) :=
  if g = 0 then [exGrid 1 1 2, exGrid (-1) 1 1] else [exGrid 1 2 1]

lemma exGrids_mem {g : ℕ} {t : CombiGrid ℚ ℚ} (h : t ∈ exGrids g) :
    ∃ c l1 l2, t = exGrid c l1 l2 ∧ (l1 = 1 ∨ l1 = 2) ∧ (l2 = 1 ∨ l2 = 2) := by
  unfold exGrids at h
  split at h
  · simp only [List.mem_cons, List.not_mem_nil, or_false] at h
    rcases h with rfl | rfl <;> exact ⟨_, _, _, rfl, by simp, by simp⟩
  · simp only [List.mem_cons, List.not_mem_nil, or_false] at h
    exact ⟨_, _, _, h, by simp, by simp⟩

example : ProcGrid 2 (fun r => [r, 0]) [2, 1] ∧
    (∀ g < 2, ∀ t ∈ exGrids g, t.Ok 2 (fun r => [r, 0]) [2, 1]) ∧
    (∀ g < 2, ∀ t ∈ exGrids g, ∀ xs ∈ [[(1 : ℚ) / 3, 1], [5 / 8, 1 / 7]], CoordOk t xs) ∧
    (∀ g < 2, ∀ t ∈ exGrids g, t.axes.map (·.boundary) = [2, 0]) ∧
    (∀ j ∈ exTerms, j.Ok [2, 0]) ∧
    (∀ j ∈ exTerms, coeffsAbove 2 exGrids j.levels = 1) ∧
    (∀ g < 2, ∀ t ∈ exGrids g, ∀ js, InGrid t.axes js →
      t.f js = sparseFn [2, 0] exTerms (gridPoint (K := ℚ) t.axes js)) ∧
    sparseFn [2, 0] exTerms [(5 : ℚ) / 8, 1 / 7] ≠ 0 := by
  refine ⟨⟨by decide, fun c => ?_⟩, ?_, ?_, ?_, ?_, ?_, ?_, by decide +kernel⟩
  · constructor
    · intro h
      simp only [List.range_succ, List.range_zero, List.nil_append, List.map_cons,
        List.map_nil, List.cons_append, List.mem_cons, List.not_mem_nil, or_false] at h
      rcases h with rfl | rfl <;> simp
    · intro h
      rw [List.forall₂_cons_right_iff] at h
      obtain ⟨a, u, ha, h, rfl⟩ := h
      rw [List.forall₂_cons_right_iff] at h
      obtain ⟨b, u, hb, h, rfl⟩ := h
      rw [List.forall₂_nil_right_iff] at h
      subst h
      obtain rfl : b = 0 := by omega
      exact List.mem_map.2 ⟨a, List.mem_range.2 ha, rfl⟩
  · intro g _ t ht
    obtain ⟨c, l1, l2, rfl, -, -⟩ := exGrids_mem ht
    exact ⟨rfl, fun r _ => isLocalData_localPart _ _ _⟩
  · intro g _ t ht xs hxs
    obtain ⟨c, l1, l2, rfl, h1, h2⟩ := exGrids_mem ht
    have hlen : ∀ x1 x2 : ℚ, 0 ≤ x1 → x1 ≤ 1 → 0 ≤ x2 → x2 ≤ 1 →
        CoordOk (exGrid c l1 l2) [x1, x2] := by
      intro x1 x2 a1 a2 a3 a4
      refine ⟨rfl, ?_⟩
      intro a ha
      simp only [exGrid, exAxes, axesAt, List.zipWith_cons_cons, List.zipWith_nil_left, GridAxis.at,
        List.mem_cons, List.not_mem_nil, or_false] at ha
      rcases ha with rfl | rfl
      · refine ⟨by simp, ⟨rfl, by simp, ?_⟩, ?_, by simp, a1, a2, by simp⟩
        · rcases h1 with rfl | rfl <;> simp [Axis.points, nodal]
        · rcases h1 with rfl | rfl <;> simp [Axis.points, nodal]
      · refine ⟨by simp, ⟨rfl, by simp, ?_⟩, ?_, by simp, a3, a4, by simp⟩
        · rcases h2 with rfl | rfl <;> simp [Axis.points, nodal]
        · rcases h2 with rfl | rfl <;> simp [Axis.points, nodal]
    simp only [List.mem_cons, List.not_mem_nil, or_false] at hxs
    rcases hxs with rfl | rfl <;> exact hlen _ _ (by norm_num) (by norm_num) (by norm_num) (by norm_num)
  · intro g _ t ht
    obtain ⟨c, l1, l2, rfl, -, -⟩ := exGrids_mem ht
    rfl
  · intro j hj
    simp only [exTerms, List.mem_cons, List.not_mem_nil, or_false] at hj
    rcases hj with rfl | rfl | rfl <;>
      exact ⟨rfl, rfl, by simp [BasisFn, nodal, pos]⟩
  · intro j hj
    simp only [exTerms, List.mem_cons, List.not_mem_nil, or_false] at hj
    rcases hj with rfl | rfl | rfl <;>
      simp [coeffsAbove, exGrids, exGrid, exAxes, VecLe, List.range_succ]
  · intro g _ t ht js _
    obtain ⟨c, l1, l2, rfl, -, -⟩ := exGrids_mem ht
    rfl

end Verif.Interpolation

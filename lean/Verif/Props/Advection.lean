import Verif.Lemmas.Advection
import Verif.Props.GroupGrid
import Mathlib.Algebra.BigOperators.Ring.Finset
import Mathlib.Algebra.Order.BigOperators.Ring.Finset
import Mathlib.Logic.Function.Iterate
import Mathlib.Tactic.Linarith
import Mathlib.Tactic.FieldSimp

/-!
# Property C109: the advection solver of the examples

On the whole grid, a time step is the upwind scheme `upwind`: every value minus `dt` times the sum of the
differences to the points below, which are on the other end of the grid for the first points.

* `C109_time_steps`: the steps that a process group does, with any decomposition in which every process has
  points, are the upwind steps on the whole grid; no assertion fails, nothing is read or written outside of a
  vector and no process waits forever. Both versions of the loops.
* `C109_initial`: the initial values are those of the function at the coordinates of the points.
* `C109_mass`, `C109_maximum_principle`: hence the sum of all values does not change, and, with the condition that is
  checked in `init`, the values stay between the bounds of the initial ones.
* `C109_tasks_partial`: the tasks of a group do not disturb each other, as long as no task is run after another
  one was removed.
* `C109_removed_violated`, `C109_moved_time_violated`: after a task is removed, running the other ones
  dereferences a null pointer; and the time of a task that is moved to another group starts at 0 again.
-/

namespace Verif.Advection

open GroupGrid

variable {K : Type}

/-! ### The scheme on the whole grid -/

/-- The point below in dimension `d`, around the end. -/
def below (sizes : List ℕ) (d : ℕ) (x : List ℕ) : List ℕ :=
  x.set d (if x.getD d 0 = 0 then sizes.getD d 0 - 1 else x.getD d 0 - 1)

/-- One step of the upwind scheme with the grid spacings `2 ^ (-l)`. -/
def upwind [Field K] (sizes levels : List ℕ) (dt : K) (V : List ℕ → K) (x : List ℕ) : K :=
  V x - dt * ∑ d ∈ Finset.range sizes.length, (V x - V (below sizes d x)) * 2 ^ levels.getD d 0

/-! ### Steps of a process group -/

lemma sizes_pos {g : List Dim1} (hg : FullParts g) {c : List ℕ} (hc : ValidCoords g c) :
    ∀ s ∈ localSizes g c, 0 < s := by
  intro s hs
  obtain ⟨hl, hb⟩ := (validCoords_iff g c).1 hc
  obtain ⟨i, hi, rfl⟩ := List.getElem_of_mem hs
  have hi' : i < g.length := by rwa [length_localSizes g c hl] at hi
  have h1 := (bounds_full hg i hi' _ (hb i hi')).1
  have h2 := getD_localSizes g c hl i hi'
  rw [List.getD_eq_getElem _ _ hi] at h2
  omega

lemma gradientIn_eq [Field K] (v : Variant) (g : List Dim1) (hg : FullParts g) (levels : List ℕ)
    (hlev : levels.length = g.length) (data : List ℕ → List K) (V : List ℕ → K) (hV : Represents g data V)
    (c : List ℕ) (hc : ValidCoords g c) (d : ℕ) (hd : d < g.length) (phi : List K)
    (hphi : phi.length = tensorSize (localSizes g c)) :
    ∃ phi', gradientIn v g (inverseGridSpacing levels) data c phi d = some phi' ∧
      phi'.length = tensorSize (localSizes g c) ∧
      ∀ y, List.Forall₂ (· < ·) y (localSizes g c) →
        phi'.getD (sequentialIndex (localSizes g c) y) 0 = phi.getD (sequentialIndex (localSizes g c) y) 0 +
          (V (List.zipWith (· + ·) (lowerBounds g c) y) -
            V (below (globalSizes g) d (List.zipWith (· + ·) (lowerBounds g c) y))) *
              2 ^ levels.getD d 0 := by
  obtain ⟨hl, hb⟩ := (validCoords_iff g c).1 hc
  have lS := length_localSizes g c hl
  have lL := length_lowerBounds g c hl
  obtain ⟨S, B, ar⟩ := around_exists (localSizes g c) (sizes_pos hg hc) d (by rw [lS]; exact hd)
  generalize hm : (localSizes g c).getD d 0 = m at ar
  obtain ⟨buf, e1, e2, e3⟩ := C78_ghost_layer_periodic g hg d hd data V hV c hc
  have hn := ar.size_eq
  have hu : (data c).length = tensorSize (localSizes g c) := by
    rw [(hV c hc).1, hn, ar.prod_eq]
  have hbuf : buf.length = B * S := by
    rw [e2]
    obtain ⟨as, bs, a1, a2, a3, a4⟩ := ar.split
    rw [a1, ← a2, List.set_append_right _ _ (Nat.le_refl _), Nat.sub_self, List.set_cons_zero,
      List.prod_append, List.prod_cons, ← a3, ← a4]
    ring
  have hh : (inverseGridSpacing (K := K) levels)[d]? = some (2 ^ levels.getD d 0) := by
    unfold inverseGridSpacing
    rw [List.getElem?_map, List.getElem?_eq_getElem (by omega), List.getD_eq_getElem _ _ (by omega)]
    rfl
  obtain ⟨phi1, u1, u2, u3⟩ := updateAll_eq v ar (data c) hu (2 ^ levels.getD d 0 : K) phi hphi
  obtain ⟨phi2, w1, w2, w3, w4⟩ := correctAll_eq v ar (data c) buf hu hbuf (2 ^ levels.getD d 0 : K) phi1 u2
  have hmpos := ar.posm
  have hSm : 0 < S * m := Nat.mul_pos ar.posS hmpos
  have hdiv : tensorSize (localSizes g c) / (S * m) = B := by rw [hn, Nat.mul_div_cancel _ hSm]
  have hdiv' : tensorSize (localSizes g c) / m = B * S := by
    rw [hn, ← Nat.mul_assoc, Nat.mul_div_cancel _ hmpos]
  refine ⟨phi2, ?_, w2, fun y hy => ?_⟩
  · unfold gradientIn
    rw [e1]
    simp only [Option.bind_eq_bind, Option.bind_some, ar.offset_eq, hh, u1, ar.getElem_eq]
    rw [if_neg (by rw [hdiv', hbuf]; omega), if_neg (by omega), hdiv, w1]
  · obtain ⟨lo, hi, i1, i2, i3, i4, i5, i6⟩ := ar.index_eq y hy
    have hyl : y.length = g.length := by rw [hy.length_eq, lS]
    have hVy : ∀ z, List.Forall₂ (· < ·) z (localSizes g c) →
        (data c).getD (sequentialIndex (localSizes g c) z) 0 =
          V (List.zipWith (· + ·) (lowerBounds g c) z) := by
      intro z hz
      rw [List.getD_eq_getElem?_getD, (hV c hc).2 z hz]
      rfl
    have hlt : sequentialIndex (localSizes g c) y < tensorSize (localSizes g c) := by
      rw [hn, ← ar.prod_eq]
      exact sequentialIndex_lt _ _ hy
    have hcd := hb d hd
    obtain ⟨b1, b2, b3, b4, -, -⟩ := bounds_full hg d hd _ hcd
    have hL := getD_lowerBounds g c hl d hd
    have hyd := ((forall₂_lt_iff _ _).1 hy).2
    by_cases h0 : y.getD d 0 = 0
    · have hset : y.set d 0 = y := by
        refine ext_getD (by simp) fun i _ => ?_
        rw [getD_set _ _ _ _ (by omega)]
        split <;> simp_all
      have hghost : buf.getD (lo + hi * S) 0 =
          V (below (globalSizes g) d (List.zipWith (· + ·) (lowerBounds g c) y)) := by
        have hy1 : List.Forall₂ (· < ·) y ((localSizes g c).set d 1) := by
          rw [forall₂_lt_iff]
          refine ⟨by rw [List.length_set]; exact hy.length_eq, fun i hi => ?_⟩
          rw [List.length_set] at hi
          rw [getD_set _ _ _ _ (by omega)]
          split
          · rename_i he
            rw [he, h0]
            omega
          · exact hyd i hi
        have := e3 y hy1
        rw [hset] at i6
        rw [← i6, List.getD_eq_getElem?_getD, this, Option.getD_some]
        congr 1
        unfold below
        rw [getD_add _ _ (by rw [lL, hyl]), h0, Nat.add_zero]
        congr 1
        split
        · rename_i he
          rw [he, Nat.zero_add, Nat.mod_eq_of_lt (by omega)]
        · rw [show (lowerBounds g c).getD d 0 + (globalSizes g).getD d 0 - 1 =
            (lowerBounds g c).getD d 0 - 1 + (globalSizes g).getD d 0 by omega, Nat.add_mod_right,
            Nat.mod_eq_of_lt (by omega)]
      have hpos : sequentialIndex (localSizes g c) y = hi * (S * m) + lo := by
        rw [i4, h0, Nat.zero_mul, Nat.add_zero]
      have h3 := w3 hi lo i2 i1
      have h4 := u3 _ hlt
      rw [← hghost, ← hVy y hy]
      rw [← hpos] at h3
      rw [h3, h4]
      ring
    · obtain ⟨k, hk⟩ : ∃ k, y.getD d 0 = k + 1 := ⟨y.getD d 0 - 1, by omega⟩
      have h3 := w4 hi lo (y.getD d 0) i2 i1 (by omega) i3
      have h4 := u3 _ hlt
      rw [← i4] at h3
      have hbef : before (tensorSize (localSizes g c)) S (sequentialIndex (localSizes g c) y) =
          sequentialIndex (localSizes g c) (y.set d k) := by
        rw [i5, i4, hk, Nat.add_mul, Nat.one_mul, before, if_neg (by omega)]
        omega
      have hyk : List.Forall₂ (· < ·) (y.set d k) (localSizes g c) := by
        rw [forall₂_lt_iff]
        refine ⟨by rw [List.length_set]; exact hy.length_eq, fun i hi => ?_⟩
        rw [getD_set _ _ _ _ (by omega)]
        split
        · rename_i he
          rw [he]
          omega
        · exact hyd i hi
      rw [h3, h4, hbef, hVy _ hyk, hVy y hy]
      congr 4
      refine ext_getD (by simp [below]) fun i hi => ?_
      have hi' : i < g.length := by simpa [lL, hyl] using hi
      have hz : (List.zipWith (· + ·) (lowerBounds g c) y).getD d 0 = (lowerBounds g c).getD d 0 + (k + 1) := by
        rw [getD_add _ _ (by rw [lL, hyl]), hk]
      unfold below
      rw [hz, if_neg (by omega), getD_add _ _ (by simp [lL, hyl]), getD_set y _ _ _ (by omega),
        getD_set _ _ _ _ (by simp [lL, hyl]; omega), getD_add _ _ (by rw [lL, hyl])]
      split
      · rename_i he
        rw [he]
        omega
      · rfl

lemma gradient_eq [Field K] (v : Variant) (g : List Dim1) (hg : FullParts g) (levels : List ℕ)
    (hlev : levels.length = g.length) (data : List ℕ → List K) (V : List ℕ → K) (hV : Represents g data V)
    (c : List ℕ) (hc : ValidCoords g c) (k : ℕ) (hk : k ≤ g.length) :
    ∃ phi, (List.range k).foldlM (gradientIn v g (inverseGridSpacing levels) data c)
        (List.replicate (tensorSize (localSizes g c)) 0) = some phi ∧
      phi.length = tensorSize (localSizes g c) ∧
      ∀ y, List.Forall₂ (· < ·) y (localSizes g c) →
        phi.getD (sequentialIndex (localSizes g c) y) 0 =
          ∑ d ∈ Finset.range k, (V (List.zipWith (· + ·) (lowerBounds g c) y) -
            V (below (globalSizes g) d (List.zipWith (· + ·) (lowerBounds g c) y))) *
              2 ^ levels.getD d 0 := by
  induction k with
  | zero =>
    refine ⟨_, rfl, by simp, fun y _ => ?_⟩
    rw [List.getD_eq_getElem?_getD, List.getElem?_replicate]
    split <;> simp
  | succ k ih =>
    obtain ⟨phi, h1, h2, h3⟩ := ih (by omega)
    obtain ⟨phi', a1, a2, a3⟩ := gradientIn_eq v g hg levels hlev data V hV c hc k (by omega) phi h2
    refine ⟨phi', ?_, a2, fun y hy => ?_⟩
    · rw [List.range_succ, List.foldlM_append, h1]
      simpa using a1
    · rw [a3 y hy, h3 y hy, Finset.sum_range_succ]

lemma euler_eq [Field K] (u : List K) (dt : K) (phi : List K) (h : phi.length = u.length) :
    (List.range u.length).foldlM (eulerElement u dt) phi =
      some (List.zipWith (fun x p => x - p * dt) u phi) := by
  have key : ∀ k ≤ u.length, (List.range k).foldlM (eulerElement u dt) phi =
      some ((List.zipWith (fun x p => x - p * dt) u phi).take k ++ phi.drop k) := by
    intro k hk
    induction k with
    | zero => simp
    | succ k ih =>
      rw [List.range_succ, List.foldlM_append, ih (by omega)]
      have hlen : ((List.zipWith (fun x p => x - p * dt) u phi).take k).length = k := by simp; omega
      have hp : ((List.zipWith (fun x p => x - p * dt) u phi).take k ++ phi.drop k)[k]? = phi[k]? := by
        rw [List.getElem?_append_right (by omega), hlen, List.getElem?_drop]
        simp
      simp only [Option.bind_eq_bind, Option.bind_some, List.foldlM_cons, List.foldlM_nil, eulerElement, hp,
        List.getElem?_eq_getElem (show k < u.length by omega),
        List.getElem?_eq_getElem (show k < phi.length by omega)]
      have hdrop : phi.drop k = phi[k] :: phi.drop (k + 1) := by
        rw [List.getElem_cons_drop]
      rw [hdrop, List.set_append_right _ _ (by omega), hlen, Nat.sub_self, List.set_cons_zero]
      have htake : (List.zipWith (fun x p => x - p * dt) u phi).take (k + 1) =
          (List.zipWith (fun x p => x - p * dt) u phi).take k ++ [u[k] - phi[k] * dt] := by
        rw [List.take_add_one, List.getElem?_eq_getElem (by simp; omega)]
        simp
      rw [htake, List.append_assoc]
      rfl
  rw [key _ (Nat.le_refl _)]
  congr 1
  rw [List.take_of_length_le (by simp), List.drop_of_length_le (by omega), List.append_nil]

lemma timeStep_eq [Field K] (v : Variant) (g : List Dim1) (hg : FullParts g) (h0 : g ≠ []) (levels : List ℕ)
    (hlev : levels.length = g.length) (dt : K) (data : List ℕ → List K) (V : List ℕ → K)
    (hV : Represents g data V) (c : List ℕ) (hc : ValidCoords g c) :
    ∃ new, timeStep v g (inverseGridSpacing levels) dt data c = some new ∧
      new.length = (localSizes g c).prod ∧
      ∀ y, List.Forall₂ (· < ·) y (localSizes g c) → new[sequentialIndex (localSizes g c) y]? =
        some (upwind (globalSizes g) levels dt V (List.zipWith (· + ·) (lowerBounds g c) y)) := by
  obtain ⟨hl, hb⟩ := (validCoords_iff g c).1 hc
  have lS := length_localSizes g c hl
  have hn : tensorSize (localSizes g c) = (localSizes g c).prod := by
    unfold tensorSize
    rw [if_neg, foldl_mul_eq, Nat.one_mul]
    intro h
    rw [h] at lS
    exact h0 (List.eq_nil_of_length_eq_zero lS.symm)
  obtain ⟨phi, h1, h2, h3⟩ := gradient_eq v g hg levels hlev data V hV c hc g.length (Nat.le_refl _)
  have hu := (hV c hc).1
  have hlen : phi.length = (data c).length := by rw [h2, hn, hu]
  have he := euler_eq (data c) dt phi hlen
  refine ⟨List.zipWith (fun x p => x - p * dt) (data c) phi, ?_, by simp [hlen, hu], fun y hy => ?_⟩
  · unfold timeStep
    simp only [Option.bind_eq_bind, h1, Option.bind_some]
    rw [hn, ← hu, he]
    simp [hlen]
  · have hx := (hV c hc).2 y hy
    have hlt : sequentialIndex (localSizes g c) y < phi.length := by
      rw [hlen, hu]
      exact sequentialIndex_lt _ _ hy
    have hp : phi[sequentialIndex (localSizes g c) y]? =
        some (phi.getD (sequentialIndex (localSizes g c) y) 0) := by
      rw [List.getD_eq_getElem?_getD, List.getElem?_eq_getElem hlt]
      rfl
    rw [List.getElem?_zipWith, hx, hp, h3 y hy]
    simp only [upwind, globalSizes, List.length_map]
    rw [mul_comm dt]

/-- C109: `nsteps` time steps of a process group, for any decomposition in which every process has points: the
data afterwards represent the values of the upwind scheme on the whole grid. -/
theorem C109_time_steps [Field K] (v : Variant) (g : List Dim1) (hg : FullParts g) (h0 : g ≠ [])
    (levels : List ℕ) (hlev : levels.length = g.length) (cs : List (List ℕ))
    (hcs : ∀ c ∈ cs, ValidCoords g c) (dt : K) (nsteps : ℕ) (data : List ℕ → List K) (V : List ℕ → K)
    (hV : Represents g data V) :
    ∃ data', timeSteps v g cs (inverseGridSpacing levels) dt nsteps data = some data' ∧
      Represents g data' ((upwind (globalSizes g) levels dt)^[nsteps] V) := by
  induction nsteps generalizing data V with
  | zero => exact ⟨data, rfl, hV⟩
  | succ n ih =>
    have hstep := timeStep_eq v g hg h0 levels hlev dt data V hV
    have hnext : Represents g
        (fun c => (timeStep v g (inverseGridSpacing levels) dt data c).getD [])
        (upwind (globalSizes g) levels dt V) := by
      intro c hc
      obtain ⟨new, h1, h2, h3⟩ := hstep c hc
      simp only [h1, Option.getD_some]
      exact ⟨h2, h3⟩
    obtain ⟨data', h1, h2⟩ := ih _ _ hnext
    refine ⟨data', ?_, by rw [Function.iterate_succ_apply]; exact h2⟩
    rw [timeSteps, if_pos, h1]
    rw [List.all_eq_true]
    intro c hc
    obtain ⟨new, h1, -⟩ := hstep c (hcs c hc)
    rw [h1]
    rfl

/-! ### The initial values -/

/-- The coordinates of a point. -/
def pointCoords [Field K] (levels x : List ℕ) : List K := List.zipWith (fun i l : ℕ => (i : K) / 2 ^ l) x levels

lemma coordsGlobal_eq [Field K] (g : List Dim1) (levels : List ℕ) (hlev : levels.length = g.length) (x : List ℕ)
    (hx : List.Forall₂ (· < ·) x (globalSizes g)) :
    coordsGlobal (List.zipWith (fun (d : Dim1) l => (d.numPoints, 1, 1 / (2 : K) ^ l)) g levels)
      (sequentialIndex (globalSizes g) x) = pointCoords levels x := by
  induction g generalizing levels x with
  | nil =>
    obtain rfl := List.eq_nil_of_length_eq_zero hlev
    simp [coordsGlobal, pointCoords]
  | cons d g ih =>
    obtain ⟨l, levels, rfl⟩ := List.exists_cons_of_length_eq_add_one hlev
    cases x with
    | nil => simp [globalSizes] at hx
    | cons i x =>
      rw [globalSizes, List.map_cons, List.forall₂_cons] at hx
      rw [globalSizes, List.map_cons, sequentialIndex_cons, List.zipWith_cons_cons, coordsGlobal]
      simp only [Nat.zero_lt_one, if_true, Nat.add_zero]
      rw [Nat.add_mul_mod_self_left, Nat.mod_eq_of_lt hx.1, Nat.add_mul_div_left _ _ (by omega),
        Nat.div_eq_of_lt hx.1, Nat.zero_add]
      have := ih levels (by simpa using hlev) x hx.2
      rw [globalSizes] at this
      rw [this]
      simp only [pointCoords, List.zipWith_cons_cons, List.cons.injEq, and_true]
      rw [mul_one_div]

/-- C109: the initial values are the values of the function at the coordinates of the points. -/
theorem C109_initial [Field K] (g : List Dim1) (hg : FullParts g) (h0 : g ≠ []) (levels : List ℕ)
    (hlev : levels.length = g.length) (f : List K → K) :
    Represents g (initialData g levels f) fun x => f (pointCoords levels x) := by
  intro c hc
  obtain ⟨hl, hb⟩ := (validCoords_iff g c).1 hc
  have lS := length_localSizes g c hl
  have lL := length_lowerBounds g c hl
  have hn : tensorSize (localSizes g c) = (localSizes g c).prod := by
    unfold tensorSize
    rw [if_neg, foldl_mul_eq, Nat.one_mul]
    intro h
    rw [h] at lS
    exact h0 (List.eq_nil_of_length_eq_zero lS.symm)
  refine ⟨by simp [initialData, hn], fun y hy => ?_⟩
  have hlt := sequentialIndex_lt _ _ hy
  have hyl : y.length = g.length := by rw [hy.length_eq, lS]
  unfold initialData
  rw [hn, List.getElem?_map, List.getElem?_range hlt, Option.map_some, Option.some.injEq]
  congr 1
  unfold coordsLocal getGlobalLinearIndex
  rw [getVectorIndex_sequentialIndex _ _ hy, ← sequentialIndex_add _ _ _ (by rw [lL, hyl])]
  refine coordsGlobal_eq g levels hlev _ ?_
  have hin := inside_part hg hc
  have hgl : (globalSizes g).length = g.length := by simp [globalSizes]
  rw [forall₂_lt_iff]
  refine ⟨by simp [lL, hyl, hgl], fun i hi => ?_⟩
  have h1 := hin.bound i hi
  have h2 := ((forall₂_lt_iff _ _).1 hy).2 i (by rw [lS]; rwa [hgl] at hi)
  rw [getD_add _ _ (by rw [lL, hyl])]
  omega

/-! ### Conservation and bounds -/

lemma isPoint_below {sizes : List ℕ} {d : ℕ} (hd : d < sizes.length) {x : List ℕ}
    (hx : List.Forall₂ (· < ·) x sizes) : List.Forall₂ (· < ·) (below sizes d x) sizes := by
  have h := (forall₂_lt_iff _ _).1 hx
  rw [forall₂_lt_iff]
  refine ⟨by simp [below, h.1], fun i hi => ?_⟩
  unfold below
  rw [getD_set _ _ _ _ (by omega)]
  have h1 := h.2 i hi
  have h2 := h.2 d hd
  split
  · rename_i he
    subst he
    split <;> omega
  · exact h1

lemma sum_below [Field K] (sizes : List ℕ) (P : Finset (List ℕ))
    (hP : ∀ x, x ∈ P ↔ List.Forall₂ (· < ·) x sizes) (V : List ℕ → K) (d : ℕ) (hd : d < sizes.length) :
    ∑ x ∈ P, V (below sizes d x) = ∑ x ∈ P, V x := by
  refine Finset.sum_nbij' (below sizes d)
    (fun x => x.set d (if x.getD d 0 + 1 = sizes.getD d 0 then 0 else x.getD d 0 + 1)) ?_ ?_ ?_ ?_ ?_
  · intro x hx
    exact (hP _).2 (isPoint_below hd ((hP x).1 hx))
  · intro x hx
    have h := (forall₂_lt_iff _ _).1 ((hP x).1 hx)
    refine (hP _).2 ((forall₂_lt_iff _ _).2 ⟨by simp [h.1], fun i hi => ?_⟩)
    rw [getD_set _ _ _ _ (by omega)]
    have h1 := h.2 i hi
    have h2 := h.2 d hd
    split
    · rename_i he
      subst he
      split <;> omega
    · exact h1
  · intro x hx
    have h := (forall₂_lt_iff _ _).1 ((hP x).1 hx)
    have h2 := h.2 d hd
    refine ext_getD (by simp [below]) fun i _ => ?_
    unfold below
    simp only [List.set_set]
    rw [getD_set _ _ _ _ (by omega), getD_set _ _ _ _ (by omega), if_pos rfl]
    by_cases he : i = d
    · rw [if_pos he, he]
      by_cases hz : x.getD d 0 = 0
      · rw [if_pos hz, if_pos (by omega), hz]
      · rw [if_neg hz, if_neg (by omega)]
        omega
    · rw [if_neg he]
  · intro x hx
    have h := (forall₂_lt_iff _ _).1 ((hP x).1 hx)
    have h2 := h.2 d hd
    refine ext_getD (by simp [below]) fun i _ => ?_
    unfold below
    simp only [List.set_set]
    rw [getD_set _ _ _ _ (by omega), getD_set _ _ _ _ (by omega), if_pos rfl]
    by_cases he : i = d
    · rw [if_pos he, he]
      by_cases hz : x.getD d 0 + 1 = sizes.getD d 0
      · rw [if_pos hz, if_pos rfl]
        omega
      · rw [if_neg hz, if_neg (by omega)]
        omega
    · rw [if_neg he]
  · intro x _
    rfl

/-- C109: the sum of the values over all points of the grid does not change. -/
theorem C109_mass [Field K] (sizes levels : List ℕ) (P : Finset (List ℕ))
    (hP : ∀ x, x ∈ P ↔ List.Forall₂ (· < ·) x sizes) (dt : K) (nsteps : ℕ) (V : List ℕ → K) :
    ∑ x ∈ P, (upwind sizes levels dt)^[nsteps] V x = ∑ x ∈ P, V x := by
  induction nsteps generalizing V with
  | zero => rfl
  | succ n ih =>
    rw [Function.iterate_succ_apply, ih]
    unfold upwind
    rw [Finset.sum_sub_distrib, ← Finset.mul_sum, Finset.sum_comm]
    have : ∑ d ∈ Finset.range sizes.length, ∑ x ∈ P, (V x - V (below sizes d x)) * 2 ^ levels.getD d 0 = 0 := by
      refine Finset.sum_eq_zero fun d hd => ?_
      rw [← Finset.sum_mul, Finset.sum_sub_distrib, sum_below sizes P hP V d (Finset.mem_range.1 hd), sub_self,
        zero_mul]
    rw [this, mul_zero, sub_zero]

lemma cfl_sum [Field K] [LinearOrder K] (levels : List ℕ) (dt : K)
    (h : cflCondition levels dt = true) :
    dt * ∑ d ∈ Finset.range levels.length, (2 : K) ^ levels.getD d 0 < 1 := by
  have hsum : ∀ (l : List ℕ) (a : K), (l.map fun l => 1 / (1 / (2 : K) ^ l)).foldl (· + ·) a =
      a + ∑ d ∈ Finset.range l.length, (2 : K) ^ l.getD d 0 := by
    intro l
    induction l with
    | nil => simp
    | cons x l ih =>
      intro a
      rw [List.map_cons, List.foldl_cons, ih, List.length_cons, Finset.sum_range_succ', one_div_one_div]
      simp only [List.getD_cons_succ, List.getD_cons_zero]
      ring
  unfold cflCondition at h
  rw [decide_eq_true_eq, hsum, zero_add] at h
  exact h

/-- C109: with the condition that is checked in `init` and steps forward in time, all values stay between
bounds of the initial values. -/
theorem C109_maximum_principle [Field K] [LinearOrder K] [IsStrictOrderedRing K] (sizes levels : List ℕ)
    (hlev : levels.length = sizes.length) (dt : K) (hdt : 0 ≤ dt) (hcfl : cflCondition levels dt = true)
    (nsteps : ℕ) (V : List ℕ → K) (a b : K)
    (hV : ∀ x, List.Forall₂ (· < ·) x sizes → a ≤ V x ∧ V x ≤ b) :
    ∀ x, List.Forall₂ (· < ·) x sizes →
      a ≤ (upwind sizes levels dt)^[nsteps] V x ∧ (upwind sizes levels dt)^[nsteps] V x ≤ b := by
  have hc := cfl_sum levels dt hcfl
  rw [hlev] at hc
  induction nsteps generalizing V with
  | zero => exact hV
  | succ n ih =>
    rw [Function.iterate_succ_apply]
    refine ih _ fun x hx => ?_
    set W : K := ∑ d ∈ Finset.range sizes.length, (2 : K) ^ levels.getD d 0 with hW
    have h1 : ∑ d ∈ Finset.range sizes.length, (V x - V (below sizes d x)) * 2 ^ levels.getD d 0 ≤
        (V x - a) * W := by
      rw [hW, Finset.mul_sum]
      refine Finset.sum_le_sum fun d hd => ?_
      have := (hV _ (isPoint_below (Finset.mem_range.1 hd) hx)).1
      exact mul_le_mul_of_nonneg_right (by linarith) (by positivity)
    have h2 : (V x - b) * W ≤
        ∑ d ∈ Finset.range sizes.length, (V x - V (below sizes d x)) * 2 ^ levels.getD d 0 := by
      rw [hW, Finset.mul_sum]
      refine Finset.sum_le_sum fun d hd => ?_
      have := (hV _ (isPoint_below (Finset.mem_range.1 hd) hx)).2
      exact mul_le_mul_of_nonneg_right (by linarith) (by positivity)
    have h3 := mul_le_mul_of_nonneg_left h1 hdt
    have h4 := mul_le_mul_of_nonneg_left h2 hdt
    obtain ⟨v1, v2⟩ := hV x hx
    have h5 : 0 ≤ (V x - a) * (1 - dt * W) := mul_nonneg (by linarith) (by linarith)
    have h6 : 0 ≤ (b - V x) * (1 - dt * W) := mul_nonneg (by linarith) (by linarith)
    unfold upwind
    constructor <;> nlinarith

/-! ### The tasks of a group -/

/-- A task that may be given to a group with the processes `cs`. -/
def GoodTask [Field K] [LT K] [DecidableLT K] (cs : List (List ℕ)) (t : AdvTask K) : Prop :=
  FullParts t.grid ∧ t.grid ≠ [] ∧ t.levels.length = t.grid.length ∧ (∀ c ∈ cs, ValidCoords t.grid c) ∧
    cflCondition t.levels t.dt = true

/-- Actions on a group with `n` tasks: positions exist, and a task is only run if another one was added after
the last removal (`ready`). -/
def Calm [Field K] [LT K] [DecidableLT K] (cs : List (List ℕ)) : (ready : Bool) → (n : ℕ) → List (Action K) → Prop
  | _, _, [] => True
  | _, n, .add t :: as => GoodTask cs t ∧ Calm cs true (n + 1) as
  | ready, n, .run i :: as => ready = true ∧ i < n ∧ Calm cs ready n as
  | _, n, .remove i :: as => i < n ∧ Calm cs false (n - 1) as

/-- A task has the values of the upwind scheme after the steps that it counted. -/
def Advanced [Field K] (f : List K → K) (t : AdvTask K) : Prop :=
  Represents t.grid t.data
    ((upwind (globalSizes t.grid) t.levels t.dt)^[t.stepsTotal] fun x => f (pointCoords t.levels x))

lemma acts_calm [Field K] [LT K] [DecidableLT K] (v : Variant) (f : List K → K) (cs : List (List ℕ))
    (as : List (Action K)) (W : Worker K) (hW : ∀ t ∈ W.tasks, GoodTask cs t ∧ Advanced f t)
    (has : Calm cs W.phi W.tasks.length as) :
    ∃ W', acts v f cs W as = .ok W' ∧ ∀ t ∈ W'.tasks, GoodTask cs t ∧ Advanced f t := by
  induction as generalizing W with
  | nil => exact ⟨W, rfl, hW⟩
  | cons a as ih =>
    cases a with
    | add t =>
      obtain ⟨ht, has⟩ := has
      obtain ⟨W', h1, h2⟩ := ih ⟨true, W.tasks ++ [{ t with
          stepsTotal := 0, data := initialData t.grid t.levels f }]⟩ (by
        intro t' ht'
        rcases List.mem_append.1 ht' with ht' | ht'
        · exact hW t' ht'
        · obtain rfl := List.mem_singleton.1 ht'
          exact ⟨ht, C109_initial t.grid ht.1 ht.2.1 t.levels ht.2.2.1 f⟩) (by simpa using has)
      refine ⟨W', ?_, h2⟩
      rw [acts, act, initTask, if_pos ht.2.2.2.2]
      exact h1
    | run i =>
      obtain ⟨hr, hi, has⟩ := has
      have hmem := List.getElem_mem hi
      obtain ⟨hg, hadv⟩ := hW _ hmem
      obtain ⟨data', e1, e2⟩ := C109_time_steps v W.tasks[i].grid hg.1 hg.2.1 W.tasks[i].levels hg.2.2.1 cs
        hg.2.2.2.1 W.tasks[i].dt W.tasks[i].nsteps W.tasks[i].data _ hadv
      obtain ⟨W', h1, h2⟩ := ih { W with tasks := W.tasks.set i { W.tasks[i] with
          data := data', stepsTotal := W.tasks[i].stepsTotal + W.tasks[i].nsteps } } (by
        intro t' ht'
        rcases List.mem_or_eq_of_mem_set ht' with ht' | rfl
        · exact hW t' ht'
        · refine ⟨hg, ?_⟩
          unfold Advanced
          simp only []
          rw [Nat.add_comm, Function.iterate_add_apply]
          exact e2) (by simpa using has)
      refine ⟨W', ?_, h2⟩
      rw [acts, act, runTask, List.getElem?_eq_getElem hi]
      simp only [hr, if_true, e1]
      rw [hr] at h1
      exact h1
    | remove i =>
      obtain ⟨hi, has⟩ := has
      obtain ⟨W', h1, h2⟩ := ih ⟨false, W.tasks.eraseIdx i⟩
        (fun t ht => hW t (List.mem_of_mem_eraseIdx ht)) (by
          rw [List.length_eraseIdx_of_lt hi]
          exact has)
      refine ⟨W', ?_, h2⟩
      rw [acts, act, removeTask, if_pos hi]
      exact h1

/-- C109, restricted: whatever tasks are added to a group, run and removed, every task that the group has in the
end has the values of the upwind scheme on its own grid after its own number of steps, and nothing undefined is done.
Missing: actions in which a task is run after the last action on the set of tasks was the removal of another one
(`C109_removed_violated`). -/
theorem C109_tasks_partial [Field K] [LT K] [DecidableLT K] (v : Variant) (f : List K → K) (cs : List (List ℕ))
    (as : List (Action K)) (has : Calm cs false 0 as) :
    ∃ W, acts v f cs {} as = .ok W ∧ ∀ t ∈ W.tasks, Advanced f t := by
  obtain ⟨W, h1, h2⟩ := acts_calm v f cs as {} (by simp) has
  exact ⟨W, h1, fun t ht => (h2 t ht).2⟩

/-- C109 is violated: in a group with at least two tasks, removing one of them (as `RESCHEDULE_REMOVE_TASK` does)
makes running any other one undefined, as the destructor deletes the vector that all tasks share. -/
theorem C109_removed_violated [Field K] [LT K] [DecidableLT K] (v : Variant) (f : List K → K) (cs : List (List ℕ))
    (W : Worker K) (i j : ℕ) (hi : i < W.tasks.length) : acts v f cs W [.remove i, .run j] = .stuck := by
  have h : runTask v cs ⟨false, W.tasks.eraseIdx i⟩ j = .stuck := by
    unfold runTask
    split
    · rfl
    · rw [if_neg (by simp)]
  rw [acts, act, removeTask, if_pos hi]
  simp only [Outcome.bind, acts, act, h]

/-- C109 is violated: a task that did some steps and is then received by another group has the current time 0, as the
number of steps is not part of what is sent. -/
theorem C109_moved_time_violated [Field K] [LinearOrder K] [IsStrictOrderedRing K] (f : List K → K) (W : Worker K)
    (t : AdvTask K) (hdt : t.dt ≠ 0) (hsteps : t.stepsTotal ≠ 0) (hcfl : cflCondition t.levels t.dt = true) :
    ∃ W' t', initTask f W t = .ok W' ∧ W'.tasks.getLast? = some t' ∧ t'.levels = t.levels ∧
      currentTime t ≠ 0 ∧ currentTime t' = 0 := by
  refine ⟨_, { t with stepsTotal := 0, data := initialData t.grid t.levels f }, by rw [initTask, if_pos hcfl],
    by simp, rfl, ?_, by simp [currentTime]⟩
  unfold currentTime
  exact mul_ne_zero (by exact_mod_cast hsteps) hdt

/-! ### Examples -/

/-- A grid with levels 2 and 1 on two times one processes. -/
def exampleGrid : List Dim1 := [⟨[0, 2], 4⟩, ⟨[0], 2⟩]

/-- A task on the grid. -/
def exampleTask : AdvTask ℚ := { levels := [2, 1], grid := exampleGrid, dt := 1 / 8, nsteps := 2 }

/-- The hypotheses of the theorems hold for a concrete group: two tasks are added, one of them is removed, another
one is added, and both are run. -/
example : Calm (K := ℚ) [[0, 0], [1, 0]] false 0
    [.add exampleTask, .run 0, .add exampleTask, .remove 0, .add exampleTask, .run 0, .run 1] := by
  have h : GoodTask [[0, 0], [1, 0]] exampleTask := by
    refine ⟨?_, by decide, rfl, ?_, by decide +kernel⟩
    · simp [FullParts, exampleTask, exampleGrid]
    · simp [ValidCoords, exampleTask, exampleGrid]
  exact ⟨h, rfl, by decide, h, by decide, h, rfl, by decide, rfl, by decide, trivial⟩

/-- One step on the example grid, by the process group and on the whole grid. -/
example : (timeSteps Variant.threads exampleGrid [[0, 0], [1, 0]] (inverseGridSpacing [2, 1]) (1 / 8 : ℚ) 1
      (initialData exampleGrid [2, 1] fun x => x.sum)).map (fun data => (data [0, 0], data [1, 0])) =
    some ([1 / 2, 1 / 4, 3 / 4, 1 / 2], [1 / 2, 3 / 4, 3 / 4, 1]) := by decide +kernel

example : [[0, 0], [1, 0], [0, 1], [1, 1], [2, 0], [3, 0], [2, 1], [3, 1]].map
      (upwind [4, 2] [2, 1] (1 / 8 : ℚ) fun x => (pointCoords (K := ℚ) [2, 1] x).sum) =
    [1 / 2, 1 / 4, 3 / 4, 1 / 2, 1 / 2, 3 / 4, 3 / 4, 1] := by decide +kernel

/-- The hypotheses of `C109_mass` and `C109_maximum_principle`. -/
example : ∃ P : Finset (List ℕ), (∀ x, x ∈ P ↔ List.Forall₂ (· < ·) x [4, 2]) ∧ P.card = 8 ∧
    cflCondition [2, 1] (1 / 8 : ℚ) = true ∧
    ∀ x : List ℕ, List.Forall₂ (· < ·) x [4, 2] → (0 : ℚ) ≤ ((x.getD 0 0 : ℕ) : ℚ) ∧
      ((x.getD 0 0 : ℕ) : ℚ) ≤ 3 := by
  refine ⟨((List.range 4).flatMap fun i => (List.range 2).map fun j => [i, j]).toFinset, fun x => ?_, by decide,
    by decide +kernel, fun x hx => ⟨by positivity, ?_⟩⟩
  · rw [List.mem_toFinset, List.mem_flatMap]
    constructor
    · rintro ⟨i, hi, h⟩
      obtain ⟨j, hj, rfl⟩ := List.mem_map.1 h
      exact .cons (List.mem_range.1 hi) (.cons (List.mem_range.1 hj) .nil)
    · intro h
      cases h with
      | cons h1 h =>
        cases h with
        | cons h2 h =>
          cases h
          exact ⟨_, List.mem_range.2 h1, List.mem_map.2 ⟨_, List.mem_range.2 h2, rfl⟩⟩
  · have := ((forall₂_lt_iff _ _).1 hx).2 0 (by simp)
    exact_mod_cast Nat.le_of_lt_succ this

end Verif.Advection

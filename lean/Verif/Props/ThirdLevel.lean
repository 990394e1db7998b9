import Verif.Lemmas.ThirdLevelOps
import Verif.Lemmas.SubspaceSizeSums

/-!
# Two systems and the third-level manager (C48, C49, C67)
-/

namespace Verif

variable {α : Type}

/-- Operations of the two systems that belong together. -/
inductive TLFit : TLOp α → TLOp α → Prop where
  /-- Both systems combine one grid, with at least one value on every process, and of the same size
  (as it is after unifying the sizes, see `TLAgree.unify`). -/
  | combine (sizes : List ℕ) (dF dT : ℕ → ℕ → List α)
      (h : ∀ p (hp : p < sizes.length), 0 < sizes[p] ∧ (dF 0 p).length = sizes[p] ∧
        (dT 0 p).length = sizes[p]) :
      TLFit (.combine 1 sizes dF) (.combine 1 sizes dT)
  | combineFile : TLFit .combineFile .combineFile
  /-- Both systems have the same numbers of processes and subspaces; a subspace that has data in both
  has the same size, and the sums can be represented. -/
  | unify (extra : Bool) (wF wT : List (List ℕ)) (hcount : wF.map List.length = wT.map List.length)
      (hassert : ∀ p ∈ wF.flatten.zip wT.flatten, p.1 = p.2 ∨ p.1 = 0 ∨ p.2 = 0)
      (hmin : extra = true → wF.flatten.sum < 2 ^ 31 ∧ wT.flatten.sum < 2 ^ 31)
      (hmax : extra = false → (List.zipWith max wF.flatten wT.flatten).sum < 2 ^ 31) :
      TLFit (.unify extra wF) (.unify extra wT)
  /-- The same number of points and the same build; the interpolation gives a value for each point. -/
  | monteCarlo (numPoints : ℕ) (debug : Bool) (cF cT : List α) (fF fT : List α → List α)
      (hc : cF.length = cT.length)
      (hF : (fF cF).length = numPoints ∧ (fF cT).length = numPoints)
      (hT : (fT cF).length = numPoints ∧ (fT cT).length = numPoints) :
      TLFit (.monteCarlo numPoints cF fF debug) (.monteCarlo numPoints cT fT debug)

/-- What the two systems should have afterwards. -/
inductive TLAgree (add : α → α → α) : TLOp α → TLOp α → TLResult α → TLResult α → Prop where
  /-- Both have the sums of both data sets. -/
  | combine (sizes : List ℕ) (dF dT : ℕ → ℕ → List α) (sums : List (List α))
      (h : sums = (List.range sizes.length).map fun p => List.zipWith add (dF 0 p) (dT 0 p)) :
      TLAgree add (.combine 1 sizes dF) (.combine 1 sizes dT) (.dsgus sums) (.dsgus sums)
  | combineFile : TLAgree add .combineFile .combineFile .nothing .nothing
  /-- Both have the same sizes: the minima for the conjoint grid (`extra`), otherwise the maxima; and
  their sum. -/
  | unify (extra : Bool) (wF wT : List (List ℕ)) (sizes : List ℕ)
      (hmin : extra = true → sizes = List.zipWith min wF.flatten wT.flatten)
      (hmax : extra = false → sizes = List.zipWith max wF.flatten wT.flatten) :
      TLAgree add (.unify extra wF) (.unify extra wT) (.sizes sizes sizes.sum)
        (.sizes sizes sizes.sum)
  /-- Both have the same points, drawn by one of them, and the sums of both interpolations there. -/
  | monteCarlo (numPoints : ℕ) (debug : Bool) (cF cT c : List α) (fF fT : List α → List α)
      (hc : c = cF ∨ c = cT) :
      TLAgree add (.monteCarlo numPoints cF fF debug) (.monteCarlo numPoints cT fT debug)
        (.values c (List.zipWith add (fF c) (fT c))) (.values c (List.zipWith add (fF c) (fT c)))

/-- The systems have terminated with results as they should be, the manager has left its loop, and no
message is left. -/
def TLFinal (add : α → α → α) (ops : List (TLOp α × TLOp α))
    (x : TLState α (List (TLResult α))) : Prop :=
  ∃ r : List (TLResult α × TLResult α),
    List.Forall₂ (fun o q => TLAgree add o.1 o.2 q.1 q.2) ops r ∧
    x.sys = (fun s => .done (if s then r.map Prod.snd else r.map Prod.fst)) ∧
    x.mgr = .loop [] ∧ (∀ s, x.up s = []) ∧ ∀ s, x.down s = []

theorem zipWith_map_range {β γ δ : Type} (f : β → γ → δ) (g : ℕ → β) (h : ℕ → γ) (n : ℕ) :
    List.zipWith f ((List.range n).map g) ((List.range n).map h) =
      (List.range n).map fun p => f (g p) (h p) := by
  rw [List.zipWith_map, List.zipWith_self]

theorem tl_ops [DecidableEq α] {cap sz : ℕ} (hcap : 0 < cap) (hsz : 0 < sz) (add : α → α → α)
    (hcomm : ∀ x y, add x y = add y x) (ops : List (TLOp α × TLOp α))
    (hfit : ∀ o ∈ ops, TLFit o.1 o.2) (P : TLState α (List (TLResult α)) → Prop)
    (acc : Bool → List (TLResult α))
    (hP : ∀ r : List (TLResult α × TLResult α),
      List.Forall₂ (fun o q => TLAgree add o.1 o.2 q.1 q.2) ops r →
      P ⟨fun s => .done (acc s ++ if s then r.map Prod.snd else r.map Prod.fst), .loop [],
        fun _ => [], fun _ => []⟩) :
    Inevitable (TLStep cap sz) P ⟨fun s => tlSystem sz add
      (if s then ops.map Prod.snd else ops.map Prod.fst) (acc s), .loop [false, true],
      fun _ => [], fun _ => []⟩ := by
  induction ops generalizing acc with
  | nil =>
    have := tl_finish (cap := cap) (sz := sz) (P := P) hcap acc (by
      have := hP [] .nil
      simpa using this)
    convert this using 1
    congr 1
    funext s
    cases s <;> rfl
  | cons o ops ih =>
    obtain ⟨oF, oT⟩ := o
    have hfit' := hfit _ (List.mem_cons_self ..)
    simp only at hfit'
    have next : ∀ rF rT, TLAgree add oF oT rF rT →
        Inevitable (TLStep cap sz) P ⟨fun s => tlSystem sz add
          (if s then ops.map Prod.snd else ops.map Prod.fst) (acc s ++ [if s then rT else rF]),
          .loop [false, true], fun _ => [], fun _ => []⟩ := by
      intro rF rT hr
      refine ih (fun o ho => hfit o (List.mem_cons_of_mem _ ho)) _ fun r hrs => ?_
      have := hP ((rF, rT) :: r) (.cons hr hrs)
      convert this using 1
      congr 1
      funext s
      cases s <;> simp
    have hsys : (fun s => tlSystem sz add (if s = true then ((oF, oT) :: ops).map Prod.snd
        else ((oF, oT) :: ops).map Prod.fst) (acc s)) = fun s => tlOpProg sz add (if s then oT else oF)
          fun r => tlSystem sz add (if s then ops.map Prod.snd else ops.map Prod.fst)
            (acc s ++ [r]) := by
      funext s
      cases s <;> rfl
    rw [hsys]
    cases hfit' with
    | combine sizes dF dT h =>
      have hlist : ∀ d : ℕ → ℕ → List α, dsgusInOrder 1 sizes d =
          (List.range sizes.length).map fun p => (sizes.getD p 0, d 0 p) := by
        intro d
        simp [dsgusInOrder]
      have := tl_combine (cap := cap) (sz := sz) (P := P) hcap hsz add hcomm (fun _ => 1)
        (fun _ => sizes) (fun s => if s then dT else dF) ?_
        (fun s r => tlSystem sz add (if s then ops.map Prod.snd else ops.map Prod.fst)
          (acc s ++ [r])) ?_
      · convert this using 1
        congr 1
        funext s
        cases s <;> rfl
      · simp only [Bool.false_eq_true, if_false, if_true]
        rw [hlist, hlist, List.forall₂_map_left_iff, List.forall₂_map_right_iff, List.forall₂_same]
        intro p hp
        have hp' := List.mem_range.mp hp
        obtain ⟨h1, h2, h3⟩ := h p hp'
        have hg : sizes.getD p 0 = sizes[p] := by simp [hp']
        simp only [hg]
        exact ⟨trivial, h1, h2, h3⟩
      · have hn := next _ _ (TLAgree.combine (add := add) sizes dF dT _ rfl)
        convert hn using 1
        congr 1
        funext s
        simp only [Bool.false_eq_true, if_false, if_true]
        rw [hlist, hlist, zipWith_map_range]
        cases s <;> rfl
    | combineFile =>
      have := tl_combineFile (cap := cap) (sz := sz) (P := P) hcap
        (fun s r => tlSystem sz add (if s then ops.map Prod.snd else ops.map Prod.fst)
          (acc s ++ [r])) ?_
      · convert this using 1
        congr 1
        funext s
        cases s <;> rfl
      · convert next _ _ TLAgree.combineFile using 1
        congr 1
        funext s
        cases s <;> rfl
    | unify extra wF wT hcount hassert hmin hmax =>
      have hlen : wF.flatten.length = wT.flatten.length := by
        rw [List.length_flatten, List.length_flatten, hcount]
      have hcF : (wF.map List.length).sum = wF.flatten.length := (List.length_flatten ..).symm
      have hcT : (wT.map List.length).sum = wT.flatten.length := (List.length_flatten ..).symm
      have hred : ∀ s : Bool, accumulateInt (sizesPerWorker
          ((if s then wT else wF).map List.length)
            (List.zipWith (sizeOp extra) wF.flatten wT.flatten)) =
          ((List.zipWith (sizeOp extra) wF.flatten wT.flatten).sum : ℤ) ∧
          accumulateInt (sizesPerWorker ((if s then wT else wF).map List.length)
            (if s then wT else wF).flatten) = ((if s then wT else wF).flatten.sum : ℤ) ∧
          (List.zipWith (sizeOp extra) wF.flatten wT.flatten).sum < 2 ^ 31 := by
        intro s
        have hlz : ∀ c : ℕ, c = wF.flatten.length →
            c = (List.zipWith (sizeOp extra) wF.flatten wT.flatten).length := by
          intro c hc
          rw [List.length_zipWith, ← hlen, Nat.min_self, hc]
        have hbound : (List.zipWith (sizeOp extra) wF.flatten wT.flatten).sum < 2 ^ 31 ∧
            wF.flatten.sum < 2 ^ 31 ∧ wT.flatten.sum < 2 ^ 31 := by
          cases extra
          · have hm := hmax rfl
            have h1 := le_sum_zipWith_max _ _ hlen
            have h2 := le_sum_zipWith_max _ _ hlen.symm
            rw [List.zipWith_comm_of_comm (f := max) max_comm] at h2
            refine ⟨hm, by omega, by omega⟩
          · have hm := hmin rfl
            have h1 := sum_zipWith_min_le wF.flatten wT.flatten
            exact ⟨lt_of_le_of_lt h1 hm.1, hm.1, hm.2⟩
        cases s
        · exact ⟨accumulateInt_sizesPerWorker _ _ (hlz _ hcF) hbound.1,
            accumulateInt_sizesPerWorker _ _ hcF hbound.2.1, hbound.1⟩
        · exact ⟨accumulateInt_sizesPerWorker _ _ (hlz _ (hcT.trans hlen.symm)) hbound.1,
            accumulateInt_sizesPerWorker _ _ hcT hbound.2.2, hbound.1⟩
      have := tl_unify (cap := cap) (sz := sz) (P := P) hcap extra (fun s => if s then wT else wF)
        (by simpa using hlen) (by simpa using hassert)
        (List.zipWith (sizeOp extra) wF.flatten wT.flatten) rfl ?_
        (fun s r => tlSystem sz add (if s then ops.map Prod.snd else ops.map Prod.fst)
          (acc s ++ [r])) ?_
      · convert this using 1
        congr 1
        funext s
        cases s <;> rfl
      · intro s
        simp only
        rw [(hred s).1, (hred s).2.1]
        cases extra
        · simp only [Bool.false_eq_true, false_and, not_false_eq_true, true_and, not_lt]
          have h1 := le_sum_zipWith_max _ _ hlen
          have h2 := le_sum_zipWith_max _ _ hlen.symm
          rw [List.zipWith_comm_of_comm (f := max) max_comm] at h2
          cases s
          · exact_mod_cast h1
          · exact_mod_cast h2
        · simp only [true_and, not_true_eq_false, false_and, not_false_eq_true, and_true, not_lt]
          have h1 := sum_zipWith_min_le wF.flatten wT.flatten
          have h2 := sum_zipWith_min_le wT.flatten wF.flatten
          rw [List.zipWith_comm_of_comm (f := min) min_comm] at h2
          cases s
          · exact_mod_cast h1
          · exact_mod_cast h2
      · have hn := next _ _ (TLAgree.unify (add := add) extra wF wT
          (List.zipWith (sizeOp extra) wF.flatten wT.flatten) (by rintro rfl; rfl) (by rintro rfl; rfl))
        convert hn using 1
        congr 1
        funext s
        rw [(hred s).1, intToSizeT_eq _ (by have := (hred s).2.2; omega)]
        cases s <;> rfl
    | monteCarlo numPoints debug cF cT fF fT hc hF hT =>
      have := tl_monteCarlo (cap := cap) (sz := sz) (P := P) hcap hsz add hcomm numPoints debug
        (fun s => if s then cT else cF) (fun s => if s then fT else fF) (by simpa using hc)
        (by intro s t; cases s <;> cases t <;> simp [hF, hT])
        (fun s r => tlSystem sz add (if s then ops.map Prod.snd else ops.map Prod.fst)
          (acc s ++ [r])) ?_
      · convert this using 1
        congr 1
        funext s
        cases s <;> rfl
      · intro i
        have hn := next _ _ (TLAgree.monteCarlo (add := add) numPoints debug cF cT
          (if i then cT else cF) fF fT (by cases i <;> simp))
        convert hn using 1
        congr 1
        funext s
        cases s <;> rfl

/-- **C48**, for systems with one grid that is not empty on any process: two systems that perform
operations that fit together, any number of them, all run to completion, for every order in which
their requests arrive and every interleaving, with channels of any capacity, and without deadlock;
afterwards both have the sums of both data sets for every combination (and what else `TLAgree` says).
`hcomm` holds for floating-point numbers. For more than one grid, and for empty grids, see
`C48_violated` and `C48_violated_empty`. -/
theorem C48_partial [DecidableEq α] (cap sz : ℕ) (hcap : 0 < cap) (hsz : 0 < sz)
    (add : α → α → α) (hcomm : ∀ x y, add x y = add y x) (ops : List (TLOp α × TLOp α))
    (hfit : ∀ o ∈ ops, TLFit o.1 o.2) :
    Inevitable (TLStep cap sz) (TLFinal add ops)
      (tlStart sz add fun s => if s then ops.map Prod.snd else ops.map Prod.fst) := by
  refine tl_ops hcap hsz add hcomm ops hfit (TLFinal add ops) (fun _ => []) fun r hr => ?_
  exact ⟨r, hr, by simp, rfl, fun _ => rfl, fun _ => rfl⟩

/-- Two systems with two processes unify the sizes (and agree on a grid with three values on the
first process and one on the second) and combine twice. -/
example : ∀ o ∈ ([(.unify false [[1, 2], [0]] , .unify false [[1, 0], [1]]),
      (.combine 1 [3, 1] (fun _ p => if p = 0 then [1, 2, 3] else [4]),
        .combine 1 [3, 1] (fun _ p => if p = 0 then [5, 6, 7] else [8])),
      (.combineFile, .combineFile)] : List (TLOp ℤ × TLOp ℤ)), TLFit o.1 o.2 := by
  intro o ho
  simp only [List.mem_cons, List.not_mem_nil, or_false] at ho
  rcases ho with rfl | rfl | rfl
  · exact .unify _ _ _ (by decide) (by decide) (by decide) (by decide)
  · exact .combine _ _ _ (by decide)
  · exact .combineFile

/-- **C49**, if the new sums can be represented as `int`: after unifying the sizes both systems have
the same sizes, the elementwise minima for the conjoint grid and the maxima otherwise, for every
order of the requests and every interleaving. -/
theorem C49_partial (cap sz : ℕ) (hcap : 0 < cap) (hsz : 0 < sz) (extra : Bool)
    (wF wT : List (List ℕ)) (hcount : wF.map List.length = wT.map List.length)
    (hassert : ∀ p ∈ wF.flatten.zip wT.flatten, p.1 = p.2 ∨ p.1 = 0 ∨ p.2 = 0)
    (hmin : extra = true → wF.flatten.sum < 2 ^ 31 ∧ wT.flatten.sum < 2 ^ 31)
    (hmax : extra = false → (List.zipWith max wF.flatten wT.flatten).sum < 2 ^ 31) :
    Inevitable (TLStep cap sz) (fun x => ∃ sizes : List ℕ,
        (∀ s, x.sys s = .done [.sizes sizes sizes.sum]) ∧
        (extra = true → sizes = List.zipWith min wF.flatten wT.flatten) ∧
        (extra = false → sizes = List.zipWith max wF.flatten wT.flatten))
      (tlStart sz (fun x _ : ℕ => x) fun s => [.unify extra (if s then wT else wF)]) := by
  have := tl_ops (cap := cap) (sz := sz) hcap hsz (fun _ _ : ℕ => 0) (fun _ _ => rfl)
    [(.unify extra wF, .unify extra wT)] (by
      intro o ho
      rw [List.mem_singleton] at ho
      subst ho
      exact .unify extra wF wT hcount hassert hmin hmax)
    (fun x => ∃ sizes : List ℕ,
        (∀ s, x.sys s = .done [.sizes sizes sizes.sum]) ∧
        (extra = true → sizes = List.zipWith min wF.flatten wT.flatten) ∧
        (extra = false → sizes = List.zipWith max wF.flatten wT.flatten)) (fun _ => []) ?_
  · unfold tlStart
    convert this using 1
    congr 1
    funext s
    cases s <;> rfl
  · intro r hr
    cases hr with
    | @cons _ q _ r' hq hr' =>
      cases hr'
      obtain ⟨qF, qT⟩ := q
      cases hq with
      | unify _ _ _ sizes h1 h2 =>
        exact ⟨sizes, fun s => by cases s <;> rfl, h1, h2⟩

example : Inevitable (TLStep 1 8) (fun x => ∃ sizes : List ℕ,
        (∀ s, x.sys s = .done [.sizes sizes sizes.sum]) ∧
        (true = true → sizes = List.zipWith min [[1, 2], [0]].flatten [[1, 0], [1]].flatten) ∧
        (true = false → sizes = List.zipWith max [[1, 2], [0]].flatten [[1, 0], [1]].flatten))
      (tlStart 8 (fun x _ : ℕ => x) fun s => [.unify true (if s then [[1, 0], [1]] else [[1, 2], [0]])]) :=
  C49_partial 1 8 (by decide) (by decide) true _ _ (by decide) (by decide) (by decide) (by decide)

/-- **C67**: a Monte-Carlo comparison of two systems runs to completion, and both systems then have the
same points, those of one of the systems, and the same values, the sums of both interpolations there. -/
theorem C67_monteCarlo [DecidableEq α] (cap sz : ℕ) (hcap : 0 < cap) (hsz : 0 < sz)
    (add : α → α → α) (hcomm : ∀ x y, add x y = add y x) (numPoints : ℕ) (debug : Bool)
    (coords : Bool → List α) (interpolate : Bool → List α → List α)
    (hcoords : (coords false).length = (coords true).length)
    (hvals : ∀ s t, (interpolate s (coords t)).length = numPoints) :
    Inevitable (TLStep cap sz) (fun x => ∃ i, ∀ s, x.sys s = .done [.values (coords i)
        (List.zipWith add (interpolate false (coords i)) (interpolate true (coords i)))])
      (tlStart sz add fun s => [.monteCarlo numPoints (coords s) (interpolate s) debug]) := by
  refine tl_monteCarlo hcap hsz add hcomm numPoints debug coords interpolate hcoords hvals _ fun i => ?_
  exact tl_finish hcap _ ⟨i, fun s => rfl⟩

example : (∀ x y : ℤ, x + y = y + x) ∧ ((fun s : Bool => if s then [1, 2] else [3, (4 : ℤ)]) false).length =
    ((fun s : Bool => if s then [1, 2] else [3, (4 : ℤ)]) true).length ∧
    ∀ s t : Bool, ((fun (s : Bool) (c : List ℤ) => c.map (if s then (· + 1) else (· * 2))) s
      ((fun s : Bool => if s then [1, 2] else [3, (4 : ℤ)]) t)).length = 2 :=
  ⟨add_comm, rfl, by decide⟩

/-- Both systems stop in the first exchange of `exchangeDsgus`. -/
theorem combine_fails [DecidableEq α] (cap sz : ℕ) (hcap : 0 < cap) (add : α → α → α)
    (numGrids : ℕ) (sizes : List ℕ) (data : Bool → ℕ → ℕ → List α)
    (h : ∀ s, ∃ n d rest, dsgusInOrder numGrids sizes (data s) = (n, d) :: rest ∧
      (n = 0 ∨ d.length ≠ n)) :
    Inevitable (TLStep cap sz) (fun x => ∀ s, x.sys s = .fail)
      (tlStart sz add fun s => [.combine numGrids sizes (data s)]) := by
  have hfail : ∀ s b (k : List (List α) → SysProg α (List (TLResult α))),
      exchangeDsgusLoop sz add b (dsgusInOrder numGrids sizes (data s)) [] k = .fail := by
    intro s b k
    obtain ⟨n, d, rest, h1, h2⟩ := h s
    rw [h1]
    simp only [exchangeDsgusLoop, exchangeDsgu]
    rw [if_pos h2]
  refine tl_round hcap (fun _ => .readyToCombine) _ fun i => ?_
  simp only [processMessage, processCombination, List.length_cons, List.length_nil, ne_eq,
    Nat.reduceAdd, not_true_eq_false, if_false]
  refine tl_down_i hcap _ _ rfl ?_
  refine tl_mgr_o _ rfl ?_
  refine tl_down_o hcap _ _ rfl ?_
  simp only
  rw [hfail, hfail]
  have := tl_both_fail (α := α) (R := List (TLResult α)) (cap := cap) (sz := sz)
    (.combining [false, true] i) (.inl ⟨_, _, rfl⟩)
  convert this using 1
  unfold tlst
  simp

/-- The statement of C48 for any number of grids, all of the size that was exchanged when the sizes were
unified (`ProcessGroupWorker::reduceSubspaceSizesThirdLevel` sends the sizes of the first grid only), is
wrong: `exchangeDsgus` divides this size by the number of grids, so what a worker sends does not fit into
the buffer. -/
theorem C48_violated : ¬ ∀ (numGrids : ℕ) (sizes : List ℕ) (dF dT : ℕ → ℕ → List ℤ), 0 < numGrids →
    (∀ g < numGrids, ∀ p (hp : p < sizes.length), 0 < sizes[p] ∧ (dF g p).length = sizes[p] ∧
      (dT g p).length = sizes[p]) →
    Inevitable (TLStep 1 8) (fun x => ∀ s, ∃ r, x.sys s = .done r)
      (tlStart 8 (· + ·) fun s => [.combine numGrids sizes (if s then dT else dF)]) := by
  intro h
  have h1 := h 2 [2] (fun _ _ => [1, 2]) (fun _ _ => [3, 4]) (by decide) (by decide)
  have h2 := combine_fails (α := ℤ) 1 8 (by decide) (· + ·) 2 [2]
    (fun s => if s then fun _ _ => [3, 4] else fun _ _ => [1, 2])
    (fun s => by cases s <;> exact ⟨1, _, _, rfl, by decide⟩)
  obtain ⟨y, hy, hy'⟩ := h1.both h2
  obtain ⟨r, hr⟩ := hy false
  rw [hy' false] at hr
  exact absurd hr (by simp)

/-- The statement of C48 is also wrong for a grid without values on a process: `recvDsguFromWorker`
throws. -/
theorem C48_violated_empty : ¬ ∀ (sizes : List ℕ) (dF dT : ℕ → ℕ → List ℤ),
    (∀ p (hp : p < sizes.length), (dF 0 p).length = sizes[p] ∧ (dT 0 p).length = sizes[p]) →
    Inevitable (TLStep 1 8) (fun x => ∀ s, ∃ r, x.sys s = .done r)
      (tlStart 8 (· + ·) fun s => [.combine 1 sizes (if s then dT else dF)]) := by
  intro h
  have h1 := h [0, 1] (fun _ p => List.replicate p 1) (fun _ p => List.replicate p 2) (by decide)
  have h2 := combine_fails (α := ℤ) 1 8 (by decide) (· + ·) 1 [0, 1]
    (fun s => if s then fun _ p => List.replicate p 2 else fun _ p => List.replicate p 1)
    (fun s => by cases s <;> exact ⟨0, _, _, rfl, by decide⟩)
  obtain ⟨y, hy, hy'⟩ := h1.both h2
  obtain ⟨r, hr⟩ := hy false
  rw [hy' false] at hr
  exact absurd hr (by simp)

/-- The statement of C49 without a bound on the sums is wrong: if the unified grid has `2 ^ 31` values,
`unifySubspaceSizesThirdLevel` throws since the sum is negative as `int`. -/
theorem C49_violated : ¬ ∀ (wF wT : List (List ℕ)), wF.map List.length = wT.map List.length →
    (∀ p ∈ wF.flatten.zip wT.flatten, p.1 = p.2 ∨ p.1 = 0 ∨ p.2 = 0) →
    (∀ v ∈ wF.flatten, v < 2 ^ 32) → (∀ v ∈ wT.flatten, v < 2 ^ 32) →
    Inevitable (TLStep 1 8) (fun x => ∀ s, ∃ r, x.sys s = .done r)
      (tlStart 8 (fun x _ : ℕ => x) fun s => [.unify false (if s then wT else wF)]) := by
  intro h
  have h1 := h [[2 ^ 30, 0], [2 ^ 29, 0]] [[2 ^ 30, 2 ^ 29], [0, 1]] (by decide) (by decide) (by decide)
    (by decide)
  have h2 : Inevitable (TLStep 1 8) (fun x => ∀ s, x.sys s = .fail)
      (tlStart 8 (fun x _ : ℕ => x) fun s => [.unify false
        (if s then [[2 ^ 30, 2 ^ 29], [0, 1]] else [[2 ^ 30, 0], [2 ^ 29, 0]])]) := by
    refine tl_unify_raw (cap := 1) (by decide) false
      (fun s => if s then [[2 ^ 30, 2 ^ 29], [0, 1]] else [[2 ^ 30, 0], [2 ^ 29, 0]])
      (by decide) (by decide) _ rfl (fun s r => tlSystem 8 (fun x _ : ℕ => x) [] ([] ++ [r])) ?_
    have := tl_both_fail (α := ℕ) (R := List (TLResult ℕ)) (cap := 1) (sz := 8)
      (.loop [false, true]) (.inr ⟨_, rfl⟩)
    convert this using 1
    congr 1
    funext s
    rw [if_neg (by simp), if_pos (by cases s <;> decide +kernel)]
  obtain ⟨y, hy, hy'⟩ := h1.both h2
  obtain ⟨r, hr⟩ := hy false
  rw [hy' false] at hr
  exact absurd hr (by simp)

/-! ### File-based unification -/

/-- **C49** for two systems that exchange files: both extra grids have the minima, and the combined
grids keep the larger sizes. -/
theorem C49_files_two (own other : List ℕ) :
    reduceExtraSubspaceSizes own [other] =
      .ok (List.zipWith min own other, List.zipWith max own (List.zipWith min own other)) ∧
    (reduceExtraSubspaceSizes own [other]).bind (fun x => .ok x.1) =
      (reduceExtraSubspaceSizes other [own]).bind (fun x => .ok x.1) := by
  refine ⟨rfl, ?_⟩
  simp only [reduceExtraSubspaceSizes, Outcome.bind]
  rw [List.zipWith_comm_of_comm (f := min) min_comm]

/-- **C49** for three systems that exchange files, for a subspace of less than `2 ^ 30` values, which
every system has completely or not at all: all three extra grids get the subspace if at least two
systems have it. -/
theorem C49_files_three (v : List ℕ) (hv : ∀ n ∈ v, n < 2 ^ 30) (has : Fin 3 → ℕ → Bool) :
    let own (s : Fin 3) := v.mapIdx fun j n => if has s j then n else 0
    ∀ s, ∃ combined, reduceExtraSubspaceSizes (own s) [own (s + 1), own (s + 2)] =
      .ok (v.mapIdx fun j n => if 2 ≤ ((List.finRange 3).filter fun t => has t j).length then n else 0,
        combined) := by
  intro own s
  refine ⟨_, congrArg Outcome.ok (Prod.ext ?_ rfl)⟩
  simp only
  apply List.ext_getElem
  · simp [own]
  · intro j h1 h2
    simp only [List.length_mapIdx] at h2
    simp only [List.getElem_zipWith, List.getElem_zip, own, List.getElem_mapIdx]
    have hvj := hv v[j] (List.getElem_mem h2)
    generalize v[j] = n at hvj
    have hcount : ∀ p : Fin 3 → Bool, ((List.finRange 3).filter p).length =
        (if p 0 then 1 else 0) + (if p 1 then 1 else 0) + (if p 2 then 1 else 0) := by decide
    rw [hcount]
    have key : ∀ a b c : Bool, moreThanOneFunction (if a = true then n else 0)
        (if b = true then n else 0) (if c = true then n else 0) =
        if 2 ≤ (if a = true then 1 else 0) + (if b = true then 1 else 0) +
          (if c = true then 1 else 0) then n else 0 := by
      intro a b c
      have hmod : ∀ m, m ≤ 3 * n → m % 2 ^ 32 = m := fun m hm => Nat.mod_eq_of_lt (by omega)
      unfold moreThanOneFunction
      cases a <;> cases b <;> cases c <;>
        simp only [if_true, if_false, Bool.false_eq_true, Nat.max_zero, Nat.zero_max, Nat.max_self,
          Nat.zero_add, Nat.add_zero] <;> rw [hmod _ (by omega)] <;> simp <;> omega
    rw [key]
    rcases (show s = 0 ∨ s = 1 ∨ s = 2 by clear h1; revert s; decide) with rfl | rfl | rfl
    · rfl
    · rw [show (1 : Fin 3) + 1 = 2 from rfl, show (1 : Fin 3) + 2 = 0 from rfl]
      congr 1
      rw [eq_iff_iff]
      omega
    · rw [show (2 : Fin 3) + 1 = 0 from rfl, show (2 : Fin 3) + 2 = 1 from rfl]
      congr 1
      rw [eq_iff_iff]
      omega

example : ∀ n ∈ [4, 0, 17], n < 2 ^ 30 := by decide

/-- Larger subspaces are lost: two systems have the subspace, but the sum wraps around. -/
theorem C49_files_violated : moreThanOneFunction (2 ^ 31) (2 ^ 31) 0 = 0 := by decide

end Verif

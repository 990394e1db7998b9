import Verif.Model.AdvectionExample
import Verif.Props.Advection
import Verif.Lemmas.CombinedMass
import Verif.Lemmas.DistributedHistory

/-!
# The advection solver on the grids of the combination
-/

namespace Verif.Advection

open GroupGrid

variable {K : Type}

/-! ### The grid of the solver -/

section grid

variable {refs : List RefDim} {L : List ℕ}

theorem compGrid_levels (hL : L.length = refs.length) : (compGrid refs L).map (·.level) = L := by
  unfold compGrid
  rw [List.map_zipWith]
  apply List.ext_getElem
  · simp [hL]
  · intro i h1 h2
    simp

theorem globalSizes_compGrid (refs : List RefDim) (L : List ℕ) :
    globalSizes (solverGrid (compGrid refs L)) = wholeSizes refs L := by
  unfold globalSizes solverGrid compGrid wholeSizes
  rw [List.map_map, List.map_zipWith]
  rfl

theorem lowerBounds_compGrid {c : List ℕ} (hc : InGroup refs c) (hL : L.length = refs.length) :
    lowerBounds (solverGrid (compGrid refs L)) c = firstOf refs c L := by
  unfold lowerBounds solverGrid compGrid firstOf
  have hl := length_atProcess hc
  have hcl := hc.length_eq
  apply List.ext_getElem
  · simp only [List.length_zipWith, List.length_map]
    omega
  · intro i h1 h2
    simp only [List.getElem_zipWith, List.getElem_map]
    rw [getElem_atProcess hc (by
      simp only [List.length_map, List.length_zipWith, hl] at h2
      omega)]
    rfl

theorem localSizes_compGrid {c : List ℕ} (hc : InGroup refs c) (hL : L.length = refs.length) :
    localSizes (solverGrid (compGrid refs L)) c = partOf refs c L := by
  unfold localSizes lowerBounds upperBounds solverGrid compGrid partOf
  have hl := length_atProcess hc
  have hcl := hc.length_eq
  apply List.ext_getElem
  · simp only [List.length_zipWith, List.length_map]
    omega
  · intro i h1 h2
    simp only [List.getElem_zipWith, List.getElem_map]
    rw [getElem_atProcess hc (by
      simp only [List.length_map, List.length_zipWith, hl] at h2
      omega)]
    rfl

theorem validCoords_compGrid (hL : L.length = refs.length) {c : List ℕ} :
    ValidCoords (solverGrid (compGrid refs L)) c ↔ InGroup refs c := by
  unfold ValidCoords InGroup solverGrid compGrid
  rw [List.forall₂_iff_get, List.forall₂_iff_get]
  simp only [List.length_map, List.length_zipWith, hL, Nat.min_self, List.get_eq_getElem, List.getElem_map,
    List.getElem_zipWith]
  have e : ∀ (r : RefDim) l, (downsampleDecomposition1d r.dec r.level l r.boundary).length = r.dec.length := by
    intro r l
    rw [downsample_eq_map, List.length_map]
  simp only [e]

theorem fullParts_compGrid (hr : ∀ r ∈ refs, ValidRef r) (hL : ValidComponent refs L)
    (hne : ∀ c, InGroup refs c → ∀ d ∈ List.zipWith localOf (atProcess refs c) L, 0 < d.size) :
    FullParts (solverGrid (compGrid refs L)) := by
  have hl := hL.le.length_eq
  intro d hd
  obtain ⟨k, hk, rfl⟩ := List.mem_iff_getElem.1 hd
  have hk' : k < refs.length := by
    simp only [solverGrid, compGrid, List.length_map, List.length_zipWith] at hk
    omega
  have hkL : k < L.length := by omega
  have h1 := (List.forall₂_iff_get.1 hL.le).2 k hkL hk'
  have h4 := hr _ (List.getElem_mem hk')
  simp only [List.get_eq_getElem] at h1
  have hv := validDec_downsample _ _ _ _ h4.boundary h1 h4.dec
  have hlen : (downsampleDecomposition1d refs[k].dec refs[k].level L[k] refs[k].boundary).length =
      refs[k].dec.length := by rw [downsample_eq_map, List.length_map]
  simp only [solverGrid, compGrid, List.getElem_map, List.getElem_zipWith]
  generalize hD : downsampleDecomposition1d refs[k].dec refs[k].level L[k] refs[k].boundary = D at hv hlen ⊢
  -- the part of every process in this dimension
  have hsize : ∀ a (ha : a < D.length), D[a] < (upperBound1d D (nodal L[k] refs[k].boundary) a).getD 0 := by
    intro a ha
    have hc : InGroup refs (refs.mapIdx fun i _ => if i = k then a else 0) := by
      refine List.forall₂_iff_get.2 ⟨by simp, fun i h1 h2 => ?_⟩
      simp only [List.get_eq_getElem, List.getElem_mapIdx]
      split
      · rename_i e
        subst e
        omega
      · have := (hr _ (List.getElem_mem h2)).coord
        omega
    have hla := length_atProcess hc
    have := hne _ hc _ (List.getElem_mem (l := List.zipWith localOf (atProcess refs _) L) (n := k) (by
      rw [List.length_zipWith, hla]; omega))
    rw [List.getElem_zipWith, getElem_atProcess hc hk'] at this
    simp only [localOf, List.getElem_mapIdx, if_true, hD] at this
    rw [lowerBound1d, List.getElem?_eq_getElem ha, Option.getD_some] at this
    omega
  refine ⟨hv.head, ?_, ?_⟩
  · have hstep : ∀ a (ha : a + 1 < D.length), D[a] < D[a + 1] := by
      intro a ha
      have := hsize a (by omega)
      rw [upperBound1d, if_pos ha, lowerBound1d, List.getElem?_eq_getElem ha, Option.getD_some] at this
      exact this
    rw [List.pairwise_iff_getElem]
    intro i j hi hj hij
    obtain ⟨e, rfl⟩ : ∃ e, j = i + 1 + e := ⟨j - (i + 1), by omega⟩
    clear hij
    induction e with
    | zero => exact hstep i hj
    | succ e ih => exact lt_trans (ih (by omega)) (hstep (i + 1 + e) (by omega))
  · intro x hx
    obtain ⟨i, hi, rfl⟩ := List.mem_iff_getElem.1 hx
    have h2 := hsize i hi
    have h3 : (upperBound1d D (nodal L[k] refs[k].boundary) i).getD 0 ≤ nodal L[k] refs[k].boundary := by
      unfold upperBound1d lowerBound1d
      split
      · rename_i h
        rw [List.getElem?_eq_getElem h, Option.getD_some]
        exact hv.le _ (List.getElem_mem h)
      · exact Nat.le_refl _
    exact lt_of_lt_of_le h2 h3

end grid

/-! ### Parts of a grid and the data of the solver -/

theorem vectorOf_getElem? (b : Buf K) {q : ℕ} (h : q < b.len) : (vectorOf b)[q]? = some (b.val q) := by
  unfold vectorOf
  rw [List.getElem?_map, List.getElem?_range h]
  rfl

theorem represents_of_holds {refs : List RefDim} {t : K × List ℕ × (ℕ → K)}
    (hL : ValidComponent refs t.2.1) {gt : GroupTask K} (h : HoldsParts refs t gt) :
    Represents (solverGrid gt.dims) (fun c => vectorOf (gt.data c))
      fun x => t.2.2 (sequentialIndex (wholeSizes refs t.2.1) x) := by
  obtain ⟨-, h2, h3⟩ := h
  have hl := hL.le.length_eq
  intro c hc
  rw [h2, validCoords_compGrid hl] at hc
  obtain ⟨a1, a2⟩ := h3 c hc
  rw [h2, localSizes_compGrid hc hl, lowerBounds_compGrid hc hl]
  refine ⟨by simp only [vectorOf, List.length_map, List.length_range]; exact a1, fun y hy => ?_⟩
  have hlt : sequentialIndex (partOf refs c t.2.1) y < numLocal (atProcess refs c) t.2.1 :=
    sequentialIndex_lt _ _ hy
  rw [vectorOf_getElem? _ (by rw [a1]; exact hlt), a2 _ hlt]
  unfold globalOf
  rw [getVectorIndex_sequentialIndex _ _ hy]

theorem holds_of_represents [Zero K] {refs : List RefDim} (hr : ∀ r ∈ refs, ValidRef r) {L : List ℕ}
    (hL : ValidComponent refs L) (coeff : K) {data : List ℕ → List K} {V : List ℕ → K}
    (h : Represents (solverGrid (compGrid refs L)) data V) :
    HoldsParts refs (coeff, L, fun q => V (getVectorIndex (wholeSizes refs L) q))
      ⟨coeff, compGrid refs L, fun c => dataFrom (data c)⟩ := by
  have hl := hL.le.length_eq
  refine ⟨rfl, rfl, fun c hc => ?_⟩
  obtain ⟨a1, a2⟩ := h c ((validCoords_compGrid hl).2 hc)
  rw [localSizes_compGrid hc hl] at a1 a2
  rw [lowerBounds_compGrid hc hl] at a2
  refine ⟨a1, fun q hq => ?_⟩
  obtain ⟨y1, y2⟩ := getVectorIndex_spec (partOf refs c L) q hq
  have e := a2 _ y1
  rw [y2] at e
  simp only [dataFrom]
  rw [List.getD_eq_getElem?_getD, e, Option.getD_some]
  unfold globalOf
  rw [getVectorIndex_sequentialIndex _ _ (inBox_global hr hL hc y1)]

/-- The values of the upwind scheme on a component grid of level `L` with values `x`. -/
def advected [Field K] (refs : List RefDim) (dt : K) (nsteps : ℕ) (L : List ℕ) (x : ℕ → K) (q : ℕ) : K :=
  (upwind (wholeSizes refs L) L dt)^[nsteps] (fun i => x (sequentialIndex (wholeSizes refs L) i))
    (getVectorIndex (wholeSizes refs L) q)

theorem runTask_holds [Field K] {refs : List RefDim} (h0 : refs ≠ []) (hr : ∀ r ∈ refs, ValidRef r)
    {t : K × List ℕ × (ℕ → K)} (hL : ValidComponent refs t.2.1)
    (hne : ∀ c, InGroup refs c → ∀ d ∈ List.zipWith localOf (atProcess refs c) t.2.1, 0 < d.size)
    (v : Variant) (dt : K) (nsteps : ℕ) {gt : GroupTask K} (h : HoldsParts refs t gt) :
    ∃ d, runTaskData v (refs.map fun r => r.dec.length) dt nsteps gt = some d ∧
      HoldsParts refs (t.1, t.2.1, advected refs dt nsteps t.2.1 t.2.2) { gt with data := d } := by
  have hrep := represents_of_holds hL h
  obtain ⟨h1, h2, -⟩ := h
  have hl := hL.le.length_eq
  obtain ⟨coeff, dims, data⟩ := gt
  simp only at h1 h2 hrep
  subst h1 h2
  have hlev : t.2.1.length = (solverGrid (compGrid refs t.2.1)).length := by
    simp [solverGrid, compGrid, hl]
  have hgrid : solverGrid (compGrid refs t.2.1) ≠ [] := by
    intro e
    rw [e] at hlev
    have := List.length_pos_iff.2 h0
    simp only [List.length_nil] at hlev
    omega
  obtain ⟨data', e1, e2⟩ := C109_time_steps v _ (fullParts_compGrid hr hL hne) hgrid t.2.1 hlev
    (groupProcesses (refs.map fun r => r.dec.length))
    (fun c hc => (validCoords_compGrid hl).2 (mem_groupProcesses.1 hc)) dt nsteps _ _ hrep
  refine ⟨fun c => dataFrom (data' c), ?_, ?_⟩
  · unfold runTaskData
    rw [compGrid_levels hl, e1]
    rfl
  · rw [globalSizes_compGrid] at e2
    exact holds_of_represents hr hL t.1 e2

theorem createTask_holds [Field K] [LT K] [DecidableLT K] {refs : List RefDim} (h0 : refs ≠ [])
    (hr : ∀ r ∈ refs, ValidRef r) (hb : ∀ r ∈ refs, r.boundary = 1) {L : List ℕ} (hL : ValidComponent refs L)
    (hne : ∀ c, InGroup refs c → ∀ d ∈ List.zipWith localOf (atProcess refs c) L, 0 < d.size)
    (f : List K → K) {dt : K} (hcfl : cflCondition L dt = true) (coeff : K) :
    ∃ gt, createTask f dt (coeff, compGrid refs L) = some gt ∧
      HoldsParts refs (coeff, L, fun q => f (pointCoords L (getVectorIndex (wholeSizes refs L) q))) gt := by
  have hl := hL.le.length_eq
  have hlev : L.length = (solverGrid (compGrid refs L)).length := by
    simp [solverGrid, compGrid, hl]
  have hgrid : solverGrid (compGrid refs L) ≠ [] := by
    intro e
    rw [e] at hlev
    have := List.length_pos_iff.2 h0
    simp only [List.length_nil] at hlev
    omega
  have hrep := C109_initial _ (fullParts_compGrid hr hL hne) hgrid L hlev f
  refine ⟨_, ?_, holds_of_represents hr hL coeff hrep⟩
  unfold createTask
  simp only
  rw [compGrid_levels hl, if_pos]
  rw [hcfl, Bool.and_true, List.all_eq_true]
  intro d hd
  obtain ⟨i, hi, rfl⟩ := List.mem_iff_getElem.1 hd
  simp only [compGrid, List.getElem_zipWith, beq_iff_eq]
  exact hb _ (List.getElem_mem _)

/-! ### Mass -/

theorem sum_shift [AddCommGroup K] (n : ℕ) (v : ℕ → K) :
    ∑ i ∈ Finset.range n, v (if i = 0 then n - 1 else i - 1) = ∑ i ∈ Finset.range n, v i := by
  cases n with
  | zero => rfl
  | succ n =>
    rw [Finset.sum_range_succ', Finset.sum_range_succ v]
    simp

theorem trapOf_one [Field K] [CharZero K] (l : ℕ) (v : ℕ → K) :
    trapOf 1 l v = (∑ i ∈ Finset.range (2 ^ l), v i) / 2 ^ l := by
  have hpos : 0 < 2 ^ l := by positivity
  unfold trapOf trapezoid
  congr 1
  rw [Nat.cast_one, one_mul, ← Finset.mul_sum, Finset.sum_add_distrib]
  have e1 : ∑ i ∈ Finset.range (2 ^ l), poleValue 1 l ⟨nodal l 1, v⟩ (i * 1) =
      ∑ i ∈ Finset.range (2 ^ l), v i := by
    refine Finset.sum_congr rfl fun i hi => ?_
    rw [Finset.mem_range] at hi
    simp [poleValue, show i ≠ 2 ^ l by omega]
  have e2 : ∑ i ∈ Finset.range (2 ^ l), poleValue 1 l ⟨nodal l 1, v⟩ ((i + 1) * 1) =
      ∑ i ∈ Finset.range (2 ^ l), v i := by
    have key : ∀ i ∈ Finset.range (2 ^ l), poleValue 1 l ⟨nodal l 1, v⟩ ((i + 1) * 1) =
        v (if i + 1 = 2 ^ l then 0 else i + 1) := by
      intro i hi
      simp only [poleValue, mul_one, one_ne_zero, if_false, true_and]
      split <;> rfl
    rw [Finset.sum_congr rfl key]
    obtain ⟨m, hm⟩ : ∃ m, 2 ^ l = m + 1 := ⟨2 ^ l - 1, by omega⟩
    rw [hm, Finset.sum_range_succ, if_pos rfl, Finset.sum_range_succ']
    congr 1
    refine Finset.sum_congr rfl fun i hi => ?_
    rw [Finset.mem_range] at hi
    rw [if_neg (by omega)]
  rw [e1, e2, ← two_mul, inv_mul_cancel_left₀ two_ne_zero]

theorem mass_below [Field K] [CharZero K] {refs : List RefDim} (hb : ∀ r ∈ refs, r.boundary = 1) {L : List ℕ}
    (hL : L.length = refs.length) {d : ℕ} (hd : d < refs.length) (V : List ℕ → K) :
    mass refs L (fun x => V (below (wholeSizes refs L) d x)) = mass refs L V := by
  induction refs generalizing L d V with
  | nil => simp at hd
  | cons r refs ih =>
    cases L with
    | nil => simp at hL
    | cons l L =>
      have h1 : r.boundary = 1 := hb r (by simp)
      unfold mass
      rw [h1, trapOf_one, trapOf_one]
      congr 1
      have hw : wholeSizes (r :: refs) (l :: L) = 2 ^ l :: wholeSizes refs L := by
        unfold wholeSizes nodal
        rw [List.zipWith_cons_cons, h1]
        simp
      cases d with
      | zero =>
        rw [← sum_shift (2 ^ l) fun i => mass refs L fun x => V (i :: x)]
        refine Finset.sum_congr rfl fun i _ => ?_
        simp [below, hw]
      | succ d =>
        refine Finset.sum_congr rfl fun i _ => ?_
        rw [← ih (fun r h => hb r (by simp [h])) (by simpa using hL) (d := d) (by simpa using hd)
          fun x => V (i :: x)]
        simp [below, hw]

theorem mass_upwind [Field K] [CharZero K] {refs : List RefDim} (hb : ∀ r ∈ refs, r.boundary = 1) {L : List ℕ}
    (hL : L.length = refs.length) (dt : K) (nsteps : ℕ) (V : List ℕ → K) :
    mass refs L ((upwind (wholeSizes refs L) L dt)^[nsteps] V) = mass refs L V := by
  induction nsteps generalizing V with
  | zero => rfl
  | succ n ih =>
    rw [Function.iterate_succ_apply, ih]
    have hs : (wholeSizes refs L).length = refs.length := by simp [wholeSizes, hL]
    have e : upwind (wholeSizes refs L) L dt V = fun x => 1 * V x + (-dt) *
        ∑ d ∈ Finset.range refs.length, 2 ^ L.getD d 0 * (1 * V x + (-1) * V (below (wholeSizes refs L) d x)) := by
      funext x
      unfold upwind
      rw [hs]
      have : ∑ d ∈ Finset.range refs.length, (V x - V (below (wholeSizes refs L) d x)) * 2 ^ L.getD d 0 =
          ∑ d ∈ Finset.range refs.length,
            2 ^ L.getD d 0 * (1 * V x + (-1) * V (below (wholeSizes refs L) d x)) :=
        Finset.sum_congr rfl fun d _ => by ring
      rw [this]
      ring
    rw [e, mass_lin, mass_sum]
    have h0 : ∑ d ∈ Finset.range refs.length, 2 ^ L.getD d 0 *
        mass refs L (fun x => 1 * V x + (-1) * V (below (wholeSizes refs L) d x)) = 0 := by
      refine Finset.sum_eq_zero fun d hd => ?_
      rw [Finset.mem_range] at hd
      rw [mass_lin, mass_below hb hL hd]
      ring
    rw [h0, one_mul, mul_zero, add_zero]

theorem massOf_advected [Field K] [CharZero K] {refs : List RefDim} (hb : ∀ r ∈ refs, r.boundary = 1)
    {t : K × List ℕ × (ℕ → K)} (hL : t.2.1.length = refs.length) (dt : K) (nsteps : ℕ) :
    massOf refs (t.1, t.2.1, advected refs dt nsteps t.2.1 t.2.2) = massOf refs t := by
  unfold massOf
  simp only
  rw [← mass_upwind hb hL dt nsteps fun x => t.2.2 (sequentialIndex (wholeSizes refs t.2.1) x)]
  refine mass_congr (fun r h => by rw [hb r h]; decide) hL fun x hx => ?_
  unfold advected
  rw [getVectorIndex_sequentialIndex _ _ hx]

end Verif.Advection

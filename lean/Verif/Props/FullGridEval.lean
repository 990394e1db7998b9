import Verif.Lemmas.FullGridEval
import Verif.Props.Interpolation

/-!
# C71: evaluation and addition of full grids that are not distributed

`C71_eval_partial`: on the unit cube, `eval` is the multilinear interpolant. In cells without two points
(next to a missing boundary) this is the extrapolation from the next cell. The restriction is on dimensions
with a single point (level 1, no boundary) which are not the last one: their coordinate has to be in the left
half (`C71_single_point_violated`). `C71_hat_partial`: where there is no extrapolation, the interpolant is the
one with hat functions, as on distributed grids; `C71_no_boundary_violated` and `C71_periodic_violated`:
with extrapolation it is not.
-/

namespace Verif.FullGridEval

open Verif.Interpolation (hat interp Axis)

variable {K : Type} [Field K] [LinearOrder K] [FloorRing K] [IsStrictOrderedRing K]
variable {V : Type} [AddCommMonoid V] [Module K V]

/-- The numbers of points. -/
def sizes (dims : List (ℕ × ℕ)) : List ℕ := dims.map fun s => nodal s.1 s.2

/-- `data` stores the values `f` of the points, the first dimension changes fastest. -/
def Stores (dims : List (ℕ × ℕ)) (data : List V) (f : List ℕ → V) : Prop :=
  data.length = (sizes dims).prod ∧ ∀ is, List.Forall₂ (· < ·) is (sizes dims) →
    data[sequentialIndex (sizes dims) is]? = some (f is)

omit [Field K] [LinearOrder K] [FloorRing K] [IsStrictOrderedRing K] in
lemma zip_map_fst (dims : List (ℕ × ℕ)) (coords : List K) (h : coords.length = dims.length) :
    ((dims.zip coords).map fun a => nodal a.1.1 a.1.2) = sizes dims := by
  have h1 : (dims.zip coords).map Prod.fst = dims := List.map_fst_zip (by omega)
  unfold sizes
  conv_rhs => rw [← h1, List.map_map]
  rfl

/-- C71, `eval` is the multilinear interpolant. -/
theorem C71_eval_partial (dims : List (ℕ × ℕ)) (coords : List K) (hlen : coords.length = dims.length)
    (hdim : dims.length ≤ 28) (h : ∀ a ∈ dims.zip coords, DimOk a.1 a.2)
    (hhalf : ∀ a ∈ (dims.zip coords).dropLast, Half a.1 a.2) (cr : Bool) (data : List V) (f : List ℕ → V)
    (hdata : Stores dims data f) :
    eval ⟨dims, cr, false, data⟩ coords = .ok (interpolant (dims.zip coords) f) := by
  set as := dims.zip coords with has
  have hsz : (as.map fun a => nodal a.1.1 a.1.2) = sizes dims := zip_map_fst dims coords hlen
  have hpos : 0 < data.length := by
    rw [hdata.1, ← hsz]
    apply List.prod_pos
    intro n hn
    obtain ⟨a, ha, rfl⟩ := List.mem_map.1 hn
    exact (h a ha).2.2.1
  -- the cells with the last dimension mirrored
  obtain ⟨cs, h1, h2⟩ : ∃ cs, List.Forall₂ Stands as.reverse cs ∧ ∀ l v,
      cornerLoop (as.reverse.map fun a => cellOf a.1 a.2) data l v = cornerLoop cs data l v := by
    rcases List.eq_nil_or_concat as with h0 | ⟨bs, a, h0⟩
    · refine ⟨[], by rw [h0]; exact List.Forall₂.nil, fun l v => by rw [h0]; rfl⟩
    · rw [h0] at h hhalf ⊢
      rw [List.concat_eq_append] at h hhalf ⊢
      rw [List.dropLast_concat] at hhalf
      rw [List.reverse_append, List.reverse_singleton, List.singleton_append, List.map_cons]
      have ha := h a (by simp)
      refine ⟨mirror (cellOf a.1 a.2) :: bs.reverse.map fun a => cellOf a.1 a.2, ?_, ?_⟩
      · refine List.Forall₂.cons (stands_mirror a ha) ?_
        rw [List.forall₂_map_right_iff, List.forall₂_same]
        intro b hb
        rw [List.mem_reverse] at hb
        exact stands_half b (h b (by simp [hb])) (hhalf b hb)
      · intro l v
        rw [cornerLoop_mirror]
        intro hn
        rw [(evalDim_ok _ _ ha).2.2.2.1]
        exact ha.2.2.2.2
  have hcs : ∀ c ∈ cs, CellOk c := by
    intro c hc
    obtain ⟨i, hi, rfl⟩ := List.getElem_of_mem hc
    exact (h1.get (by rw [h1.length_eq]; exact hi) hi).2.1
  have hn : (cs.map fun c => c.n.toNat) = (sizes dims).reverse := by
    rw [← hsz, ← List.map_reverse]
    refine (List.forall₂_eq_eq_eq ▸ ?_ : List.map _ as.reverse = cs.map _).symm
    rw [List.forall₂_map_left_iff, List.forall₂_map_right_iff]
    refine h1.imp fun a c hac => ?_
    rw [hac.2.2.1]
    rfl
  have hcl : cs.length = dims.length := by
    rw [← h1.length_eq, List.length_reverse, has, List.length_zip, hlen, min_self]
  unfold eval
  simp only [Bool.false_eq_true, if_false]
  rw [if_neg (by omega)]
  have hr := readAt_eq data 0 hpos
  rw [Nat.cast_zero] at hr
  rw [hr]
  simp only [Outcome.bind]
  rw [← has, evalDims_ok _ (fun a ha => h a (List.mem_reverse.1 ha))]
  simp only
  rw [powerOfTwo?_eq hdim]
  simp only
  obtain ⟨m, hm⟩ : ∃ m, 2 ^ dims.length = m + 1 :=
    ⟨2 ^ dims.length - 1, by have := Nat.two_pow_pos dims.length; omega⟩
  rw [h2, hm, cornerLoop_eq cs hcs data (by rw [hdata.1, hn, List.prod_reverse]), ← hm, ← hcl,
    sum_corners (fun i => data.getD i 0) cs 0, total_eq as cs h1]
  congr 1
  apply interpolant_congr
  intro is his
  rw [hsz] at his ⊢
  have := hdata.2 is his
  rw [mul_zero, add_zero, List.getD_eq_getElem?_getD, this]
  rfl

omit [IsStrictOrderedRing K] in
/-- Grids with hierarchical coefficients are not evaluated and nothing is added to them; nor are they added to a
grid of another shape. -/
theorem C71_hierarchized (g fg : Grid V) (hg : g.hierarchized = true) (coords : List K) (coeff : K) :
    eval g coords = .stuck ∧ add g fg coeff = .stuck ∧
      (fg.dims ≠ g.dims → nrElements fg.dims ≠ .ok 0 → ∀ r, add fg g coeff ≠ .ok r) := by
  have he : ∀ coords : List K, eval g coords = .stuck := fun coords => by
    unfold eval
    rw [if_pos hg]
  refine ⟨he coords, ?_, ?_⟩
  · unfold add
    rw [if_pos (.inl hg)]
  · intro hne hn r hr
    unfold add at hr
    split at hr
    · cases hr
    · cases hnr : nrElements fg.dims with
      | stuck => rw [hnr] at hr; cases hr
      | error => rw [hnr] at hr; cases hr
      | ok n =>
        rw [hnr] at hr
        simp only [Outcome.bind] at hr
        generalize (if fg.created = true then fg.data else List.replicate n 0) = dst at hr
        split at hr
        · cases hr
        · rename_i hd
          have hn0 : n ≠ 0 := by rintro rfl; exact hn hnr
          obtain ⟨m, rfl⟩ := Nat.exists_eq_succ_of_ne_zero hn0
          obtain ⟨v, dst', rfl⟩ : ∃ v dst', dst = v :: dst' := by
            cases dst with
            | nil => simp at hd
            | cons v dst' => exact ⟨v, dst', rfl⟩
          rw [Nat.succ_eq_add_one, List.range_succ_eq_map, List.zip_cons_cons, addLoop] at hr
          cases hc : getCoords (K := K) fg.dims 0 with
          | stuck => rw [hc] at hr; cases hr
          | error => rw [hc] at hr; cases hr
          | ok c =>
            rw [hc] at hr
            simp only [Outcome.bind, he] at hr
            cases hr

example : ([(1, 2)] : List (ℕ × ℕ)) ≠ [(2, 2)] ∧ nrElements [(1, 2)] = .ok 3 := by decide

omit [IsStrictOrderedRing K] in
/-- C71, a coordinate outside of the unit interval gives zero. -/
theorem C71_outside (dims : List (ℕ × ℕ)) (coords : List K) (hlen : coords.length = dims.length)
    (hdim : dims.length ≤ 63) (h : ∀ s ∈ dims, s.1 < 30) (hx : ∃ x ∈ coords, x < 0 ∨ 1 < x) (cr : Bool)
    (data : List V) (hdata : data ≠ []) : eval ⟨dims, cr, false, data⟩ coords = .ok 0 := by
  unfold eval
  simp only [Bool.false_eq_true, if_false]
  rw [if_neg (by omega)]
  have hr := readAt_eq data 0 (List.length_pos_of_ne_nil hdata)
  rw [Nat.cast_zero] at hr
  rw [hr]
  simp only [Outcome.bind]
  rw [evalDims_outside]
  · intro a ha
    exact h _ (List.of_mem_zip (List.mem_reverse.1 ha)).1
  · obtain ⟨x, hx1, hx2⟩ := hx
    have h1 : (dims.zip coords).map Prod.snd = coords := List.map_snd_zip (by omega)
    rw [← h1] at hx1
    obtain ⟨a, ha, rfl⟩ := List.mem_map.1 hx1
    exact ⟨a, List.mem_reverse.2 ha, hx2⟩

/-- The axes of the same grid for the interpolant of distributed grids. -/
def axes (dims : List (ℕ × ℕ)) (coords : List K) : List (Axis K) :=
  (dims.zip coords).map fun a => ⟨a.1.1, a.1.2, [], a.2⟩

lemma interpolant_eq_interp (as : List ((ℕ × ℕ) × K)) (h : ∀ a ∈ as, DimOk a.1 a.2 ∧ Inner a.1 a.2)
    (f : List ℕ → V) :
    interpolant as f = interp (as.map fun a => (⟨a.1.1, a.1.2, [], a.2⟩ : Axis K)) f := by
  induction as generalizing f with
  | nil => rfl
  | cons a as ih =>
    obtain ⟨h1, h2⟩ := h a (List.mem_cons_self ..)
    rw [List.map_cons]
    unfold interpolant Interpolation.interp
    refine Finset.sum_congr rfl fun j hj => ?_
    rw [ih fun a ha => h a (List.mem_cons_of_mem _ ha), basis_eq_hat _ _ h1 h2 j (Finset.mem_range.1 hj)]

/-- C71, between the first and the last points of all dimensions `eval` is the interpolant with hat functions,
which distributed grids have, too (C56). -/
theorem C71_hat_partial (dims : List (ℕ × ℕ)) (coords : List K) (hlen : coords.length = dims.length)
    (hdim : dims.length ≤ 28) (h : ∀ a ∈ dims.zip coords, DimOk a.1 a.2 ∧ Inner a.1 a.2)
    (hhalf : ∀ a ∈ (dims.zip coords).dropLast, Half a.1 a.2) (cr : Bool) (data : List V) (f : List ℕ → V)
    (hdata : Stores dims data f) :
    eval ⟨dims, cr, false, data⟩ coords = .ok (interp (axes dims coords) f) := by
  rw [C71_eval_partial dims coords hlen hdim (fun a ha => (h a ha).1) hhalf cr data f hdata,
    interpolant_eq_interp _ h]
  rfl

/-- The coordinates of a point. -/
def pointCoords (dims : List (ℕ × ℕ)) (js : List ℕ) : List K :=
  List.zipWith (fun s j => ((pos s.2 j : ℕ) : K) / 2 ^ s.1) dims js

/-- The levels and flags of a grid that can be evaluated. -/
def Valid (s : ℕ × ℕ) : Prop := s.1 ≤ 28 ∧ s.2 ≤ 2 ∧ 1 ≤ nodal s.1 s.2 ∧ (nodal s.1 s.2 = 1 → s.2 = 0)

instance (s : ℕ × ℕ) : Decidable (Valid s) := by unfold Valid; infer_instance

lemma point_ok (s : ℕ × ℕ) (hs : Valid s) (j : ℕ) (hj : j < nodal s.1 s.2) :
    DimOk s (((pos s.2 j : ℕ) : K) / 2 ^ s.1) ∧ Inner s (((pos s.2 j : ℕ) : K) / 2 ^ s.1) ∧
      Half s (((pos s.2 j : ℕ) : K) / 2 ^ s.1) := by
  obtain ⟨h1, h2, h3, h4⟩ := hs
  obtain ⟨p1, p2, p3⟩ := pos_le h2 hj
  have hp : (0 : K) < 2 ^ s.1 := by positivity
  have hle : ((pos s.2 j : ℕ) : K) ≤ 2 ^ s.1 := by exact_mod_cast p1
  refine ⟨⟨h1, h2, h3, h4, by positivity, by rwa [div_le_one hp]⟩, ⟨fun h => Or.inl ?_, fun h => Or.inl ?_⟩,
    fun hn => ?_⟩
  · rw [div_le_div_iff_of_pos_right hp]
    exact_mod_cast p3 h
  · rw [le_sub_iff_add_le, ← add_div, div_le_one hp]
    exact_mod_cast p2 h
  · have := single_eq (h4 hn) hn
    subst this
    have hj0 : j = 0 := by omega
    subst hj0
    simp [pos]

/-- C71, at its points the grid has the values stored there. -/
theorem C71_grid_point (dims : List (ℕ × ℕ)) (hdim : dims.length ≤ 28) (h : ∀ s ∈ dims, Valid s) (js : List ℕ)
    (hjs : List.Forall₂ (· < ·) js (sizes dims)) (cr : Bool) (data : List V) (f : List ℕ → V)
    (hdata : Stores dims data f) :
    eval ⟨dims, cr, false, data⟩ (pointCoords (K := K) dims js) = .ok (f js) := by
  have hl : js.length = dims.length := by rw [hjs.length_eq, sizes, List.length_map]
  have hcl : (pointCoords (K := K) dims js).length = dims.length := by simp [pointCoords, hl]
  have hz : ∀ a ∈ dims.zip (pointCoords (K := K) dims js), ∃ j, a.1 ∈ dims ∧ j < nodal a.1.1 a.1.2 ∧
      a.2 = ((pos a.1.2 j : ℕ) : K) / 2 ^ a.1.1 := by
    intro a ha
    obtain ⟨i, hi, rfl⟩ := List.getElem_of_mem ha
    have hi1 : i < dims.length := by simp at hi; omega
    have hi2 : i < js.length := by omega
    have hlt := hjs.get hi2 (by simpa [sizes] using hi1)
    refine ⟨js[i], ?_, ?_, ?_⟩
    · simp
    · simpa [sizes] using hlt
    · simp [pointCoords]
  have hok : ∀ a ∈ dims.zip (pointCoords (K := K) dims js), (DimOk a.1 a.2 ∧ Inner a.1 a.2) ∧ Half a.1 a.2 := by
    intro a ha
    obtain ⟨j, h1, h2, h3⟩ := hz a ha
    obtain ⟨e1, e2, e3⟩ := point_ok (K := K) a.1 (h _ h1) j h2
    rw [h3]
    exact ⟨⟨e1, e2⟩, e3⟩
  rw [C71_hat_partial dims _ hcl hdim (fun a ha => (hok a ha).1)
    (fun a ha => (hok a (List.mem_of_mem_dropLast ha)).2) cr data f hdata,
    Interpolation.C56_interp_grid_point _ _ js]
  · unfold axes
    rw [List.forall₂_map_right_iff, List.forall₂_iff_get]
    refine ⟨by simp [hcl, hl], fun i h1 h2 => ?_⟩
    have hlt := hjs.get h1 (by simp [sizes]; simp at h2; omega)
    simp only [List.get_eq_getElem, List.getElem_zip]
    refine ⟨by simpa [sizes] using hlt, ?_⟩
    simp [pointCoords]
  · intro a ha
    obtain ⟨b, hb, rfl⟩ := List.mem_map.1 ha
    exact ((hok b hb).1.1).2.1

lemma oneOverPowOfTwo?_eq (l : ℕ) (h : l ≤ 28) : oneOverPowOfTwo? l = some (1 / 2 ^ l) := by
  interval_cases l <;> decide +kernel

omit [FloorRing K] in
/-- `getCoords` gives the coordinates of the point with this number. -/
lemma getCoords_eq (dims : List (ℕ × ℕ)) (h : ∀ s ∈ dims, s.1 ≤ 28) (js : List ℕ)
    (hjs : List.Forall₂ (· < ·) js (sizes dims)) :
    getCoords (K := K) dims (sequentialIndex (sizes dims) js) = .ok (pointCoords dims js) := by
  induction dims generalizing js with
  | nil =>
    cases hjs
    rfl
  | cons s dims ih =>
    unfold sizes at hjs
    rw [List.map_cons] at hjs
    cases hjs with
    | @cons j _ js _ h1 h2 =>
      have hs := h s (List.mem_cons_self ..)
      have hn : 2 ^ s.1 + s.2 - 1 = nodal s.1 s.2 := rfl
      have hseq : sequentialIndex (sizes (s :: dims)) (j :: js) =
          j + nodal s.1 s.2 * sequentialIndex (sizes dims) js := sequentialIndex_cons ..
      unfold getCoords
      rw [powerOfTwo?_eq hs, oneOverPowOfTwo?_eq _ hs, hseq]
      simp only [hn]
      rw [if_neg (by omega), Nat.add_mul_mod_self_left, Nat.mod_eq_of_lt h1,
        Nat.add_mul_div_left _ _ (by omega), Nat.div_eq_of_lt h1, zero_add,
        ih (fun s hs => h s (List.mem_cons_of_mem _ hs)) js h2]
      simp only [Outcome.bind, pointCoords, List.zipWith_cons_cons]
      congr 2
      push_cast
      unfold pos
      by_cases hb : s.2 = 0
      · simp [hb, div_eq_mul_inv]
      · simp [hb, Nat.pos_of_ne_zero hb, div_eq_mul_inv]

lemma nrElements_eq (dims : List (ℕ × ℕ)) (h : ∀ s ∈ dims, s.1 ≤ 28) :
    nrElements dims = .ok (sizes dims).prod := by
  induction dims with
  | nil => rfl
  | cons s dims ih =>
    unfold nrElements
    rw [powerOfTwo?_eq (h s (List.mem_cons_self ..))]
    simp only
    rw [ih fun s hs => h s (List.mem_cons_of_mem _ hs)]
    simp [Outcome.bind, sizes, nodal]

omit [IsStrictOrderedRing K] in
lemma addLoop_eq (dims : List (ℕ × ℕ)) (fg : Grid V) (coeff : K) (E : ℕ → V) (l : List (ℕ × V))
    (h : ∀ p ∈ l, ∃ c, getCoords (K := K) dims p.1 = .ok c ∧ eval fg c = .ok (E p.1)) :
    addLoop dims fg coeff l = .ok (l.map fun p => p.2 + coeff • E p.1) := by
  induction l with
  | nil => rfl
  | cons p l ih =>
    obtain ⟨i, v⟩ := p
    obtain ⟨c, h1, h2⟩ := h (i, v) (List.mem_cons_self ..)
    unfold addLoop
    simp only at h1 h2
    rw [h1]
    simp only [Outcome.bind]
    rw [h2]
    simp only
    rw [ih fun p hp => h p (List.mem_cons_of_mem _ hp)]
    rfl

/-- C71, `add`: the interpolant of the other grid times the coefficient is added at every point. A grid that
has not been created counts as zero. -/
theorem C71_add_partial (g fg : Grid V) (coeff : K) (hg : g.hierarchized = false) (hc : fg.created = true)
    (hf : fg.hierarchized = false) (hlen : g.dims.length = fg.dims.length) (hdim : fg.dims.length ≤ 28)
    (hgv : ∀ s ∈ g.dims, Valid s) (hfv : ∀ s ∈ fg.dims, Valid s)
    (hsingle : g.dims = fg.dims ∨ ∀ s ∈ fg.dims.dropLast, nodal s.1 s.2 ≠ 1)
    (u f : List ℕ → V) (hu : if g.created then Stores g.dims g.data u else u = fun _ => 0)
    (hdata : Stores fg.dims fg.data f) :
    ∃ data, add g fg coeff = .ok ⟨g.dims, true, false, data⟩ ∧ Stores g.dims data fun is =>
      u is + coeff • interpolant (fg.dims.zip (pointCoords (K := K) g.dims is)) f := by
  have hg28 : ∀ s ∈ g.dims, s.1 ≤ 28 := fun s hs => (hgv s hs).1
  obtain ⟨dst, hdst, hst⟩ : ∃ dst, (if g.created then g.data else List.replicate (sizes g.dims).prod 0) = dst ∧
      Stores g.dims dst u := by
    refine ⟨_, rfl, ?_⟩
    split_ifs with h
    · rw [if_pos h] at hu
      exact hu
    · rw [if_neg h] at hu
      subst hu
      refine ⟨by simp, fun is his => ?_⟩
      rw [List.getElem?_replicate, if_pos (sequentialIndex_lt _ _ his)]
  -- the coordinates of a point of `g` in `fg`
  have hpc : ∀ is, List.Forall₂ (· < ·) is (sizes g.dims) → ∀ x ∈ pointCoords (K := K) g.dims is, 0 ≤ x ∧ x ≤ 1 := by
    intro is his x hx
    obtain ⟨i, hi, rfl⟩ := List.getElem_of_mem hx
    have hi1 : i < g.dims.length := by simp [pointCoords] at hi; omega
    have hi2 : i < is.length := by simp [pointCoords] at hi; omega
    have hlt := his.get hi2 (by simpa [sizes] using hi1)
    have := point_ok (K := K) g.dims[i] (hgv _ (List.getElem_mem hi1)) is[i] (by simpa [sizes] using hlt)
    simp only [pointCoords, List.getElem_zipWith]
    exact this.1.2.2.2.2
  have hpl : ∀ is, List.Forall₂ (· < ·) is (sizes g.dims) →
      (pointCoords (K := K) g.dims is).length = fg.dims.length := by
    intro is his
    have : is.length = g.dims.length := by rw [his.length_eq, sizes, List.length_map]
    simp [pointCoords, this, hlen]
  have hev : ∀ is, List.Forall₂ (· < ·) is (sizes g.dims) →
      eval fg (pointCoords (K := K) g.dims is) =
        .ok (interpolant (fg.dims.zip (pointCoords (K := K) g.dims is)) f) := by
    intro is his
    obtain ⟨fd, fc, fh, fdata⟩ := fg
    simp only at hf hdata hfv hlen hdim hsingle hpl ⊢
    subst hf
    have hok : ∀ a ∈ fd.zip (pointCoords (K := K) g.dims is), DimOk a.1 a.2 := by
      intro a ha
      obtain ⟨h1, h2⟩ := List.of_mem_zip ha
      obtain ⟨v1, v2, v3, v4⟩ := hfv _ h1
      exact ⟨v1, v2, v3, v4, hpc is his _ h2⟩
    rcases hsingle with he | hne
    · have hgp := C71_grid_point (K := K) fd hdim hfv is (he ▸ his) fc fdata f hdata
      rw [he, hgp, interpolant_eq_interp, Interpolation.C56_interp_grid_point _ _ is]
      · rw [List.forall₂_map_right_iff, List.forall₂_iff_get]
        have hl := hpl is his
        rw [he] at hl
        have hl2 : is.length = fd.length := by rw [his.length_eq, sizes, List.length_map, he]
        refine ⟨by simp [hl, hl2], fun i h1 h2 => ?_⟩
        have his' : List.Forall₂ (· < ·) is (sizes fd) := he ▸ his
        have hlt := his'.get h1 (by simp [sizes]; omega)
        simp only [List.get_eq_getElem, List.getElem_zip]
        refine ⟨by simpa [sizes] using hlt, ?_⟩
        simp [pointCoords]
      · intro a ha
        obtain ⟨b, hb, rfl⟩ := List.mem_map.1 ha
        rw [← he] at hb
        exact (hok b (by rw [← he]; exact hb)).2.1
      · intro a ha
        rw [← he] at ha
        obtain ⟨i, hi, rfl⟩ := List.getElem_of_mem ha
        have hi1 : i < g.dims.length := by simp at hi; omega
        have hi2 : i < is.length := by
          have : is.length = g.dims.length := by rw [his.length_eq, sizes, List.length_map]
          omega
        have hlt := his.get hi2 (by simpa [sizes] using hi1)
        have := point_ok (K := K) g.dims[i] (hgv _ (List.getElem_mem hi1)) is[i]
          (by simpa [sizes] using hlt)
        simp only [List.getElem_zip, pointCoords, List.getElem_zipWith]
        exact ⟨this.1, this.2.1⟩
    · refine C71_eval_partial fd _ (hpl is his) hdim hok ?_ fc fdata f hdata
      intro a ha hn
      have hd : a.1 ∈ fd.dropLast := by
        have : (fd.zip (pointCoords (K := K) g.dims is)).dropLast.map Prod.fst = fd.dropLast := by
          rw [List.map_dropLast, List.map_fst_zip (by rw [hpl is his])]
        rw [← this]
        exact List.mem_map_of_mem ha
      exact absurd hn (hne _ hd)
  have hvec : ∀ i < (sizes g.dims).prod, ∃ is, List.Forall₂ (· < ·) is (sizes g.dims) ∧
      sequentialIndex (sizes g.dims) is = i := fun i hi =>
    ⟨_, getVectorIndex_spec (sizes g.dims) i hi⟩
  unfold add
  rw [if_neg (by simp [hg, hc, hlen]), nrElements_eq _ hg28]
  simp only [Outcome.bind]
  rw [hdst]
  by_cases he : g.dims = fg.dims
  · have hsz : dst.length = fg.data.length := by rw [hst.1, hdata.1, he]
    rw [if_pos he, if_neg (by omega)]
    refine ⟨_, by rw [hg], by simp [hst.1, hdata.1, he], fun is his => ?_⟩
    have h1 := hst.2 is his
    have h2 := hdata.2 is (he ▸ his)
    rw [← he] at h2
    rw [List.getElem?_zipWith, h1, h2]
    simp only [Option.some.injEq]
    congr 2
    have h3 := hev is his
    have hgp := C71_grid_point (K := K) fg.dims hdim hfv is (he ▸ his) fg.created fg.data f hdata
    have h4 : eval fg (pointCoords (K := K) g.dims is) = .ok (f is) := by
      rw [he, ← hgp, ← hf]
    rw [h4] at h3
    injection h3
  · rw [if_neg he, if_neg (by rw [hst.1]; omega)]
    set E : ℕ → V := fun i => interpolant (fg.dims.zip
      (pointCoords (K := K) g.dims (getVectorIndex (sizes g.dims) i))) f with hE
    rw [addLoop_eq g.dims fg coeff E]
    · refine ⟨_, by rw [hg], ?_, fun is his => ?_⟩
      · simp [hst.1]
      · have hlt := sequentialIndex_lt _ _ his
        have h1 := hst.2 is his
        have hgv := getVectorIndex_sequentialIndex _ _ his
        have hz : ((List.range (sizes g.dims).prod).zip dst)[sequentialIndex (sizes g.dims) is]? =
            some (sequentialIndex (sizes g.dims) is, u is) :=
          List.getElem?_zip_eq_some.2 ⟨by rw [List.getElem?_range hlt], h1⟩
        rw [List.getElem?_append_left (by simp [hst.1]; exact hlt), List.getElem?_map, hz]
        simp only [Option.map_some, hE, hgv]
    · intro p hp
      have hp1 := (List.of_mem_zip hp).1
      rw [List.mem_range] at hp1
      obtain ⟨h1, h2⟩ := getVectorIndex_spec (sizes g.dims) p.1 hp1
      refine ⟨pointCoords g.dims (getVectorIndex (sizes g.dims) p.1), ?_, hev _ h1⟩
      rw [← getCoords_eq g.dims hg28 _ h1, h2]

/-- C71 is violated by dimensions with one point that are not the last one: the grid has the value 1 at its
five points; the interpolant at `(3/4, 1/2)` is 1/2, `eval` gives -1. -/
theorem C71_single_point_violated :
    eval (⟨[(1, 0), (2, 2)], true, false, [1, 1, 1, 1, 1]⟩ : Grid ℚ) [(3 / 4 : ℚ), 1 / 2] = .ok (-1) ∧
      interpolant [((1, 0), (3 / 4 : ℚ)), ((2, 2), 1 / 2)] (fun _ => (1 : ℚ)) = 1 / 2 := by
  constructor <;> decide +kernel

/-- Without boundary points the interpolant with hat functions is zero on the boundary, `eval` is not. -/
theorem C71_no_boundary_violated (L : ℕ) (h2 : 2 ≤ L) (hL : L ≤ 28) (u : V) :
    eval ⟨[(L, 0)], true, false, List.replicate (2 ^ L - 1) u⟩ [(0 : K)] = .ok u ∧
      interp (axes [(L, 0)] [(0 : K)]) (fun _ => u) = 0 := by
  have hp : 2 ^ 2 ≤ 2 ^ L := Nat.pow_le_pow_right (by omega) h2
  have hn : nodal L 0 = 2 ^ L - 1 := by simp [nodal]
  constructor
  · rw [C71_eval_partial [(L, 0)] [(0 : K)] rfl (by simp) (f := fun _ => u)]
    · congr 1
      simp only [List.zip_cons_cons, List.zip_nil_right, interpolant]
      have hnc : nearestCell (L, 0) (0 : K) = 0 := by
        unfold nearestCell rel
        simp only [zero_mul, if_true, zero_sub]
        rw [show (-1 : K) = ((-1 : ℤ) : K) by simp, Int.floor_intCast]
        omega
      have hb : ∀ j, basis (L, 0) (0 : K) j • u = (if j = 0 then (2 : K) • u else 0) +
          (if j = 1 then (-1 : K) • u else 0) := by
        intro j
        unfold basis
        simp only [hn, hnc]
        rw [if_neg (by omega)]
        have hr : rel (L, 0) (0 : K) = -1 := by simp [rel]
        rw [hr]
        by_cases j0 : j = 0
        · simp only [j0]
          norm_num
        · by_cases j1 : j = 1
          · simp [j1]
          · have e0 : ¬ (j : ℤ) = 0 := by omega
            have e1 : ¬ (j : ℤ) = 0 + 1 := by omega
            simp [j0, j1]
      simp only [hb]
      rw [Finset.sum_add_distrib, Finset.sum_ite_eq', Finset.sum_ite_eq',
        if_pos (Finset.mem_range.2 (by omega)), if_pos (Finset.mem_range.2 (by omega)), ← add_smul]
      norm_num
    · intro a ha
      simp only [List.zip_cons_cons, List.zip_nil_right, List.mem_singleton] at ha
      subst ha
      exact ⟨hL, by simp, by simp only; omega, fun _ => rfl, le_refl _, zero_le_one⟩
    · simp
    · refine ⟨by simp [sizes, hn], fun is his => ?_⟩
      rw [List.getElem?_replicate, if_pos]
      have := sequentialIndex_lt _ _ his
      simpa [sizes, hn] using this
  · unfold axes
    simp only [List.zip_cons_cons, List.zip_nil_right, List.map_cons, List.map_nil, Interpolation.interp]
    refine Finset.sum_eq_zero fun j _ => ?_
    have hz : hat L 0 j (0 : K) = 0 := by
      unfold Interpolation.hat pos
      simp only [zero_mul, zero_sub, if_true, zero_ne_one, false_and, if_false, add_zero, abs_neg]
      push_cast
      rw [abs_of_nonneg (by positivity), max_eq_left]
      have : (0 : K) ≤ j := Nat.cast_nonneg j
      linarith
    rw [hz, zero_smul]

/-- In a periodic dimension, the value at the right end is not the one at the left end: the grid has the
values 0 and 1 at 0 and 1/2. -/
theorem C71_periodic_violated :
    eval (⟨[(1, 1)], true, false, [0, 1]⟩ : Grid ℚ) [(0 : ℚ)] = .ok 0 ∧
      eval (⟨[(1, 1)], true, false, [0, 1]⟩ : Grid ℚ) [(1 : ℚ)] = .ok 2 := by
  constructor <;> decide +kernel

/-- The hypotheses of `C71_eval_partial` and `C71_hat_partial` hold for a grid with three kinds of dimensions, the
last one with a single point and a coordinate in its right half. -/
example :
    let dims : List (ℕ × ℕ) := [(1, 2), (2, 0), (1, 1), (1, 0)]
    let coords : List ℚ := [1 / 3, 3 / 5, 1 / 4, 2 / 3]
    let data : List ℚ := (List.range 18).map fun i => (i ^ 2 : ℚ)
    (∀ a ∈ dims.zip coords, (a.1.1 ≤ 28 ∧ a.1.2 ≤ 2 ∧ 1 ≤ nodal a.1.1 a.1.2 ∧
      (nodal a.1.1 a.1.2 = 1 → a.1.2 = 0) ∧ 0 ≤ a.2 ∧ a.2 ≤ 1)) ∧
    (∀ a ∈ dims.zip coords, (a.1.2 = 0 → 1 / 2 ^ a.1.1 ≤ a.2 ∨ a.1.1 = 1) ∧
      (a.1.2 < 2 → a.2 ≤ 1 - 1 / 2 ^ a.1.1 ∨ (a.1.2 = 0 ∧ a.1.1 = 1))) ∧
    (∀ a ∈ (dims.zip coords).dropLast, nodal a.1.1 a.1.2 = 1 → a.2 ≤ 1 / 2) ∧
    data.length = (sizes dims).prod ∧
    eval ⟨dims, true, false, data⟩ coords = .ok (interpolant (dims.zip coords) fun is =>
      ((sequentialIndex (sizes dims) is : ℕ) ^ 2 : ℚ)) := by
  refine ⟨by decide +kernel, by decide +kernel, by decide +kernel, by decide +kernel, by decide +kernel⟩

/-- The hypotheses of `C71_add_partial`: a finer grid with other flags is added to one that was not created. -/
example : (∀ s ∈ [(1, 2), (2, 0)], Valid s) ∧ (∀ s ∈ [(2, 2), (1, 1)], Valid s) ∧
    (∀ s ∈ [((2 : ℕ), (2 : ℕ)), (1, 1)].dropLast, nodal s.1 s.2 ≠ 1) ∧
    add (⟨[(1, 2), (2, 0)], false, false, []⟩ : Grid ℚ)
      ⟨[(2, 2), (1, 1)], true, false, [0, 1, 2, 3, 4, 5, 6, 7, 8, 9]⟩ (2 : ℚ) =
      .ok ⟨[(1, 2), (2, 0)], true, false, [5, 9, 13, 10, 14, 18, 15, 19, 23]⟩ := by
  refine ⟨by decide, by decide, by decide, by decide +kernel⟩

end Verif.FullGridEval

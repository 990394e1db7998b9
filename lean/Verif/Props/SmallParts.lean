import Verif.Model.StaticFaults
import Verif.Model.Coordinates
import Verif.Model.GridCtor
import Mathlib.Data.Rat.Lemmas
import Mathlib.Tactic.IntervalCases
import Mathlib.Tactic.NormNum
import Mathlib.Tactic.Ring
import Mathlib.Tactic.Linarith
import Mathlib.Tactic.Positivity

/-!
# Fault injection, coordinates and grid sizes (C54, C55, C59)
-/

namespace Verif

/-! ### C54 -/

private lemma failNowFrom_eq (ncombi rank : ℤ) (rF iF : List ℤ) :
    ∀ (rest pre : List ℤ), iF = pre ++ rest → iF.length ≤ rF.length →
      failNowFrom ncombi rank rF rest pre.length =
        .ok (decide ((ncombi, rank) ∈ rest.zip (rF.drop pre.length))) := by
  intro rest
  induction rest with
  | nil => intro pre _ _; simp [failNowFrom]
  | cons f fs ih =>
    intro pre hpre hlen
    have hl : pre.length < rF.length := by
      have : iF.length = pre.length + (fs.length + 1) := by simp [hpre]
      omega
    have hstep := ih (pre ++ [f]) (by simp [hpre]) hlen
    simp only [List.length_append, List.length_cons, List.length_nil, Nat.zero_add] at hstep
    have hdrop : rF.drop pre.length = rF[pre.length] :: rF.drop (pre.length + 1) :=
      List.drop_eq_getElem_cons hl
    rw [hdrop]
    simp only [failNowFrom, List.getElem?_eq_getElem hl, List.zip_cons_cons, List.mem_cons,
      Prod.mk.injEq]
    by_cases hf : f = ncombi
    · subst hf
      by_cases hr : rank = rF[pre.length]
      · simp [hr]
      · simp only [if_true, if_neg hr, hstep]
        simp [hr]
    · rw [if_neg hf, hstep]
      simp [Ne.symm hf]

/-- **C54.** A process fails in a combination step exactly if the configured list contains the pair
of this step and its rank. The configuration is a list of pairs, handed over as the list of its first
and the list of its second components. -/
theorem C54_failNow (config : List (ℤ × ℤ)) (step rank : ℤ) :
    failNow (config.map Prod.fst) (config.map Prod.snd) step rank =
      .ok (decide ((step, rank) ∈ config)) := by
  have h := failNowFrom_eq step rank (config.map Prod.snd) (config.map Prod.fst)
    (config.map Prod.fst) [] rfl (by simp)
  simp only [List.length_nil, List.drop_zero] at h
  rw [failNow, h]
  congr 2
  have : (config.map Prod.fst).zip (config.map Prod.snd) = config := by
    clear h
    induction config with
    | nil => rfl
    | cons a as ih => simp [ih]
  rw [this]

example : failNow [3, 5, 3] [1, 1, 2] 3 2 = .ok true ∧ failNow [3, 5, 3] [1, 1, 2] 5 2 = .ok false := by
  decide

/-- Two lists of different lengths are not rejected by the code: a missing rank is read from behind
the end of the list. -/
theorem C54_short_list : failNow [3, 5] [1] 5 0 = .stuck := by decide

/-! ### C55 -/

private lemma foldl_append_eq {R : Type} (coords : List (List R)) :
    ∀ acc, coords.foldl (fun acc c => acc ++ c) acc = acc ++ coords.flatten := by
  induction coords with
  | nil => simp
  | cons c cs ih => intro acc; simp [ih]

private lemma deserializeLoop_flatten {R : Type} (dim : ℕ) :
    ∀ coords : List (List R), (∀ c ∈ coords, c.length = dim) →
      deserializeLoop dim coords.length coords.flatten = coords := by
  intro coords
  induction coords with
  | nil => intro _; rfl
  | cons c cs ih =>
    intro h
    have hc : c.length = dim := h c (by simp)
    have hcs : ∀ c' ∈ cs, c'.length = dim := fun c' hc' => h c' (by simp [hc'])
    simp only [List.length_cons, deserializeLoop, List.flatten_cons]
    rw [← hc, List.take_left, List.drop_left, hc, ih hcs]

private lemma flatten_length {R : Type} (dim : ℕ) :
    ∀ coords : List (List R), (∀ c ∈ coords, c.length = dim) →
      coords.flatten.length = coords.length * dim := by
  intro coords
  induction coords with
  | nil => intro _; simp
  | cons c cs ih =>
    intro h
    rw [List.flatten_cons, List.length_append, h c (by simp), ih (fun c' hc' => h c' (by simp [hc'])),
      List.length_cons]
    ring

/-- **C55.** Serializing a nonempty list of coordinates of equal dimension between 1 and 255 (the
number of dimensions is a `uint8_t`) and deserializing with that dimension returns the list. -/
theorem C55_roundtrip {R : Type} (coords : List (List R)) (dim : ℕ) (hne : coords ≠ [])
    (hdim : ∀ c ∈ coords, c.length = dim) (hpos : 1 ≤ dim) (hmax : dim ≤ 255) :
    (serializeCoords coords).bind (fun s => deserializeCoords s dim) = .ok coords := by
  obtain ⟨c, cs, rfl⟩ := List.exists_cons_of_ne_nil hne
  have hser : serializeCoords (c :: cs) = .ok (c :: cs).flatten := by
    simp only [serializeCoords]
    rw [foldl_append_eq]; simp
  rw [hser]
  simp only [Outcome.bind]
  have hlen := flatten_length dim (c :: cs) hdim
  have hmod : dim % 256 = dim := Nat.mod_eq_of_lt (by omega)
  have hdiv : (c :: cs).flatten.length / dim = (c :: cs).length := by
    rw [hlen, Nat.mul_div_cancel _ (by omega)]
  unfold deserializeCoords
  simp only [hmod]
  rw [if_neg (by omega), if_neg (by rw [hlen]; simp), hdiv, deserializeLoop_flatten dim _ hdim]
  have hc : c.length = dim := hdim c (by simp)
  simp only
  rw [if_pos ⟨hc, by rw [hlen, hc]; ring⟩]

example : (serializeCoords [[1, 2, 3], [4, 5, 6]]).bind (fun s => deserializeCoords s 3) =
    .ok [[1, 2, 3], [4, 5, 6]] :=
  C55_roundtrip [[1, 2, 3], [4, 5, 6]] 3 (by decide) (by decide) (by decide) (by decide)

/-- With 256 dimensions the dimension is truncated to zero. -/
theorem C55_too_many_dims (x : List ℕ) (_hx : x.length = 256) :
    (serializeCoords [x]).bind (fun s => deserializeCoords s 256) = .stuck := by
  simp [serializeCoords, Outcome.bind, deserializeCoords]

example : (List.range 256).length = 256 := by simp

/-! ### C59 -/

/-- The grid of a dimension has `2 ^ level` cells of equal width: with both boundary points
(`boundary = 2`) there are `2 ^ level + 1` points, one or two fewer with one or no boundary points; the
spacing is the width of the domain divided by the number of cells. -/
def CellsMatch (level boundary : ℕ) (points : ℤ) (spacing : ℚ) : Prop :=
  points = 2 ^ level + 1 - (2 - boundary) ∧ spacing * 2 ^ level = 1

private lemma table_spec : ∀ l : ℕ, l < 29 →
    ∃ h, oneOverPowOfTwo? l = some h ∧ h * 2 ^ l = 1 := by
  intro l hl
  interval_cases l <;> exact ⟨_, rfl, by norm_num⟩

private lemma powTable_spec : ∀ l : ℕ, l < 29 → powerOfTwo? l = some (2 ^ l) := by decide

private lemma numDof32_spec (l b : ℕ) (hl : l < 30) (hb : b ≤ 2) (h0 : l ≠ 0 ∨ b ≠ 0) :
    getNumDofNodal32 l b = .ok (2 ^ l + b - 1) := by
  unfold getNumDofNodal32 powerOfTwoByBitshift
  by_cases hp : 0 < l
  · rw [if_pos hp, if_neg (by omega), if_neg (by omega)]
    have : (2 : ℤ) ^ l ≤ 2 ^ 29 := pow_le_pow_right₀ (by norm_num) (by omega)
    simp only [Outcome.bind]
    rw [if_neg (by push Not; norm_num at this ⊢; omega)]
  · have : l = 0 := by omega
    subst this
    rw [if_neg hp, if_neg (by tauto)]
    simp

/-- What the loop gives, if it gives something. -/
private lemma ctorLoop_spec : ∀ (dims : List (ℕ × ℕ)) (e : ℤ) (r : GridSizes),
    (∀ d ∈ dims, d.1 < 29 ∧ d.2 ≤ 2) → dfgCtorLoop dims e = .ok r →
    r.nrPoints.length = dims.length ∧ r.gridSpacing.length = dims.length ∧
    ∀ (j : ℕ) (d : ℕ × ℕ) (n : ℤ) (h : ℚ), dims[j]? = some d → r.nrPoints[j]? = some n →
      r.gridSpacing[j]? = some h → CellsMatch d.1 d.2 n h := by
  intro dims
  induction dims with
  | nil =>
    intro e r _ hr
    simp only [dfgCtorLoop, Outcome.ok.injEq] at hr
    subst hr
    simp
  | cons d rest ih =>
    intro e r hd hr
    obtain ⟨l, b⟩ := d
    obtain ⟨hl, hb⟩ := hd (l, b) (by simp)
    simp only at hl hb
    simp only [dfgCtorLoop] at hr
    by_cases h0 : l ≠ 0 ∨ b ≠ 0
    swap
    · push Not at h0
      obtain ⟨rfl, rfl⟩ := h0
      simp [getNumDofNodal32, Outcome.bind] at hr
    rw [numDof32_spec l b (by omega) hb h0] at hr
    simp only [Outcome.bind] at hr
    split_ifs at hr with h1 h2
    obtain ⟨h, hh, hh1⟩ := table_spec l hl
    rw [hh] at hr
    simp only at hr
    cases hrest : dfgCtorLoop rest (e * (2 ^ l + b - 1)) with
    | ok r' =>
      rw [hrest] at hr
      simp only [Outcome.ok.injEq] at hr
      subst hr
      obtain ⟨g1, g2, g3⟩ := ih _ _ (fun d hd' => hd d (by simp [hd'])) hrest
      refine ⟨by simp [g1], by simp [g2], ?_⟩
      intro j d n s
      cases j with
      | zero =>
        simp only [List.getElem?_cons_zero, Option.some.injEq]
        rintro rfl rfl rfl
        exact ⟨by simp only; ring, hh1⟩
      | succ j =>
        simp only [List.getElem?_cons_succ]
        exact g3 j d n s
    | error => rw [hrest] at hr; simp at hr
    | stuck => rw [hrest] at hr; simp at hr

/-- **C59 (partial).** For all levels up to 28 that the constructor accepts, number of points,
spacing and inverse spacing are those of a grid with `2 ^ level` cells; the serial full grid has the
same number of points. Missing: level 29, which is accepted too, see `C59_violated`. -/
theorem C59_partial (levels boundary : List ℕ) (r : GridSizes)
    (hl : ∀ l ∈ levels, l ≤ 28) (hb : ∀ b ∈ boundary, b ≤ 2)
    (hr : dfgCtor levels boundary = .ok r) :
    r.nrPoints.length = levels.length ∧ r.gridSpacing.length = levels.length ∧
    ∀ (j l b : ℕ) (n : ℤ) (h : ℚ), levels[j]? = some l → boundary[j]? = some b →
      r.nrPoints[j]? = some n → r.gridSpacing[j]? = some h →
      CellsMatch l b n h ∧ getInverseGridSpacing l = .ok (2 ^ l) ∧ fullGridPoints l b = .ok n := by
  unfold dfgCtor at hr
  split_ifs at hr with hlen
  push Not at hlen
  have hd : ∀ d ∈ levels.zip boundary, d.1 < 29 ∧ d.2 ≤ 2 := by
    intro d hd
    have := List.of_mem_zip (a := d.1) (b := d.2) hd
    exact ⟨by have := hl _ this.1; omega, hb _ this.2⟩
  obtain ⟨g1, g2, g3⟩ := ctorLoop_spec _ _ _ hd hr
  have hz : (levels.zip boundary).length = levels.length := by simp [hlen]
  refine ⟨by omega, by omega, ?_⟩
  intro j l b n h h1 h2 h3 h4
  have hm := g3 j (l, b) n h (by rw [List.getElem?_zip_eq_some]; exact ⟨h1, h2⟩) h3 h4
  have hl28 := hl l (List.mem_of_getElem? h1)
  refine ⟨hm, ?_, ?_⟩
  · simp [getInverseGridSpacing, powTable_spec l (by omega)]
  · simp only [fullGridPoints, powTable_spec l (by omega), hm.1]
    congr 1
    push_cast
    ring

example : ∃ r, dfgCtor [3, 0, 10] [2, 1, 0] = .ok r ∧ (∀ l ∈ [3, 0, 10], l ≤ 28) ∧
    (∀ b ∈ [2, 1, 0], b ≤ 2) := ⟨⟨[9, 1, 1023], [1 / 8, 1, 1 / 1024]⟩, by decide +kernel, by decide, by decide⟩

private lemma ctorLoop_accepts : ∀ (dims : List (ℕ × ℕ)) (e : ℤ), 0 < e →
    (∀ d ∈ dims, d.1 < 29 ∧ d.2 ≤ 2 ∧ (d.1 ≠ 0 ∨ d.2 ≠ 0)) →
    e * (dims.map fun d => (2 ^ d.1 + d.2 - 1 : ℤ)).prod < 2 ^ 31 →
    ∃ r, dfgCtorLoop dims e = .ok r := by
  intro dims
  induction dims with
  | nil => intro e _ _ _; exact ⟨_, rfl⟩
  | cons d rest ih =>
    intro e he hd hp
    obtain ⟨l, b⟩ := d
    obtain ⟨hl, hb, h0⟩ := hd (l, b) (by simp)
    simp only at hl hb h0
    have hpos : ∀ d : ℕ × ℕ, (d.1 ≠ 0 ∨ d.2 ≠ 0) → (1 : ℤ) ≤ 2 ^ d.1 + d.2 - 1 := by
      intro d hd
      have h1 : (1 : ℤ) ≤ 2 ^ d.1 := one_le_pow₀ (by norm_num)
      rcases hd with hd | hd
      · have : (2 : ℤ) ^ 1 ≤ 2 ^ d.1 := pow_le_pow_right₀ (by norm_num) (by omega)
        omega
      · omega
    have hprod : ∀ ds : List (ℕ × ℕ), (∀ d ∈ ds, d.1 ≠ 0 ∨ d.2 ≠ 0) →
        (1 : ℤ) ≤ (ds.map fun d => (2 ^ d.1 + d.2 - 1 : ℤ)).prod := by
      intro ds
      induction ds with
      | nil => intro _; simp
      | cons a as iha =>
        intro h
        rw [List.map_cons, List.prod_cons]
        have := hpos a (h a (by simp))
        have := iha (fun d hd => h d (by simp [hd]))
        nlinarith
    have hn := hpos (l, b) h0
    simp only at hn
    have hrest := hprod rest (fun d hd' => (hd d (by simp [hd'])).2.2)
    rw [List.map_cons, List.prod_cons, ← mul_assoc] at hp
    have hen : 0 < e * (2 ^ l + b - 1 : ℤ) := by positivity
    have hlt : e * (2 ^ l + b - 1 : ℤ) < 2 ^ 31 := by nlinarith
    obtain ⟨h, hh, -⟩ := table_spec l hl
    obtain ⟨r, hr⟩ := ih (e * (2 ^ l + b - 1 : ℤ)) hen (fun d hd' => hd d (by simp [hd'])) hp
    refine ⟨⟨(2 ^ l + b - 1 : ℤ) :: r.nrPoints, h :: r.gridSpacing⟩, ?_⟩
    simp only [dfgCtorLoop]
    rw [numDof32_spec l b (by omega) hb h0]
    simp only [Outcome.bind]
    rw [if_neg (not_le.mpr hlt), if_neg (by omega), hh, hr]

/-- The constructor accepts every grid with levels up to 28 whose total number of points is less
than `2 ^ 31`, so that `C59_partial` is not void. -/
theorem C59_accepts (levels boundary : List ℕ) (hlen : levels.length = boundary.length)
    (h : ∀ d ∈ levels.zip boundary, d.1 ≤ 28 ∧ d.2 ≤ 2 ∧ (d.1 ≠ 0 ∨ d.2 ≠ 0))
    (hp : ((levels.zip boundary).map fun d => (2 ^ d.1 + d.2 - 1 : ℤ)).prod < 2 ^ 31) :
    ∃ r, dfgCtor levels boundary = .ok r := by
  unfold dfgCtor
  rw [if_neg (by simp [hlen])]
  refine ctorLoop_accepts _ 1 (by norm_num) ?_ (by rw [one_mul]; exact hp)
  intro d hd
  have := h d hd
  exact ⟨by omega, this.2.1, this.2.2⟩

example : ∃ r, dfgCtor [3, 0, 10] [2, 1, 0] = .ok r :=
  C59_accepts [3, 0, 10] [2, 1, 0] rfl (by decide) (by norm_num)

/-- **C59 is violated** at level 29: the constructor accepts the level, the number of points is that
of a grid with `2 ^ 29` cells, but the spacing and its inverse are both zero, and the serial full grid
believes to have `boundary - 1` points. -/
theorem C59_violated :
    dfgCtor [29] [2] = .ok ⟨[2 ^ 29 + 1], [0]⟩ ∧ ¬ CellsMatch 29 2 (2 ^ 29 + 1) 0 ∧
    getInverseGridSpacing 29 = .ok 0 ∧ fullGridPoints 29 2 = .ok 1 := by
  refine ⟨by decide +kernel, ?_, by decide, by decide⟩
  rintro ⟨-, h⟩
  norm_num at h

end Verif

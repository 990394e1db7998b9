import Verif.Lemmas.RoundedTransform

/-!
# Lemmas on complete combinations in the arithmetic of a machine
-/

namespace Verif

variable {K : Type} [Field K] [LinearOrder K] [IsStrictOrderedRing K]

/-- The product over the hierarchized dimensions of the number of hierarchized levels plus one. -/
def levelProduct (P : CombineParams) (L : List ℕ) : ℕ :=
  ((selectedDims P.sel).map fun k => L.getD k 0 - (effectiveLMin P.boundary P.lmin).getD k 0 + 1).prod

theorem levelProduct_eq {refs : List RefDim} {P : CombineParams} (hP : ParamsOk refs P) {L : List ℕ}
    (hL : L.length = refs.length) : levelFactor (compHats refs P L) (selectedDims P.sel) = levelProduct P L := by
  unfold levelFactor levelProduct
  congr 1
  refine List.map_congr_left fun k hk => ?_
  have hk1 : k < refs.length := by
    have := selectedDims_lt k hk
    have := hP.sel
    omega
  have hlc := length_compDist (L := L) hP hL
  have hle : (effectiveLMin P.boundary P.lmin).length = refs.length := by
    rw [length_effectiveLMin, hP.lmin]
  rw [List.getD_eq_getElem _ _ (by simp [compHats, hlc, hk1]), List.getD_eq_getElem _ _ (by omega),
    List.getD_eq_getElem _ _ (by omega)]
  simp only [compHats, List.getElem_map, getElem_compDist hP hL hk1, DistDim.toHat, HatDim.levels]
  congr 2
  split
  · rename_i h0
    have : (effectiveLMin P.boundary P.lmin)[k] = 0 := by
      have hany : (P.boundary.any fun b => b == 0) = true := by
        rw [hP.boundary, List.any_eq_true]
        exact ⟨_, List.mem_map.2 ⟨_, List.getElem_mem hk1, rfl⟩, by simpa using h0⟩
      simp only [effectiveLMin, hany, if_true, List.getElem_replicate]
    exact this.symm
  · rfl

omit [Field K] [LinearOrder K] [IsStrictOrderedRing K] in
theorem forall₂_join {α β γ : Type} {P : α → γ → Prop} {Q : γ → β → Prop} {l : List α} {m : List γ}
    {l' : List β} (h : List.Forall₂ P l m) (h' : List.Forall₂ Q m l') :
    List.Forall₂ (fun a b => ∃ c, P a c ∧ Q c b) l l' := by
  induction h generalizing l' with
  | nil => cases h'; exact .nil
  | cons h _ ih =>
    cases h' with
    | cons k1 k2 => exact .cons ⟨_, h, k1⟩ (ih k2)

/-- Same coefficients and levels. -/
def SameLevels (t t' : K × List ℕ × (ℕ → K)) : Prop := t'.1 = t.1 ∧ t'.2.1 = t.2.1

omit [Field K] [LinearOrder K] [IsStrictOrderedRing K] in
theorem sameLevels_map {ts ts' : List (K × List ℕ × (ℕ → K))} (h : List.Forall₂ SameLevels ts ts') :
    ts'.map (fun t => (t.1, t.2.1)) = ts.map fun t => (t.1, t.2.1) := by
  induction h with
  | nil => rfl
  | cons h _ ih => rw [List.map_cons, List.map_cons, ih, h.1, h.2]

omit [IsStrictOrderedRing K] in
theorem absSum_congr {n : ℕ} {T T' : ℕ → List (K × List ℕ × (ℕ → K))}
    (h : ∀ g < n, List.Forall₂ SameLevels (T g) (T' g)) : absSum n T' = absSum n T := by
  unfold absSum
  congr 1
  refine List.map_congr_left fun g hg => ?_
  have h1 := congrArg (List.map fun x : K × List ℕ => |x.1|) (sameLevels_map (h g (List.mem_range.1 hg)))
  simp only [List.map_map] at h1
  exact congrArg List.sum h1

variable {refs : List RefDim} {P : CombineParams} {n : ℕ} {u : K} {A : Adder K} {mul : K → K → K}

theorem total_close [FloorRing K] (u0 : 0 ≤ u) (u1 : 16 * u ≤ 1) (hA : Rounds u A)
    (hmul : ∀ a b, |mul a b - a * b| ≤ u * |a * b|) {order : List ℕ → ℕ → ℕ → SumOrder}
    (horder : ∀ c, InGroup refs c → ∀ g < n, ∀ i, (order c g i).Valid n) {levels : List (List ℕ)}
    {T : ℕ → List (K × List ℕ × (ℕ → K))} (h : ValidSystem refs levels n T) (hP : ParamsOk refs P)
    (hhat : ∀ β ∈ P.bases, β = .hat) (hne : NonEmptyParts refs n T)
    {maxChunk : ℕ} (hpos : 0 < maxChunk) (hmax : maxChunk < 2 ^ 31)
    (htotal : ∀ c, InGroup refs c → (levels.map (subspaceCount (atProcess refs c))).sum < 2 ^ 32)
    (hT : ∀ g < n, ∀ t ∈ T g,
      List.Forall₂ (· ≤ ·) (effectiveLMin P.boundary P.lmin) t.2.1 ∧
      ∀ g' < n, ∀ t' ∈ T g', ∀ k < refs.length, P.sel.getD k false = false →
        t'.2.1.getD k 0 ≤ t.2.1.getD k 0)
    {S : ℕ → List (GroupTask K)} (hS : ∀ g < n, List.Forall₂ (HoldsParts refs) (T g) (S g)) {N : ℕ}
    (hN : ∀ g < n, (T g).length ≤ N) (hNu : 8 * (N * u) ≤ 1) {M : K} (hM : 0 ≤ M)
    (hval : ∀ g < n, ∀ t ∈ T g, ∀ p < numLocal (oneProcess refs) t.2.1, |t.2.2 p| ≤ M)
    (hsmall : ∀ g < n, ∀ t ∈ T g, (levelProduct P t.2.1 : K) *
      (combineFactor u N n * (2 + 4 * u) ^ (selectedDims P.sel).length - 2 ^ (selectedDims P.sel).length +
        6 * u * (2 ^ (selectedDims P.sel).length - 1)) ≤ 1)
    (junk junk' : ℕ → ℕ → List ℕ → ℕ → ℕ → ℕ → K) :
    ∃ R, roundedCombineAtOnce A mul order (refs.map fun r => r.dec.length) P maxChunk levels n junk junk' S =
        some R ∧ ∀ g < n, List.Forall₂ (fun t gt => ∃ W, HoldsParts refs (t.1, t.2.1, W) gt ∧
          ∀ q < numLocal (oneProcess refs) t.2.1, |W q - ((List.range n).map fun m => ((T m).map fun t' =>
            t'.1 * interpAt refs t'.2.1 t'.2.2 (spatialOf (oneProcess refs) t.2.1 q)).sum).sum| ≤
            levelProduct P t.2.1 * ((combineFactor u N n * (2 + 4 * u) ^ (selectedDims P.sel).length -
              2 ^ (selectedDims P.sel).length + 6 * u * (2 ^ (selectedDims P.sel).length - 1)) *
              (absSum n T * M))) (T g) (R g) := by
  obtain ⟨H, D, hm⟩ := compMaps (K := K) (validRef_oneProcess h.ref) (serial_oneProcess refs)
    (paramsOk_oneProcess hP)
  have hm' := fun L (hL : ValidComponent refs L) => hm L (validComponent_oneProcess.2 hL)
  set p : ℕ := (selectedDims P.sel).length with hp
  have u4 : 4 * u ≤ 1 := by linarith
  -- hierarchize
  obtain ⟨S1, a1, a2, a3⟩ := onProcessGroups_some (n := n)
    (f := fun g => groupHierarchizeWith (Arith.machine A) P (junk g) (S g))
    (Q := fun g r => List.Forall₂ (fun t gt => ∃ t1 : K × List ℕ × (ℕ → K), (SameLevels t t1 ∧
      ∀ q < numLocal (oneProcess refs) t.2.1, |H t.2.1 t.2.2 q| ≤ 2 ^ p * M ∧
        |t1.2.2 q - H t.2.1 t.2.2 q| ≤ ((2 + 4 * u) ^ p - 2 ^ p) * M) ∧ HoldsParts refs t1 gt) (T g) r) (by
      intro g hg
      unfold groupHierarchizeWith
      refine mapGroupTasks_some (hS g hg) 0 fun i t ht gt hgt => ?_
      obtain ⟨b1, ⟨d, b2, W, b3, b4⟩, -⟩ := transform_near h.ref hP hhat u0 u4 hA hm' (h.comp g hg t ht)
        (hne g hg t ht) hgt (junk g i)
      rw [if_pos b1]
      exact ⟨d, b2, (t.1, t.2.1, W), ⟨⟨rfl, rfl⟩, b4 M (hval g hg t ht)⟩, b3⟩)
  have H1 : ∀ g, ∃ m, g < n → List.Forall₂ (fun t t1 => SameLevels t t1 ∧
      ∀ q < numLocal (oneProcess refs) t.2.1, |H t.2.1 t.2.2 q| ≤ 2 ^ p * M ∧
        |t1.2.2 q - H t.2.1 t.2.2 q| ≤ ((2 + 4 * u) ^ p - 2 ^ p) * M) (T g) m ∧
      List.Forall₂ (HoldsParts refs) m (S1 g) := by
    intro g
    by_cases hg : g < n
    · obtain ⟨m, m1, m2⟩ := forall₂_split (a2 g hg)
      exact ⟨m, fun _ => ⟨m1, m2⟩⟩
    · exact ⟨[], fun h => absurd h hg⟩
  choose T1 hT1 using H1
  have same1 : ∀ g < n, List.Forall₂ SameLevels (T g) (T1 g) := fun g hg =>
    (hT1 g hg).1.imp fun _ _ h => h.1
  have h1 : ValidSystem refs levels n T1 := retask_valid h fun g hg => sameLevels_map (same1 g hg)
  have hpow : (2 : K) ^ p ≤ (2 + 4 * u) ^ p := pow_le_pow_left₀ (by norm_num) (by linarith) _
  have hpow1 : (1 : K) ≤ 2 ^ p := one_le_pow₀ (by norm_num)
  have hpow0 : (0 : K) ≤ (2 + 4 * u) ^ p := by linarith
  have hcf := combineFactor_ge u0 N n
  have hcs := absSum_nonneg n T
  have hval1 : ∀ g < n, ∀ t ∈ T1 g, ∀ q < numLocal (oneProcess refs) t.2.1,
      |t.2.2 q| ≤ (2 + 4 * u) ^ p * M := by
    intro g hg t1 ht1 q hq
    obtain ⟨i, hi, rfl⟩ := List.mem_iff_getElem.1 ht1
    have hi' : i < (T g).length := by rw [(same1 g hg).length_eq]; exact hi
    obtain ⟨⟨-, e2⟩, e3⟩ := (List.forall₂_iff_get.1 (hT1 g hg).1).2 i hi' hi
    simp only [List.get_eq_getElem] at e2 e3
    rw [e2] at hq
    obtain ⟨f1, f2⟩ := e3 q hq
    have := abs_sub_abs_le_abs_sub ((T1 g)[i].2.2 q) (H (T g)[i].2.1 (T g)[i].2.2 q)
    nlinarith
  -- combine
  obtain ⟨S2, T2, c1, c2⟩ := groups_close u0 u1 hA hmul horder h1 hpos hmax htotal
    (fun g hg => (hT1 g hg).2) a3 (N := N) (fun g hg => by rw [← (same1 g hg).length_eq]; exact hN g hg) hNu
    (M := (2 + 4 * u) ^ p * M) (mul_nonneg hpow0 hM) hval1
  rw [absSum_congr same1] at c2
  have hnear := fun z => valueAtPlace_near (refs := oneProcess refs) (F := H) (T := T) (T1 := T1)
    (δ := ((2 + 4 * u) ^ p - 2 ^ p) * M) (mul_nonneg (by linarith) hM) (fun g hg =>
      (hT1 g hg).1.imp fun _ _ h => ⟨h.1.1, h.1.2, fun q hq => (h.2 q hq).2⟩) z
  set Y : List ℕ → ℕ → K := fun L q => ((List.range n).map fun m => ((T m).map fun t' =>
    t'.1 * interpAt refs t'.2.1 t'.2.2 (spatialOf (oneProcess refs) L q)).sum).sum with hY
  have hYb : ∀ L, ValidComponent refs L → ∀ q < numLocal (oneProcess refs) L,
      |Y L q| ≤ absSum n T * M := by
    intro L hL q hq
    unfold absSum
    rw [← List.sum_map_mul_right]
    have := listSum_close (List.range n) (fun m => ((T m).map fun t' =>
      t'.1 * interpAt refs t'.2.1 t'.2.2 (spatialOf (oneProcess refs) L q)).sum) (fun _ => 0)
      (fun m => ((T m).map fun t => |t.1|).sum * M) (fun m hmn => by
        rw [← List.sum_map_mul_right]
        have := listSum_close (T m) (fun t' => t'.1 *
          interpAt refs t'.2.1 t'.2.2 (spatialOf (oneProcess refs) L q)) (fun _ => 0)
          (fun t => |t.1| * M) (fun t ht => by
            rw [zero_sub, abs_neg, abs_mul]
            have hmn := List.mem_range.1 hmn
            exact mul_le_mul_of_nonneg_left (interpAt_bound h.ref (h.comp m hmn t ht) hL _ hM
              (hval m hmn t ht) hq) (abs_nonneg _))
        simpa using this)
    simpa using this
  -- the surpluses of the combined function
  have hHY : ∀ g < n, ∀ t ∈ T g, ∀ q < numLocal (oneProcess refs) t.2.1, H t.2.1 (Y t.2.1) q =
      valueAtPlace (oneProcess refs) n (hierVals H T) (spatialOf (oneProcess refs) t.2.1 q) := by
    intro g hg t ht q hq
    have hL := h.comp g hg t ht
    have hnum : ((compDims (oneProcess refs) P t.2.1).map fun s => nodal s.lmax s.b).prod =
        numLocal (oneProcess refs) t.2.1 := by
      rw [compDims_sizes (serial_oneProcess refs) (paramsOk_oneProcess hP)
        (validComponent_oneProcess.2 hL).le.length_eq]; rfl
    have e := fun q (hq : q < numLocal (oneProcess refs) t.2.1) => plot_interp h.ref hP hhat hm' hL
      (fun g' hg' t' ht' => ⟨h.comp g' hg' t' ht', (hT g' hg' t' ht').1,
        fun k hk hs => (hT g' hg' t' ht').2 g hg t ht k hk hs⟩) hq
    rw [← ((hm' _ hL).inv (fun q => valueAtPlace (oneProcess refs) n (hierVals H T)
      (spatialOf (oneProcess refs) t.2.1 q)) q (by rw [hnum]; exact hq)).2]
    refine ((hm' _ hL).congr _ _ (fun i hi => ?_) q (by rw [hnum]; exact hq)).1
    rw [hnum] at hi
    exact (e i hi).symm
  set η : K := (combineFactor u N n * (2 + 4 * u) ^ p - 2 ^ p) * (absSum n T * M) with hη
  have hcM : 0 ≤ absSum n T * M := mul_nonneg hcs hM
  have hη0 : 0 ≤ η := by
    refine mul_nonneg ?_ hcM
    nlinarith
  have hall : ∀ g < n, List.Forall₂ (fun t gt => ∃ t2 : K × List ℕ × (ℕ → K), (SameLevels t t2 ∧
      ∀ q < numLocal (oneProcess refs) t.2.1, |t2.2.2 q -
        valueAtPlace (oneProcess refs) n (hierVals H T) (spatialOf (oneProcess refs) t.2.1 q)| ≤ η) ∧
      HoldsParts refs t2 gt) (T g) (S2 g) := by
    intro g hg
    refine (forall₂_join (forall₂_join (hT1 g hg).1 (c2 g hg).2) (c2 g hg).1).imp ?_
    rintro t gt ⟨t2, ⟨t1, ⟨⟨e1, e2⟩, -⟩, f1, f2, f3⟩, f4⟩
    refine ⟨t2, ⟨⟨f1.trans e1, f2.trans e2⟩, fun q hq => ?_⟩, f4⟩
    rw [e2] at f3
    have b1 := f3 q hq
    have b2 := hnear (spatialOf (oneProcess refs) t.2.1 q)
    refine (abs_sub_le _ _ _).trans ((add_le_add b1 b2).trans (le_of_eq ?_))
    rw [hη]
    ring
  obtain ⟨R, d1, d2, -⟩ := onProcessGroups_some (n := n)
    (f := fun g => groupDehierarchizeWith (Arith.machine A) P (junk' g) (S2 g))
    (Q := fun g r => List.Forall₂ (fun t gt => ∃ W, HoldsParts refs (t.1, t.2.1, W) gt ∧
      ∀ q < numLocal (oneProcess refs) t.2.1, |W q - Y t.2.1 q| ≤
        levelProduct P t.2.1 * ((combineFactor u N n * (2 + 4 * u) ^ p - 2 ^ p + 6 * u * (2 ^ p - 1)) *
          (absSum n T * M))) (T g) r) (by
      intro g hg
      unfold groupDehierarchizeWith
      refine mapGroupTasks_some (hall g hg) 0 fun i t ht gt hgt => ?_
      obtain ⟨t2, ⟨⟨e1, e2⟩, e3⟩, hgt⟩ := hgt
      have hL := h.comp g hg t ht
      obtain ⟨b1, -, ⟨d, b2, W, b3, b4⟩⟩ := transform_near h.ref hP hhat u0 u4 hA hm'
        (t := t2) (by rw [e2]; exact hL) (by rw [e2]; exact hne g hg t ht) hgt (junk' g i)
      rw [if_pos b1]
      rw [e1, e2] at b3
      rw [e2, levelProduct_eq hP hL.le.length_eq] at b4
      refine ⟨d, b2, W, b3, fun q hq => ?_⟩
      have heq : η + 6 * u * (2 ^ p - 1) * (absSum n T * M) =
          (combineFactor u N n * (2 + 4 * u) ^ p - 2 ^ p + 6 * u * (2 ^ p - 1)) * (absSum n T * M) := by
        rw [hη]; ring
      have := b4 (Y t.2.1) (absSum n T * M) η hcM hη0 (hYb _ hL) (fun q hq => by
        rw [hHY g hg t ht q hq]
        exact e3 q hq) (by
          rw [← hp, heq, ← mul_assoc]
          exact mul_le_of_le_one_left hcM (hsmall g hg t ht)) q hq
      rw [← hp, heq] at this
      exact this)
  refine ⟨R, ?_, d2⟩
  unfold roundedCombineAtOnce
  rw [a1, Option.bind_some, c1, Option.bind_some, d1]

end Verif

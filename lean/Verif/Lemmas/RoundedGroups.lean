import Verif.Lemmas.RoundedCombine

/-!
# Lemmas on the combination on process groups in the arithmetic of a machine
-/

namespace Verif

variable {K : Type} {refs : List RefDim} {L : List ℕ}

/-- No point belongs to two processes. -/
theorem globalOf_process (hr : ∀ r ∈ refs, ValidRef r) (hL : ValidComponent refs L) {c c' : List ℕ}
    (hc : InGroup refs c) (hc' : InGroup refs c') {q q' : ℕ} (hq : q < numLocal (atProcess refs c) L)
    (hq' : q' < numLocal (atProcess refs c') L) (h : globalOf refs c L q = globalOf refs c' L q') :
    c = c' := by
  obtain ⟨y1, y2⟩ := getVectorIndex_spec (partOf refs c L) q hq
  obtain ⟨z1, z2⟩ := getVectorIndex_spec (partOf refs c' L) q' hq'
  have hb := inBox_global hr hL hc y1
  have hb' := inBox_global hr hL hc' z1
  have e := congrArg (getVectorIndex (wholeSizes refs L)) h
  unfold globalOf at e
  rw [getVectorIndex_sequentialIndex _ _ hb, getVectorIndex_sequentialIndex _ _ hb'] at e
  generalize getVectorIndex (partOf refs c L) q = y at y1 e
  generalize getVectorIndex (partOf refs c' L) q' = z at z1 e
  have hl := length_atProcess hc
  have hl' := length_atProcess hc'
  have hl2 := hL.le.length_eq
  have hly : y.length = refs.length := by
    rw [y1.length_eq]; simp only [partOf, List.length_map, List.length_zipWith]; omega
  have hlz : z.length = refs.length := by
    rw [z1.length_eq]; simp only [partOf, List.length_map, List.length_zipWith]; omega
  apply List.ext_getElem (by rw [hc.length_eq, hc'.length_eq])
  intro k h1 h2
  have hk : k < refs.length := by rw [← hc.length_eq]; exact h1
  have hv := validRef_atProcess hr hc _ (List.getElem_mem (by rw [hl]; exact hk : k < _))
  have hv' := validRef_atProcess hr hc' _ (List.getElem_mem (by rw [hl']; exact hk : k < _))
  rw [getElem_atProcess hc hk] at hv
  rw [getElem_atProcess hc' hk] at hv'
  have hle := (List.forall₂_iff_get.1 hL.le).2 k (by omega) hk
  have h3 := (List.forall₂_iff_get.1 y1).2 k (by omega) (by
    simp only [partOf, List.length_map, List.length_zipWith]; omega)
  have h4 := (List.forall₂_iff_get.1 z1).2 k (by omega) (by
    simp only [partOf, List.length_map, List.length_zipWith]; omega)
  simp only [List.get_eq_getElem, partOf, List.getElem_map, List.getElem_zipWith,
    getElem_atProcess hc hk, getElem_atProcess hc' hk] at hle h3 h4
  have h5 := List.getElem_of_eq e (i := k) (by
    simp only [firstOf, List.length_map, List.length_zipWith]; omega)
  simp only [List.getElem_zipWith, firstOf, List.getElem_map, getElem_atProcess hc hk,
    getElem_atProcess hc' hk] at h5
  obtain ⟨s1, s2⟩ := localOf_spec _ hv L[k] hle
  obtain ⟨t1, t2⟩ := localOf_spec _ hv' L[k] hle
  have o1 := (s2 _).1 h3
  have o2 := (t2 _).1 h4
  obtain ⟨hd, -⟩ := C16_downsample refs[k].dec refs[k].level L[k] refs[k].boundary hv.boundary hle hv.dec
  simp only at s1 t1 o1 o2
  rw [owns1d_iff hd _ _ (by omega)] at o1 o2
  rw [← h5] at o2
  omega

section Glue

variable [Field K] [LinearOrder K] [IsStrictOrderedRing K]

/-- The numbers on all processes are the parts of one function. -/
theorem exists_whole (hr : ∀ r ∈ refs, ValidRef r) (hL : ValidComponent refs L) (v : List ℕ → ℕ → K)
    (y : ℕ → K) {E : K} (hE : 0 ≤ E)
    (h : ∀ c, InGroup refs c → ∀ q < numLocal (atProcess refs c) L, |v c q - y (globalOf refs c L q)| ≤ E) :
    ∃ W : ℕ → K, (∀ c, InGroup refs c → ∀ q < numLocal (atProcess refs c) L,
      v c q = W (globalOf refs c L q)) ∧ ∀ x, |W x - y x| ≤ E := by
  have key : ∀ x, ∃ w, (∀ c, InGroup refs c → ∀ q < numLocal (atProcess refs c) L,
      globalOf refs c L q = x → v c q = w) ∧ |w - y x| ≤ E := by
    intro x
    by_cases hx : ∃ c q, InGroup refs c ∧ q < numLocal (atProcess refs c) L ∧ globalOf refs c L q = x
    · obtain ⟨c, q, hc, hq, rfl⟩ := hx
      refine ⟨v c q, fun c' hc' q' hq' e => ?_, h c hc q hq⟩
      obtain rfl := globalOf_process hr hL hc' hc hq' hq e
      rw [globalOf_inj hr hL hc' hq' hq e]
    · refine ⟨y x, fun c hc q hq e => absurd ⟨c, q, hc, hq, e⟩ hx, ?_⟩
      rw [sub_self, abs_zero]
      exact hE
  choose W hW using key
  exact ⟨W, fun c hc q hq => (hW _).1 c hc q hq rfl, fun x => (hW x).2⟩

omit [Field K] [LinearOrder K] [IsStrictOrderedRing K] in
theorem forall₂_split {α β γ : Type} {P : α → γ → Prop} {Q : γ → β → Prop} {l : List α} {l' : List β}
    (h : List.Forall₂ (fun a b => ∃ c, P a c ∧ Q c b) l l') :
    ∃ m, List.Forall₂ P l m ∧ List.Forall₂ Q m l' := by
  induction h with
  | nil => exact ⟨[], .nil, .nil⟩
  | cons h _ ih =>
    obtain ⟨c, c1, c2⟩ := h
    obtain ⟨m, m1, m2⟩ := ih
    exact ⟨c :: m, .cons c1 m1, .cons c2 m2⟩

variable {n : ℕ} {u : K} {A : Adder K} {mul : K → K → K}

/-- Combining on one position. -/
theorem position_close (u0 : 0 ≤ u) (u1 : 16 * u ≤ 1) (hA : Rounds u A)
    (hmul : ∀ a b, |mul a b - a * b| ≤ u * |a * b|) {order : ℕ → ℕ → SumOrder}
    (horder : ∀ g < n, ∀ i, (order g i).Valid n) {levels : List (List ℕ)}
    {T : ℕ → List (K × List ℕ × (ℕ → K))} (h : ValidSystem refs levels n T)
    {maxChunk : ℕ} (hpos : 0 < maxChunk) (hmax : maxChunk < 2 ^ 31)
    {S : ℕ → List (GroupTask K)} (hS : ∀ g < n, List.Forall₂ (HoldsParts refs) (T g) (S g))
    (hS0 : ∀ g, n ≤ g → S g = []) {c : List ℕ} (hc : InGroup refs c)
    (htotal : (levels.map (subspaceCount (atProcess refs c))).sum < 2 ^ 32) {N : ℕ}
    (hN : ∀ g < n, (T g).length ≤ N) (hNu : 8 * (N * u) ≤ 1) {M : K} (hM : 0 ≤ M)
    (hval : ∀ g < n, ∀ t ∈ T g, ∀ p < numLocal (oneProcess refs) t.2.1, |t.2.2 p| ≤ M) :
    ∃ R, combineRounded A mul order maxChunk levels n
      (fun g => (S g).map fun t => t.onProcess c) = some R ∧ ∀ g < n,
        List.Forall₂ (fun t (t' : K × Dfg K) => t'.2.data.len = numLocal (atProcess refs c) t.2.1 ∧
          ∀ p < numLocal (atProcess refs c) t.2.1, |t'.2.data.val p -
            valueAtPlace (oneProcess refs) n T
              (spatialOf (oneProcess refs) t.2.1 (globalOf refs c t.2.1 p))| ≤
            (combineFactor u N n - 1) * (absSum n T * M)) (T g) (R g).tasks := by
  have htasks : (fun g => (S g).map fun t => t.onProcess c) =
      fun g => tasksOf (atProcess refs c) (localTasks c (T g) (S g)) := by
    funext g
    by_cases hg : g < n
    · exact (localTasks_spec hc (hS g hg) (h.comp g hg)).1
    · rw [hS0 g (by omega)]
      simp [localTasks, tasksOf]
  have hlev : ∀ g < n, (localTasks c (T g) (S g)).map (fun t => (t.1, t.2.1)) =
      (T g).map fun t => (t.1, t.2.1) := fun g hg => localTasks_levels hc (hS g hg) (h.comp g hg)
  have hvalid : ValidSystem (atProcess refs c) levels n T := validSystem_atProcess h hc
  have hsum : absSum n (fun g => localTasks c (T g) (S g)) = absSum n T := by
    unfold absSum
    congr 1
    refine List.map_congr_left fun g hg => ?_
    have := congrArg (List.map fun x : K × List ℕ => |x.1|) (hlev g (List.mem_range.1 hg))
    simp only [List.map_map] at this
    exact congrArg List.sum this
  obtain ⟨R, r1, r2⟩ := combineRounded_close u0 u1 hA hmul horder (retask_valid hvalid hlev) hpos hmax
    htotal (N := N) (fun g hg => by
      have := congrArg List.length (hlev g hg)
      simp only [List.length_map] at this
      rw [this]; exact hN g hg) hNu hM (by
      intro g hg t ht p hp
      have hTr := (localTasks_spec hc (hS g hg) (h.comp g hg)).2
      unfold Transformed at hTr
      obtain ⟨i, hi, rfl⟩ := List.mem_iff_getElem.1 ht
      have hi' : i < (T g).length := by rw [hTr.length_eq]; exact hi
      obtain ⟨-, e2, e3⟩ := (List.forall₂_iff_get.1 hTr).2 i hi' hi
      simp only [List.get_eq_getElem] at e2 e3
      rw [e2] at hp
      rw [e3 p hp]
      exact hval g hg _ (List.getElem_mem hi') _
        (globalOf_spec h.ref (h.comp g hg _ (List.getElem_mem hi')) hc hp).1)
  rw [hsum] at r2
  refine ⟨R, by rw [htasks]; exact r1, fun g hg => ?_⟩
  have hTr := (localTasks_spec hc (hS g hg) (h.comp g hg)).2
  have hr2 := r2 g hg
  unfold Transformed at hTr
  beta_reduce at hr2
  rw [List.forall₂_iff_get] at hTr hr2 ⊢
  refine ⟨by rw [hTr.1, hr2.1], fun i h1 h2 => ?_⟩
  obtain ⟨-, e2, -⟩ := hTr.2 i h1 (by rw [← hTr.1]; exact h1)
  obtain ⟨-, e3, e4⟩ := hr2.2 i (by rw [← hTr.1]; exact h1) h2
  rw [e2] at e3 e4
  refine ⟨e3, fun p hp => ?_⟩
  have := e4 p hp
  rw [valueAtPlace_congr (fun g hg => (localTasks_spec hc (hS g hg) (h.comp g hg)).2),
    valueAtPlace_atProcess h.ref (h.comp g hg _ (List.get_mem _ ⟨i, h1⟩)) hc hp h.comp] at this
  exact this

/-- The tasks `T2` have the values `y` up to `E`. -/
def NearTasks (refs : List RefDim) (y : List ℕ → ℕ → K) (E : K) (ts ts2 : List (K × List ℕ × (ℕ → K))) :
    Prop :=
  List.Forall₂ (fun t t2 => t2.1 = t.1 ∧ t2.2.1 = t.2.1 ∧
    ∀ q < numLocal (oneProcess refs) t.2.1, |t2.2.2 q - y t.2.1 q| ≤ E) ts ts2

/-- Combining on all positions. -/
theorem groups_close (u0 : 0 ≤ u) (u1 : 16 * u ≤ 1) (hA : Rounds u A)
    (hmul : ∀ a b, |mul a b - a * b| ≤ u * |a * b|) {order : List ℕ → ℕ → ℕ → SumOrder}
    (horder : ∀ c, InGroup refs c → ∀ g < n, ∀ i, (order c g i).Valid n) {levels : List (List ℕ)}
    {T : ℕ → List (K × List ℕ × (ℕ → K))} (h : ValidSystem refs levels n T)
    {maxChunk : ℕ} (hpos : 0 < maxChunk) (hmax : maxChunk < 2 ^ 31)
    (htotal : ∀ c, InGroup refs c → (levels.map (subspaceCount (atProcess refs c))).sum < 2 ^ 32)
    {S : ℕ → List (GroupTask K)} (hS : ∀ g < n, List.Forall₂ (HoldsParts refs) (T g) (S g))
    (hS0 : ∀ g, n ≤ g → S g = []) {N : ℕ}
    (hN : ∀ g < n, (T g).length ≤ N) (hNu : 8 * (N * u) ≤ 1) {M : K} (hM : 0 ≤ M)
    (hval : ∀ g < n, ∀ t ∈ T g, ∀ p < numLocal (oneProcess refs) t.2.1, |t.2.2 p| ≤ M) :
    ∃ (S' : ℕ → List (GroupTask K)) (T2 : ℕ → List (K × List ℕ × (ℕ → K))),
      combinePositionsRounded A mul order (refs.map fun r => r.dec.length) maxChunk levels n S = some S' ∧
      ∀ g < n, List.Forall₂ (HoldsParts refs) (T2 g) (S' g) ∧
        NearTasks refs (fun L q => valueAtPlace (oneProcess refs) n T (spatialOf (oneProcess refs) L q))
          ((combineFactor u N n - 1) * (absSum n T * M)) (T g) (T2 g) := by
  have hE : 0 ≤ (combineFactor u N n - 1) * (absSum n T * M) :=
    mul_nonneg (sub_nonneg.2 (combineFactor_ge u0 N n)) (mul_nonneg (absSum_nonneg n T) hM)
  have hone := fun c (hc : InGroup refs c) =>
    position_close u0 u1 hA hmul (horder c hc) h hpos hmax hS hS0 hc (htotal c hc) hN hNu hM hval
  set result := fun c => combineRounded A mul (order c) maxChunk levels n fun g =>
    (S g).map fun t => t.onProcess c with hres
  have hone : ∀ c, InGroup refs c → ∃ R, result c = some R ∧ _ := hone
  set newData : ℕ → ℕ → (List ℕ → Buf K) → List ℕ → Buf K := fun g i d c =>
    (((result c).bind fun S => (S g).tasks[i]?).map fun y => y.2.data).getD
      (Buf.mk 0 (d c).val) with hnew
  set S' : ℕ → List (GroupTask K) := fun g => (S g).zipIdx.map fun x =>
    { x.1 with data := newData g x.2 x.1.data } with hS'
  suffices H : ∀ g < n, List.Forall₂ (fun t gt => ∃ t2 : K × List ℕ × (ℕ → K), (t2.1 = t.1 ∧
      t2.2.1 = t.2.1 ∧ ∀ q < numLocal (oneProcess refs) t.2.1, |t2.2.2 q -
        valueAtPlace (oneProcess refs) n T (spatialOf (oneProcess refs) t.2.1 q)| ≤
          (combineFactor u N n - 1) * (absSum n T * M)) ∧ HoldsParts refs t2 gt) (T g) (S' g) by
    have H2 : ∀ g, ∃ m, g < n → List.Forall₂ (HoldsParts refs) m (S' g) ∧
        NearTasks refs (fun L q => valueAtPlace (oneProcess refs) n T (spatialOf (oneProcess refs) L q))
          ((combineFactor u N n - 1) * (absSum n T * M)) (T g) m := by
      intro g
      by_cases hg : g < n
      · obtain ⟨m, m1, m2⟩ := forall₂_split (H g hg)
        exact ⟨m, fun _ => ⟨m2, m1⟩⟩
      · exact ⟨[], fun h => absurd h hg⟩
    choose T2 hT2 using H2
    refine ⟨S', T2, if_pos ?_, hT2⟩
    rw [List.all_eq_true]
    intro c hc
    obtain ⟨R, e, -⟩ := hone c (mem_groupProcesses.1 hc)
    have e : combineRounded A mul (order c) maxChunk levels n
      (fun g => (S g).map fun t => t.onProcess c) = some R := e
    beta_reduce
    rw [e]
    rfl
  · intro g hg
    have h1 := hS g hg
    refine forall₂_of_getElem (by simp [hS', h1.length_eq]) ?_
    intro i h2 h3
    have h4 : i < (S g).length := by rw [← h1.length_eq]; exact h2
    obtain ⟨a1, a2, -⟩ := (List.forall₂_iff_get.1 h1).2 i h2 h4
    simp only [List.get_eq_getElem] at a1 a2
    simp only [hS', List.getElem_map, List.getElem_zipIdx]
    have hL := h.comp g hg _ (List.getElem_mem h2)
    have hpart : ∀ c, InGroup refs c → (newData g (0 + i) (S g)[i].data c).len =
          numLocal (atProcess refs c) (T g)[i].2.1 ∧
        ∀ q < numLocal (atProcess refs c) (T g)[i].2.1,
          |(newData g (0 + i) (S g)[i].data c).val q -
          valueAtPlace (oneProcess refs) n T (spatialOf (oneProcess refs) (T g)[i].2.1
            (globalOf refs c (T g)[i].2.1 q))| ≤ (combineFactor u N n - 1) * (absSum n T * M) := by
      intro c hc
      obtain ⟨R, e1, e2⟩ := hone c hc
      have h5 : i < (R g).tasks.length := by rw [← (e2 g hg).length_eq]; exact h2
      obtain ⟨b1, b2⟩ := (List.forall₂_iff_get.1 (e2 g hg)).2 i h2 h5
      simp only [hnew, e1, Option.bind_some, zero_add, List.getElem?_eq_getElem h5, Option.map_some,
        Option.getD_some]
      exact ⟨b1, b2⟩
    obtain ⟨W, w1, w2⟩ := exists_whole h.ref hL _ (fun q => valueAtPlace (oneProcess refs) n T
      (spatialOf (oneProcess refs) (T g)[i].2.1 q)) hE fun c hc q hq => (hpart c hc).2 q hq
    exact ⟨((T g)[i].1, (T g)[i].2.1, W), ⟨rfl, rfl, fun q _ => w2 q⟩, a1, a2, fun c hc =>
      ⟨(hpart c hc).1, w1 c hc⟩⟩

end Glue

end Verif

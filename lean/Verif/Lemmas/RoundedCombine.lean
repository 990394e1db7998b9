import Verif.Model.RoundedCombine
import Verif.Lemmas.DistributedCombine
import Verif.Lemmas.KahanTransfer
import Verif.Lemmas.Kahan

/-!
# Lemmas on the combination in the arithmetic of a machine
-/

namespace Verif

variable {K : Type}

/-! ### Sums in any order -/

theorem SumOrder.groups_ne_nil (o : SumOrder) : 0 < o.groups.length := by
  induction o with
  | one => simp [groups]
  | add a b iha ihb => rw [groups, List.length_append]; omega

theorem SumOrder.eval_congr (plus : K → K → K) (o : SumOrder) {x y : ℕ → K}
    (h : ∀ g ∈ o.groups, x g = y g) : o.eval plus x = o.eval plus y := by
  induction o with
  | one g => exact h g (by simp [groups])
  | add a b iha ihb =>
    simp only [eval]
    rw [iha fun g hg => h g (by simp [groups, hg]), ihb fun g hg => h g (by simp [groups, hg])]

section Order

variable [Field K] [LinearOrder K] [IsStrictOrderedRing K]

/-- Numbers with a relative error `e` are added in any order. -/
theorem SumOrder.eval_error {u e : K} (u0 : 0 ≤ u) (e0 : 0 ≤ e) {A : Adder K} (hA : Rounds u A)
    (o : SumOrder) (x y X : ℕ → K) (hX : ∀ g ∈ o.groups, |y g| ≤ X g)
    (hxy : ∀ g ∈ o.groups, |x g - y g| ≤ e * X g) :
    |o.eval A.add x - (o.groups.map y).sum| ≤
      ((1 + e) * (1 + u) ^ (o.groups.length - 1) - 1) * (o.groups.map X).sum ∧
    |(o.groups.map y).sum| ≤ (o.groups.map X).sum := by
  induction o with
  | one g =>
    simp only [groups, eval, List.map_cons, List.map_nil, List.sum_cons, List.sum_nil, add_zero,
      List.length_cons, List.length_nil, Nat.sub_self, pow_zero, mul_one, zero_add] at *
    refine ⟨?_, hX g (by simp)⟩
    have := hxy g (by simp)
    linarith
  | add a b iha ihb =>
    obtain ⟨a1, a2⟩ := iha (fun g hg => hX g (by simp [groups, hg])) fun g hg => hxy g (by simp [groups, hg])
    obtain ⟨b1, b2⟩ := ihb (fun g hg => hX g (by simp [groups, hg])) fun g hg => hxy g (by simp [groups, hg])
    have la := a.groups_ne_nil
    have lb := b.groups_ne_nil
    simp only [groups, eval, List.map_append, List.sum_append, List.length_append]
    set va := a.eval A.add x
    set vb := b.eval A.add x
    set sa := (a.groups.map y).sum
    set sb := (b.groups.map y).sum
    set Xa := (a.groups.map X).sum
    set Xb := (b.groups.map X).sum
    obtain ⟨m, hm⟩ : ∃ m, a.groups.length + b.groups.length - 1 = m + 1 :=
      ⟨a.groups.length + b.groups.length - 2, by omega⟩
    have hXa : 0 ≤ Xa := (abs_nonneg _).trans a2
    have hXb : 0 ≤ Xb := (abs_nonneg _).trans b2
    have hpow : ∀ k ≤ m, (1 + e) * (1 + u) ^ k - 1 ≤ (1 + e) * (1 + u) ^ m - 1 := by
      intro k hk
      have := pow_le_pow_right₀ (by linarith : 1 ≤ 1 + u) hk
      have := mul_le_mul_of_nonneg_left this (by linarith : 0 ≤ 1 + e)
      linarith
    have ha' := a1.trans (mul_le_mul_of_nonneg_right (hpow (a.groups.length - 1) (by omega)) hXa)
    have hb' := b1.trans (mul_le_mul_of_nonneg_right (hpow (b.groups.length - 1) (by omega)) hXb)
    rw [hm, pow_succ]
    set f := (1 + e) * (1 + u) ^ m - 1 with hf
    have hab : |va + vb - (sa + sb)| ≤ f * (Xa + Xb) := by
      rw [show va + vb - (sa + sb) = va - sa + (vb - sb) by ring, mul_add]
      exact (abs_add_le _ _).trans (add_le_add ha' hb')
    have hs : |sa + sb| ≤ Xa + Xb := (abs_add_le _ _).trans (add_le_add a2 b2)
    refine ⟨?_, hs⟩
    have h1 := hA.add va vb
    have h2 : |va + vb| ≤ (1 + f) * (Xa + Xb) := by
      have : |va + vb| ≤ |va + vb - (sa + sb)| + |sa + sb| := by
        have := abs_add_le (va + vb - (sa + sb)) (sa + sb)
        rwa [sub_add_cancel] at this
      linarith
    have h3 : |A.add va vb - (sa + sb)| ≤ |A.add va vb - (va + vb)| + |va + vb - (sa + sb)| := by
      have := abs_add_le (A.add va vb - (va + vb)) (va + vb - (sa + sb))
      rwa [sub_add_sub_cancel] at this
    have h4 := mul_le_mul_of_nonneg_left h2 u0
    have h5 : (1 + e) * ((1 + u) ^ m * (1 + u)) - 1 = f + u * (1 + f) := by rw [hf]; ring
    rw [h5, add_mul]
    have h6 : u * ((1 + f) * (Xa + Xb)) = u * (1 + f) * (Xa + Xb) := by ring
    linarith

end Order

/-! ### One group -/

/-- What the tasks contribute to position `j` of subspace `i` in the arithmetic of the machine. -/
def localSumWith [Zero K] (A : Adder K) (mul : K → K → K) (levels : List (List ℕ)) (ts : List (K × Dfg K))
    (i j : ℕ) : K :=
  (((ts.filter fun t => decide (levels.getD i [] ∈ getDownSet t.2.levels)).map fun t =>
    mul t.1 (t.2.data.val ((getFGPointsOfSubspace t.2.dims (levels.getD i [])).getD j 0))).foldl
      (kahanStep A) (0, 0)).1

theorem collectAllWith_eq [Ring K] (A : Adder K) (mul : K → K → K) {levels : List (List ℕ)}
    (hs : levels.Pairwise (· < ·)) {sizes : List ℕ} (hlen : sizes.length = levels.length) (g : Group K)
    (hg : GroupOk levels sizes g) (hz : CanZero levels.length g.dsg) (hlt : sizes.sum < 2 ^ 32) :
    ∃ d', g.collectAllWith A mul = some ⟨d', g.tasks⟩ ∧ Allocated d' ∧ d'.levels = levels ∧
      d'.sizes = sizes ∧ d'.sel = List.range levels.length ∧
      ∀ i < levels.length, ∀ j < sizes.getD i 0, d'.at i j = localSumWith A mul levels g.tasks i j := by
  obtain ⟨d, ts⟩ := g
  obtain ⟨h1, h2, h3⟩ := hg
  simp only at h1 h2 h3 hz
  subst h1
  subst h2
  rw [← hlen] at hz
  obtain ⟨d2, e1, e2, e3, e4, e5, e6⟩ := createOrZero_again d hs hlen hz hlt
  rw [hlen] at e5
  obtain ⟨v, w, f1, f2⟩ := addAllWith_eq A mul true ts e2.allocated (by
      intro _ i hi
      rw [e4, hlen] at hi
      rw [e5, List.mem_range]
      exact hi) (fun t ht => by
        have := h3 t ht
        rw [← e3, ← e4] at this
        exact this.fits)
  have ha := e2.allocated
  refine ⟨{ d2 with data := ⟨d2.data.len, v⟩, kahan := ⟨d2.kahan.len, w⟩ }, ?_, ⟨ha.sorted, ha.len, ha.selRange, ha.ptr, ha.kptr, ha.dataLen, ha.kahanLen⟩, e3, e4, e5, ?_⟩
  · unfold Group.collectAllWith Group.addTasksWith
    unfold addAllWith at f1
    simp only [e1, Option.bind_eq_bind, Option.bind_some, f1]
    rfl
  · intro i hi j hj
    have hisel : i ∈ d2.sel := by rw [e5]; exact List.mem_range.2 hi
    have := f2 i hisel j (by rw [selSize_of_mem hisel, e4]; exact hj)
    have := congrArg Prod.fst this
    simp only [e2.kahanZero, e6, e3, summand] at this
    exact this

theorem extract_allocated [Ring K] (d : Dsg K) (hd : Allocated d)
    (hf : ∀ i < d.sizes.length, i ∈ d.sel) (t : Dfg K) (hok : TaskOk d.levels d.sizes t) :
    ∃ t', extractFromUniformSG true t d = some t' ∧
      Extracted d.levels d.sizes d.sel (fun i j => d.at i j) t t' := by
  obtain ⟨v, h', e1, e2, e3⟩ := extractLoop_eq true d hd (fun _ => hf) (getDownSet t.levels)
    (C01_downSet _).2 t hok.fits hok.nodup hok.disj 0 (HintOk.zero _ _)
  refine ⟨{ t with data := ⟨t.data.len, v⟩ }, ?_, rfl, rfl, e2, e3⟩
  unfold extractFromUniformSG
  rw [e1]
  rfl

theorem extractTasks_allocated [Ring K] (g : Group K) (hd : Allocated g.dsg)
    (hf : ∀ i < g.dsg.sizes.length, i ∈ g.dsg.sel)
    (hok : ∀ t ∈ g.tasks, TaskOk g.dsg.levels g.dsg.sizes t.2) :
    ∃ ts', g.extractTasks true = some ⟨g.dsg, ts'⟩ ∧
      ExtractedAll g.dsg.levels g.dsg.sizes g.dsg.sel (fun i j => g.dsg.at i j) g.tasks ts' := by
  obtain ⟨d, ts⟩ := g
  simp only at hd hf hok ⊢
  suffices H : ∃ ts', ts.mapM (fun t => (extractFromUniformSG true t.2 d).map fun x => (t.1, x)) =
      some ts' ∧ ExtractedAll d.levels d.sizes d.sel (fun i j => d.at i j) ts ts' by
    obtain ⟨ts', e1, e2⟩ := H
    refine ⟨ts', ?_, e2⟩
    unfold Group.extractTasks
    simp only [e1]
    rfl
  induction ts with
  | nil => exact ⟨[], rfl, List.Forall₂.nil⟩
  | cons t ts ih =>
    obtain ⟨ts', e1, e2⟩ := ih fun t ht => hok t (by simp [ht])
    obtain ⟨t', f1, f2⟩ := extract_allocated d hd hf t.2 (hok t (by simp))
    refine ⟨(t.1, t') :: ts', ?_, List.Forall₂.cons ⟨rfl, f2⟩ e2⟩
    rw [List.mapM_cons, e1, f1]
    rfl

/-! ### All groups -/

/-- The chunked reduction in the arithmetic of the machine. -/
theorem allreduceWith_eq [AddCommMonoid K] (plus : K → K → K) (order : ℕ → ℕ → SumOrder) (n chunk : ℕ)
    (hc : 0 < chunk) (hc' : chunk < 2 ^ 31) (ds : List (Buf K)) (hds : ∀ d ∈ ds, d.len = n) :
    ∃ rs, sparseGridReduce (allreduceCallWith plus order) chunk ds = some rs ∧ rs.length = ds.length ∧
      ∀ k (hk : k < rs.length), rs[k].len = n ∧ ∀ i < n, rs[k].val i =
        (order k i).eval plus fun g => (ds.map fun e => e.val i).getD g 0 := by
  refine ⟨_, sparseGridReduce_eq (allreduceCallWith plus order) (fun _ => True)
    (fun k i l => (order k i).eval plus fun g => l.getD g 0) ?_ n chunk hc hc' ds hds, ?_, ?_⟩
  · intro ds o c
    unfold allreduceCallWith
    simp only [true_and]
  · simp [allreduceCallWith]
  · intro k hk
    unfold allreduceCallWith
    simp only [List.getElem_map, List.getElem_zipIdx, Nat.zero_add]
    refine ⟨hds _ (List.getElem_mem _), fun i hi => ?_⟩
    rw [if_pos (by omega)]

theorem combineSparseGridReduceWith_eq [Ring K] (A : Adder K) (mul : K → K → K)
    (order : ℕ → ℕ → SumOrder) {levels : List (List ℕ)} (hs : levels.Pairwise (· < ·))
    (n : ℕ) (horder : ∀ g < n, ∀ i, (order g i).Valid n) (sizes : List ℕ)
    (hlen : sizes.length = levels.length) (maxChunk : ℕ)
    (hpos : 0 < maxChunk) (hmax : maxChunk < 2 ^ 31) (hlt : sizes.sum < 2 ^ 32)
    (S : ℕ → Group K) (hg : ∀ g < n, GroupOk levels sizes (S g) ∧
      CanZero levels.length (S g).dsg) :
    ∃ (S' : ℕ → Group K) (F : ℕ → ℕ → ℕ → K),
      combineSparseGridReduceWith A mul order maxChunk n S = some S' ∧
      (∀ g < n, ExtractedAll levels sizes (List.range levels.length) (F g) (S g).tasks
        (S' g).tasks) ∧
      ∀ g < n, ∀ i < levels.length, ∀ j < sizes.getD i 0, ∃ o : SumOrder, o.Valid n ∧
        F g i j = o.eval A.add fun m => localSumWith A mul levels (S m).tasks i j := by
  obtain ⟨S1, a1, a2, -⟩ := forGroups_spec (fun _ (g : Group K) => g.collectAllWith A mul) (List.range n)
    List.nodup_range S (fun g r => (GroupOk levels sizes r ∧ Allocated r.dsg ∧
        r.dsg.sel = List.range levels.length) ∧ r.tasks = (S g).tasks ∧
        ∀ i < levels.length, ∀ j < sizes.getD i 0,
          r.dsg.at i j = localSumWith A mul levels (S g).tasks i j) (by
    intro g hgm
    obtain ⟨h1, h2⟩ := hg g (List.mem_range.1 hgm)
    obtain ⟨d', e1, e2, e3, e4, e5, e6⟩ := collectAllWith_eq A mul hs hlen (S g) h1 h2 hlt
    exact ⟨_, e1, ⟨⟨e3, e4, h1.ok⟩, e2, e5⟩, rfl, e6⟩)
  have a2 := fun g (hg : g < n) => a2 g (List.mem_range.2 hg)
  have hl1 : ∀ g < n, (S1 g).dsg.data.len =
      selOffset sizes (List.range levels.length) sizes.length := by
    intro g hg
    obtain ⟨⟨q1, q2, q3⟩, -, -⟩ := a2 g hg
    rw [q2.dataLen, q1.siz, q3]
  obtain ⟨rs, r1, r3, r4⟩ := allreduceWith_eq A.add order
    (selOffset sizes (List.range levels.length) sizes.length) maxChunk hpos hmax
    ((List.range n).map fun g => (S1 g).dsg.data) (by
      intro d hd
      obtain ⟨g, hg, rfl⟩ := List.mem_map.1 hd
      exact hl1 g (List.mem_range.1 hg))
  simp only [List.length_map, List.length_range] at r3
  let S2 : ℕ → Group K := fun g => (rs[g]?).elim (S1 g) (S1 g).setData
  have hS2 : ∀ g (hg : g < n), S2 g = (S1 g).setData (rs[g]'(by omega)) := by
    intro g hg
    change (rs[g]?).elim (S1 g) (S1 g).setData = _
    rw [List.getElem?_eq_getElem (by omega)]
    rfl
  have hw2 : ∀ g < n, GroupOk levels sizes (S2 g) ∧ Allocated (S2 g).dsg ∧
      (S2 g).dsg.sel = List.range levels.length := by
    intro g hg
    obtain ⟨⟨q1, q2, q3⟩, -, -⟩ := a2 g hg
    rw [hS2 g hg]
    refine ⟨⟨q1.lev, q1.siz, q1.ok⟩, ⟨q2.sorted, q2.len, q2.selRange, q2.ptr, q2.kptr, ?_,
      q2.kahanLen⟩, q3⟩
    have := (r4 g (by omega)).1
    simp only [Group.setData]
    rw [this, q1.siz, q3]
  obtain ⟨S3, c1, c2, -⟩ := forGroups_spec (fun _ (g : Group K) => g.extractTasks true)
    (List.range n) List.nodup_range S2 (fun m r => ExtractedAll levels sizes
      (List.range levels.length) (fun i j => (S2 m).dsg.at i j) (S2 m).tasks r.tasks) (by
    intro m hm
    obtain ⟨q1, q2, q3⟩ := hw2 m (List.mem_range.1 hm)
    obtain ⟨ts', e1, e2⟩ := extractTasks_allocated (S2 m) q2 (by
      intro i hi
      rw [q1.siz, hlen] at hi
      rw [q3]
      exact List.mem_range.2 hi) (by
      rw [q1.lev, q1.siz]; exact q1.ok)
    rw [q1.lev, q1.siz, q3] at e2
    exact ⟨_, e1, e2⟩)
  refine ⟨S3, fun g i j => (S2 g).dsg.at i j, ?_, ?_, ?_⟩
  · unfold combineSparseGridReduceWith
    simp only [a1, r1, Option.bind_eq_bind, Option.bind_some]
    exact c1
  · intro g hg
    have := c2 g (List.mem_range.2 hg)
    have ht : (S2 g).tasks = (S g).tasks := by
      rw [hS2 g hg]
      simp only [Group.setData]
      exact (a2 g hg).2.1
    rw [ht] at this
    exact this
  · intro g hg i hi j hj
    have hpos' : selOffset sizes (List.range levels.length) i + j <
        selOffset sizes (List.range levels.length) sizes.length := by
      have h1 := storage_le (sizes := sizes) (sel := List.range levels.length) (i := i) (by omega)
      have h2 : selSize sizes (List.range levels.length) i = sizes.getD i 0 := by
        unfold selSize
        rw [if_pos (List.mem_range.2 hi)]
      omega
    have h := (r4 g (by omega)).2 _ hpos'
    rw [List.map_map] at h
    refine ⟨_, horder g hg (selOffset sizes (List.range levels.length) i + j), ?_⟩
    obtain ⟨⟨q1, q2, q3⟩, -, -⟩ := a2 g hg
    simp only [hS2 g hg]
    unfold Dsg.at
    simp only [Group.setData]
    rw [q1.siz, q3, h]
    apply SumOrder.eval_congr
    intro m hm
    have hm : m < n := List.mem_range.1 ((horder g hg _).mem_iff.1 hm)
    rw [List.getD_eq_getElem _ _ (by simpa using hm), List.getElem_map, List.getElem_range]
    obtain ⟨⟨p1, p2, p3⟩, -, p5⟩ := a2 m hm
    have := p5 i hi j hj
    unfold Dsg.at at this
    rw [p1.siz, p3] at this
    exact this

/-! ### Errors -/

section Close

variable [Field K] [LinearOrder K] [IsStrictOrderedRing K]

theorem localSumWith_close {u : K} (u0 : 0 ≤ u) (u1 : 16 * u ≤ 1) {A : Adder K} (hA : Rounds u A)
    {mul : K → K → K} (hmul : ∀ a b, |mul a b - a * b| ≤ u * |a * b|) {levels : List (List ℕ)}
    {ts : List (K × Dfg K)} {i j N : ℕ} (hN : ts.length ≤ N) (hNu : 8 * (N * u) ≤ 1) {M : K} (hM : 0 ≤ M)
    (hval : ∀ t ∈ ts, levels.getD i [] ∈ getDownSet t.2.levels →
      |t.2.data.val ((getFGPointsOfSubspace t.2.dims (levels.getD i [])).getD j 0)| ≤ M) :
    |localSum levels ts i j| ≤ (ts.map fun t => |t.1|).sum * M ∧
    |localSumWith A mul levels ts i j - localSum levels ts i j| ≤
      (8 * u + 17 * N * u ^ 2) * ((ts.map fun t => |t.1|).sum * M) := by
  set fs := ts.filter fun t => decide (levels.getD i [] ∈ getDownSet t.2.levels) with hfs
  set v : K × Dfg K → K := fun t =>
    t.2.data.val ((getFGPointsOfSubspace t.2.dims (levels.getD i [])).getD j 0) with hv
  have hsum : localSum levels ts i j = (fs.map fun t => t.1 * v t).sum := by
    unfold localSum
    rw [hfs]
    clear hN hval hfs
    clear fs
    induction ts with
    | nil => rfl
    | cons t ts ih =>
      rw [List.map_cons, List.sum_cons, ih, List.filter_cons]
      by_cases hm : levels.getD i [] ∈ getDownSet t.2.levels
      · rw [if_pos hm, if_pos (by simpa using hm), List.map_cons, List.sum_cons]
      · rw [if_neg hm, if_neg (by simpa using hm), zero_add]
  have habs : (fs.map fun t => |t.1 * v t|).sum ≤ (ts.map fun t => |t.1|).sum * M := by
    rw [hfs]
    clear hN hfs hsum
    clear fs
    induction ts with
    | nil => simp
    | cons t ts ih =>
      have ih := ih fun t ht => hval t (by simp [ht])
      rw [List.map_cons, List.sum_cons, List.filter_cons, add_mul]
      by_cases hm : levels.getD i [] ∈ getDownSet t.2.levels
      · rw [if_pos (by simpa using hm), List.map_cons, List.sum_cons, abs_mul]
        exact add_le_add (mul_le_mul_of_nonneg_left (hval t (by simp) hm) (abs_nonneg _)) ih
      · rw [if_neg (by simpa using hm)]
        have := mul_nonneg (abs_nonneg t.1) hM
        linarith
  have hle : fs.length ≤ N := (List.length_filter_le _ _).trans hN
  have hle' : (fs.length : K) ≤ N := Nat.cast_le.2 hle
  have key := kahan_mul_error u0 u1 hA mul hmul (fs.map fun t => (t.1, v t)) (by
    rw [List.length_map]
    have := mul_le_mul_of_nonneg_right hle' u0
    linarith)
  rw [List.map_map, List.map_map, List.map_map, List.length_map] at key
  simp only [Function.comp_def] at key
  have h0 : 0 ≤ (fs.map fun t => |t.1 * v t|).sum := List.sum_nonneg (by
    intro x hx
    obtain ⟨t, -, rfl⟩ := List.mem_map.1 hx
    exact abs_nonneg _)
  rw [hsum]
  constructor
  · refine le_trans ?_ habs
    clear key habs hsum hle hle' h0
    induction fs with
    | nil => simp
    | cons t fs ih =>
      rw [List.map_cons, List.sum_cons, List.map_cons, List.sum_cons]
      exact (abs_add_le _ _).trans (add_le_add_right ih _)
  · refine key.trans (mul_le_mul ?_ habs h0 ?_)
    · have := mul_le_mul_of_nonneg_right hle' (sq_nonneg u)
      linarith
    · positivity

theorem localSum_bound {u : K} (u0 : 0 ≤ u) (u1 : 16 * u ≤ 1) {A : Adder K} (hA : Rounds u A)
    {mul : K → K → K} (hmul : ∀ a b, |mul a b - a * b| ≤ u * |a * b|) {refs : List RefDim}
    (hr : ∀ r ∈ refs, ValidRef r) {levels : List (List ℕ)} {ts : List (K × List ℕ × (ℕ → K))}
    (hts : ∀ t ∈ ts, ValidComponent refs t.2.1) {N : ℕ} (hN : ts.length ≤ N) (hNu : 8 * (N * u) ≤ 1)
    {M : K} (hM : 0 ≤ M) (hval : ∀ t ∈ ts, ∀ p < numLocal refs t.2.1, |t.2.2 p| ≤ M) {i j : ℕ}
    (hi : i < levels.length) (hj : j < subspaceCount refs levels[i]) :
    |localSum levels (tasksOf refs ts) i j| ≤ (ts.map fun t => |t.1|).sum * M ∧
    |localSumWith A mul levels (tasksOf refs ts) i j - localSum levels (tasksOf refs ts) i j| ≤
      (8 * u + 17 * N * u ^ 2) * ((ts.map fun t => |t.1|).sum * M) := by
  have e : (tasksOf refs ts).map (fun t => |t.1|) = ts.map fun t => |t.1| := by
    unfold tasksOf
    rw [List.map_map]
    rfl
  rw [← e]
  refine localSumWith_close u0 u1 hA hmul (by unfold tasksOf; simpa using hN) hNu hM ?_
  intro t ht hm
  unfold tasksOf at ht
  obtain ⟨s, hs, rfl⟩ := List.mem_map.1 ht
  have hL := hts s hs
  simp only at hm ⊢
  rw [gridOf_levels hL.le.length_eq, List.getD_eq_getElem _ _ hi] at hm
  rw [List.getD_eq_getElem _ _ hi]
  have hlen := length_points hr hL hm
  have hmem : (getFGPointsOfSubspace (List.zipWith localOf refs s.2.1) levels[i]).getD j 0 ∈
      getFGPointsOfSubspace (List.zipWith localOf refs s.2.1) levels[i] := by
    rw [List.getD_eq_getElem _ _ (by omega)]
    exact List.getElem_mem _
  exact hval s hs _ (((points_facts hr hL hm).2.2.1 _).1 hmem).1

/-- A grid that was filled from a sparse grid with nearly combined values. -/
theorem extracted_close {refs : List RefDim} {levels : List (List ℕ)} {n : ℕ}
    {T : ℕ → List (K × List ℕ × (ℕ → K))} (h : ValidSystem refs levels n T)
    {sizes : List ℕ} {F : ℕ → ℕ → K} {L : List ℕ} {x : ℕ → K} {t' : Dfg K} {E : K} (hE : 0 ≤ E)
    (hL : ValidComponent refs L) (hmem : ∀ l ∈ getDownSet L, l ∈ levels ∨
      ∀ p ∈ getFGPointsOfSubspace (List.zipWith localOf refs L) l,
        valueAtPlace refs n T (spatialOf refs L p) = x p)
    (he : Extracted levels sizes (List.range levels.length) F (gridOf refs L x) t')
    (hsz : ∀ i (hi : i < levels.length), levels[i] ∈ getDownSet L →
      sizes.getD i 0 = subspaceCount refs levels[i])
    (hF : ∀ i (hi : i < levels.length), levels[i] ∈ getDownSet L →
      ∀ j < subspaceCount refs levels[i],
        |F i j - ((List.range n).map fun m => localSum levels (tasksOf refs (T m)) i j).sum| ≤ E) :
    ∀ p < numLocal refs L, |t'.data.val p - valueAtPlace refs n T (spatialOf refs L p)| ≤ E := by
  intro p hp
  obtain ⟨l, hl, hpl⟩ := exists_subspace_of_point h.ref hL hp
  by_cases hlm : l ∈ levels
  swap
  · rw [(hmem l hl).resolve_left hlm p hpl]
    have : t'.data.val p = x p := by
      apply he.miss
      intro i hi hm _ _ hpi
      rw [gridOf_levels hL.le.length_eq] at hm
      have h1 := ((points_facts h.ref hL hl).2.2.1 p).1 hpl
      have h2 := ((points_facts h.ref hL hm).2.2.1 p).1 hpi
      have heq := refIn_unique (points_facts h.ref hL hl).1 (points_facts h.ref hL hm).1
        (refIn_of_inSubspace hL.le h1.2) (refIn_of_inSubspace hL.le h2.2)
      exact hlm (heq ▸ List.getElem_mem hi)
    rw [this, sub_self, abs_zero]
    exact hE
  obtain ⟨i, hi, rfl⟩ := List.mem_iff_getElem.1 hlm
  obtain ⟨j, hj, hpj⟩ := List.mem_iff_getElem.1 hpl
  have hj' : j < subspaceCount refs levels[i] := by
    rw [← length_points h.ref hL hl]; exact hj
  have hit := he.hit i hi (by rw [gridOf_levels hL.le.length_eq]; exact hl) (List.mem_range.2 hi)
    (by rw [hsz i hi hl]; omega) j hj
  have hpj' : (getFGPointsOfSubspace (gridOf refs L x).dims levels[i])[j]'hj = p := hpj
  rw [hpj'] at hit
  have hFi := hF i hi hl j hj'
  rw [hit]
  have e : ((List.range n).map fun m => localSum levels (tasksOf refs (T m)) i j).sum =
      valueAtPlace refs n T (spatialOf refs L p) := by
    unfold valueAtPlace
    congr 1
    apply List.map_congr_left
    intro m hm
    exact localSum_place h.ref (h.comp m (List.mem_range.1 hm)) hL hi hl hj hpj
  rwa [e] at hFi

/-- The sum of the absolute values of all combination coefficients. -/
def absSum (n : ℕ) (T : ℕ → List (K × List ℕ × (ℕ → K))) : K :=
  ((List.range n).map fun g => ((T g).map fun t => |t.1|).sum).sum

theorem absSum_nonneg (n : ℕ) (T : ℕ → List (K × List ℕ × (ℕ → K))) : 0 ≤ absSum n T := by
  refine List.sum_nonneg fun x hx => ?_
  obtain ⟨g, -, rfl⟩ := List.mem_map.1 hx
  refine List.sum_nonneg fun x hx => ?_
  obtain ⟨t, -, rfl⟩ := List.mem_map.1 hx
  exact abs_nonneg _

/-- The relative error of the sums of the tasks and groups. -/
def combineFactor (u : K) (N n : ℕ) : K := (1 + (8 * u + 17 * N * u ^ 2)) * (1 + u) ^ (n - 1)

theorem combineFactor_ge {u : K} (u0 : 0 ≤ u) (N n : ℕ) : 1 ≤ combineFactor u N n := by
  unfold combineFactor
  have h1 : (1 : K) ≤ (1 + u) ^ (n - 1) := one_le_pow₀ (by linarith)
  have h2 : 0 ≤ 8 * u + 17 * N * u ^ 2 := by positivity
  nlinarith

theorem combineRounded_close {u : K} (u0 : 0 ≤ u) (u1 : 16 * u ≤ 1) {A : Adder K} (hA : Rounds u A)
    {mul : K → K → K} (hmul : ∀ a b, |mul a b - a * b| ≤ u * |a * b|)
    {refs : List RefDim} {levels : List (List ℕ)} {n : ℕ} {order : ℕ → ℕ → SumOrder}
    (horder : ∀ g < n, ∀ i, (order g i).Valid n)
    {T : ℕ → List (K × List ℕ × (ℕ → K))} (h : ValidSystem refs levels n T)
    {maxChunk : ℕ} (hpos : 0 < maxChunk) (hmax : maxChunk < 2 ^ 31)
    (htotal : (levels.map (subspaceCount refs)).sum < 2 ^ 32) {N : ℕ}
    (hN : ∀ g < n, (T g).length ≤ N) (hNu : 8 * (N * u) ≤ 1) {M : K} (hM : 0 ≤ M)
    (hval : ∀ g < n, ∀ t ∈ T g, ∀ p < numLocal refs t.2.1, |t.2.2 p| ≤ M) :
    ∃ S', combineRounded A mul order maxChunk levels n (fun g => tasksOf refs (T g)) = some S' ∧
      ∀ g < n, List.Forall₂ (fun t (t' : K × Dfg K) => t'.1 = t.1 ∧
        t'.2.data.len = numLocal refs t.2.1 ∧ ∀ p < numLocal refs t.2.1,
          |t'.2.data.val p - valueAtPlace refs n T (spatialOf refs t.2.1 p)| ≤
            (combineFactor u N n - 1) * (absSum n T * M)) (T g) (S' g).tasks := by
  obtain ⟨dsgs, i1, i2⟩ := initDsgs_eq h .sparseGridReduce
  rcases Nat.eq_zero_or_pos n with rfl | hn
  · refine ⟨fun g => let d := dsgs.getD g (Dsg.empty levels)
      afterSizes d (outgroupSizes (dsgs.map (·.sizes)) (List.range levels.length) d.sizes)
        (tasksOf refs (T g)), ?_, by intro g hg; omega⟩
    unfold combineRounded
    rw [i1]
    rfl
  have hsame : ∀ g < n, outgroupSizes (dsgs.map (·.sizes)) (List.range levels.length)
      (dsgs.getD g (Dsg.empty levels)).sizes = outgroupSizes (dsgs.map (·.sizes))
        (List.range levels.length) (dsgs.getD 0 (Dsg.empty levels)).sizes := by
    intro g hg
    unfold outgroupSizes
    rw [i2.slen g hg, i2.slen 0 hn]
    apply List.map_congr_left
    intro i hi
    rw [if_pos hi, if_pos hi]
  generalize hsz : outgroupSizes (dsgs.map (·.sizes)) (List.range levels.length)
    (dsgs.getD 0 (Dsg.empty levels)).sizes = sizes at hsame
  have hs0 := i2.outgroupSizes_eq hn (List.range levels.length)
  rw [hsz] at hs0
  have hheld : ∀ g < n, ∀ i (hi : i < levels.length), HoldsLevel T g levels[i] →
      sizes.getD i 0 = subspaceCount refs levels[i] := fun g hg i hi hh =>
    (hs0.2 i hi).1 (Or.inr ⟨List.mem_range.2 hi, g, hg, hh⟩)
  set S : ℕ → Group K := fun g => afterSizes (dsgs.getD g (Dsg.empty levels))
    (outgroupSizes (dsgs.map (·.sizes))
      (List.range levels.length) (dsgs.getD g (Dsg.empty levels)).sizes) (tasksOf refs (T g)) with hSdef
  have hS : ReadyFor True refs levels n (fun _ => sizes) T S := by
    obtain ⟨a, -, c, d⟩ := readyFor_afterSizes i2 True fun g => outgroupSizes (dsgs.map (·.sizes))
      (List.range levels.length) (dsgs.getD g (Dsg.empty levels)).sizes
    exact ⟨a, hsame, c, d⟩
  obtain ⟨S', F, e1, e2, e3⟩ := combineSparseGridReduceWith_eq A mul order h.sorted n horder sizes hs0.1
    maxChunk hpos hmax
    (lt_of_le_of_lt (sum_le_total hs0.1 fun i hi => (hs0.2 i hi).2) htotal) S fun g hg =>
      ⟨hS.groupOk h hheld g hg, hS.zero trivial g hg⟩
  refine ⟨S', ?_, fun g hg => ?_⟩
  · unfold combineRounded
    rw [i1]
    exact e1
  have hE : 0 ≤ (combineFactor u N n - 1) * (absSum n T * M) :=
    mul_nonneg (sub_nonneg.2 (combineFactor_ge u0 N n)) (mul_nonneg (absSum_nonneg n T) hM)
  have hx := e2 g hg
  rw [hS.tasks g hg] at hx
  unfold ExtractedAll tasksOf at hx
  rw [List.forall₂_map_left_iff] at hx
  rw [List.forall₂_iff_get] at hx ⊢
  refine ⟨hx.1, fun k h1 h2 => ?_⟩
  obtain ⟨f1, f2⟩ := hx.2 k h1 h2
  have ht : (T g).get ⟨k, h1⟩ ∈ T g := List.get_mem _ _
  generalize (T g).get ⟨k, h1⟩ = t at f1 f2 ht ⊢
  generalize (S' g).tasks.get ⟨k, h2⟩ = t' at f1 f2 ⊢
  simp only at f1 f2
  have hL := h.comp g hg t ht
  refine ⟨f1, f2.len, extracted_close h hE hL (h.value_of_alone hg ht) f2
    (fun i hi hl => hheld g hg i hi ⟨t, ht, hl⟩) fun i hi hl j hj => ?_⟩
  obtain ⟨o, o1, o2⟩ := e3 g hg i hi j (by rw [hheld g hg i hi ⟨t, ht, hl⟩]; exact hj)
  have hb : ∀ m ∈ o.groups, |localSum levels (tasksOf refs (T m)) i j| ≤ ((T m).map fun t => |t.1|).sum * M ∧
      |localSumWith A mul levels (S m).tasks i j - localSum levels (tasksOf refs (T m)) i j| ≤
        (8 * u + 17 * N * u ^ 2) * (((T m).map fun t => |t.1|).sum * M) := by
    intro m hm
    have hm : m < n := List.mem_range.1 (o1.mem_iff.1 hm)
    rw [hS.tasks m hm]
    exact localSum_bound u0 u1 hA hmul h.ref (h.comp m hm) (hN m hm) hNu hM (hval m hm) hi hj
  have := (o.eval_error u0 (by positivity) hA (fun m => localSumWith A mul levels (S m).tasks i j)
    (fun m => localSum levels (tasksOf refs (T m)) i j) (fun m => ((T m).map fun t => |t.1|).sum * M)
    (fun m hm => (hb m hm).1) fun m hm => (hb m hm).2).1
  rw [(o1.map _).sum_eq, (o1.map _).sum_eq, o1.length_eq, List.length_range,
    List.sum_map_mul_right] at this
  rw [o2]
  exact this

end Close

end Verif

import Verif.Model.Reduce
import Mathlib.Algebra.BigOperators.Group.List.Basic
import Mathlib.Algebra.Field.Rat
import Mathlib.Tactic.Ring
import Mathlib.Tactic.NormNum

/-!
# Reductions between process groups: C31, C32, C33
-/

namespace Verif

/-! ### C32: the size of the chunks -/

/-- The full statement of C32: for every setting the number of elements is at least one, and at most
what the setting allows for all threads (no limit for the setting 0). -/
def C32_full (sizeofElement threads : ℕ) : Prop :=
  ∀ mib < 2 ^ 32, 1 ≤ getGlobalReduceChunkSize sizeofElement threads mib ∧
    (mib ≠ 0 → getGlobalReduceChunkSize sizeofElement threads mib * sizeofElement ≤
      mib * 2 ^ 20 * threads)

/-- C32 is violated, for example for double precision and one thread. -/
theorem C32_violated : ¬ C32_full 8 1 := by
  intro h
  have := (h 16384 (by norm_num)).1
  revert this
  decide

/-- 16 GiB give a negative number of elements and 32 GiB give zero, which is then divided by. -/
theorem C32_violated_values :
    getGlobalReduceChunkSize 8 1 16384 = -2 ^ 31 ∧ getGlobalReduceChunkSize 8 1 32768 = 0 ∧
    (∀ size, reduceCalls size (getGlobalReduceChunkSize 8 1 32768) = none) := by
  have h : getGlobalReduceChunkSize 8 1 32768 = 0 := by decide
  refine ⟨by decide, h, fun size => ?_⟩
  rw [h]
  rfl

/-- C32 for settings that fit: for element sizes up to 1 MiB and any number of threads, as long as
the number of elements is an `int`, the result is positive and is the largest number of elements
per thread that fits, times the number of threads. -/
theorem C32_chunk_size_partial (sizeofElement threads mib : ℕ) (he : 0 < sizeofElement)
    (he' : sizeofElement ≤ 2 ^ 20) (ht : 0 < threads) (hm : mib < 2 ^ 32) (hm0 : mib ≠ 0)
    (hfit : 2 ^ 20 * mib / sizeofElement * threads < 2 ^ 31) :
    1 ≤ getGlobalReduceChunkSize sizeofElement threads mib ∧
    getGlobalReduceChunkSize sizeofElement threads mib * sizeofElement ≤ mib * 2 ^ 20 * threads ∧
    (mib : ℤ) * 2 ^ 20 * threads <
      (getGlobalReduceChunkSize sizeofElement threads mib + threads) * sizeofElement := by
  have hq : mib ≤ 2 ^ 20 * mib / sizeofElement := by
    rw [Nat.le_div_iff_mul_le he, mul_comm]
    exact Nat.mul_le_mul_right _ he'
  have hq2 : 2 ^ 20 * mib / sizeofElement ≤ 2 ^ 20 * mib / sizeofElement * threads :=
    Nat.le_mul_of_pos_right _ ht
  have hm31 : mib < 2 ^ 31 := by omega
  have e : getGlobalReduceChunkSize sizeofElement threads mib =
      ((2 ^ 20 * mib / sizeofElement * threads : ℕ) : ℤ) := by
    unfold getGlobalReduceChunkSize intMax toInt32
    rw [if_neg (by omega)]
    have h1 : 2 ^ 20 * mib % 2 ^ 64 = 2 ^ 20 * mib := Nat.mod_eq_of_lt (by omega)
    rw [h1, Nat.mod_eq_of_lt (show 2 ^ 20 * mib / sizeofElement * threads < 2 ^ 64 by omega)]
    simp only
    rw [Nat.mod_eq_of_lt (show 2 ^ 20 * mib / sizeofElement * threads < 2 ^ 32 by omega),
      if_pos hfit]
  rw [e]
  have hd1 := Nat.div_mul_le_self (2 ^ 20 * mib) sizeofElement
  have hd2 := Nat.lt_div_mul_add (a := 2 ^ 20 * mib) he
  generalize 2 ^ 20 * mib / sizeofElement = q at *
  refine ⟨by exact_mod_cast (show 1 ≤ q * threads by omega), ?_, ?_⟩
  · have : q * threads * sizeofElement ≤ mib * 2 ^ 20 * threads := by
      calc q * threads * sizeofElement = (q * sizeofElement) * threads := by ring
        _ ≤ (2 ^ 20 * mib) * threads := Nat.mul_le_mul_right _ hd1
        _ = _ := by ring
    exact_mod_cast this
  · have : mib * 2 ^ 20 * threads < (q * threads + threads) * sizeofElement := by
      calc mib * 2 ^ 20 * threads = (2 ^ 20 * mib) * threads := by ring
        _ < (q * sizeofElement + sizeofElement) * threads := Nat.mul_lt_mul_of_pos_right hd2 ht
        _ = _ := by ring
    exact_mod_cast this

/-- The settings that mean "no limit". -/
theorem C32_no_limit_partial (sizeofElement threads mib : ℕ) (h : mib = 0 ∨ 2 ^ 31 ≤ mib) :
    getGlobalReduceChunkSize sizeofElement threads mib = 2 ^ 31 - 1 := by
  unfold getGlobalReduceChunkSize intMax
  rw [if_pos (by omega)]

/-- The default setting of 64 MiB with double precision and 8 threads meets the hypotheses. -/
example : 0 < 8 ∧ 8 ≤ 2 ^ 20 ∧ 0 < 8 ∧ 64 < 2 ^ 32 ∧ 64 ≠ 0 ∧ 2 ^ 20 * 64 / 8 * 8 < 2 ^ 31 ∧
    getGlobalReduceChunkSize 8 8 64 = 67108864 := by
  decide

/-! ### C31: the reduction of a whole sparse grid -/

/-- Consecutive ranges from `a` to `b`. -/
def Tiles : (a b : ℕ) → List (ℕ × ℕ) → Prop
  | a, b, [] => a = b
  | a, b, c :: cs => c.1 = a ∧ Tiles (a + c.2) b cs

theorem reduceCallsFrom_spec (size chunk sent : ℕ) (hc : 0 < chunk) (hs : sent ≤ size) :
    Tiles sent size (reduceCallsFrom size chunk sent) ∧
    (∀ c ∈ reduceCallsFrom size chunk sent, c.2 ≤ chunk ∧ c.1 + c.2 ≤ size) ∧
    (reduceCallsFrom size chunk sent).length = (size - sent) / chunk + 1 := by
  induction h : size - sent using Nat.strong_induction_on generalizing sent with
  | _ n ih =>
    rw [reduceCallsFrom]
    split
    · rename_i hd
      have h1 := Nat.div_pos_iff.1 hd.2
      obtain ⟨i1, i2, i3⟩ := ih (size - (sent + chunk)) (by omega) (sent + chunk) (by omega) rfl
      refine ⟨⟨rfl, i1⟩, ?_, ?_⟩
      · intro c hc'
        rcases List.mem_cons.1 hc' with rfl | hc'
        · exact ⟨le_refl _, by simp only; omega⟩
        · exact i2 c hc'
      · rw [List.length_cons, i3]
        congr 1
        have : n = size - (sent + chunk) + chunk := by omega
        rw [this, Nat.add_div_right _ hc]
    · rename_i hd
      have h0 : n / chunk = 0 := by
        rw [← h]
        by_contra hne
        exact hd ⟨hc, Nat.pos_of_ne_zero hne⟩
      have h1 := (Nat.div_eq_zero_iff_lt hc).1 h0
      refine ⟨⟨rfl, by unfold Tiles; omega⟩, ?_, by simp [h0]⟩
      intro c hc'
      rw [List.mem_singleton] at hc'
      subst hc'
      exact ⟨by simp only; omega, by simp only; omega⟩

theorem toInt32_of_lt {n : ℕ} (h : n < 2 ^ 31) : toInt32 n = n := by
  unfold toInt32
  simp only
  rw [Nat.mod_eq_of_lt (by omega), if_pos h]

/-- C31: the calls of a process partition its buffer in order (every element is in exactly one
call), no call is larger than the chunk size, and there are `size / chunk + 1` of them. They only
depend on the size of the buffer and the chunk size, so that processes with equal sizes make the same
calls. -/
theorem C31_calls (size : ℕ) (chunk : ℕ) (hc : 0 < chunk) (hc' : chunk < 2 ^ 31) :
    ∃ cs : List (ℕ × ℕ), reduceCalls size chunk = some (cs.map fun c => (c.1, (c.2 : ℤ))) ∧
      Tiles 0 size cs ∧ (∀ c ∈ cs, c.2 ≤ chunk) ∧ cs.length = size / chunk + 1 := by
  obtain ⟨h1, h2, h3⟩ := reduceCallsFrom_spec size chunk 0 hc (Nat.zero_le _)
  refine ⟨reduceCallsFrom size chunk 0, ?_, h1, fun c hcs => (h2 c hcs).1, by simpa using h3⟩
  unfold reduceCalls
  rw [if_neg (by omega), if_neg (by omega), Int.toNat_natCast]
  congr 1
  apply List.map_congr_left
  intro c hcs
  rw [toInt32_of_lt (by have := (h2 c hcs).1; omega)]

variable {K : Type} [AddCommMonoid K]

omit [AddCommMonoid K] in
/-- the effect of calls that tile a range; `R k i` is what process `k` makes of the elements `i` -/
theorem tiles_reduce (call : List (Buf K) → ℕ → ℕ → List (Buf K)) (a : ℕ → Prop)
    [DecidablePred a] (R : ℕ → ℕ → List K → K)
    (hcall : ∀ ds o c, call ds o c = ds.zipIdx.map fun p => ⟨p.1.len, fun i =>
      if a p.2 ∧ o ≤ i ∧ i < o + c then R p.2 i (ds.map fun e => e.val i) else p.1.val i⟩)
    (n : ℕ) (cs : List (ℕ × ℕ)) (lo hi : ℕ) (ht : Tiles lo hi cs) (hhi : hi ≤ n)
    (ds : List (Buf K)) (hds : ∀ d ∈ ds, d.len = n) :
    (cs.map fun c => (c.1, (c.2 : ℤ))).foldlM (fun ds (c : ℕ × ℤ) =>
        if 0 ≤ c.2 ∧ ds.all (fun d => c.1 + c.2.toNat ≤ d.len) then some (call ds c.1 c.2.toNat)
        else none) ds = some (call ds lo (hi - lo)) ∧ lo ≤ hi := by
  induction cs generalizing lo ds with
  | nil =>
    have : lo = hi := ht
    subst this
    refine ⟨?_, le_refl _⟩
    simp only [List.map_nil, List.foldlM_nil, Nat.sub_self, hcall]
    congr 1
    have e : ∀ p : Buf K × ℕ, (⟨p.1.len, fun i => if a p.2 ∧ lo ≤ i ∧ i < lo + 0 then
        R p.2 i (ds.map fun e => e.val i) else p.1.val i⟩ : Buf K) = p.1 := by
      intro p
      have : ∀ i, ¬ (a p.2 ∧ lo ≤ i ∧ i < lo + 0) := by intro i; omega
      simp only [this, if_false]
    rw [List.map_congr_left (fun p _ => e p)]
    simp
  | cons c cs ih =>
    obtain ⟨h1, h2⟩ := ht
    have hlen : ∀ d ∈ call ds c.1 c.2, d.len = n := by
      intro d hd
      rw [hcall, List.mem_map] at hd
      obtain ⟨p, hp, rfl⟩ := hd
      exact hds p.1 (List.fst_mem_of_mem_zipIdx hp)
    obtain ⟨i1, i2⟩ := ih (lo + c.2) h2 (call ds c.1 c.2) hlen
    refine ⟨?_, by omega⟩
    rw [List.map_cons, List.foldlM_cons]
    have hall : ds.all (fun d => c.1 + ((c.2 : ℤ)).toNat ≤ d.len) = true := by
      rw [List.all_eq_true]
      intro d hd
      rw [hds d hd]
      simp only [Int.toNat_natCast, decide_eq_true_eq]
      omega
    simp only [hall, and_true]
    rw [if_pos (by omega)]
    simp only [Int.toNat_natCast, Option.bind_eq_bind, Option.bind_some]
    rw [i1]
    congr 1
    rw [h1]
    conv_lhs => rw [hcall]
    conv_rhs => rw [hcall]
    have hz : (call ds lo c.2).zipIdx = ds.zipIdx.map fun p => (⟨p.1.len, fun i =>
        if a p.2 ∧ lo ≤ i ∧ i < lo + c.2 then R p.2 i (ds.map fun e => e.val i) else p.1.val i⟩, p.2) := by
      rw [hcall]
      apply List.ext_getElem
      · simp
      · intro i h1 h2
        simp
    rw [hz, List.map_map]
    apply List.map_congr_left
    intro p hp
    simp only [Function.comp]
    congr 1
    funext i
    by_cases hin : lo ≤ i ∧ i < lo + c.2
    · by_cases hap : a p.2
      · rw [if_neg (by omega), if_pos ⟨hap, hin⟩, if_pos ⟨hap, by omega⟩]
      · rw [if_neg (by tauto), if_neg (by tauto), if_neg (by tauto)]
    · by_cases hap : a p.2 ∧ lo + c.2 ≤ i ∧ i < hi
      · rw [if_pos ⟨hap.1, by omega⟩, if_pos ⟨hap.1, by omega⟩]
        congr 1
        rw [hcall, List.map_map]
        have : (fun p : Buf K × ℕ => p.1.val i) = (fun e : Buf K => e.val i) ∘ Prod.fst := rfl
        rw [show (ds.map fun e => e.val i) = ds.zipIdx.map (fun p => p.1.val i) by
          rw [this, ← List.map_map]; simp]
        apply List.map_congr_left
        intro q _
        simp only [Function.comp]
        rw [if_neg (by tauto)]
      · rw [if_neg (by
            rintro ⟨q1, q2, q3⟩; exact hap ⟨q1, q2, by omega⟩), if_neg (by tauto), if_neg (by
            rintro ⟨q1, q2, q3⟩; exact hap ⟨q1, by omega, by omega⟩)]

theorem sparseGridReduce_eq (call : List (Buf K) → ℕ → ℕ → List (Buf K)) (a : ℕ → Prop)
    [DecidablePred a] (R : ℕ → ℕ → List K → K)
    (hcall : ∀ ds o c, call ds o c = ds.zipIdx.map fun p => ⟨p.1.len, fun i =>
      if a p.2 ∧ o ≤ i ∧ i < o + c then R p.2 i (ds.map fun e => e.val i) else p.1.val i⟩)
    (n chunk : ℕ) (hc : 0 < chunk) (hc' : chunk < 2 ^ 31) (ds : List (Buf K))
    (hds : ∀ d ∈ ds, d.len = n) :
    sparseGridReduce call chunk ds = some (call ds 0 n) := by
  obtain ⟨cs, h1, h2, h3, -⟩ := C31_calls n chunk hc hc'
  have hm : ds.mapM (fun d => reduceCalls d.len chunk) =
      some (ds.map fun _ => cs.map fun c => (c.1, (c.2 : ℤ))) := by
    clear hcall
    induction ds with
    | nil => rfl
    | cons d ds ih =>
      rw [List.mapM_cons, ih fun d hd => hds d (by simp [hd]), hds d (by simp), h1]
      rfl
  unfold sparseGridReduce
  rw [hm]
  simp only [Option.bind_eq_bind, Option.bind_some]
  cases ds with
  | nil => simp [hcall]
  | cons d ds =>
    simp only [List.map_cons]
    rw [if_pos (by simp)]
    have := (tiles_reduce call a R hcall n cs 0 n h2 (le_refl _) (d :: ds) hds).1
    simpa using this

/-- C31, allreduce: for every number of processes with buffers of the same size and every chunk size,
the chunked reduction ends with the elementwise sum on all processes: what one reduction of the whole
buffer yields. -/
theorem C31_allreduce (n chunk : ℕ) (hc : 0 < chunk) (hc' : chunk < 2 ^ 31) (ds : List (Buf K))
    (hds : ∀ d ∈ ds, d.len = n) :
    ∃ rs, sparseGridReduce allreduceCall chunk ds = some rs ∧ rs = allreduceCall ds 0 n ∧
      rs.length = ds.length ∧
      ∀ r ∈ rs, r.len = n ∧ ∀ i < n, r.val i = (ds.map fun d => d.val i).sum := by
  refine ⟨_, sparseGridReduce_eq allreduceCall (fun _ => True) (fun _ _ l => l.sum) ?_ n chunk hc hc' ds hds, rfl, ?_, ?_⟩
  · intro ds o c
    unfold allreduceCall
    apply List.ext_getElem
    · simp
    · intro i h1 h2
      simp
  · simp [allreduceCall]
  · intro r hr
    unfold allreduceCall at hr
    obtain ⟨d, hd, rfl⟩ := List.mem_map.1 hr
    refine ⟨hds d hd, fun i hi => ?_⟩
    simp only
    rw [if_pos (by omega)]

/-- C31, reduce to one process: that process ends with the elementwise sum, the others keep their
data. -/
theorem C31_reduce (root n chunk : ℕ) (hc : 0 < chunk) (hc' : chunk < 2 ^ 31) (ds : List (Buf K))
    (hds : ∀ d ∈ ds, d.len = n) :
    ∃ rs, sparseGridReduce (reduceCall root) chunk ds = some rs ∧ rs = reduceCall root ds 0 n ∧
      rs.length = ds.length ∧
      ∀ k (hk : k < rs.length) (hk' : k < ds.length), rs[k].len = n ∧ ∀ i < n, rs[k].val i =
        if k = root then (ds.map fun d => d.val i).sum else ds[k].val i := by
  refine ⟨_, sparseGridReduce_eq (reduceCall root) (· = root) (fun _ _ l => l.sum) (fun _ _ _ => rfl) n chunk hc hc' ds hds,
    rfl, ?_, ?_⟩
  · simp [reduceCall]
  · intro k hk hk'
    unfold reduceCall
    simp only [List.getElem_map, List.getElem_zipIdx, Nat.zero_add]
    refine ⟨hds _ (List.getElem_mem hk'), fun i hi => ?_⟩
    exact if_congr (by omega) rfl rfl

/-- Buffers of 7 elements on two processes with chunks of 3 elements meet the hypotheses; there are
three calls. -/
example : (∀ d ∈ [(⟨7, fun i => (i : ℚ)⟩ : Buf ℚ), ⟨7, fun i => (i ^ 2 : ℚ)⟩], d.len = 7) ∧
    reduceCalls 7 3 = some [(0, 3), (3, 3), (6, 1)] ∧
    (sparseGridReduce allreduceCall 3 [(⟨7, fun i => (i : ℚ)⟩ : Buf ℚ), ⟨7, fun i => (i ^ 2 : ℚ)⟩]).map
      (fun rs => rs.map fun r => (List.range r.len).map r.val) =
      some [[0, 2, 6, 12, 20, 30, 42], [0, 2, 6, 12, 20, 30, 42]] := by
  refine ⟨by simp, ?_, ?_⟩
  · decide +kernel
  · decide +kernel

/-! ### C33: chunks of subspaces -/

/-- The full statement of C33: for ascending subspaces (as collected by the code) of `uint32_t` sizes,
the chunks are non-empty and their concatenation is the list of subspaces, and a chunk that reaches
the limit consists of a single subspace. -/
def C33_full (maxChunk : ℕ) : Prop :=
  ∀ (size : ℕ → ℕ) (subs : List ℕ), (∀ s ∈ subs, size s < 2 ^ 32) → subs.Pairwise (· < ·) →
    (getChunkedSubspaces size maxChunk subs).flatten = subs ∧
    ∀ c ∈ getChunkedSubspaces size maxChunk subs,
      c ≠ [] ∧ ((c.map size).sum < maxChunk ∨ c.length = 1)

theorem insertSet_append (x : ℕ) (l : List ℕ) (h : ∀ y ∈ l, y < x) : insertSet x l = l ++ [x] := by
  induction l with
  | nil => rfl
  | cons y ys ih =>
    have := h y (by simp)
    rw [insertSet, if_neg (by omega), if_neg (by omega), ih fun z hz => h z (by simp [hz])]
    rfl

theorem chunkLoop_spec (size : ℕ → ℕ) (maxChunk : ℕ) (hmax : maxChunk ≤ 2 ^ 31) (chunk : List ℕ)
    (acc : ℕ) (rest : List ℕ) (hsize : ∀ s ∈ rest, size s < 2 ^ 31) (hacc : acc < 2 ^ 31)
    (hsum : (chunk.map size).sum = acc) (hne : chunk ≠ [])
    (hb : acc < maxChunk ∨ chunk.length = 1)
    (hsort : (chunk ++ rest).Pairwise (· < ·)) :
    (chunkLoop size maxChunk chunk acc rest).1 ++ (chunkLoop size maxChunk chunk acc rest).2 =
      chunk ++ rest ∧
    (chunkLoop size maxChunk chunk acc rest).1 ≠ [] ∧
    ((((chunkLoop size maxChunk chunk acc rest).1).map size).sum < maxChunk ∨
      (chunkLoop size maxChunk chunk acc rest).1.length = 1) := by
  induction rest generalizing chunk acc with
  | nil => exact ⟨rfl, hne, by rw [← hsum] at hb; exact hb⟩
  | cons s ss ih =>
    have hs := hsize s (by simp)
    rw [chunkLoop]
    split
    · rename_i hc
      have hm : (acc + size s) % 2 ^ 32 = acc + size s := Nat.mod_eq_of_lt (by omega)
      rw [hm] at hc ⊢
      have hi : insertSet s chunk = chunk ++ [s] := by
        apply insertSet_append
        intro y hy
        exact (List.pairwise_append.1 hsort).2.2 y hy s (by simp)
      rw [hi]
      have := ih (chunk ++ [s]) (acc + size s) (fun t ht => hsize t (by simp [ht]))
        (by omega) (by simp [hsum]) (by simp) (Or.inl hc.2) (by simpa using hsort)
      simpa using this
    · exact ⟨rfl, hne, by rw [← hsum] at hb; exact hb⟩

/-- C33 for subspaces of less than 2^31 elements: the chunks are non-empty, partition the subspaces
in order, and only single subspaces reach the limit. -/
theorem C33_chunks_partial (size : ℕ → ℕ) (maxChunk : ℕ) (hmax : maxChunk ≤ 2 ^ 31) (subs : List ℕ)
    (hsize : ∀ s ∈ subs, size s < 2 ^ 31) (hsort : subs.Pairwise (· < ·)) :
    (getChunkedSubspaces size maxChunk subs).flatten = subs ∧
    ∀ c ∈ getChunkedSubspaces size maxChunk subs,
      c ≠ [] ∧ ((c.map size).sum < maxChunk ∨ c.length = 1) := by
  induction hn : subs.length using Nat.strong_induction_on generalizing subs with
  | _ n ih =>
    cases subs with
    | nil => simp [getChunkedSubspaces]
    | cons s ss =>
      have hs := hsize s (by simp)
      have hm : size s % 2 ^ 32 = size s := Nat.mod_eq_of_lt (by omega)
      obtain ⟨h1, h2, h3⟩ := chunkLoop_spec size maxChunk hmax [s] (size s) ss
        (fun t ht => hsize t (by simp [ht])) hs (by simp) (by simp) (Or.inr rfl) hsort
      rw [getChunkedSubspaces, hm]
      have hl := chunkLoop_length size maxChunk [s] (size s) ss
      have hsub : (chunkLoop size maxChunk [s] (size s) ss).2.Sublist (s :: ss) := by
        rw [show s :: ss = [s] ++ ss from rfl, ← h1]
        exact List.sublist_append_right _ _
      obtain ⟨i1, i2⟩ := ih _ (by rw [← hn, List.length_cons]; omega)
        (chunkLoop size maxChunk [s] (size s) ss).2 (fun t ht => hsize t (hsub.mem ht))
        (hsort.sublist hsub) rfl
      refine ⟨?_, ?_⟩
      · rw [List.flatten_cons, i1, h1]; rfl
      · intro c hc
        rcases List.mem_cons.1 hc with rfl | hc
        · exact ⟨h2, h3⟩
        · exact i2 c hc

/-- C33 is violated: after a subspace of nearly 2^32 elements the sum of the sizes overflows and the
next subspaces are put into the same chunk. -/
theorem C33_violated : ¬ C33_full (2 ^ 31 - 1) := by
  intro h
  obtain ⟨-, h2⟩ := h (fun s => if s = 0 then 2 ^ 32 - 1 else 5) [0, 1] (by
    intro s _; split <;> norm_num) (by decide)
  have e : getChunkedSubspaces (fun s => if s = 0 then 2 ^ 32 - 1 else 5) (2 ^ 31 - 1) [0, 1] =
      [[0, 1]] := by decide +kernel
  rw [e] at h2
  have := (h2 [0, 1] (by simp)).2
  simp at this

/-- The chunks only depend on the sizes of the subspaces, so that processes with equal sizes make the
same chunks. -/
theorem C33_same_chunks (size size' : ℕ → ℕ) (maxChunk : ℕ) (subs : List ℕ)
    (h : ∀ s ∈ subs, size s = size' s) :
    getChunkedSubspaces size maxChunk subs = getChunkedSubspaces size' maxChunk subs := by
  have key : ∀ rest, (∀ s ∈ rest, size s = size' s) → ∀ chunk acc,
      chunkLoop size maxChunk chunk acc rest = chunkLoop size' maxChunk chunk acc rest ∧
      ∀ s ∈ (chunkLoop size maxChunk chunk acc rest).2, s ∈ rest := by
    intro rest
    induction rest with
    | nil => intro _ chunk acc; simp [chunkLoop]
    | cons s ss ih =>
      intro hr chunk acc
      have hs := hr s (by simp)
      rw [chunkLoop, chunkLoop, ← hs]
      split
      · obtain ⟨i1, i2⟩ := ih (fun t ht => hr t (by simp [ht])) (insertSet s chunk)
          ((acc + size s) % 2 ^ 32)
        exact ⟨i1, fun t ht => by simp [i2 t ht]⟩
      · exact ⟨rfl, fun t ht => ht⟩
  induction hn : subs.length using Nat.strong_induction_on generalizing subs with
  | _ n ih =>
    cases subs with
    | nil => simp [getChunkedSubspaces]
    | cons s ss =>
      have hs := h s (by simp)
      obtain ⟨k1, k2⟩ := key ss (fun t ht => h t (by simp [ht])) [s] (size s % 2 ^ 32)
      have hl := chunkLoop_length size maxChunk [s] (size s % 2 ^ 32) ss
      rw [getChunkedSubspaces, getChunkedSubspaces, ← hs, ← k1]
      congr 1
      refine ih _ (by rw [← hn, List.length_cons]; omega) _ (fun t ht => h t (by simp [k2 t ht])) rfl

/-- A chunk is not split again: `distributedGlobalSubspaceReduce` asserts a single datatype for the
allocated chunk. -/
theorem C33_chunks_stable (size : ℕ → ℕ) (maxChunk : ℕ) (hmax : maxChunk ≤ 2 ^ 31) (subs : List ℕ)
    (hsize : ∀ s ∈ subs, size s < 2 ^ 31) (hsort : subs.Pairwise (· < ·)) :
    ∀ c ∈ getChunkedSubspaces size maxChunk subs, getChunkedSubspaces size maxChunk c = [c] := by
  have key : ∀ rest chunk acc, acc < 2 ^ 31 → (∀ s ∈ rest, size s < 2 ^ 31) →
      (chunk ++ rest).Pairwise (· < ·) →
      ∃ t, (chunkLoop size maxChunk chunk acc rest).1 = chunk ++ t ∧
        (∀ chunk', (chunk' ++ t).Pairwise (· < ·) →
          chunkLoop size maxChunk chunk' acc t = (chunk' ++ t, [])) := by
    intro rest
    induction rest with
    | nil => intro chunk acc _ _ _; exact ⟨[], by simp [chunkLoop], by simp [chunkLoop]⟩
    | cons s ss ih =>
      intro chunk acc hacc hr hsort
      have hs := hr s (by simp)
      rw [chunkLoop]
      split
      · rename_i hc
        have hm : (acc + size s) % 2 ^ 32 = acc + size s := Nat.mod_eq_of_lt (by omega)
        rw [hm] at hc ⊢
        have hi : insertSet s chunk = chunk ++ [s] := insertSet_append _ _ fun y hy =>
          (List.pairwise_append.1 hsort).2.2 y hy s (by simp)
        rw [hi]
        obtain ⟨t, t1, t2⟩ := ih (chunk ++ [s]) (acc + size s) (by omega)
          (fun t ht => hr t (by simp [ht])) (by simpa using hsort)
        refine ⟨s :: t, by simpa using t1, ?_⟩
        intro chunk' hsort'
        rw [chunkLoop, hm, if_pos hc, insertSet_append _ _ fun y hy =>
          (List.pairwise_append.1 hsort').2.2 y hy s (by simp), t2 _ (by simpa using hsort')]
        simp
      · exact ⟨[], by simp, by simp [chunkLoop]⟩
  induction hn : subs.length using Nat.strong_induction_on generalizing subs with
  | _ n ih =>
    cases subs with
    | nil => intro c hc; rw [getChunkedSubspaces] at hc; simp at hc
    | cons s ss =>
      have hs := hsize s (by simp)
      have hm : size s % 2 ^ 32 = size s := Nat.mod_eq_of_lt (by omega)
      have hss : ∀ t ∈ ss, size t < 2 ^ 31 := fun t ht => hsize t (by simp [ht])
      obtain ⟨t, t1, t2⟩ := key ss [s] (size s) hs hss hsort
      obtain ⟨h1, -, -⟩ := chunkLoop_spec size maxChunk hmax [s] (size s) ss hss hs (by simp)
        (by simp) (Or.inr rfl) hsort
      have hl := chunkLoop_length size maxChunk [s] (size s) ss
      have hsub : (chunkLoop size maxChunk [s] (size s) ss).2.Sublist (s :: ss) := by
        rw [show s :: ss = [s] ++ ss from rfl, ← h1]
        exact List.sublist_append_right _ _
      have hsub1 : (chunkLoop size maxChunk [s] (size s) ss).1.Sublist (s :: ss) := by
        rw [show s :: ss = [s] ++ ss from rfl, ← h1]
        exact List.sublist_append_left _ _
      rw [getChunkedSubspaces, hm]
      intro c hc
      rcases List.mem_cons.1 hc with rfl | hc
      · rw [t1] at hsub1 ⊢
        rw [List.singleton_append, getChunkedSubspaces, hm, t2 [s] (hsort.sublist hsub1)]
        simp [getChunkedSubspaces]
      · exact ih _ (by rw [← hn, List.length_cons]; omega) _ (fun t ht => hsize t (hsub.mem ht))
          (hsort.sublist hsub) rfl c hc

/-- A list of subspaces with one of size zero and one larger than the limit. -/
example : (∀ s ∈ [0, 1, 2, 4, 7, 8], ([3, 4, 0, 9, 20, 0, 0, 2, 3].getD s 0) < 2 ^ 31) ∧
    [0, 1, 2, 4, 7, 8].Pairwise (· < ·) ∧
    getChunkedSubspaces (fun s => [3, 4, 0, 9, 20, 0, 0, 2, 3].getD s 0) 10 [0, 1, 2, 4, 7, 8] =
      [[0, 1], [2], [4], [7, 8]] := by
  decide +kernel

end Verif

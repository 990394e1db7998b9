import Verif.Model.MPISystem
import Mathlib.Data.List.GetD
import Mathlib.Tactic.Ring
import Mathlib.Tactic.Linarith

/-!
# C38, C39: output ranks and communicators
-/

namespace Verif

/-! ### Helper lemmas -/

theorem commSplit_sorted (size : ℕ) (color : ℕ → Option ℕ) (key : ℕ → ℤ) (r : ℕ)
    (hc : (color r).isNone = false)
    (hk : ∀ s t, s < t → t < size → color s = color r → color t = color r → key s < key t) :
    commSplit size color key r = some ((List.range size).filter fun s => color s == color r) := by
  unfold commSplit
  rw [if_neg (by simp [hc])]
  congr 1
  apply List.Pairwise.insertionSort_eq
  have h1 : ((List.range size).filter fun s => color s == color r).Pairwise (· < ·) :=
    List.Pairwise.filter _ List.pairwise_lt_range
  refine List.Pairwise.imp_of_mem ?_ h1
  intro s t hs ht hst
  simp only [List.mem_filter, List.mem_range, beq_iff_eq] at hs ht
  exact .inl (hk s t hst ht.1 hs.2 ht.2)

theorem not_manager {ng np w : ℕ} {m : Bool} (hw : w < ng * np) :
    some w ≠ managerRankWorld ng np m := by
  unfold managerRankWorld worldSize
  cases m <;> simp
  omega

theorem localComm_eq (ng np : ℕ) (m : Bool) (w : ℕ) (hw : w < ng * np) :
    initLocalComm ng np m w =
      some ((List.range (worldSize ng np m)).filter fun s => s / np == w / np) := by
  unfold initLocalComm
  simp only
  rw [if_neg (not_manager hw), commSplit_sorted _ _ _ _ rfl]
  · congr 1
  · intro s t hst _ hs ht
    simp only [Option.some.injEq] at hs ht
    rw [hs, ht]
    omega

theorem reduceComm_eq (ng np : ℕ) (m : Bool) (w : ℕ) (hw : w < ng * np) :
    initGlobalReduceComm ng np m w =
      some ((List.range (ng * np)).filter fun s => s % np == w % np) := by
  have hnp : 0 < np := by
    rcases Nat.eq_zero_or_pos np with h | h
    · subst h; simp at hw
    · exact h
  unfold initGlobalReduceComm
  rw [commSplit_sorted]
  · congr 1
    have hr : worldSize ng np m = ng * np + (if m then 1 else 0) := rfl
    simp only [if_neg (not_manager hw)]
    cases m with
    | false =>
      simp [worldSize, managerRankWorld]
    | true =>
      rw [hr, if_pos rfl, List.range_succ, List.filter_append]
      have h2 : List.filter (fun s => (if some s = managerRankWorld ng np true then none
          else some (s % np)) == some (w % np)) [ng * np] = [] := by
        simp [managerRankWorld, worldSize]
      rw [h2, List.append_nil]
      apply List.filter_congr
      intro s hs
      rw [if_neg (not_manager (by simpa using hs))]
      simp
  · rw [if_neg (not_manager hw)]; rfl
  · intro s t hst ht hs' ht'
    rw [if_neg (not_manager hw)] at hs' ht'
    have hs1 : ¬ some s = managerRankWorld ng np m := by
      intro h; rw [if_pos h] at hs'; simp at hs'
    have ht1 : ¬ some t = managerRankWorld ng np m := by
      intro h; rw [if_pos h] at ht'; simp at ht'
    rw [if_neg hs1] at hs' ⊢
    rw [if_neg ht1] at ht' ⊢
    simp only [Option.some.injEq] at hs' ht'
    have h1 := Nat.div_add_mod s np
    have h2 := Nat.div_add_mod t np
    by_contra hcon
    have h3 : t / np ≤ s / np := by omega
    have h4 : np * (t / np) ≤ np * (s / np) := Nat.mul_le_mul_left _ h3
    omega

theorem idxOf_filter_range (size : ℕ) (P : ℕ → Bool) (w : ℕ) (hw : w < size) (hP : P w = true) :
    ((List.range size).filter P).idxOf w = ((List.range w).filter P).length := by
  obtain ⟨k, rfl⟩ := Nat.exists_eq_add_of_lt hw
  rw [Nat.add_assoc, List.range_add, List.filter_append, Nat.add_comm k 1, List.range_add]
  rw [List.idxOf_append_of_notMem (by simp)]
  simp only [List.range_one, List.map_cons, Nat.add_zero,
    List.cons_append, List.nil_append, List.filter_cons, hP, if_true]
  simp

theorem filter_mod_length (np p : ℕ) (hp : p < np) (n : ℕ) :
    ((List.range (n * np + p)).filter fun s => s % np == p).length = n := by
  induction n with
  | zero =>
    rw [List.length_eq_zero_iff, List.filter_eq_nil_iff]
    intro s hs
    simp only [Nat.zero_mul, Nat.zero_add, List.mem_range] at hs
    rw [Nat.mod_eq_of_lt (by omega)]
    simp; omega
  | succ n ih =>
    have e : (n + 1) * np + p = n * np + p + np := by ring
    rw [e, List.range_add, List.filter_append, List.length_append, ih]
    congr 1
    obtain ⟨k, rfl⟩ := Nat.exists_eq_add_of_lt (Nat.lt_of_le_of_lt (Nat.zero_le p) hp)
    rw [Nat.zero_add, Nat.add_comm k 1, List.range_add]
    simp only [List.range_one, List.map_cons, Nat.add_zero,
      List.cons_append, List.nil_append, List.filter_cons]
    rw [if_pos]
    · rw [List.length_cons, List.length_eq_zero_iff.2]
      rw [List.filter_eq_nil_iff]
      intro s hs
      simp only [List.mem_map, List.mem_range] at hs
      obtain ⟨_, ⟨i, hi, rfl⟩, rfl⟩ := hs
      intro h
      have h' : (n * (1 + k) + p + (1 + i)) % (1 + k) = p := by simpa using h
      have h2 : (n * (1 + k) + p + (1 + i)) % (1 + k) = (p + (1 + i)) % (1 + k) := by
        rw [Nat.add_assoc, Nat.mul_comm, Nat.mul_add_mod]
      rw [h2] at h'
      rcases Nat.lt_or_ge (p + (1 + i)) (1 + k) with h3 | h3
      · rw [Nat.mod_eq_of_lt h3] at h'; omega
      · rw [Nat.mod_eq_sub_mod h3, Nat.mod_eq_of_lt (by omega)] at h'; omega
    · have h2 : (n * (1 + k) + p) % (1 + k) = p := by
        rw [Nat.mul_comm, Nat.mul_add_mod, Nat.mod_eq_of_lt (by omega)]
      simp [h2]

theorem filter_div_length (np g q : ℕ) (hq : q < np) :
    ((List.range (g * np + q)).filter fun s => s / np == g).length = q := by
  rw [List.range_add, List.filter_append, List.length_append]
  have h1 : (List.range (g * np)).filter (fun s => s / np == g) = [] := by
    rw [List.filter_eq_nil_iff]
    intro s hs
    have hs' : s < g * np := by simpa using hs
    have : s / np < g := by
      rw [Nat.div_lt_iff_lt_mul (by omega)]; exact hs'
    simp; omega
  have h2 : List.filter (fun s => s / np == g) (List.map (fun x => g * np + x) (List.range q)) =
      List.map (fun x => g * np + x) (List.range q) := by
    rw [List.filter_eq_self]
    intro s hs
    simp only [List.mem_map, List.mem_range] at hs
    obtain ⟨i, hi, rfl⟩ := hs
    have : (g * np + i) / np = g := by
      rw [Nat.mul_comm, Nat.mul_add_div (by omega), Nat.div_eq_of_lt (by omega), Nat.add_zero]
    simp [this]
  rw [h1, h2]
  simp

/-! ### C39 -/

/-- **C39**: for the workers `0, …, ng * np - 1`, the local communicators and the reduce communicators
form a grid.

1. Each worker has a local and a reduce communicator and is in them.
2. It is in no other local or reduce communicator of any worker.
3. Every local and every reduce communicator have exactly one process in common.
4. The rank in the reduce communicator is the number of the group (workers with the same group number
   are those of one local communicator), and the rank in the local communicator is the position in the
   group.
5. The manager (if there is one) has no local and no reduce communicator and is in none. -/
theorem C39_communicators (ng np : ℕ) (withWorldManager : Bool) :
    (∀ w < ng * np, ∃ l g, initLocalComm ng np withWorldManager w = some l ∧
      initGlobalReduceComm ng np withWorldManager w = some g ∧ w ∈ l ∧ w ∈ g ∧
      commRank g w = w / np ∧ commRank l w = w % np ∧ l.length = np ∧ g.length = ng) ∧
    (∀ v < ng * np, ∀ w < ng * np, ∀ l, initLocalComm ng np withWorldManager v = some l → w ∈ l →
      initLocalComm ng np withWorldManager w = some l) ∧
    (∀ v < ng * np, ∀ w < ng * np, ∀ g, initGlobalReduceComm ng np withWorldManager v = some g →
      w ∈ g → initGlobalReduceComm ng np withWorldManager w = some g) ∧
    (∀ v < ng * np, ∀ w < ng * np, ∀ l g, initLocalComm ng np withWorldManager v = some l →
      initGlobalReduceComm ng np withWorldManager w = some g → ∃! x, x ∈ l ∧ x ∈ g) ∧
    (∀ m, managerRankWorld ng np withWorldManager = some m →
      initLocalComm ng np withWorldManager m = none ∧
      initGlobalReduceComm ng np withWorldManager m = none ∧
      ∀ w < ng * np, ∀ l g, initLocalComm ng np withWorldManager w = some l →
        initGlobalReduceComm ng np withWorldManager w = some g → m ∉ l ∧ m ∉ g) := by
  have hpos : ∀ w, w < ng * np → 0 < np := by
    intro w hw
    rcases Nat.eq_zero_or_pos np with h | h
    · subst h; simp at hw
    · exact h
  have hsz : ng * np ≤ worldSize ng np withWorldManager := by unfold worldSize; omega
  have hdiv : ∀ w, w < ng * np → w / np < ng := by
    intro w hw
    rw [Nat.div_lt_iff_lt_mul (hpos w hw)]; exact hw
  have hmemlt : ∀ v w, v < ng * np → w / np = v / np → w < ng * np := by
    intro v w hv h
    have h1 := hdiv v hv
    rw [← h, Nat.div_lt_iff_lt_mul (hpos v hv)] at h1
    exact h1
  refine ⟨?_, ?_, ?_, ?_, ?_⟩
  · intro w hw
    have hnp := hpos w hw
    refine ⟨_, _, localComm_eq ng np _ w hw, reduceComm_eq ng np _ w hw, ?_, ?_, ?_, ?_, ?_, ?_⟩
    · simp only [List.mem_filter, List.mem_range, beq_self_eq_true, and_true]
      omega
    · simp [hw]
    · unfold commRank
      rw [idxOf_filter_range _ _ w hw (by simp)]
      have := filter_mod_length np (w % np) (Nat.mod_lt _ hnp) (w / np)
      rwa [Nat.mul_comm, Nat.div_add_mod] at this
    · unfold commRank
      rw [idxOf_filter_range _ _ w (by omega) (by simp)]
      have := filter_div_length np (w / np) (w % np) (Nat.mod_lt _ hnp)
      rwa [Nat.mul_comm, Nat.div_add_mod] at this
    · have h1 : ((List.range (worldSize ng np withWorldManager)).filter fun s => s / np == w / np) =
          (List.range (w / np * np + np)).filter fun s => s / np == w / np := by
        have hle : w / np * np + np ≤ worldSize ng np withWorldManager := by
          have h2 : (w / np + 1) * np ≤ ng * np := Nat.mul_le_mul_right _ (hdiv w hw)
          have h3 : (w / np + 1) * np = w / np * np + np := by ring
          omega
        obtain ⟨k, hk⟩ := Nat.exists_eq_add_of_le hle
        rw [hk, List.range_add, List.filter_append, List.append_right_eq_self,
          List.filter_eq_nil_iff]
        intro s hs
        simp only [List.mem_map, List.mem_range] at hs
        obtain ⟨i, hi, rfl⟩ := hs
        have : w / np + 1 ≤ (w / np * np + np + i) / np := by
          rw [Nat.le_div_iff_mul_le hnp]; nlinarith
        simp; omega
      rw [h1, List.range_add, List.filter_append, List.length_append]
      have h2 := filter_div_length np (w / np) 0 hnp
      rw [Nat.add_zero] at h2
      rw [h2, List.filter_eq_self.2]
      · simp
      · intro s hs
        simp only [List.mem_map, List.mem_range] at hs
        obtain ⟨i, hi, rfl⟩ := hs
        have : (w / np * np + i) / np = w / np := by
          rw [Nat.mul_comm (w / np), Nat.mul_add_div hnp, Nat.div_eq_of_lt hi, Nat.add_zero]
        simp [this]
    · have h1 := filter_mod_length np (w % np) (Nat.mod_lt _ hnp) ng
      rw [List.range_add, List.filter_append, List.length_append] at h1
      have h2 : List.filter (fun s => s % np == w % np)
          (List.map (fun x => ng * np + x) (List.range (w % np))) = [] := by
        rw [List.filter_eq_nil_iff]
        intro s hs
        simp only [List.mem_map, List.mem_range] at hs
        obtain ⟨i, hi, rfl⟩ := hs
        have hlt := Nat.mod_lt w hnp
        have : (ng * np + i) % np = i := by
          rw [Nat.mul_comm, Nat.mul_add_mod, Nat.mod_eq_of_lt (by omega)]
        simp only [this, beq_iff_eq]
        omega
      rw [h2] at h1
      simpa using h1
  · intro v hv w hw l hl hwl
    rw [localComm_eq ng np _ v hv, Option.some.injEq] at hl
    subst hl
    rw [localComm_eq ng np _ w hw]
    simp only [List.mem_filter, beq_iff_eq] at hwl
    rw [hwl.2]
  · intro v hv w hw g hg hwg
    rw [reduceComm_eq ng np _ v hv, Option.some.injEq] at hg
    subst hg
    rw [reduceComm_eq ng np _ w hw]
    simp only [List.mem_filter, beq_iff_eq] at hwg
    rw [hwg.2]
  · intro v hv w hw l g hl hg
    have hnp := hpos v hv
    rw [localComm_eq ng np _ v hv, Option.some.injEq] at hl
    rw [reduceComm_eq ng np _ w hw, Option.some.injEq] at hg
    subst hl hg
    have hx1 : (v / np * np + w % np) / np = v / np := by
      rw [Nat.mul_comm (v / np), Nat.mul_add_div hnp, Nat.div_eq_of_lt (Nat.mod_lt _ hnp),
        Nat.add_zero]
    have hx2 : (v / np * np + w % np) % np = w % np := by
      rw [Nat.mul_comm (v / np), Nat.mul_add_mod, Nat.mod_mod]
    have hx3 := hmemlt v _ hv hx1
    refine ⟨v / np * np + w % np, ⟨?_, ?_⟩, ?_⟩
    · simp only [List.mem_filter, List.mem_range, beq_iff_eq]
      exact ⟨by omega, hx1⟩
    · simp only [List.mem_filter, List.mem_range, beq_iff_eq]
      exact ⟨hx3, hx2⟩
    · rintro x ⟨h1, h2⟩
      simp only [List.mem_filter, List.mem_range, beq_iff_eq] at h1 h2
      rw [← h1.2, ← h2.2, Nat.mul_comm]
      exact (Nat.div_add_mod x np).symm
  · intro m hm
    have hm' : m = ng * np := by
      unfold managerRankWorld worldSize at hm
      cases withWorldManager <;> simp at hm
      omega
    refine ⟨?_, ?_, ?_⟩
    · unfold initLocalComm
      simp [hm]
    · unfold initGlobalReduceComm commSplit
      simp [hm]
    · intro w hw l g hl hg
      rw [localComm_eq ng np _ w hw, Option.some.injEq] at hl
      rw [reduceComm_eq ng np _ w hw, Option.some.injEq] at hg
      subst hl hg
      constructor
      · intro h
        simp only [List.mem_filter, List.mem_range, beq_iff_eq] at h
        have := hmemlt w m hw h.2
        omega
      · intro h
        simp only [List.mem_filter, List.mem_range] at h
        omega

example : initLocalComm 2 3 true 4 = some [3, 4, 5] ∧ initGlobalReduceComm 2 3 true 4 = some [1, 4] ∧
    initGlobalComm 2 3 true 3 = some [0, 3, 6] := by decide

/-- The communicator of the masters and the manager: it contains exactly the first process of each
group, with the number of the group as rank, and, if there is one, the manager with the last rank. -/
theorem C39_masters (ng np : ℕ) (hnp : 0 < np) (withWorldManager : Bool) :
    (∀ r < worldSize ng np withWorldManager,
      (initGlobalComm ng np withWorldManager r).isSome ↔
        (some r = managerRankWorld ng np withWorldManager ∨ r < ng * np ∧ r % np = 0)) ∧
    (∀ r comm, initGlobalComm ng np withWorldManager r = some comm →
      ∀ g < ng, commRank comm (g * np) = g) ∧
    (∀ r comm, initGlobalComm ng np withWorldManager r = some comm →
      ∀ m, managerRankWorld ng np withWorldManager = some m → commRank comm m = ng) := by
  have hman : ∀ m, managerRankWorld ng np withWorldManager = some m → m = ng * np := by
    intro m hm
    unfold managerRankWorld worldSize at hm
    cases withWorldManager <;> simp at hm
    omega
  have hidx : ∀ k g, g < k → ((List.range k).map (fun i => i * np)).idxOf (g * np) = g := by
    intro k g hg
    obtain ⟨j, rfl⟩ := Nat.exists_eq_add_of_lt hg
    rw [Nat.add_assoc, List.range_add, List.map_append, List.idxOf_append_of_notMem]
    · rw [Nat.add_comm j 1, List.range_add]
      simp
    · simp only [List.mem_map, List.mem_range, not_exists, not_and]
      intro x hx he
      have := Nat.eq_of_mul_eq_mul_right hnp he
      omega
  refine ⟨?_, ?_, ?_⟩
  · intro r hr
    unfold initGlobalComm commCreate
    constructor
    · intro h
      split at h
      · next hmem =>
        rw [List.mem_append] at hmem
        rcases hmem with hmem | hmem
        · simp only [List.mem_map, List.mem_range] at hmem
          obtain ⟨i, hi, rfl⟩ := hmem
          exact .inr ⟨(Nat.mul_lt_mul_right hnp).2 hi, Nat.mul_mod_left ..⟩
        · left
          simpa [eq_comm] using hmem
      · simp at h
    · intro h
      rw [if_pos]
      · rfl
      · rw [List.mem_append]
        rcases h with h | ⟨h1, h2⟩
        · right; rw [← h]; simp
        · left
          simp only [List.mem_map, List.mem_range]
          refine ⟨r / np, (Nat.div_lt_iff_lt_mul hnp).2 h1, ?_⟩
          have := Nat.div_add_mod r np
          rw [h2, Nat.add_zero, Nat.mul_comm] at this
          exact this
  · intro r comm hc g hg
    unfold initGlobalComm commCreate at hc
    split at hc
    · rw [← Option.some.inj hc]
      unfold commRank
      rw [List.idxOf_append_of_mem (by simp only [List.mem_map, List.mem_range]; exact ⟨g, hg, rfl⟩)]
      exact hidx ng g hg
    · simp at hc
  · intro r comm hc m hm
    unfold initGlobalComm commCreate at hc
    split at hc
    · rw [← Option.some.inj hc, hm]
      unfold commRank
      rw [List.idxOf_append_of_notMem]
      · simp
      · simp only [List.mem_map, List.mem_range, not_exists, not_and]
        intro x hx he
        rw [hman m hm] at he
        have := Nat.eq_of_mul_eq_mul_right hnp he
        omega
    · simp at hc

/-- The communicators for the exchange with other systems: a worker has exactly one, of the processes of
its group in their order and then the manager; the manager has those of all groups in order. -/
theorem C39_third_level (ng np : ℕ) :
    (∀ w < ng * np, initThirdLevelComms ng np w =
      [(List.range np).map (fun p => w / np * np + p) ++ [ng * np]]) ∧
    initThirdLevelComms ng np (ng * np) =
      (List.range ng).map fun g => (List.range np).map (fun p => g * np + p) ++ [ng * np] := by
  have hm : (managerRankWorld ng np true).toList = [ng * np] := by
    simp [managerRankWorld, worldSize]
  constructor
  · intro w hw
    have hnp : 0 < np := by
      rcases Nat.eq_zero_or_pos np with h | h
      · subst h; simp at hw
      · exact h
    have hg : w / np < ng := (Nat.div_lt_iff_lt_mul hnp).2 hw
    have hmem : ∀ g, w ∈ (List.range np).map (fun p => g * np + p) ++ [ng * np] ↔ g = w / np := by
      intro g
      simp only [List.mem_append, List.mem_map, List.mem_range, List.mem_singleton]
      constructor
      · rintro (⟨p, hp, rfl⟩ | h)
        · rw [Nat.mul_comm, Nat.mul_add_div hnp, Nat.div_eq_of_lt hp, Nat.add_zero]
        · omega
      · rintro rfl
        refine .inl ⟨w % np, Nat.mod_lt _ hnp, ?_⟩
        have := Nat.div_add_mod w np
        rw [Nat.mul_comm] at this
        exact this
    unfold initThirdLevelComms commCreate
    simp only [hm, hmem]
    obtain ⟨k, hk⟩ := Nat.exists_eq_add_of_lt hg
    rw [hk, Nat.add_assoc, List.range_add, List.filterMap_append, Nat.add_comm k 1, List.range_add]
    rw [List.filterMap_eq_nil_iff.2 (by
      intro a ha; rw [if_neg]; simp only [List.mem_range] at ha; omega)]
    simp only [List.range_one, List.cons_append, List.nil_append, List.map_cons, Nat.add_zero,
      List.filterMap_cons, if_true, List.cons.injEq, true_and]
    rw [List.filterMap_eq_nil_iff]
    intro a ha
    simp only [List.mem_map, List.mem_range] at ha
    obtain ⟨_, ⟨i, hi, rfl⟩, rfl⟩ := ha
    rw [if_neg (by omega)]
  · unfold initThirdLevelComms commCreate
    rw [hm, ← List.filterMap_eq_map]
    apply List.filterMap_congr
    intro g _
    simp

/-! ### C38 -/

theorem diagonalInner_eq (ng np d : ℕ) (hd : d * ng ≤ np) :
    ∀ (k s : ℕ), s + k = ng → d * ng + s < np →
      diagonalInner ng np d (List.range' s k)
        ((List.range (d * ng + s)).map fun i => i % ng * np + i) =
        ((List.range (min np (d * ng + ng))).map (fun i => i % ng * np + i),
          decide (np ≤ d * ng + ng ∧ 0 < k)) := by
  intro k
  induction k with
  | zero =>
    intro s hs h
    have : d * ng + s = min np (d * ng + ng) := by omega
    simp only [List.range'_zero, diagonalInner, ← this]
    simp
  | succ k ih =>
    intro s hs h
    have hmod : (d * ng + s) % ng = s := by
      rw [Nat.mul_comm, Nat.mul_add_mod, Nat.mod_eq_of_lt (by omega)]
    have happ : ((List.range (d * ng + s)).map fun i => i % ng * np + i) ++
        [(np + 1) * s + d * ng] = (List.range (d * ng + (s + 1))).map fun i => i % ng * np + i := by
      rw [← Nat.add_assoc, List.range_succ, List.map_append]
      simp only [List.map_cons, List.map_nil, hmod]
      congr 2
      ring
    simp only [List.range'_succ, diagonalInner]
    rw [happ]
    simp only [List.length_map, List.length_range]
    split
    · next heq =>
      have h1 : min np (d * ng + ng) = d * ng + (s + 1) := by omega
      rw [h1]
      simp only [Prod.mk.injEq, true_and]
      symm
      simp only [decide_eq_true_eq]
      omega
    · next hne =>
      rcases Nat.eq_zero_or_pos k with hk | hk
      · subst hk
        simp only [List.range'_zero, diagonalInner, Prod.mk.injEq]
        have : s + 1 = ng := by omega
        subst this
        constructor
        · congr 2; omega
        · symm; simp only [decide_eq_false_iff_not]; omega
      · rw [ih (s + 1) (by omega) (by omega)]
        simp [hk]

theorem diagonalOuter_eq (ng np : ℕ) (hng : 0 < ng) :
    ∀ (k d : ℕ), d + k = np / ng + 1 → d * ng < np →
      diagonalOuter ng np (List.range' d k)
        ((List.range (d * ng)).map fun i => i % ng * np + i) =
        (List.range np).map fun i => i % ng * np + i := by
  intro k
  induction k with
  | zero =>
    intro d hd h
    exfalso
    have : np < (np / ng + 1) * ng := by
      have h1 := Nat.div_add_mod np ng
      have h2 := Nat.mod_lt np hng
      have h3 : (np / ng + 1) * ng = ng * (np / ng) + ng := by ring
      omega
    rw [show d = np / ng + 1 by omega] at h
    omega
  | succ k ih =>
    intro d hd h
    simp only [List.range'_succ, diagonalOuter]
    have hin := diagonalInner_eq ng np d (by omega) ng 0 (by omega) (by omega)
    rw [Nat.add_zero, ← List.range_eq_range'] at hin
    rw [hin]
    simp only [decide_eq_true_eq]
    split
    · next hle =>
      rw [Nat.min_eq_left hle.1]
    · next hle =>
      have hlt : d * ng + ng < np := by omega
      rw [Nat.min_eq_right (by omega)]
      have e : d * ng + ng = (d + 1) * ng := by ring
      rw [e]
      exact ih (d + 1) (by omega) (by rw [← e]; exact hlt)

theorem getDiagonalRanks_eq (ng np : ℕ) (hng : 0 < ng) (hnp : 0 < np) :
    getDiagonalRanks np ng = (List.range np).map fun i => i % ng * np + i := by
  unfold getDiagonalRanks
  have := diagonalOuter_eq ng np hng (np / ng + 1) 0 (by omega) (by omega)
  simpa [List.range_eq_range'] using this

/-- **C38**, output group: the list of the output ranks has one entry per position inside of a process
group; the entry `k` is a worker at position `k` of its group, and its group is `k` modulo the number
of groups. So exactly the processes of the list are in the output group, and process `k` of the output
group is at position `k`. -/
theorem C38_output_group (ng np : ℕ) (hng : 0 < ng) (hnp : 0 < np) :
    (getDiagonalRanks np ng).length = np ∧
    (∀ k, ∀ h : k < (getDiagonalRanks np ng).length, (getDiagonalRanks np ng)[k] < ng * np ∧
      (getDiagonalRanks np ng)[k] % np = k ∧ (getDiagonalRanks np ng)[k] / np = k % ng) ∧
    ∀ r, (r ∈ getDiagonalRanks np ng → initOutputGroupComm ng np r = some (getDiagonalRanks np ng) ∧
        commRank (getDiagonalRanks np ng) r = r % np) ∧
      (r ∉ getDiagonalRanks np ng → initOutputGroupComm ng np r = none) := by
  have helem : ∀ k, ∀ h : k < (getDiagonalRanks np ng).length,
      (getDiagonalRanks np ng)[k] = k % ng * np + k := by
    intro k h
    simp only [getDiagonalRanks_eq ng np hng hnp, List.getElem_map, List.getElem_range]
  have hlen : (getDiagonalRanks np ng).length = np := by
    rw [getDiagonalRanks_eq ng np hng hnp]; simp
  have hmod : ∀ k, k < np → (k % ng * np + k) % np = k := by
    intro k hk
    rw [Nat.mul_comm, Nat.mul_add_mod, Nat.mod_eq_of_lt hk]
  refine ⟨hlen, ?_, ?_⟩
  · intro k h
    rw [helem k h]
    have hk : k < np := by omega
    refine ⟨?_, hmod k hk, ?_⟩
    · have h1 : k % ng + 1 ≤ ng := Nat.mod_lt _ hng
      have h2 : (k % ng + 1) * np ≤ ng * np := Nat.mul_le_mul_right _ h1
      have h3 : (k % ng + 1) * np = k % ng * np + np := by ring
      omega
    · rw [Nat.mul_comm, Nat.mul_add_div hnp, Nat.div_eq_of_lt hk, Nat.add_zero]
  · intro r
    constructor
    · intro hr
      refine ⟨by unfold initOutputGroupComm commCreate; rw [if_pos hr], ?_⟩
      obtain ⟨k, hk, rfl⟩ := List.getElem_of_mem hr
      have hnd : (getDiagonalRanks np ng).Nodup := by
        rw [getDiagonalRanks_eq ng np hng hnp]
        refine List.Nodup.map_on ?_ List.nodup_range
        intro x hx y hy hxy
        have h1 := hmod x (by simpa using hx)
        have h2 := hmod y (by simpa using hy)
        rw [hxy, h2] at h1
        exact h1.symm
      unfold commRank
      rw [List.Nodup.idxOf_getElem hnd, helem k hk, hmod k (by omega)]
    · intro hr
      unfold initOutputGroupComm commCreate
      rw [if_neg hr]

example : getDiagonalRanks 5 2 = [0, 6, 2, 8, 4] := by decide

/-- **C38**, file parts, if the number of parts divides the number of processes of a group: the
process `r` of the output group is in the communicator of the `np / parts` consecutive processes of
its part, with its place among them as rank, the part number is the same on all its processes, and
the part numbers are those below `parts`. The property for other numbers of parts is refuted by
`C38_violated`. -/
theorem C38_file_parts_partial (np parts : ℕ) (hp : 0 < parts) (hdvd : parts ∣ np) (hnp : 0 < np) :
    ∀ r < np, ∃ comm n, initOutputComm np parts r = .ok (some comm) ∧
      getFilePartNumber comm r = n ∧ n < parts ∧
      comm = (List.range (np / parts)).map (fun i => n * (np / parts) + i) ∧ r ∈ comm ∧
      ∀ s ∈ comm, initOutputComm np parts s = .ok (some comm) ∧ getFilePartNumber comm s = n := by
  obtain ⟨c, rfl⟩ := hdvd
  have hc : 0 < c := Nat.pos_of_mul_pos_left hnp
  have hdiv : parts * c / parts = c := Nat.mul_div_cancel_left c hp
  have key : ∀ r < parts * c, initOutputComm (parts * c) parts r =
      .ok (some ((List.range c).map fun i => r / c * c + i)) := by
    intro r hr
    have hrc : r / c < parts := by rw [Nat.div_lt_iff_lt_mul hc]; exact hr
    unfold initOutputComm
    split
    · next h1 =>
      subst h1
      rw [Nat.one_mul] at hr ⊢
      rw [Nat.div_eq_of_lt hr]
      simp
    · rw [hdiv, if_neg (by omega), commSplit_sorted _ _ _ _ rfl]
      · congr 2
        have hle : r / c * c + c ≤ parts * c := by
          have h2 : (r / c + 1) * c ≤ parts * c := Nat.mul_le_mul_right _ hrc
          have h3 : (r / c + 1) * c = r / c * c + c := by ring
          omega
        obtain ⟨k, hk⟩ := Nat.exists_eq_add_of_le hle
        rw [hk, List.range_add, List.filter_append, List.range_add, List.filter_append]
        have h1 : List.filter (fun s => some (s / c) == some (r / c)) (List.range (r / c * c)) =
            [] := by
          rw [List.filter_eq_nil_iff]
          intro s hs
          have : s / c < r / c := by
            rw [Nat.div_lt_iff_lt_mul hc]; simpa using hs
          simp; omega
        have h2 : List.filter (fun s => some (s / c) == some (r / c))
            (List.map (fun x => r / c * c + x) (List.range c)) =
            List.map (fun x => r / c * c + x) (List.range c) := by
          rw [List.filter_eq_self]
          intro s hs
          simp only [List.mem_map, List.mem_range] at hs
          obtain ⟨i, hi, rfl⟩ := hs
          have : (r / c * c + i) / c = r / c := by
            rw [Nat.mul_comm (r / c), Nat.mul_add_div hc, Nat.div_eq_of_lt hi, Nat.add_zero]
          simp [this]
        have h3 : List.filter (fun s => some (s / c) == some (r / c))
            (List.map (fun x => r / c * c + c + x) (List.range k)) = [] := by
          rw [List.filter_eq_nil_iff]
          intro s hs
          simp only [List.mem_map, List.mem_range] at hs
          obtain ⟨i, hi, rfl⟩ := hs
          have : r / c + 1 ≤ (r / c * c + c + i) / c := by
            rw [Nat.le_div_iff_mul_le hc]; nlinarith
          simp; omega
        rw [h1, h2, h3]
        simp
      · intro s t hst _ hs ht
        simp only [Option.some.injEq] at hs ht
        have h1 := Nat.div_add_mod s c
        have h2 := Nat.div_add_mod t c
        rw [hs] at h1
        rw [ht] at h2
        omega
  intro r hr
  have hrc : r / c < parts := by rw [Nat.div_lt_iff_lt_mul hc]; exact hr
  refine ⟨_, r / c, key r hr, by simp [getFilePartNumber], hrc, by rw [hdiv], ?_, ?_⟩
  · simp only [List.mem_map, List.mem_range]
    refine ⟨r % c, Nat.mod_lt _ hc, ?_⟩
    have := Nat.div_add_mod r c
    rw [Nat.mul_comm] at this
    exact this
  · intro s hs
    simp only [List.mem_map, List.mem_range] at hs
    obtain ⟨i, hi, rfl⟩ := hs
    have h1 : (r / c * c + i) / c = r / c := by
      rw [Nat.mul_comm (r / c), Nat.mul_add_div hc, Nat.div_eq_of_lt hi, Nat.add_zero]
    have h2 : r / c * c + i < parts * c := by
      have h2 : (r / c + 1) * c ≤ parts * c := Nat.mul_le_mul_right _ hrc
      have h3 : (r / c + 1) * c = r / c * c + c := by ring
      omega
    refine ⟨by rw [key _ h2, h1], ?_⟩
    simp [getFilePartNumber, h1]

example : initOutputComm 6 3 3 = .ok (some [2, 3]) := by decide

/-- With five processes per group and two file parts, there are three parts, and the number of the last
one is 4. With 11 processes and three parts, the processes of the last part do not agree on its number.
With more parts than processes there is a division by zero. -/
theorem C38_violated :
    (¬ ∀ np parts r : ℕ, 0 < parts → parts ≤ np → r < np →
      ∃ comm, initOutputComm np parts r = .ok (some comm) ∧ getFilePartNumber comm r < parts) ∧
    (¬ ∀ np parts r s : ℕ, 0 < parts → parts ≤ np → r < np →
      ∀ comm, initOutputComm np parts r = .ok (some comm) → s ∈ comm →
        getFilePartNumber comm r = getFilePartNumber comm s) ∧
    initOutputComm 2 3 0 = .stuck := by
  refine ⟨?_, ?_, by decide⟩
  · intro h
    obtain ⟨comm, h1, h2⟩ := h 5 2 4 (by decide) (by decide) (by decide)
    have : initOutputComm 5 2 4 = .ok (some [4]) := by decide
    rw [this] at h1
    have h3 : [4] = comm := by simpa using h1
    subst h3
    revert h2
    decide
  · intro h
    have := h 11 3 9 10 (by decide) (by decide) (by decide) [9, 10] (by decide) (by decide)
    revert this
    decide

end Verif

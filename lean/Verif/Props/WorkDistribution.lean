import Verif.Model.CombiScheme
import Mathlib.Algebra.BigOperators.Group.List.Basic
import Mathlib.Algebra.Order.BigOperators.Group.List
import Mathlib.Algebra.Order.Floor.Ring
import Mathlib.Data.Rat.Floor
import Mathlib.Tactic.Linarith
import Mathlib.Tactic.NormNum
import Mathlib.Tactic.Ring
import Mathlib.Data.List.GetD
import Mathlib.Data.Nat.ModEq

/-!
# Properties C08, C09: distribution of component grids over groups and systems
-/

namespace Verif

/-! ### C08: assignment from file -/

/-- C08 (assignment from a scheme file): a group gets exactly the tasks with its number, in
order, so each task goes to exactly one group. -/
theorem C08_assigned (pgNumbers : List ℕ) (group t : ℕ) :
    (t ∈ getAssignedTasks pgNumbers group ↔ pgNumbers[t]? = some group) ∧
      (getAssignedTasks pgNumbers group).Pairwise (· < ·) := by
  unfold getAssignedTasks
  constructor
  · rw [List.mem_filter, List.mem_range]
    constructor
    · rintro ⟨h1, h2⟩
      rw [beq_iff_eq, List.getD_eq_getElem _ _ h1] at h2
      exact List.getElem?_eq_some_iff.2 ⟨h1, h2⟩
    · intro h
      obtain ⟨h1, h2⟩ := List.getElem?_eq_some_iff.1 h
      exact ⟨h1, by rw [beq_iff_eq, List.getD_eq_getElem _ _ h1, h2]⟩
  · exact List.Pairwise.filter _ List.pairwise_lt_range

example : getAssignedTasks [0, 1, 0, 2] 0 = [0, 2] := by decide

/-! ### C08: round robin -/

theorem mem_roundRobinLoop (size G : ℕ) (hG : 1 ≤ G) (fuel s t : ℕ) (hf : size < s + fuel * G) :
    t ∈ roundRobinLoop size G fuel s ↔ t < size ∧ s ≤ t ∧ t % G = s % G := by
  induction fuel generalizing s with
  | zero =>
    simp [roundRobinLoop]
    omega
  | succ fuel ih =>
    unfold roundRobinLoop
    split
    · rename_i h
      rw [List.mem_cons, ih (s + G) (by rw [Nat.add_mul] at hf; omega)]
      constructor
      · rintro (rfl | ⟨h1, h2, h3⟩)
        · exact ⟨h, le_refl _, rfl⟩
        · exact ⟨h1, by omega, by rw [h3, Nat.add_mod_right]⟩
      · rintro ⟨h1, h2, h3⟩
        by_cases hts : t = s
        · exact Or.inl hts
        · refine Or.inr ⟨h1, ?_, by rw [h3, Nat.add_mod_right]⟩
          have h4 : Nat.ModEq G s t := h3.symm
          have h5 := (Nat.modEq_iff_dvd' h2).1 h4
          have := Nat.le_of_dvd (by omega) h5
          omega
    · simp
      omega

theorem roundRobinLoop_sorted (size G : ℕ) (hG : 1 ≤ G) (fuel s : ℕ) :
    (roundRobinLoop size G fuel s).Pairwise (· < ·) ∧ ∀ t ∈ roundRobinLoop size G fuel s, s ≤ t := by
  induction fuel generalizing s with
  | zero => simp [roundRobinLoop]
  | succ fuel ih =>
    unfold roundRobinLoop
    split
    · have := ih (s + G)
      constructor
      · rw [List.pairwise_cons]
        exact ⟨fun t ht => by have := this.2 t ht; omega, this.1⟩
      · intro t ht
        rcases List.mem_cons.1 ht with rfl | ht
        · exact le_refl _
        · have := this.2 t ht
          omega
    · simp

/-- C08 (round robin): group `g` of `G` gets exactly the tasks with number `≡ g mod G`, each
once and in order; hence each task belongs to exactly one group. -/
theorem C08_round_robin (size G g : ℕ) (hg : g < G) :
    (∀ t, t ∈ getRoundRobinTasks size G g ↔ t < size ∧ t % G = g) ∧
      (getRoundRobinTasks size G g).Pairwise (· < ·) := by
  refine ⟨fun t => ?_, (roundRobinLoop_sorted size G (by omega) _ _).1⟩
  unfold getRoundRobinTasks
  rw [mem_roundRobinLoop size G (by omega) _ _ _ (by nlinarith), Nat.mod_eq_of_lt hg]
  constructor
  · rintro ⟨h1, _, h3⟩; exact ⟨h1, h3⟩
  · rintro ⟨h1, h3⟩; exact ⟨h1, by have := Nat.mod_le t G; omega, h3⟩

/-- C08 (round robin): every task of the scheme is assigned to exactly one of the groups. -/
theorem C08_round_robin_unique (size G t : ℕ) (hG : 1 ≤ G) (ht : t < size) :
    ∃! g, g < G ∧ t ∈ getRoundRobinTasks size G g := by
  refine ⟨t % G, ⟨Nat.mod_lt _ (by omega), ?_⟩, ?_⟩
  · rw [(C08_round_robin size G _ (Nat.mod_lt _ (by omega))).1]
    exact ⟨ht, rfl⟩
  · rintro g ⟨hg, hm⟩
    exact (((C08_round_robin size G g hg).1 t).1 hm).2.symm

example : getRoundRobinTasks 7 3 1 = [1, 4] := by decide

/-! ### C08: load balancing -/

theorem minGroupLoop_spec (loads : List ℕ) (gs : List ℕ) (best : Option (ℕ × ℕ))
    (hb : ∀ b, best = some b → b.2 = loads.getD b.1 0) (hne : gs ≠ [] ∨ best ≠ none) :
    ∃ b, minGroupLoop loads gs best = some b ∧ b.2 = loads.getD b.1 0 ∧
      (∀ g ∈ gs, b.2 ≤ loads.getD g 0) ∧ (∀ b', best = some b' → b.2 ≤ b'.2) ∧
      (b.1 ∈ gs ∨ best = some b) := by
  induction gs generalizing best with
  | nil =>
    cases best with
    | none => simp at hne
    | some b => exact ⟨b, rfl, hb b rfl, by simp, by simp, Or.inr rfl⟩
  | cons g gs ih =>
    unfold minGroupLoop
    cases best with
    | none =>
      simp only [if_true]
      obtain ⟨b, h1, h2, h3, h4, h5⟩ := ih (some (g, loads.getD g 0)) (by simp) (Or.inr (by simp))
      refine ⟨b, h1, h2, ?_, by simp, Or.inl ?_⟩
      · intro x hx
        rcases List.mem_cons.1 hx with rfl | hx
        · exact h4 _ rfl
        · exact h3 x hx
      · rcases h5 with h5 | h5
        · simp [h5]
        · simp at h5
          simp [← h5]
    | some b0 =>
      have hb0 := hb b0 rfl
      by_cases hlt : loads.getD g 0 < b0.2
      · simp only [hlt, decide_true, if_true]
        obtain ⟨b, h1, h2, h3, h4, h5⟩ :=
          ih (some (g, loads.getD g 0)) (by simp) (Or.inr (by simp))
        refine ⟨b, h1, h2, ?_, ?_, Or.inl ?_⟩
        · intro x hx
          rcases List.mem_cons.1 hx with rfl | hx
          · exact h4 _ rfl
          · exact h3 x hx
        · intro b' hb'
          have := h4 _ rfl
          simp at hb'
          subst hb'
          simp only at this
          omega
        · rcases h5 with h5 | h5
          · simp [h5]
          · simp at h5
            simp [← h5]
      · simp only [hlt, decide_false, Bool.false_eq_true, if_false]
        obtain ⟨b, h1, h2, h3, h4, h5⟩ := ih (some b0) (by simpa using hb0) (Or.inr (by simp))
        refine ⟨b, h1, h2, ?_, h4, ?_⟩
        · intro x hx
          rcases List.mem_cons.1 hx with rfl | hx
          · have := h4 _ rfl
            omega
          · exact h3 x hx
        · rcases h5 with h5 | h5
          · exact Or.inl (by simp [h5])
          · exact Or.inr h5

theorem minGroup_spec (loads : List ℕ) (h : loads ≠ []) :
    minGroup loads < loads.length ∧ ∀ x ∈ loads, loads.getD (minGroup loads) 0 ≤ x := by
  have hpos : 0 < loads.length := List.length_pos_of_ne_nil h
  obtain ⟨b, h1, h2, h3, -, h5⟩ := minGroupLoop_spec loads (List.range loads.length) none
    (by simp) (Or.inl (by intro hc; rw [List.range_eq_nil] at hc; omega))
  have hm : minGroup loads = b.1 := by simp [minGroup, h1]
  rw [hm]
  constructor
  · simpa using h5
  · intro x hx
    obtain ⟨i, hi, rfl⟩ := List.mem_iff_getElem.1 hx
    have := h3 i (by simpa using hi)
    rw [List.getD_eq_getElem _ _ hi] at this
    omega

theorem card_mul_le_sum (L : List ℕ) (m : ℕ) (h : ∀ x ∈ L, m ≤ x) : L.length * m ≤ L.sum := by
  induction L with
  | nil => simp
  | cons a L ih =>
    have := ih fun x hx => h x (by simp [hx])
    have h2 := h a (by simp)
    simp only [List.length_cons, List.sum_cons]
    nlinarith

theorem sum_set (L : List ℕ) (i d : ℕ) (h : i < L.length) :
    (L.set i (L.getD i 0 + d)).sum = L.sum + d := by
  induction L generalizing i with
  | nil => simp at h
  | cons a L ih =>
    cases i with
    | zero => simp; omega
    | succ i =>
      simp at h
      have := ih i h
      simp only [List.getD_eq_getElem?_getD] at this
      simp [this]
      omega

/-- loads, assignment and bound of the load balancing loop -/
theorem loadBalanceLoop_spec (dof : ℕ → ℕ) (M : ℕ) (tasks : List ℕ) (hM : ∀ t ∈ tasks, dof t ≤ M)
    (loads : List ℕ) (hne : loads ≠ [])
    (hb : ∀ g < loads.length, loads.length * loads.getD g 0 ≤ loads.sum + (loads.length - 1) * M) :
    let r := loadBalanceLoop dof tasks loads
    r.1.length = loads.length ∧ r.1.sum = loads.sum + (tasks.map dof).sum ∧
      (∀ g < loads.length, loads.length * r.1.getD g 0 ≤ r.1.sum + (loads.length - 1) * M) ∧
      (∀ g < loads.length, r.1.getD g 0 = loads.getD g 0 +
        (((r.2.filter (·.2 == g)).map Prod.fst).map dof).sum) ∧
      r.2.map Prod.fst = tasks ∧ ∀ p ∈ r.2, p.2 < loads.length := by
  induction tasks generalizing loads with
  | nil =>
    simp only [loadBalanceLoop]
    exact ⟨trivial, by simp, hb, by simp, by simp, by simp⟩
  | cons t ts ih =>
    obtain ⟨hm1, hm2⟩ := minGroup_spec loads hne
    have hpos : 0 < loads.length := by omega
    set g0 := minGroup loads with hg0
    set loads' := loads.set g0 (loads.getD g0 0 + dof t) with hl'
    have hlen' : loads'.length = loads.length := by simp [hl']
    have hsum' : loads'.sum = loads.sum + dof t := sum_set _ _ _ hm1
    have hget : ∀ g, loads'.getD g 0 = if g = g0 then loads.getD g0 0 + dof t else loads.getD g 0 := by
      intro g
      simp only [hl', List.getD_eq_getElem?_getD, List.getElem?_set]
      by_cases hgg : g = g0
      · subst hgg; simp [hm1]
      · simp [hgg, Ne.symm hgg]
    have hdM := hM t (by simp)
    have := ih (fun x hx => hM x (by simp [hx])) loads' (by
      intro hc; rw [hc] at hlen'; simp at hlen'; omega) (by
      intro g hg
      rw [hlen'] at hg ⊢
      rw [hsum', hget]
      split
      · have h1 := card_mul_le_sum loads _ hm2
        obtain ⟨n, hn⟩ : ∃ n, loads.length = n + 1 := ⟨loads.length - 1, by omega⟩
        rw [hn] at h1 ⊢
        have h2 : n * dof t ≤ n * M := Nat.mul_le_mul_left _ hdM
        simp only [Nat.add_sub_cancel]
        nlinarith
      · have := hb g hg
        omega)
    obtain ⟨a1, a2, a3, a4, a5, a6⟩ := this
    simp only [loadBalanceLoop, ← hg0, ← hl']
    rw [hlen'] at a1 a3 a4 a6
    refine ⟨a1, ?_, a3, ?_, ?_, ?_⟩
    · rw [a2, hsum', List.map_cons, List.sum_cons]; omega
    · intro g hg
      rw [a4 g hg, hget]
      by_cases hgg : g = g0
      · subst hgg
        rw [List.filter_cons_of_pos (by simp)]
        simp
        omega
      · rw [List.filter_cons_of_neg (by simp; exact fun h => hgg h.symm)]
        simp [hgg]
    · simp [a5]
    · intro p hp
      rcases List.mem_cons.1 hp with rfl | hp
      · exact hm1
      · exact a6 p hp

/-- C08 (load balancing): for every order of the tasks in which each of the `size` tasks occurs
once (a result of sorting `0, .., size-1`), every task is assigned to exactly one group, and no
group gets a task twice. -/
theorem C08_load_balanced_unique (dof : ℕ → ℕ) (size G : ℕ) (hG : 1 ≤ G) (order : List ℕ)
    (ho : order.Perm (List.range size)) (t : ℕ) (ht : t < size) :
    (∃! g, g < G ∧ t ∈ getLoadBalancedTasks dof order G g) ∧
      ∀ g, (getLoadBalancedTasks dof order G g).Nodup := by
  have hnd : order.Nodup := ho.nodup_iff.2 List.nodup_range
  have hlen : (List.replicate G 0).length = G := by simp
  obtain ⟨-, -, -, -, a5, a6⟩ := loadBalanceLoop_spec dof (order.map dof).sum order
    (fun x hx => List.single_le_sum (by simp) _ (List.mem_map_of_mem hx))
    (List.replicate G 0) (by intro hc; rw [hc] at hlen; simp at hlen; omega) (by
      intro g hg
      simp at hg
      simp [List.getD_eq_getElem?_getD, hg])
  unfold getLoadBalancedTasks
  generalize loadBalanceLoop dof order (List.replicate G 0) = r at a5 a6
  have hndr : (r.2.map Prod.fst).Nodup := by rw [a5]; exact hnd
  constructor
  · have htm : t ∈ r.2.map Prod.fst := by rw [a5, ho.mem_iff]; simpa using ht
    obtain ⟨⟨t', g⟩, hp, hpt⟩ := List.mem_map.1 htm
    simp only at hpt
    subst hpt
    refine ⟨g, ⟨by have := a6 _ hp; simpa using this, ?_⟩, ?_⟩
    · rw [List.mem_map]
      exact ⟨(t', g), by simp [List.mem_filter, hp], rfl⟩
    · rintro g' ⟨_, hm⟩
      obtain ⟨⟨t2, g2⟩, hp2, h2⟩ := List.mem_map.1 hm
      simp only [List.mem_filter, beq_iff_eq] at hp2 h2
      subst h2
      have := List.inj_on_of_nodup_map hndr hp2.1 hp rfl
      simp at this
      rw [← hp2.2, this]
  · intro g
    exact hndr.sublist (List.Sublist.map _ List.filter_sublist)

/-- C08 (load balancing): the load of each group is at most the average plus `(G-1)/G` times
the load of the largest task: `G * load ≤ total + (G - 1) * largest`. -/
theorem C08_load_balanced_bound (dof : ℕ → ℕ) (size G : ℕ) (order : List ℕ)
    (ho : order.Perm (List.range size)) (g : ℕ) (hg : g < G) (M : ℕ)
    (hM : ∀ t < size, dof t ≤ M) :
    G * ((getLoadBalancedTasks dof order G g).map dof).sum ≤
      ((List.range size).map dof).sum + (G - 1) * M := by
  have hlen : (List.replicate G 0).length = G := by simp
  obtain ⟨-, a2, a3, a4, a5, a6⟩ := loadBalanceLoop_spec dof M order
    (fun x hx => hM x (by rw [ho.mem_iff] at hx; simpa using hx))
    (List.replicate G 0) (by intro hc; rw [hc] at hlen; simp at hlen; omega) (by
      intro g hg
      simp at hg
      simp [List.getD_eq_getElem?_getD, hg])
  rw [hlen] at a3 a4
  have h3 := a3 g hg
  rw [a2, a4 g hg, (ho.map dof).sum_eq] at h3
  simpa [List.getD_eq_getElem?_getD, List.getElem?_replicate, hg, getLoadBalancedTasks] using h3

example : (List.Perm [2, 0, 1] (List.range 3)) ∧
    getLoadBalancedTasks (fun t => [3, 2, 5].getD t 0) [2, 0, 1] 2 1 = [0, 1] := by decide

/-! ### C09: splitting over systems -/

theorem roundNonneg_mono {a b : ℚ} (h : a ≤ b) : roundNonneg a ≤ roundNonneg b :=
  Int.floor_mono (by linarith)

theorem roundNonneg_natCast (n : ℕ) : roundNonneg n = n := by
  unfold roundNonneg
  rw [Int.floor_eq_iff]
  push_cast
  constructor <;> linarith

theorem decomposeLoop_spec {α : Type*} (scheme : List α) (fracs : List ℚ)
    (hf : ∀ f ∈ fracs, 0 ≤ f) (scanned : ℚ) (hs : 0 ≤ scanned)
    (hsum : roundNonneg ((scheme.length : ℚ) * (scanned + fracs.sum)) = scheme.length) :
    ∃ parts, decomposeLoop scheme fracs scanned (roundNonneg ((scheme.length : ℚ) * scanned)) =
        some parts ∧ parts.length = fracs.length ∧
      parts.flatten = scheme.drop (roundNonneg ((scheme.length : ℚ) * scanned)).toNat := by
  induction fracs generalizing scanned with
  | nil =>
    refine ⟨[], rfl, rfl, ?_⟩
    rw [List.sum_nil, add_zero] at hsum
    rw [hsum]
    simp
  | cons f fs ih =>
    have hf0 := hf f (by simp)
    have hfs : ∀ x ∈ fs, 0 ≤ x := fun x hx => hf x (by simp [hx])
    have hfs0 : 0 ≤ fs.sum := List.sum_nonneg hfs
    rw [List.sum_cons, ← add_assoc] at hsum
    obtain ⟨rest, h1, h2, h3⟩ := ih hfs (scanned + f) (by linarith) hsum
    have hN : (0 : ℚ) ≤ scheme.length := by positivity
    have hb0 : 0 ≤ roundNonneg ((scheme.length : ℚ) * scanned) := by
      have := roundNonneg_mono (mul_nonneg hN hs)
      have h0 := roundNonneg_natCast 0
      simp at h0
      omega
    have hbe : roundNonneg ((scheme.length : ℚ) * scanned) ≤
        roundNonneg ((scheme.length : ℚ) * (scanned + f)) :=
      roundNonneg_mono (mul_le_mul_of_nonneg_left (by linarith) hN)
    have heN : roundNonneg ((scheme.length : ℚ) * (scanned + f)) ≤ scheme.length := by
      rw [← hsum]
      exact roundNonneg_mono (mul_le_mul_of_nonneg_left (by linarith) hN)
    set b := roundNonneg ((scheme.length : ℚ) * scanned) with hb
    set e := roundNonneg ((scheme.length : ℚ) * (scanned + f)) with he
    refine ⟨(scheme.drop b.toNat).take (e - b).toNat :: rest, ?_, by simp [h2], ?_⟩
    · unfold decomposeLoop
      simp only [← he, slice, hb0, hbe, heN, and_self, if_true, h1]
      rfl
    · rw [List.flatten_cons, h3]
      have : e.toNat = b.toNat + (e - b).toNat := by omega
      rw [this, ← List.drop_drop, List.take_append_drop]

theorem decompose_of_round {α : Type*} (scheme : List α) (fracs : List ℚ) (hf : ∀ f ∈ fracs, 0 ≤ f)
    (hsum : roundNonneg ((scheme.length : ℚ) * fracs.sum) = scheme.length) :
    ∃ parts, decomposeScheme scheme fracs = some parts ∧ parts.length = fracs.length ∧
      parts.flatten = scheme := by
  obtain ⟨p, h1, h2, h3⟩ := decomposeLoop_spec scheme fracs hf 0 (le_refl _) (by rwa [zero_add])
  have h0 := roundNonneg_natCast 0
  simp only [Nat.cast_zero] at h0
  rw [mul_zero, h0] at h1 h3
  exact ⟨p, h1, h2, by simpa using h3⟩

/-- C09: for nonnegative fractions with sum exactly 1, the split never leaves the range of the
scheme, yields one part per system, and the parts in system order concatenate to the scheme (so
each grid, with its coefficient, goes to exactly one system). Missing for the full claim: sums
only within the accepted tolerance, where it is true up to 500 grids (`C09_accepted_partial`) and false
beyond, see `C09_decomposition_tolerance_violated`. -/
theorem C09_decomposition_partial {α : Type*} (scheme : List α) (fracs : List ℚ)
    (hf : ∀ f ∈ fracs, 0 ≤ f) (hsum : fracs.sum = 1) :
    ∃ parts, decomposeScheme scheme fracs = some parts ∧ parts.length = fracs.length ∧
      parts.flatten = scheme :=
  decompose_of_round scheme fracs hf (by rw [hsum, mul_one, roundNonneg_natCast])

/-- C09 (partial: up to 500 grids): the same for all nonnegative fractions that pass the check. -/
theorem C09_accepted_partial {α : Type*} (scheme : List α) (hlen : scheme.length ≤ 500) (fracs : List ℚ)
    (hf : ∀ f ∈ fracs, 0 ≤ f) (hsum : fracSumAccepted fracs = true) :
    ∃ parts, decomposeScheme scheme fracs = some parts ∧ parts.length = fracs.length ∧
      parts.flatten = scheme := by
  refine decompose_of_round scheme fracs hf ?_
  unfold fracSumAccepted at hsum
  obtain ⟨h1, h2⟩ := abs_lt.1 (of_decide_eq_true hsum)
  unfold roundNonneg
  rw [Int.floor_eq_iff]
  have hN : (0 : ℚ) ≤ scheme.length := by positivity
  have hN' : (scheme.length : ℚ) ≤ 500 := by exact_mod_cast hlen
  push_cast
  rcases hN.eq_or_lt with h | h
  · rw [← h]
    norm_num
  · have a1 := mul_lt_mul_of_pos_left h1 h
    have a2 := mul_lt_mul_of_pos_left h2 h
    constructor <;> nlinarith

example : (∀ f ∈ [(1/3 : ℚ), 6667/10000], 0 ≤ f) ∧ fracSumAccepted [(1/3 : ℚ), 6667/10000] = true := by
  constructor
  · norm_num
  · decide +kernel

example : (∀ f ∈ [(1/3 : ℚ), 2/3], 0 ≤ f) ∧ [(1/3 : ℚ), 2/3].sum = 1 := by norm_num

/-- C09: the parts handed out to the individual systems by `createThirdLevelScheme`. -/
theorem C09_createThirdLevelScheme_partial {α : Type*} (scheme : List α) (fracs : List ℚ)
    (hf : ∀ f ∈ fracs, 0 ≤ f) (hsum : fracs.sum = 1) (hn : 2 ≤ fracs.length) :
    ∃ parts : List (List α), parts.flatten = scheme ∧ parts.length = fracs.length ∧
      ∀ i, createThirdLevelScheme scheme i fracs.length fracs = parts[i]? := by
  obtain ⟨p, h1, h2, h3⟩ := C09_decomposition_partial scheme fracs hf hsum
  refine ⟨p, h3, h2, fun i => ?_⟩
  unfold createThirdLevelScheme
  rw [if_neg (by omega), h1]
  rfl

example : createThirdLevelScheme [1, 2, 3, 4, 5] 1 2 [1/2, 1/2] = some [4, 5] := by decide +kernel

/-- C09 is violated for fraction vectors within the tolerance of the check: with 501 grids,
fractions summing to 1.000999 are accepted but run past the end of the scheme, and fractions
summing to 0.999001 are accepted but lose a grid. -/
theorem C09_decomposition_tolerance_violated :
    ∃ over under : List ℚ, fracSumAccepted over = true ∧ fracSumAccepted under = true ∧
      decomposeScheme (List.range 501) over = none ∧
      ∃ parts, decomposeScheme (List.range 501) under = some parts ∧
        500 ∉ parts.flatten := by
  refine ⟨[1/2, 500999/1000000], [1/2, 499001/1000000], by simp [fracSumAccepted, abs_lt]; norm_num,
    by simp [fracSumAccepted, abs_lt]; norm_num, ?_, ?_⟩
  · have h1 : roundNonneg ((501 : ℚ) * (0 + 1/2)) = 251 := by
      rw [roundNonneg, Int.floor_eq_iff]; norm_num
    have h2 : roundNonneg ((501 : ℚ) * (0 + 1/2 + 500999/1000000)) = 502 := by
      rw [roundNonneg, Int.floor_eq_iff]; norm_num
    simp only [decomposeScheme, decomposeLoop, List.length_range, Nat.cast_ofNat, h1, h2, slice]
    norm_num
  · have h1 : roundNonneg ((501 : ℚ) * (0 + 1/2)) = 251 := by
      rw [roundNonneg, Int.floor_eq_iff]; norm_num
    have h2 : roundNonneg ((501 : ℚ) * (0 + 1/2 + 499001/1000000)) = 500 := by
      rw [roundNonneg, Int.floor_eq_iff]; norm_num
    refine ⟨[((List.range 501).drop 0).take 251, ((List.range 501).drop 251).take 249], ?_, ?_⟩
    · simp only [decomposeScheme, decomposeLoop, List.length_range, Nat.cast_ofNat, h1, h2, slice]
      norm_num
      have e1 : Int.toNat 251 = 251 := rfl
      have e2 : Int.toNat 249 = 249 := rfl
      rw [e1, e2]
      exact ⟨Eq.refl _, Eq.refl _⟩
    · rw [List.drop_zero, List.flatten_cons, List.flatten_cons, List.flatten_nil, List.append_nil,
        List.mem_append]
      rintro (h | h)
      · obtain ⟨i, hi, he⟩ := List.mem_take_iff_getElem.1 h
        simp at hi he
        omega
      · obtain ⟨i, hi, he⟩ := List.mem_take_iff_getElem.1 h
        simp at hi he
        omega

end Verif

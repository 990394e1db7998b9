import Verif.Lemmas.FaultLayer
import Mathlib.Tactic.IntervalCases

/-!
# C82: the fault layer tells every living process about every failure

Before a collective call the processes, living and dead, count the dead ones along a tree, and the root
broadcasts their ranks along the same tree. With the root 0, which is the default, every living process gets
the same answer: an error if and only if a process is dead, and the ranks of all dead processes.
-/

namespace Verif.FaultLayer

/-! ### The tree -/

/-- The successors are a tree on the ranks, whatever the root: nobody sends to the root, nobody gets a message
twice, and everyone else is the successor of exactly one process. -/
theorem C82_tree (k : ℕ) (root size : ℤ) (hk : 1 ≤ k) (hr0 : 0 ≤ root) (hr : root < size) :
    (∀ a, 0 ≤ a → a < size → (successors k root a size).Nodup ∧ (successors k root a size).length ≤ k ∧
      ∀ s ∈ successors k root a size, 0 ≤ s ∧ s < size ∧ s ≠ root ∧ s ≠ a) ∧
    ∀ s, 0 ≤ s → s < size → s ≠ root →
      ∃! a, (0 ≤ a ∧ a < size) ∧ s ∈ successors k root a size := by
  constructor
  · intro a ha0 ha
    refine ⟨successors_nodup hr0 hr ha0 ha, ?_, ?_⟩
    · have := List.length_filterMap_le (fun i : ℕ =>
        let normalized := convertId (a - root) size * k + i + 1
        if normalized < size then some (convertId (normalized + root) size) else none) (List.range k)
      simpa [successors] using this
    · intro s hs
      obtain ⟨h0, h1, h2⟩ := (mem_successors hk hr0 hr ha0 ha).1 hs
      have hna := convertId_range (x := a - root) (size := size) (by omega) (by omega)
      have h3 := up_nonneg_step hk (by omega : 0 ≤ (convertId (s - root) size - 1) / (k : ℤ))
      have h4 := parent_bounds hk h3
      refine ⟨h0, h1, ?_, ?_⟩
      · rintro rfl
        unfold convertId at h3
        split_ifs at h3 <;> omega
      · rintro rfl
        omega
  · intro s h0 h1 hs
    have hn := convertId_range (x := s - root) (size := size) (by omega) (by omega)
    have hpos : 1 ≤ convertId (s - root) size := by
      unfold convertId at hn ⊢
      split_ifs at hn ⊢ <;> omega
    have hb := parent_bounds hk hpos
    set q := (convertId (s - root) size - 1) / (k : ℤ) with hq
    have hinv : convertId (convertId (q + root) size - root) size = q := by
      unfold convertId
      split_ifs <;> omega
    have hr' := convertId_range (x := q + root) (size := size) (by omega) (by omega)
    refine ⟨convertId (q + root) size, ⟨hr', ?_⟩, ?_⟩
    · rw [mem_successors hk hr0 hr hr'.1 hr'.2]
      exact ⟨h0, h1, by rw [hinv]⟩
    · rintro b ⟨hb', hsb⟩
      obtain ⟨_, _, h2⟩ := (mem_successors hk hr0 hr hb'.1 hb'.2).1 hsb
      rw [← hq] at h2
      rw [h2]
      unfold convertId
      split_ifs <;> omega

example : successors 6 3 3 9 = [4, 5, 6, 7, 8, 0] ∧ successors 6 3 4 9 = [1, 2] := by decide

/-- With the root 0 everyone waits for the message of the process that sends it, so that a broadcast reaches
everyone. -/
theorem C82_broadcast (k n : ℕ) (hk : 1 ≤ k) (s : ℤ) (h0 : 0 ≤ s) (h1 : s < n) :
    reached k 0 n n s = true ∧
      (s ≠ 0 → 0 ≤ predecessor k 0 s n ∧ predecessor k 0 s n < s ∧
        s ∈ successors k 0 (predecessor k 0 s n) n) := by
  refine ⟨reached0 hk n s h0 h1 (by omega), ?_⟩
  intro hs
  have hb := parent_bounds hk (show 1 ≤ s by omega)
  rw [pred0 hk (by omega) h1, mem_succ0 hk hb.1 (by omega)]
  exact ⟨hb.1, hb.2, by omega, h1, rfl⟩

example : predecessor 6 0 43 100 = 7 ∧ (43 : ℤ) ∈ successors 6 0 7 100 := by decide

/-- With another root this fails: the predecessor is computed without the step that brings it back into the
range of the ranks. With the last of more than seven processes as root, process 6 waits for a message from a
process that does not exist. -/
theorem C82_other_root_violated (n : ℕ) (hn : 8 ≤ n) :
    predecessor 6 (n - 1) 6 n = n ∧ (∃ a : ℤ, 0 ≤ a ∧ a < n ∧ (6 : ℤ) ∈ successors 6 (n - 1) a n) ∧
      reached 6 (n - 1) n n 6 = false := by
  have hc : convertId ((6 : ℤ) - (n - 1)) n = 7 := by
    unfold convertId
    split_ifs <;> omega
  have hp : predecessor 6 ((n : ℤ) - 1) 6 n = n := by
    rw [predecessor_eq (by omega) (by omega), hc]
    norm_num
  refine ⟨hp, ⟨0, by omega, by omega, ?_⟩, ?_⟩
  · rw [mem_successors (by omega) (by omega) (by omega) (by omega) (by omega), hc]
    refine ⟨by omega, by omega, ?_⟩
    have : convertId (0 - ((n : ℤ) - 1)) n = 1 := by
      unfold convertId
      split_ifs <;> omega
    rw [this]
    norm_num
  · obtain ⟨m, rfl⟩ : ∃ m, n = m + 1 := ⟨n - 1, by omega⟩
    rw [reached, hp]
    have hc2 : convertId (((m + 1 : ℕ) : ℤ) - (((m + 1 : ℕ) : ℤ) - 1)) (m + 1 : ℕ) = 1 := by
      unfold convertId
      split_ifs <;> omega
    have hc3 : predecessor 6 (((m + 1 : ℕ) : ℤ) - 1) (m + 1 : ℕ) (m + 1 : ℕ) = m := by
      rw [predecessor_eq (by omega) (by omega), hc2]
      push_cast
      norm_num
    have hr : ∀ fuel, reached 6 (((m + 1 : ℕ) : ℤ) - 1) (m + 1 : ℕ) fuel (m + 1 : ℕ) = false := by
      intro fuel
      cases fuel with
      | zero => simp [reached]
      | succ fuel =>
        rw [reached, hc3]
        simp only [Bool.or_eq_false_iff, decide_eq_false_iff_not, Bool.and_eq_false_iff]
        refine ⟨by omega, Or.inl ?_⟩
        rw [mem_successors (by omega) (by omega) (by omega) (by omega) (by omega)]
        omega
    rw [hr]
    simp only [Bool.and_false, Bool.or_false, decide_eq_false_iff_not]
    omega

/-! ### The reduction -/

/-- The vector at the root: the number of dead processes, the largest number of non-blocking collectives and a
process with this number. -/
theorem C82_reduce (k n : ℕ) (hk : 1 ≤ k) (hn : 0 < n) (procs : ℤ → Proc)
    (arrive : ℤ → List ℤ → List ℤ) (harr : ∀ r l, (arrive r l).Perm l) (o : ℤ)
    (ho : ∀ x : ℤ, 0 ≤ x → x < n → (procs x).isDead = false → (procs x).option = o) :
    ∃ v, reduceAt k 0 n procs arrive n 0 = some v ∧
      v.dead = ((List.range n).countP fun i : ℕ => (procs i).isDead) ∧
      (∀ x : ℤ, 0 ≤ x → x < n → ((procs x).nbc : ℤ) ≤ v.nbc) ∧
      (0 ≤ v.rank ∧ v.rank < n ∧ ((procs v.rank).nbc : ℤ) = v.nbc) ∧
      ((∃ x : ℤ, 0 ≤ x ∧ x < n ∧ (procs x).isDead = false) → v.op = o) := by
  obtain ⟨v, h1, h2⟩ := reduce_root hk hn harr ho
  refine ⟨v, h1, ?_, ?_, ?_, ?_⟩
  · rw [h2.dead, ← List.countP_eq_length_filter, ranks, List.countP_map]
    rfl
  · intro x h0 hx
    exact h2.nbc x (mem_ranks.2 ⟨h0, hx⟩)
  · have := mem_ranks.1 h2.rank.1
    exact ⟨this.1, this.2, h2.rank.2⟩
  · rintro ⟨x, h3, h4, h5⟩
    rcases h2.op with h | h
    · have h6 := h2.op0 h x (mem_ranks.2 ⟨h3, h4⟩)
      rw [h5] at h6
      have h7 : (procs x).option = 0 := by simpa using h6
      rw [h, ← ho x h3 h4 h5, h7]
    · exact h

/-! ### The synchronisation -/

/-- Every living process gets the same answer, and afterwards knows exactly the dead processes.
`messages`: the messages of the dead processes to the root in the order of arrival. `known`: before, every
living process knew the dead processes of some earlier synchronisation. -/
theorem C82_sync_partial (k n : ℕ) (hk : 1 ≤ k) (hn : 0 < n) (procs : ℤ → Proc)
    (arrive : ℤ → List ℤ → List ℤ) (harr : ∀ r l, (arrive r l).Perm l) (o : ℤ) (ho9 : o ≠ 9)
    (ho : ∀ x : ℤ, 0 ≤ x → x < n → (procs x).isDead = false → (procs x).option = o)
    (messages : List ℤ) (hnd : messages.Nodup)
    (hmsg : ∀ x : ℤ, x ∈ messages ↔ 0 ≤ x ∧ x < n ∧ (procs x).isDead = true)
    (m : ℕ) (nbcVec : List ℤ) (known : ℤ → Known)
    (hknown : ∀ x : ℤ, 0 ≤ x → x < n → (procs x).isDead = false →
      ∃ j ≤ messages.length, (known x).deadNodes = messages.take j) :
    ∃ vec res, sync k 0 n procs arrive messages m nbcVec known = some (vec, res) ∧
      ((∃ x : ℤ, 0 ≤ x ∧ x < n ∧ (procs x).isDead = false) → vec.head? = some o) ∧
      ∀ r : ℤ, 0 ≤ r → r < n → (procs r).isDead = false →
        ∃ code kn, res r = .ok (code, kn) ∧
          ((∃ x : ℤ, 0 ≤ x ∧ x < n ∧ (procs x).isDead = true) → code = .procFailed) ∧
          ((¬ ∃ x : ℤ, 0 ≤ x ∧ x < n ∧ (procs x).isDead = true) → code = .success) ∧
          kn.deadNodes = messages ∧
          kn.ack = (if (known r).deadNodes = messages then (known r).ack else false) ∧
          kn.revoked = (known r).revoked ∧
          kn.nbcVec = if r ≠ 0 ∧ o = 3 ∧ nbcVec ≠ [] then nbcVec else (known r).nbcVec := by
  obtain ⟨v, h1, h2⟩ := reduce_root hk hn harr ho
  have hperm : ((ranks n).filter fun x => (procs x).isDead).Perm messages := by
    rw [List.perm_ext_iff_of_nodup ((ranks_nodup n).filter _) hnd]
    intro x
    rw [List.mem_filter, mem_ranks, hmsg]
    tauto
  have hdead : v.dead = messages.length := by rw [h2.dead, hperm.length_eq]
  have hrecv : receiveDead messages m v.dead = some messages := by
    unfold receiveDead
    rw [hdead, if_pos le_rfl, Int.toNat_natCast, List.take_of_length_le (by omega)]
  set op := if (procs 0).isDead then v.op else (procs 0).option with hop
  have hopo : (∃ x : ℤ, 0 ≤ x ∧ x < n ∧ (procs x).isDead = false) → op = o := by
    rintro ⟨x, h3, h4, h5⟩
    rw [hop]
    by_cases hc : (procs 0).isDead = true
    · rw [if_pos hc]
      rcases h2.op with h | h
      · have h6 := h2.op0 h x (mem_ranks.2 ⟨h3, h4⟩)
        rw [h5] at h6
        have h7 : (procs x).option = 0 := by simpa using h6
        rw [h, ← ho x h3 h4 h5, h7]
      · exact h
    · rw [if_neg hc]
      exact ho 0 le_rfl (by omega) (by simpa using hc)
  refine ⟨sendVector op messages nbcVec, fun r => if r = 0 then .ok (rootResult messages (known r))
      else if reached k 0 n n r then otherResult (sendVector op messages nbcVec) (known r) else .stuck,
      ?_, ?_, ?_⟩
  · unfold sync
    rw [Int.toNat_natCast, h1]
    simp only [Option.bind_eq_bind, Option.bind_some, hrecv]
    rfl
  · intro h
    rw [sendVector, ← hopo h]
    rfl
  · intro r hr0 hr hlive
    have ho' := hopo ⟨r, hr0, hr, hlive⟩
    obtain ⟨j, hj, hkj⟩ := hknown r hr0 hr hlive
    have hlen : messages.length = (known r).deadNodes.length ↔ (known r).deadNodes = messages := by
      rw [hkj, List.length_take]
      constructor
      · intro h
        exact List.take_of_length_le (by omega)
      · intro h
        have := congrArg List.length h
        rw [List.length_take] at this
        omega
    have hex : (∃ x : ℤ, 0 ≤ x ∧ x < n ∧ (procs x).isDead = true) ↔ 0 < messages.length := by
      rw [List.length_pos_iff_exists_mem]
      exact exists_congr fun x => (hmsg x).symm
    have hemp : ¬ 0 < messages.length → (known r).deadNodes = messages := by
      intro h
      have : messages = [] := List.eq_nil_of_length_eq_zero (by omega)
      rw [hkj, this, List.take_nil]
    beta_reduce
    by_cases h0 : r = 0
    · rw [if_pos h0]
      refine ⟨(rootResult messages (known r)).1, (rootResult messages (known r)).2, rfl, ?_⟩
      unfold rootResult
      rw [hex]
      by_cases hpos : 0 < messages.length
      · rw [if_pos hpos]
        by_cases he : (known r).deadNodes = messages
        · rw [if_neg (not_not.2 (hlen.2 he)), if_pos he]
          refine ⟨fun _ => rfl, fun h => absurd hpos h, he, rfl, rfl, ?_⟩
          rw [if_neg fun h => h.1 h0]
        · rw [if_pos fun h => he (hlen.1 h), if_neg he]
          refine ⟨fun _ => rfl, fun h => absurd hpos h, rfl, rfl, rfl, ?_⟩
          rw [if_neg fun h => h.1 h0]
      · rw [if_neg hpos, if_pos (hemp hpos)]
        refine ⟨fun h => absurd h hpos, fun _ => rfl, hemp hpos, rfl, rfl, ?_⟩
        rw [if_neg fun h => h.1 h0]
    · rw [if_neg h0, if_pos (reached0 hk n r hr0 hr (by omega)), hex]
      rw [ho', sendVector]
      have hlen2 : ¬ (((messages ++ if o = 3 then nbcVec else []).length : ℤ) < (messages.length : ℤ)) := by
        rw [List.length_append]
        push_cast
        omega
      simp only [otherResult, List.cons_append]
      rw [if_neg hlen2, Int.toNat_natCast, List.drop_left, List.take_left, if_neg ho9]
      have hiff : messages.length < (messages ++ if o = 3 then nbcVec else []).length ↔
          o = 3 ∧ nbcVec ≠ [] := by
        rw [List.length_append]
        by_cases h3 : o = 3
        · rw [if_pos h3]
          constructor
          · intro h
            refine ⟨h3, ?_⟩
            rintro rfl
            simp at h
          · rintro ⟨_, h⟩
            have := List.length_pos_iff.2 h
            omega
        · rw [if_neg h3]
          simp [h3]
      have hpos' : (0 : ℤ) < messages.length ↔ 0 < messages.length := by omega
      simp only [hiff, hpos', ne_eq, hlen, h0, not_false_eq_true, true_and]
      by_cases hb : o = 3 ∧ ¬ nbcVec = []
      · obtain ⟨rfl, hne⟩ := hb
        by_cases hpos : 0 < messages.length
        · by_cases he : (known r).deadNodes = messages
          · simp [hpos, he, hne]
          · simp [hpos, he, hne]
        · simp [hpos, hemp hpos, hne]
      · by_cases hpos : 0 < messages.length
        · by_cases he : (known r).deadNodes = messages
          · simp [hpos, he, hb]
          · simp [hpos, he, hb]
        · simp [hpos, hemp hpos, hb]

/-- Eight processes of which 0 (the root) and 7 are dead; only 7 was known before. -/
def exampleProcs (r : ℤ) : Proc := ⟨r = 0 ∨ r = 7, r.toNat % 3, 1⟩

example : (∀ x : ℤ, 0 ≤ x → x < 8 → (exampleProcs x).isDead = false → (exampleProcs x).option = 1) ∧
    (∀ x : ℤ, x ∈ [(7 : ℤ), 0] ↔ 0 ≤ x ∧ x < 8 ∧ (exampleProcs x).isDead = true) ∧
    ((sync 6 0 8 exampleProcs (fun _ l => l.reverse) [7, 0] 1 [] fun _ => ⟨[7], true, [], false⟩).map
      fun p => p.1) = some [1, 2, 7, 0] := by
  refine ⟨fun _ _ _ _ => rfl, ?_, by decide +kernel⟩
  intro x
  simp only [List.mem_cons, List.not_mem_nil, or_false, exampleProcs, decide_eq_true_eq]
  omega

/-- A process that has begun a synchronisation when the communicator was revoked gets a vector with one entry
and reads the second one. -/
theorem C82_revoked_violated (k : Known) : otherResult revokedAnswer k = .stuck := rfl

/-! ### Non-blocking collectives -/

/-- The list of the collectives survives the way through the vector, and a process that starts what it has
missed has started all of them in the same order. -/
theorem C82_started (l recent : List Istats) (h : recent <+: l) :
    vectorToNbc (nbcToVector l) = .ok l ∧ recent ++ missingOps recent l = l := by
  constructor
  · induction l generalizing recent with
    | nil => rfl
    | cons s l ih =>
      have := ih [] List.nil_prefix
      unfold nbcToVector at this ⊢
      rw [List.flatMap_cons]
      simp only [List.cons_append, List.nil_append, vectorToNbc]
      rw [this]
      rfl
  · obtain ⟨t, rfl⟩ := h
    simp [missingOps]

example : [(⟨0, 1, 2, 3, 4⟩ : Istats)] <+: [⟨0, 1, 2, 3, 4⟩, ⟨5, 6, 7, 8, 9⟩] := by decide

/-! ### `MPI_Comm_agree` -/

/-- The processes do not agree: if the root says yes (operation 5) and everyone else no (operation 4), the
reduction gives yes; and a process that has never been dead reads the first entry of an empty vector. A process
with the operation of its own last message in the vector gets what that operation says. -/
theorem C82_agree_violated (others : List Vec4) (rest : List ℤ) :
    (others.foldl customReduceOp (initVec ⟨false, 0, 5⟩ 0)).op = 5 ∧ agreeFlag [] = .stuck ∧
      agreeFlag (4 :: rest) = .ok false ∧ agreeFlag (5 :: rest) = .ok true := by
  refine ⟨?_, rfl, rfl, rfl⟩
  suffices h : ∀ v : Vec4, v.op = 5 → (others.foldl customReduceOp v).op = 5 from h _ rfl
  induction others with
  | nil => exact fun v h => h
  | cons w l ih =>
    intro v h
    rw [List.foldl_cons]
    apply ih
    simp [customReduceOp, h]

end Verif.FaultLayer

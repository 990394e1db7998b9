import Verif.Model.RawTransfer

/-!
# Property C124: the raw data of sparse grids is transferred completely
-/

namespace Verif.RawTransfer

variable {α : Type}

theorem sendLoop_long (data : List α) (r : Nat) (h : r + intMax ≤ data.length) :
    sendLoop data r = (data.drop r).take intMax :: sendLoop data (r + intMax) := by
  rw [sendLoop, dif_pos (Nat.div_pos_iff.2 ⟨intMax_pos, by omega⟩)]

theorem sendLoop_short (data : List α) (r : Nat) (h : data.length < r + intMax) :
    sendLoop data r = [data.drop r] := by
  rw [sendLoop, dif_neg (fun hc => by have := (Nat.div_pos_iff.1 hc).2; have := intMax_pos; omega),
    List.take_of_length_le (by rw [List.length_drop])]

theorem recvLoop_long (n : Nat) (buf : List α) (r : Nat) (msg : List α) (msgs : List (List α))
    (h : r + intMax ≤ n) (hm : msg.length ≤ intMax) :
    recvLoop n buf r (msg :: msgs) =
      recvLoop n (buf.take r ++ msg ++ buf.drop (r + msg.length)) (r + intMax) msgs := by
  rw [recvLoop, dif_pos (Nat.div_pos_iff.2 ⟨intMax_pos, by omega⟩), recv, if_neg (by omega)]

theorem recvLoop_short (n : Nat) (buf : List α) (r : Nat) (msgs : List (List α)) (h : n < r + intMax) :
    recvLoop n buf r msgs = recv buf r (n - r) msgs := by
  rw [recvLoop, dif_neg (fun hc => by have := (Nat.div_pos_iff.1 hc).2; have := intMax_pos; omega)]

theorem recvLoop_nil (n : Nat) (buf : List α) (r : Nat) : recvLoop n buf r [] = .stuck := by
  rw [recvLoop]
  split_ifs <;> rfl

/-- C124: the number of elements in every message is an `int`. -/
theorem C124_int (data : List α) : ∀ m ∈ sendDsgData data, m.length < 2 ^ 31 := by
  have key : ∀ k r, data.length - r ≤ k → ∀ m ∈ sendLoop data r, m.length ≤ intMax := by
    intro k
    induction k with
    | zero =>
      intro r hk m hm
      have := intMax_pos
      rw [sendLoop_short _ _ (by omega), List.mem_singleton] at hm
      rw [hm, List.length_drop]
      omega
    | succ k ih =>
      intro r hk m hm
      have hp := intMax_pos
      by_cases h : r + intMax ≤ data.length
      · rw [sendLoop_long _ _ h, List.mem_cons] at hm
        rcases hm with rfl | hm
        · rw [List.length_take]
          omega
        · exact ih (r + intMax) (by omega) m hm
      · rw [sendLoop_short _ _ (by omega), List.mem_singleton] at hm
        rw [hm, List.length_drop]
        omega
  intro m hm
  exact lt_of_le_of_lt (key data.length 0 (by omega) m hm) (by decide)

theorem transfer_same (data : List α) (k : Nat) : ∀ (r : Nat) (buf : List α), data.length - r ≤ k →
    r ≤ data.length → buf.length = data.length → buf.take r = data.take r →
    recvLoop data.length buf r (sendLoop data r) = .ok (data, []) := by
  have hp := intMax_pos
  induction k with
  | zero =>
    intro r buf hk hr hb ht
    rw [sendLoop_short _ _ (by omega), recvLoop_short _ _ _ _ (by omega), recv,
      if_neg (by rw [List.length_drop]; omega), ht, List.length_drop, List.drop_of_length_le (l := buf) (by omega),
      List.append_nil, List.take_append_drop]
  | succ k ih =>
    intro r buf hk hr hb ht
    by_cases h : r + intMax ≤ data.length
    · have hl : ((data.drop r).take intMax).length = intMax := by
        rw [List.length_take, List.length_drop]
        omega
      have he : data.take r ++ (data.drop r).take intMax = data.take (r + intMax) := by
        rw [List.take_add]
      rw [sendLoop_long _ _ h, recvLoop_long _ _ _ _ _ h (by omega), hl, ht, he]
      refine ih (r + intMax) _ (by omega) h ?_ ?_
      · rw [List.length_append, List.length_take, List.length_drop, hb]
        omega
      · rw [List.take_append_of_le_length (by rw [List.length_take]; omega), List.take_take, Nat.min_self]
    · rw [sendLoop_short _ _ (by omega), recvLoop_short _ _ _ _ (by omega), recv,
        if_neg (by rw [List.length_drop]; omega), ht, List.length_drop, List.drop_of_length_le (l := buf) (by omega),
        List.append_nil, List.take_append_drop]

theorem transfer_ok (data : List α) (n k : Nat) : ∀ (r : Nat) (buf b : List α) (msgs : List (List α)),
    data.length - r ≤ k → r ≤ data.length → r ≤ n → buf.length = n →
    recvLoop n buf r (sendLoop data r) = .ok (b, msgs) →
    data.length ≤ n ∧ b.length = n ∧ msgs = [] := by
  have hp := intMax_pos
  induction k with
  | zero =>
    intro r buf b msgs hk hr hn hb h
    rw [sendLoop_short _ _ (by omega)] at h
    by_cases hl : r + intMax ≤ n
    · rw [recvLoop_long _ _ _ _ _ hl (by rw [List.length_drop]; omega), recvLoop_nil] at h
      cases h
    · rw [recvLoop_short _ _ _ _ (by omega), recv, if_neg (by rw [List.length_drop]; omega)] at h
      cases h
      refine ⟨by omega, ?_, rfl⟩
      simp only [List.length_append, List.length_take, List.length_drop]
      omega
  | succ k ih =>
    intro r buf b msgs hk hr hn hb h
    by_cases hd : r + intMax ≤ data.length
    · have hlen : ((data.drop r).take intMax).length = intMax := by
        rw [List.length_take, List.length_drop]
        omega
      rw [sendLoop_long _ _ hd] at h
      by_cases hl : r + intMax ≤ n
      · rw [recvLoop_long _ _ _ _ _ hl (by omega)] at h
        refine ih (r + intMax) _ b msgs (by omega) hd hl ?_ h
        simp only [List.length_append, List.length_take, List.length_drop]
        omega
      · rw [recvLoop_short _ _ _ _ (by omega), recv, if_pos (by omega)] at h
        cases h
    · rw [sendLoop_short _ _ (by omega)] at h
      by_cases hl : r + intMax ≤ n
      · rw [recvLoop_long _ _ _ _ _ hl (by rw [List.length_drop]; omega), recvLoop_nil] at h
        cases h
      · rw [recvLoop_short _ _ _ _ (by omega), recv] at h
        split_ifs at h with hc
        rw [List.length_drop] at hc
        cases h
        refine ⟨by omega, ?_, rfl⟩
        simp only [List.length_append, List.length_take, List.length_drop]
        omega

/-- C124: what is sent arrives completely in a buffer of the same size, and no message is left. -/
theorem C124_transfer (data buf : List α) (h : buf.length = data.length) :
    recvDsgData buf (sendDsgData data) = .ok (data, []) := by
  rw [recvDsgData, h]
  exact transfer_same data data.length 0 buf (by omega) (by omega) h (by simp)

example : recvDsgData [0, 0, 0] (sendDsgData [3, 1, 2]) = .ok ([3, 1, 2], []) :=
  C124_transfer [3, 1, 2] [0, 0, 0] rfl

theorem bind_ok {β γ : Type} {x : Outcome β} {f : β → Outcome γ} {c : γ} (h : x.bind f = .ok c) :
    ∃ a, x = .ok a ∧ f a = .ok c := by
  cases x with
  | ok a => exact ⟨a, rfl, h⟩
  | error => cases h
  | stuck => cases h

theorem length_resize [Zero α] (buf : List α) (n : Nat) : (resize buf n).length = n := by
  rw [resize, List.length_append, List.length_take, List.length_replicate]
  omega

theorem roundTrip_same [Zero α] (buf data : List α) (h : 0 < data.length) :
    roundTrip buf data.length data = .ok (data, data, []) := by
  rw [roundTrip, if_neg (by omega), recvDsguFromWorker, if_neg (by rw [length_resize]; omega), length_resize,
    sendDsgData, transfer_same data data.length 0 _ (by omega) (by omega) (length_resize _ _) (by simp)]
  simp only [Outcome.bind]
  rw [sendDsguToWorker, if_neg (by omega)]
  simp only
  have := C124_transfer data data rfl
  rw [sendDsgData] at this
  rw [this]
  rfl

theorem roundTrip_ok [Zero α] (buf data : List α) (n : Nat) (x : List α × List α × List (List α))
    (h : roundTrip buf n data = .ok x) : n = data.length ∧ 0 < n := by
  rw [roundTrip] at h
  split_ifs at h with hn
  obtain ⟨⟨b, ms⟩, h1, h⟩ := bind_ok h
  obtain ⟨msgs, h2, h⟩ := bind_ok h
  obtain ⟨⟨d, ms'⟩, h3, h⟩ := bind_ok h
  rw [recvDsguFromWorker, if_neg (by rw [length_resize]; omega), length_resize] at h1
  obtain ⟨h4, h5, -⟩ := transfer_ok data n data.length 0 _ b ms (by omega) (by omega) (by omega)
    (length_resize _ _) h1
  rw [sendDsguToWorker] at h2
  split_ifs at h2
  cases h2
  obtain ⟨h6, -, -⟩ := transfer_ok b data.length b.length 0 data d ms' (by omega) (by omega) (by omega) rfl h3
  have h7 : b.length = n := h5
  have h8 : b.length ≤ data.length := h6
  omega

/-- C124: when the manager only pretends to combine, then all workers have their old values afterwards, or the
program fails: it fails exactly if one of the sizes that the manager computed is not the size of the
worker's sparse grid, or is zero. -/
theorem C124_pretend [Zero α] (buf : List α) (l : List (Nat × List α)) (ds : List (List α)) :
    pretendLoop buf l = .ok ds ↔ (∀ x ∈ l, x.1 = x.2.length ∧ 0 < x.1) ∧ ds = l.map (·.2) := by
  induction l generalizing buf ds with
  | nil =>
    simp only [pretendLoop, List.not_mem_nil, false_implies, implies_true, true_and, List.map_nil,
      Outcome.ok.injEq]
    exact eq_comm
  | cons x l ih =>
    obtain ⟨n, data⟩ := x
    rw [pretendLoop]
    constructor
    · intro h
      obtain ⟨r, h1, h⟩ := bind_ok h
      obtain ⟨h2, h3⟩ := roundTrip_ok buf data n r h1
      subst h2
      rw [roundTrip_same buf data h3] at h1
      cases h1
      obtain ⟨ds', h4, h⟩ := bind_ok h
      cases h
      obtain ⟨h5, rfl⟩ := (ih _ _).1 h4
      refine ⟨?_, rfl⟩
      intro y hy
      rcases List.mem_cons.1 hy with rfl | hy
      · exact ⟨rfl, h3⟩
      · exact h5 y hy
    · rintro ⟨h1, rfl⟩
      obtain ⟨h2, h3⟩ := h1 _ List.mem_cons_self
      have h2 : n = data.length := h2
      have h3 : 0 < n := h3
      subst h2
      rw [roundTrip_same buf data h3]
      simp only [Outcome.bind]
      rw [(ih data (l.map (·.2))).2 ⟨fun y hy => h1 y (List.mem_cons_of_mem _ hy), rfl⟩]
      rfl

example : pretendLoop [7] [(2, [3, 1]), (3, [4, 5, 6])] = .ok [[3, 1], [4, 5, 6]] :=
  (C124_pretend [7] [(2, [3, 1]), (3, [4, 5, 6])] _).2 ⟨by decide, rfl⟩

/-- C124 is violated: a receiver with a larger buffer does not notice that values are missing, as long as the
number of messages is the same. -/
theorem C124_short_violated : recvDsgData [7, 7, 7] (sendDsgData [3, 1]) = .ok ([3, 1, 7], []) := by
  rw [recvDsgData, sendDsgData, sendLoop_short _ _ (by decide), recvLoop_short _ _ _ _ (by decide)]
  rfl

/-- C124 is violated: a worker without any value makes the manager throw. -/
theorem C124_empty_violated [Zero α] (l : List (Nat × List α)) (ds : List (List α)) (buf : List α) (n : Nat) :
    pretendLoop buf ((n, []) :: l) ≠ .ok ds := by
  intro h
  obtain ⟨h1, -⟩ := (C124_pretend buf _ ds).1 h
  obtain ⟨h2, h3⟩ := h1 _ List.mem_cons_self
  simp only [List.length_nil] at h2 h3
  omega

/-- C124 is violated: two sparse grids of different sizes on one worker, since the manager takes the mean of their
sizes for both. -/
theorem C124_grids_violated [Zero α] (a b : List α) (h : a.length ≠ b.length) (buf : List α) (ds : List (List α)) :
    pretendLoop buf ([a, b].map fun d => ((a.length + b.length) / 2, d)) ≠ .ok ds := by
  intro hp
  obtain ⟨h1, -⟩ := (C124_pretend buf _ ds).1 hp
  have h2 := (h1 ((a.length + b.length) / 2, a) (by simp)).1
  have h3 := (h1 ((a.length + b.length) / 2, b) (by simp)).1
  simp only at h2 h3
  omega

example : [1, 2].length ≠ [1, 2, 3, 4].length := by decide

end Verif.RawTransfer

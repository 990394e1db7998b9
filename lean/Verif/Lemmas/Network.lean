import Verif.Model.Network
import Mathlib.Data.Nat.Digits.Lemmas
import Mathlib.Tactic.Ring
import Mathlib.Tactic.Linarith

/-! Lemmas about `Verif.Model.Network`. -/

namespace Verif

theorem sendall_eq (buff : List UInt8) : ∀ seg, sendall seg buff = buff := by
  generalize hn : buff.length = n
  induction n using Nat.strong_induction_on generalizing buff with
  | _ n ih =>
    intro seg
    unfold sendall
    split
    · next h => exact (List.length_eq_zero_iff.1 h).symm
    · next h =>
      rw [ih _ _ _ rfl]
      · exact List.take_append_drop ..
      · rw [List.length_drop]; omega

theorem recvallLoop_eq (len : ℕ) :
    ∀ (m : ℕ) (buff bytes : List UInt8) (seg : ℕ → ℕ), len - buff.length = m → m ≤ bytes.length →
      buff.length ≤ len →
      ∃ seg', recvallLoop len buff ⟨bytes, seg⟩ = .ok (buff ++ bytes.take m, ⟨bytes.drop m, seg'⟩) := by
  intro m
  induction m using Nat.strong_induction_on with
  | _ m ih =>
    intro buff bytes seg hm hb hle
    unfold recvallLoop
    rcases Nat.eq_zero_or_pos m with h0 | hpos
    · rw [dif_neg (by omega)]
      subst h0
      exact ⟨seg, by simp⟩
    · rw [dif_pos (by omega), dif_neg (by unfold Stream.recvCount; simp only; omega)]
      unfold Stream.recv
      simp only
      generalize hc : Stream.recvCount ⟨bytes, seg⟩ (len - buff.length) = c
      have hc1 : 1 ≤ c := by rw [← hc]; unfold Stream.recvCount; simp only; omega
      have hc2 : c ≤ m := by rw [← hc]; unfold Stream.recvCount; simp only; omega
      obtain ⟨seg', h⟩ := ih (m - c) (by omega) (buff ++ bytes.take c) (bytes.drop c)
        (fun k => seg (k + 1)) (by simp; omega) (by simp; omega) (by simp; omega)
      refine ⟨seg', ?_⟩
      rw [h]
      have e1 : bytes.take c ++ (bytes.drop c).take (m - c) = bytes.take m := by
        rw [← List.take_add, Nat.add_sub_cancel' hc2]
      have e2 : (bytes.drop c).drop (m - c) = bytes.drop m := by
        rw [List.drop_drop, Nat.add_sub_cancel' hc2]
      rw [List.append_assoc, e1, e2]

theorem recvall_eq (len : ℕ) (bytes : List UInt8) (seg : ℕ → ℕ) (h0 : 0 < len)
    (h : len ≤ bytes.length) :
    ∃ seg', recvall len ⟨bytes, seg⟩ = .ok (bytes.take len, ⟨bytes.drop len, seg'⟩) := by
  unfold recvall
  rw [if_neg (by omega)]
  simpa using recvallLoop_eq len len [] bytes seg (by simp) h (by simp)

theorem recvLengthLoop_eq (ds rest : List UInt8) (hds : hashByte ∉ ds) :
    ∀ (lenstr : List UInt8) (seg : ℕ → ℕ),
      ∃ seg', recvLengthLoop lenstr ⟨ds ++ hashByte :: rest, seg⟩ = .ok (lenstr ++ ds, ⟨rest, seg'⟩) := by
  induction ds with
  | nil =>
    intro lenstr seg
    unfold recvLengthLoop
    simp only [List.nil_append, if_true]
    refine ⟨fun k => seg (k + 1), ?_⟩
    have : Stream.recvCount ⟨hashByte :: rest, seg⟩ 1 = 1 := by
      unfold Stream.recvCount; simp only [List.length_cons]; omega
    simp [Stream.recv, this]
  | cons d ds ih =>
    intro lenstr seg
    unfold recvLengthLoop
    have hd : d ≠ hashByte := fun h => hds (by simp [h])
    simp only [List.cons_append, if_neg hd]
    have : Stream.recvCount ⟨d :: (ds ++ hashByte :: rest), seg⟩ 1 = 1 := by
      unfold Stream.recvCount; simp only [List.length_cons]; omega
    simp only [Stream.recv, this, List.drop_succ_cons, List.drop_zero]
    obtain ⟨seg', h⟩ := ih (fun h => hds (List.mem_cons_of_mem _ h)) (lenstr ++ [d])
      fun k => seg (k + 1)
    exact ⟨seg', by rw [h]; simp⟩

theorem digitByte : ∀ d < 10, UInt8.ofNat (Nat.digitChar d).toNat ≠ hashByte ∧
    isDigitByte (UInt8.ofNat (Nat.digitChar d).toNat) = true ∧
    (UInt8.ofNat (Nat.digitChar d).toNat).toNat - 48 = d := by decide

theorem decimalBytes_zero : decimalBytes 0 = [48] := by decide

theorem decimalBytes_pos {n : ℕ} (h : n ≠ 0) : decimalBytes n =
    ((Nat.digits 10 n).map fun d => UInt8.ofNat (Nat.digitChar d).toNat).reverse := by
  unfold decimalBytes decimal
  rw [if_neg h, List.map_reverse, List.map_map]
  rfl

theorem hash_notMem_decimalBytes (n : ℕ) : hashByte ∉ decimalBytes n := by
  rcases Nat.eq_zero_or_pos n with rfl | h
  · decide
  · rw [decimalBytes_pos (by omega)]
    simp only [List.mem_reverse, List.mem_map, not_exists, not_and]
    intro d hd
    exact (digitByte d (Nat.digits_lt_base (by decide) hd)).1

theorem parseLength_decimalBytes {n : ℕ} (hn : n < 2 ^ 31) : parseLength (decimalBytes n) = .ok n := by
  rcases Nat.eq_zero_or_pos n with rfl | h
  · decide
  · have hne : n ≠ 0 := by omega
    unfold parseLength
    rw [decimalBytes_pos hne, if_neg]
    · simp only
      rw [List.foldl_reverse, List.foldr_map]
      have : List.foldr (fun x acc => 10 * acc +
          ((UInt8.ofNat (Nat.digitChar x).toNat).toNat - 48)) 0 (Nat.digits 10 n) = n := by
        have key : ∀ l : List ℕ, (∀ d ∈ l, d < 10) → List.foldr (fun x acc => 10 * acc +
            ((UInt8.ofNat (Nat.digitChar x).toNat).toNat - 48)) 0 l = Nat.ofDigits 10 l := by
          intro l
          induction l with
          | nil => simp
          | cons d l ih =>
            intro hl
            rw [List.foldr_cons, ih fun x hx => hl x (List.mem_cons_of_mem _ hx),
              (digitByte d (hl d (List.mem_cons_self ..))).2.2, Nat.ofDigits_cons]
            omega
        rw [key _ fun d hd => Nat.digits_lt_base (by decide) hd, Nat.ofDigits_digits]
      rw [this, if_neg (by omega)]
    · have hnil : Nat.digits 10 n ≠ [] := (Nat.digits_ne_nil_iff_ne_zero).2 hne
      simp only [List.reverse_eq_nil_iff, List.map_eq_nil_iff, hnil, false_or, not_not,
        List.all_reverse, List.all_map, List.all_eq_true, Function.comp_apply]
      intro d hd
      exact (digitByte d (Nat.digits_lt_base (by decide) hd)).2.1

theorem recvallPrefixed_eq (mesg rest : List UInt8) (hne : mesg ≠ []) (hlen : mesg.length < 2 ^ 31)
    (sendSeg seg : ℕ → ℕ) :
    ∃ seg', recvallPrefixed ⟨sendallPrefixed sendSeg mesg ++ rest, seg⟩ =
      .ok (mesg, ⟨rest, seg'⟩) := by
  have hpos : 0 < mesg.length := List.length_pos_iff.2 hne
  unfold recvallPrefixed recvLength sendallPrefixed
  rw [sendall_eq]
  have e : decimalBytes mesg.length ++ [hashByte] ++ mesg ++ rest =
      decimalBytes mesg.length ++ hashByte :: (mesg ++ rest) := by simp
  rw [e]
  obtain ⟨seg1, h1⟩ := recvLengthLoop_eq (decimalBytes mesg.length) (mesg ++ rest)
    (hash_notMem_decimalBytes _) [] seg
  rw [h1]
  simp only [Outcome.bind, List.nil_append, parseLength_decimalBytes hlen]
  rw [if_neg (by omega)]
  obtain ⟨seg2, h2⟩ := recvall_eq mesg.length (mesg ++ rest) seg1 hpos (by simp)
  refine ⟨seg2, ?_⟩
  simp only
  rw [h2]
  simp

theorem forwardLoop_eq (chunksize size : ℕ) (hc : 0 < chunksize) :
    ∀ (m total : ℕ) (bytes : List UInt8) (seg : ℕ → ℕ) (sendSeg : ℕ → ℕ → ℕ), size - total = m →
      m ≤ bytes.length →
      ∃ seg', forwardLoop chunksize size sendSeg total ⟨bytes, seg⟩ =
        .ok (bytes.take m, ⟨bytes.drop m, seg'⟩) := by
  intro m
  induction m using Nat.strong_induction_on with
  | _ m ih =>
    intro total bytes seg sendSeg hm hb
    unfold forwardLoop
    rcases Nat.eq_zero_or_pos m with h0 | hpos
    · rw [dif_neg (by omega)]
      subst h0
      exact ⟨seg, by simp⟩
    · have hl : 1 ≤ forwardLimit chunksize size total ∧ forwardLimit chunksize size total ≤ m := by
        unfold forwardLimit; split <;> omega
      rw [dif_pos (by omega), dif_neg (by unfold Stream.recvCount; simp only; omega)]
      unfold Stream.recv
      simp only
      generalize hc : Stream.recvCount ⟨bytes, seg⟩ (forwardLimit chunksize size total) = c
      have hc1 : 1 ≤ c := by rw [← hc]; unfold Stream.recvCount; simp only; omega
      have hc2 : c ≤ m := by rw [← hc]; unfold Stream.recvCount; simp only; omega
      obtain ⟨seg', h⟩ := ih (m - c) (by omega) (total + c) (bytes.drop c)
        (fun k => seg (k + 1)) (fun k => sendSeg (k + 1)) (by omega) (by simp; omega)
      refine ⟨seg', ?_⟩
      rw [h]
      simp only [Outcome.bind, sendall_eq]
      have e1 : bytes.take c ++ (bytes.drop c).take (m - c) = bytes.take m := by
        rw [← List.take_add, Nat.add_sub_cancel' hc2]
      have e2 : (bytes.drop c).drop (m - c) = bytes.drop m := by
        rw [List.drop_drop, Nat.add_sub_cancel' hc2]
      rw [e1, e2]

/-! ### Binary data -/

theorem correctAll_same (vs : List (List UInt8)) : correctAll true vs = .ok vs := by
  induction vs with
  | nil => rfl
  | cons v vs ih => simp [correctAll, correctEndianness, Outcome.bind, ih]

theorem blocks_eq (size : ℕ) (hs : 0 < size) (buf : List UInt8) :
    ∀ (m i : ℕ), i + m * size ≤ buf.length →
      blocks size buf i (i + m * size) =
        .ok ((List.range m).map fun j => (buf.drop (i + j * size)).take size) := by
  intro m
  induction m with
  | zero => intro i _; unfold blocks; simp
  | succ m ih =>
    intro i h
    have e : (m + 1) * size = m * size + size := by ring
    unfold blocks
    rw [dif_pos ⟨by omega, hs⟩, if_neg (by omega)]
    have e2 : i + (m + 1) * size = i + size + m * size := by omega
    rw [e2, ih (i + size) (by omega)]
    simp only [Outcome.bind, List.range_succ_eq_map, List.map_cons, List.map_map, Nat.zero_mul,
      Nat.add_zero, Outcome.ok.injEq, List.cons.injEq, true_and]
    apply List.map_congr_left
    intro j _
    simp only [Function.comp_apply]
    congr 2
    rw [Nat.succ_mul]
    omega

theorem blocks_empty (size : ℕ) (buf : List UInt8) (i stop : ℕ) (h : stop ≤ i) :
    blocks size buf i stop = .ok [] := by
  unfold blocks
  rw [dif_neg (by omega)]

/-- Part of a list. -/
def piece (D : List UInt8) (a b : ℕ) : List UInt8 := (D.drop a).take (b - a)

theorem piece_append (D : List UInt8) {a b c : ℕ} (h1 : a ≤ b) (h2 : b ≤ c) :
    piece D a b ++ piece D b c = piece D a c := by
  unfold piece
  have e1 : c - a = (b - a) + (c - b) := by omega
  have e2 : D.drop b = (D.drop a).drop (b - a) := by
    rw [List.drop_drop]; congr 1; omega
  rw [e1, List.take_add, e2]

theorem piece_length (D : List UInt8) {a b : ℕ} (h : b ≤ D.length) : (piece D a b).length = b - a := by
  simp [piece]; omega

/-- What is known about the state after `t` bytes of `D` have been received. -/
structure RecvInv (D : List UInt8) (size chunksize t : ℕ) (st : RecvState) : Prop where
  total : st.total = t
  head : st.headK1 = t % size
  remaining : st.remaining = piece D (t / size * size) t
  elements : st.elements = (List.range (t / size)).map fun i => piece D (i * size) ((i + 1) * size)
  buff : st.recvBuff.length = chunksize

theorem buffer_piece (D old : List UInt8) (t r p q : ℕ) (hD : t + r ≤ D.length) (hq : q ≤ r) :
    piece ((D.drop t).take r ++ old) p q = piece D (t + p) (t + q) := by
  unfold piece
  rcases Nat.lt_or_ge q p with hpq | hpq
  · have e1 : q - p = 0 := by omega
    have e2 : t + q - (t + p) = 0 := by omega
    rw [e1, e2]; simp
  · have e2 : t + q - (t + p) = q - p := by omega
    rw [e2, List.drop_append_of_le_length (by simp; omega),
      List.take_append_of_le_length (by simp; omega), List.drop_take, List.drop_drop, List.take_take]
    congr 1
    omega

theorem recvBody_eq (D old : List UInt8) (size chunksize t r : ℕ) (hs : 0 < size) (st : RecvState)
    (h : RecvInv D size chunksize t st) (hr : r ≤ chunksize) (hchunk : chunksize < 2 ^ 64)
    (hD : t + r ≤ D.length) (htail : (size - t % size) % size ≤ r)
    (hold : r + old.length = chunksize) :
    ∃ st', recvBody size true st r ((D.drop t).take r ++ old) = .ok st' ∧
      RecvInv D size chunksize (t + r) st' := by
  -- `Q` complete elements after the tail
  obtain ⟨Q, tail, hQ, htl, hQt⟩ : ∃ Q tail, t + tail = Q * size ∧
      (size - t % size) % size = tail ∧
      ((tail = 0 ∧ t / size = Q) ∨ (0 < tail ∧ t / size + 1 = Q ∧ 0 < t % size)) := by
    have h1 := Nat.div_add_mod t size
    have h2 := Nat.mod_lt t hs
    rcases Nat.eq_zero_or_pos (t % size) with h0 | hpos
    · refine ⟨t / size, 0, ?_, by rw [h0]; simp, .inl ⟨rfl, rfl⟩⟩
      rw [Nat.mul_comm]; omega
    · refine ⟨t / size + 1, size - t % size, ?_, Nat.mod_eq_of_lt (by omega),
        .inr ⟨by omega, rfl, hpos⟩⟩
      rw [Nat.add_mul, Nat.one_mul, Nat.mul_comm]
      omega
  rw [htl] at htail
  have hblen : ((D.drop t).take r ++ old).length = chunksize := by simp; omega
  have hdm := Nat.div_add_mod (r - tail) size
  have hml := Nat.mod_lt (r - tail) hs
  have hmd : (r - tail) / size * size = size * ((r - tail) / size) := Nat.mul_comm ..
  have htr : t + r = (Q + (r - tail) / size) * size + (r - tail) % size := by
    rw [Nat.add_mul, ← hQ]; omega
  have hdiv : (t + r) / size = Q + (r - tail) / size := by
    rw [htr, Nat.mul_comm, Nat.mul_add_div hs, Nat.div_eq_of_lt hml, Nat.add_zero]
  have hmod : (t + r) % size = (r - tail) % size := by
    rw [htr, Nat.mul_comm, Nat.mul_add_mod, Nat.mod_mod]
  have hhead : (((r : ℤ) - ((size - st.headK1) % size : ℕ)) % 2 ^ 64 % size).toNat =
      (r - tail) % size := by
    rw [h.head, htl]
    have e1 : (r : ℤ) - (tail : ℕ) = ((r - tail : ℕ) : ℤ) := by omega
    rw [e1]
    have e2 : ((r - tail : ℕ) : ℤ) % 2 ^ 64 = ((r - tail : ℕ) : ℤ) :=
      Int.emod_eq_of_lt (by omega) (by omega)
    rw [e2, ← Int.natCast_emod, Int.toNat_natCast]
  have htl' : (size - st.headK1) % size = tail := by rw [h.head, htl]
  have hbl : blocks size ((D.drop t).take r ++ old) tail (r - (r - tail) % size) =
      .ok ((List.range ((r - tail) / size)).map fun j =>
        piece D ((Q + j) * size) ((Q + j + 1) * size)) := by
    have e : r - (r - tail) % size = tail + (r - tail) / size * size := by omega
    rw [e, blocks_eq size hs _ _ _ (by omega)]
    congr 1
    apply List.map_congr_left
    intro j hj
    have hj' : j + 1 ≤ (r - tail) / size := by simpa using hj
    have hjm : (j + 1) * size ≤ (r - tail) / size * size := Nat.mul_le_mul_right _ hj'
    have e3 : (j + 1) * size = j * size + size := by ring
    have hp := buffer_piece D old t r (tail + j * size) (tail + (j + 1) * size) hD (by omega)
    have e4 : t + (tail + j * size) = (Q + j) * size := by rw [Nat.add_mul, ← hQ]; omega
    have e5 : t + (tail + (j + 1) * size) = (Q + j + 1) * size := by
      have a1 : (Q + j + 1) * size = Q * size + (j + 1) * size := by ring
      omega
    rw [e4, e5] at hp
    rw [← hp]
    unfold piece
    congr 1
    omega
  have hrem : st.remaining ++ ((D.drop t).take r ++ old).take tail =
      piece D (t / size * size) (t + tail) := by
    have hp := buffer_piece D old t r 0 tail hD htail
    have : piece ((D.drop t).take r ++ old) 0 tail = ((D.drop t).take r ++ old).take tail := by
      simp [piece]
    rw [this, Nat.add_zero] at hp
    rw [hp, h.remaining, piece_append D (Nat.div_mul_le_self ..) (by omega)]
  have hlast : (((D.drop t).take r ++ old).take r).drop (r - (r - tail) % size) =
      piece D ((t + r) / size * size) (t + r) := by
    have hp := buffer_piece D old t r (r - (r - tail) % size) r hD (le_refl _)
    have e1 : piece ((D.drop t).take r ++ old) (r - (r - tail) % size) r =
        (((D.drop t).take r ++ old).take r).drop (r - (r - tail) % size) := by
      unfold piece
      rw [List.drop_take]
    have e2 : t + (r - (r - tail) % size) = (t + r) / size * size := by
      rw [hdiv]; omega
    rw [← e1, hp, e2]
  have hremlen : (piece D (t / size * size) (t + tail)).length = t + tail - t / size * size :=
    piece_length D (by omega)
  have hhd : (r - tail) % size ≤ r - tail := Nat.mod_le ..
  unfold recvBody
  simp only
  rw [hhead, htl', if_neg (by omega), hrem, hbl]
  simp only [Outcome.bind, correctAll_same]
  refine ⟨_, rfl, ?_, ?_, ?_, ?_, hblen⟩
  · simp only; rw [h.total]
  · simp only; rw [hmod]
  · simp only
    rw [hlast]
    rcases hQt with ⟨h0, hq⟩ | ⟨hpos, hq, hm⟩
    · rw [hremlen, h0, hq]
      have e0 : t + 0 - Q * size = 0 := by omega
      rw [if_neg (by omega)]
      have : piece D (Q * size) (t + 0) = [] := by
        unfold piece; rw [e0]; simp
      rw [this, List.nil_append]
    · have e0 : t + tail - t / size * size = size := by
        rw [hQ, ← hq, Nat.add_mul, Nat.one_mul]; omega
      rw [hremlen, if_pos e0, List.nil_append]
  · simp only
    rw [h.elements, hdiv]
    rcases hQt with ⟨h0, hq⟩ | ⟨hpos, hq, hm⟩
    · rw [hremlen, h0, hq]
      have e0 : t + 0 - Q * size = 0 := by omega
      rw [if_neg (by omega), List.nil_append, List.range_add, List.map_append, List.map_map]
      rfl
    · have e0 : t + tail - t / size * size = size := by
        rw [hQ, ← hq, Nat.add_mul, Nat.one_mul]; omega
      rw [hremlen, if_pos e0, hQ, ← hq, List.range_add, List.range_succ, List.map_append,
        List.map_append, List.map_map, List.append_assoc]
      rfl

theorem recvBinaryLoop_eq (D rest : List UInt8) (size chunksize n : ℕ) (hs : 0 < size)
    (hchunk : chunksize < 2 ^ 64) (hc0 : 0 < chunksize) (hc1 : size - 1 ≤ chunksize)
    (hD : D.length = n * size) :
    ∀ (fuel t : ℕ) (st : RecvState) (seg : ℕ → ℕ), (∀ k, size - 1 ≤ seg k) →
      RecvInv D size chunksize t st → t ≤ n * size → n * size - t ≤ fuel →
      ∃ st' seg', recvBinaryLoop size chunksize (n * size) true fuel st ⟨D.drop t ++ rest, seg⟩ =
        .ok (st', ⟨rest, seg'⟩) ∧ RecvInv D size chunksize (n * size) st' := by
  intro fuel
  induction fuel with
  | zero =>
    intro t st seg _ h ht hf
    have : t = n * size := by omega
    subst this
    unfold recvBinaryLoop
    rw [if_neg (by rw [h.total]; omega)]
    exact ⟨st, seg, by simp [← hD], h⟩
  | succ fuel ih =>
    intro t st seg hseg h ht hf
    unfold recvBinaryLoop
    rw [h.total]
    rcases Nat.lt_or_ge t (n * size) with hlt | hge
    · rw [if_pos hlt]
      simp only
      have htn : t / size < n := (Nat.div_lt_iff_lt_mul hs).2 hlt
      have h1 : (t / size + 1) * size ≤ n * size := Nat.mul_le_mul_right _ htn
      have h2 : (t / size + 1) * size = size * (t / size) + size := by ring
      have h3 := Nat.div_add_mod t size
      have h4 := Nat.mod_lt t hs
      have htail : (size - t % size) % size ≤ size - 1 := by
        have := Nat.mod_lt (size - t % size) hs
        omega
      have htail2 : (size - t % size) % size ≤ size - t % size := Nat.mod_le ..
      generalize hc : Stream.recvCount ⟨D.drop t ++ rest, seg⟩ (min (n * size - t) chunksize) = c
      have hcv : c = min (max 1 (seg 0)) (min (n * size - t) chunksize) := by
        rw [← hc]
        unfold Stream.recvCount
        simp only [List.length_append, List.length_drop, hD]
        omega
      have hseg0 := hseg 0
      rw [if_neg (by omega)]
      unfold Stream.recv
      rw [hc]
      simp only
      have e1 : (D.drop t ++ rest).take c = (D.drop t).take c :=
        List.take_append_of_le_length (by simp; omega)
      have e2 : (D.drop t ++ rest).drop c = D.drop (t + c) ++ rest := by
        rw [List.drop_append_of_le_length (by simp; omega), List.drop_drop]
      rw [e1, e2]
      obtain ⟨st', hb, hinv⟩ := recvBody_eq D (st.recvBuff.drop c) size chunksize t c hs st h
        (by omega) hchunk (by omega) (by omega) (by simp [h.buff]; omega)
      rw [hb]
      simp only [Outcome.bind]
      exact ih (t + c) st' _ (fun k => hseg (k + 1)) hinv (by omega) (by omega)
    · have : t = n * size := by omega
      subst this
      rw [if_neg (by omega)]
      exact ⟨st, seg, by simp [← hD], h⟩

theorem flatten_pieces (size : ℕ) (data : List (List UInt8)) (h : ∀ v ∈ data, v.length = size) :
    ((List.range data.length).map fun i => piece data.flatten (i * size) ((i + 1) * size)) = data := by
  induction data with
  | nil => rfl
  | cons v vs ih =>
    have hv := h v (List.mem_cons_self ..)
    rw [List.length_cons, List.range_succ_eq_map, List.map_cons, List.map_map]
    congr 1
    · simp [piece, hv]
    · conv_rhs => rw [← ih fun w hw => h w (List.mem_cons_of_mem _ hw)]
      apply List.map_congr_left
      intro i _
      simp only [Function.comp_apply, List.flatten_cons]
      unfold piece
      have e1 : i.succ * size = v.length + i * size := by rw [Nat.succ_mul, hv]; omega
      have e2 : (i.succ + 1) * size - i.succ * size = (i + 1) * size - i * size := by
        have a1 : (i.succ + 1) * size = i.succ * size + size := by ring
        have a2 : (i + 1) * size = i * size + size := by ring
        omega
      rw [e2, e1, List.drop_append, List.drop_of_length_le (by omega)]
      simp

theorem flatten_length_size (size : ℕ) (data : List (List UInt8)) (h : ∀ v ∈ data, v.length = size) :
    data.flatten.length = data.length * size := by
  induction data with
  | nil => simp
  | cons v vs ih =>
    rw [List.flatten_cons, List.length_append, ih fun w hw => h w (List.mem_cons_of_mem _ hw),
      h v (List.mem_cons_self ..), List.length_cons]
    ring

end Verif

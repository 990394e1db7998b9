import Verif.Lemmas.Network

/-!
# C44–C47: messages and data over stream sockets
-/

namespace Verif

/-! ### C44 -/

/-- **C44**: nonempty messages (of fewer than `2 ^ 31` bytes, as the receiver reads the length with
`std::stoi`, see `C44_violated`) that are sent one after the other are received as the same messages,
for every way in which the network splits the stream when sending (`sendSeg`) and when receiving
(`seg`), and nothing of what comes afterwards is consumed. The bytes of the messages are arbitrary. -/
theorem C44_messages_partial (msgs : List (List UInt8)) (hne : ∀ m ∈ msgs, m ≠ [])
    (hlen : ∀ m ∈ msgs, m.length < 2 ^ 31) (sendSeg : ℕ → ℕ → ℕ) (rest : List UInt8)
    (seg : ℕ → ℕ) :
    ∃ seg', recvMessages msgs.length
      ⟨(msgs.mapIdx fun i m => sendallPrefixed (sendSeg i) m).flatten ++ rest, seg⟩ =
        .ok (msgs, ⟨rest, seg'⟩) := by
  induction msgs generalizing sendSeg seg with
  | nil => exact ⟨seg, rfl⟩
  | cons m ms ih =>
    simp only [List.length_cons, recvMessages, List.mapIdx_cons, List.flatten_cons, List.append_assoc]
    obtain ⟨seg1, h1⟩ := recvallPrefixed_eq m
      ((ms.mapIdx fun i m => sendallPrefixed (sendSeg (i + 1)) m).flatten ++ rest)
      (hne m (List.mem_cons_self ..)) (hlen m (List.mem_cons_self ..)) (sendSeg 0) seg
    rw [h1]
    simp only [Outcome.bind]
    obtain ⟨seg2, h2⟩ := ih (fun x hx => hne x (List.mem_cons_of_mem _ hx))
      (fun x hx => hlen x (List.mem_cons_of_mem _ hx)) (fun i => sendSeg (i + 1)) seg1
    exact ⟨seg2, by rw [h2]⟩

/-- Messages that contain the delimiter and look like lengths. -/
example : ∃ seg', recvMessages 2
    ⟨([[35, 49, 35], [50, 35]].mapIdx fun i m => sendallPrefixed (fun k => i + k) m).flatten ++ [7],
      fun k => k % 3⟩ = .ok ([[35, 49, 35], [50, 35]], ⟨[7], seg'⟩) :=
  C44_messages_partial [[35, 49, 35], [50, 35]] (by decide) (by decide) (fun i k => i + k) [7]
    (fun k => k % 3)

theorem parseLength_large : parseLength (decimalBytes (2 ^ 31)) = .error := by decide +kernel

/-- A message of `2 ^ 31` bytes cannot be received: `std::stoi` throws. -/
theorem C44_violated : ¬ ∀ (m : List UInt8), m ≠ [] → ∀ seg,
    ∃ seg', recvMessages 1 ⟨sendallPrefixed seg m, seg⟩ = .ok ([m], ⟨[], seg'⟩) := by
  intro h
  have hl : ∀ n : ℕ, ∃ l : List UInt8, l.length = n := fun n =>
    ⟨List.replicate n 0, List.length_replicate ..⟩
  obtain ⟨l, hl⟩ := hl (2 ^ 31)
  obtain ⟨seg', h'⟩ := h l (by rintro rfl; exact absurd hl (by decide)) (fun _ => 0)
  unfold recvMessages recvallPrefixed recvLength sendallPrefixed at h'
  rw [sendall_eq, hl, List.append_assoc] at h'
  obtain ⟨seg1, h1⟩ := recvLengthLoop_eq (decimalBytes (2 ^ 31)) l
    (hash_notMem_decimalBytes _) [] (fun _ => 0)
  rw [List.singleton_append, h1] at h'
  simp only [Outcome.bind, List.nil_append, parseLength_large] at h'
  exact absurd h' (by simp)

/-! ### C45 -/

theorem recvBinary_eq (size chunksize : ℕ) (hs : 0 < size) (hchunk : chunksize < 2 ^ 64)
    (hc0 : 0 < chunksize) (hc1 : size - 1 ≤ chunksize) (little : Bool) (data : List (List UInt8))
    (hne : data ≠ []) (hdata : ∀ v ∈ data, v.length = size) (seg1 seg2 : ℕ → ℕ) (rest : List UInt8)
    (seg : ℕ → ℕ) (hseg : ∀ k, size - 1 ≤ seg k) :
    ∃ seg', recvBinary size chunksize data.length little
      ⟨sendallBinary seg1 seg2 little data ++ rest, seg⟩ = .ok (data, ⟨rest, seg'⟩) := by
  have hD := flatten_length_size size data hdata
  have hpos : 0 < data.length := List.length_pos_iff.2 hne
  have hprod : 0 < data.length * size := Nat.mul_pos hpos hs
  unfold recvBinary sendallBinary
  rw [sendall_eq, sendall_eq]
  have h1 : recvall 1 ⟨[if little then 1 else 0] ++ data.flatten ++ rest, seg⟩ =
      .ok ([if little then 1 else 0], ⟨data.flatten ++ rest, fun k => seg (k + 1)⟩) := by
    unfold recvall
    rw [if_neg (by decide)]
    unfold recvallLoop
    have hc : Stream.recvCount ⟨[if little then 1 else 0] ++ data.flatten ++ rest, seg⟩
        (1 - ([] : List UInt8).length) = 1 := by
      unfold Stream.recvCount
      simp only [List.length_nil, List.length_append, List.length_cons]
      omega
    rw [dif_pos (by decide), dif_neg (by rw [hc]; decide)]
    unfold Stream.recv
    rw [hc]
    unfold recvallLoop
    rw [dif_neg (by simp)]
    simp
  rw [h1]
  simp only [Outcome.bind]
  have hsame : ((([if little then 1 else 0] : List UInt8).getD 0 0 != 0) == little) = true := by
    cases little <;> decide
  rw [hsame, if_neg (by omega)]
  obtain ⟨st', seg', h2, hinv⟩ := recvBinaryLoop_eq data.flatten rest size chunksize data.length hs
    hchunk hc0 hc1 hD (data.length * size) 0 ⟨List.replicate chunksize 0, [], 0, 0, []⟩
    (fun k => seg (k + 1)) (fun k => hseg (k + 1))
    ⟨rfl, by simp, by simp [piece], by simp, by simp⟩ (by omega) (by omega)
  rw [List.drop_zero] at h2
  refine ⟨seg', ?_⟩
  rw [h2]
  simp only [hinv.elements]
  rw [Nat.mul_div_cancel _ hs, flatten_pieces size data hdata]

/-- **C45**, storing, if `recv` never delivers fewer than `sizeof - 1` bytes while more are to come
(for one-byte elements this is no condition), and the systems have the same byte order (see
`C46_undefined`): the values received are the values sent, and later bytes stay unread. The property
without this condition on the segmentation is refuted by `C45_violated`. -/
theorem C45_store_partial (size chunksize : ℕ) (hs : 0 < size) (hchunk : chunksize < 2 ^ 64)
    (hc0 : 0 < chunksize) (hc1 : size - 1 ≤ chunksize) (little : Bool)
    (data buff : List (List UInt8)) (hne : data ≠ []) (hdata : ∀ v ∈ data, v.length = size)
    (hbuff : buff.length = data.length) (seg1 seg2 : ℕ → ℕ) (rest : List UInt8) (seg : ℕ → ℕ)
    (hseg : ∀ k, size - 1 ≤ seg k) :
    ∃ seg', recvallBinaryAndCorrectInPlace size chunksize little buff
      ⟨sendallBinary seg1 seg2 little data ++ rest, seg⟩ = .ok (data, ⟨rest, seg'⟩) := by
  obtain ⟨seg', h⟩ := recvBinary_eq size chunksize hs hchunk hc0 hc1 little data hne hdata seg1 seg2
    rest seg hseg
  refine ⟨seg', ?_⟩
  unfold recvallBinaryAndCorrectInPlace
  rw [hbuff, h]
  simp only [Outcome.bind]
  rw [if_neg (by omega), List.drop_of_length_le (by omega), List.append_nil]

/-- **C45**, reducing, under the conditions of `C45_store_partial`. -/
theorem C45_reduce_partial (size chunksize : ℕ) (hs : 0 < size) (hchunk : chunksize < 2 ^ 64)
    (hc0 : 0 < chunksize) (hc1 : size - 1 ≤ chunksize) (little : Bool)
    (reduceOp : List UInt8 → List UInt8 → List UInt8)
    (data buff : List (List UInt8)) (hne : data ≠ []) (hdata : ∀ v ∈ data, v.length = size)
    (hbuff : buff.length = data.length) (seg1 seg2 : ℕ → ℕ) (rest : List UInt8) (seg : ℕ → ℕ)
    (hseg : ∀ k, size - 1 ≤ seg k) :
    ∃ seg', recvallBinaryAndReduceInPlace size chunksize little reduceOp buff
      ⟨sendallBinary seg1 seg2 little data ++ rest, seg⟩ =
        .ok (List.zipWith reduceOp buff data, ⟨rest, seg'⟩) := by
  obtain ⟨seg', h⟩ := recvBinary_eq size chunksize hs hchunk hc0 hc1 little data hne hdata seg1 seg2
    rest seg hseg
  refine ⟨seg', ?_⟩
  unfold recvallBinaryAndReduceInPlace
  rw [hbuff, h]
  simp only [Outcome.bind]
  rw [if_neg (by omega), List.drop_of_length_le (by omega), List.append_nil]

/-- Elements of four bytes that arrive in segments of three bytes. -/
example : ∃ seg', recvallBinaryAndCorrectInPlace 4 16 true [[0, 0, 0, 0], [0, 0, 0, 0]]
    ⟨sendallBinary (fun _ => 1) (fun _ => 2) true [[1, 2, 3, 4], [5, 6, 7, 8]] ++ [9], fun _ => 3⟩ =
      .ok ([[1, 2, 3, 4], [5, 6, 7, 8]], ⟨[9], seg'⟩) :=
  C45_store_partial 4 16 (by decide) (by decide) (by decide) (by decide) true
    [[1, 2, 3, 4], [5, 6, 7, 8]] [[0, 0, 0, 0], [0, 0, 0, 0]] (by decide) (by decide) rfl
    (fun _ => 1) (fun _ => 2) [9] (fun _ => 3) (fun _ => by decide)

/-- What is received if the first segments of the elements have three and two bytes (sizes of the
segments after the byte for the byte order). -/
theorem C45_witness : ∀ seg', recvallBinaryAndCorrectInPlace 8 16 true [[0, 0, 0, 0, 0, 0, 0, 0]]
    ⟨sendallBinary (fun _ => 1) (fun _ => 8) true [[1, 2, 3, 4, 5, 6, 7, 8]],
      fun k => [1, 3, 2, 3].getD k 1⟩ ≠ .ok ([[1, 2, 3, 4, 5, 6, 7, 8]], ⟨[], seg'⟩) := by
  intro seg' h
  have h1 : (match recvallBinaryAndCorrectInPlace 8 16 true [[0, 0, 0, 0, 0, 0, 0, 0]]
      ⟨sendallBinary (fun _ => 1) (fun _ => 8) true [[1, 2, 3, 4, 5, 6, 7, 8]],
        fun k => [1, 3, 2, 3].getD k 1⟩ with
      | .ok r => decide (r.1 = [[1, 2, 3, 4, 5, 6, 7, 8]])
      | _ => false) = false := by decide +kernel
  rw [h] at h1
  simp at h1

/-- The property as stated does not hold: eight-byte elements that arrive in segments of three, two and
three bytes are not received correctly. -/
theorem C45_violated :
    ¬ ∀ (size chunksize : ℕ) (data buff : List (List UInt8)) (seg : ℕ → ℕ), 0 < size →
      size ≤ chunksize → chunksize < 2 ^ 64 → data ≠ [] → (∀ v ∈ data, v.length = size) →
      buff.length = data.length →
      ∃ seg', recvallBinaryAndCorrectInPlace size chunksize true buff
        ⟨sendallBinary (fun _ => 1) (fun _ => 8) true data, seg⟩ = .ok (data, ⟨[], seg'⟩) := by
  intro h
  obtain ⟨seg', h'⟩ := h 8 16 [[1, 2, 3, 4, 5, 6, 7, 8]] [[0, 0, 0, 0, 0, 0, 0, 0]]
    (fun k => [1, 3, 2, 3].getD k 1) (by decide) (by decide) (by decide) (by decide) (by decide) rfl
  exact C45_witness seg' h'

/-! ### C46 -/

/-- The property does not hold for any value of any type: for byte 0 of the result the byte behind the
value is read. -/
theorem C46_undefined (value : List UInt8) (h : value ≠ []) : reverseEndianness value = .stuck := by
  have hpos : 0 < value.length := List.length_pos_iff.2 h
  unfold reverseEndianness
  rw [if_neg]
  intro hall
  have := hall 0 (by simpa using hpos)
  omega

/-- **C46** is refuted. -/
theorem C46_violated : ¬ ∀ value : List UInt8,
    ((reverseEndianness value).bind reverseEndianness) = .ok value := by
  intro h
  have := h [1, 2]
  rw [C46_undefined _ (by decide)] at this
  simp [Outcome.bind] at this

/-! ### C47 -/

/-- **C47**: forwarding `size` bytes delivers exactly the first `size` bytes of the stream in order and
leaves the later ones unread, for every chunk size and every way in which the network splits the data
when receiving (`seg`) and when sending (`sendSeg`). -/
theorem C47_forward (chunksize size : ℕ) (hc : 0 < chunksize) (bytes : List UInt8)
    (hsize : size ≤ bytes.length) (seg : ℕ → ℕ) (sendSeg : ℕ → ℕ → ℕ) :
    ∃ seg', forward chunksize size sendSeg ⟨bytes, seg⟩ =
      .ok (bytes.take size, ⟨bytes.drop size, seg'⟩) :=
  forwardLoop_eq chunksize size hc size 0 bytes seg sendSeg (by omega) hsize

example : ∃ seg', forward 4 5 (fun _ _ => 2) ⟨[1, 2, 3, 4, 5, 6, 7], fun k => k⟩ =
    .ok ([1, 2, 3, 4, 5], ⟨[6, 7], seg'⟩) :=
  C47_forward 4 5 (by decide) _ (by decide) _ _

/-- If the sender terminates before `size` bytes, forwarding reports an error instead of success. -/
theorem C47_early_end (chunksize size : ℕ) (bytes : List UInt8)
    (hsize : bytes.length < size) (seg : ℕ → ℕ) (sendSeg : ℕ → ℕ → ℕ) :
    forward chunksize size sendSeg ⟨bytes, seg⟩ = .error := by
  have key : ∀ (m total : ℕ) (bytes : List UInt8) (seg : ℕ → ℕ) (sendSeg : ℕ → ℕ → ℕ),
      size - total = m → bytes.length < m →
      forwardLoop chunksize size sendSeg total ⟨bytes, seg⟩ = .error := by
    intro m
    induction m using Nat.strong_induction_on with
    | _ m ih =>
      intro total bytes seg sendSeg hm hb
      unfold forwardLoop
      rw [dif_pos (by omega)]
      split
      · rfl
      · next hr =>
        unfold Stream.recv
        generalize hc : Stream.recvCount ⟨bytes, seg⟩ (forwardLimit chunksize size total) = c at hr
        have hc2 : c ≤ bytes.length := by rw [← hc]; unfold Stream.recvCount; simp only; omega
        simp only
        rw [ih (m - c) (by omega) (total + c) _ _ _ (by omega) (by simp; omega)]
        rfl
  exact key size 0 bytes seg sendSeg (by omega) hsize

end Verif

import Verif.Model.ExchangeFiles

/-!
# Stream sockets

`/repo/src/third_level/NetworkUtils.cpp` and `/repo/src/third_level/NetworkUtils.hpp`.
-/

namespace Verif

/-- What arrives at a stream socket: the bytes not yet received, and for each call of `recv` from now
on how many bytes the network has ready (`seg`). All segmentations are possible, as `seg` is arbitrary. -/
structure Stream where
  bytes : List UInt8
  seg : ℕ → ℕ

/-- Number of bytes that `recv(…, limit, …)` delivers: at least one and at most `limit` and what there
is; zero if there is nothing more to come (the sender terminated). Failures (-1) are not modelled. -/
def Stream.recvCount (s : Stream) (limit : ℕ) : ℕ :=
  min (max 1 (s.seg 0)) (min limit s.bytes.length)

/-- `recv`: the bytes received and the stream afterwards. -/
def Stream.recv (s : Stream) (limit : ℕ) : List UInt8 × Stream :=
  (s.bytes.take (s.recvCount limit), ⟨s.bytes.drop (s.recvCount limit), fun k => s.seg (k + 1)⟩)

/-- `ClientSocket::sendall`, l.52-73: the bytes that go to the network. `send` may take only a part of
the bytes, `seg` tells how many (at least one). -/
def sendall (seg : ℕ → ℕ) (buff : List UInt8) : List UInt8 :=
  if _h : buff.length = 0 then []
  else
    buff.take (min (max 1 (seg 0)) buff.length) ++
      sendall (fun k => seg (k + 1)) (buff.drop (min (max 1 (seg 0)) buff.length))
termination_by buff.length
decreasing_by
  rw [List.length_drop]
  omega

/-- The loop of `recvall(char*, size_t, int)`, l.149-170, with `total` already received bytes `buff`:
`error` is the result `false` (the sender terminated too early). -/
def recvallLoop (len : ℕ) (buff : List UInt8) (s : Stream) : Outcome (List UInt8 × Stream) :=
  if _h : buff.length < len then
    if _hr : s.recvCount (len - buff.length) = 0 then .error
    else recvallLoop len (buff ++ (s.recv (len - buff.length)).1) (s.recv (len - buff.length)).2
  else .ok (buff, s)
termination_by len - buff.length
decreasing_by
  unfold Stream.recv
  unfold Stream.recvCount at _hr ⊢
  simp only [List.length_append, List.length_take]
  omega

/-- `recvall`, l.93-101 and l.149-170. For `len = 0`, `recvd` keeps the value -1 and the result is
`false`. -/
def recvall (len : ℕ) (s : Stream) : Outcome (List UInt8 × Stream) :=
  if len = 0 then .error else recvallLoop len [] s

/-! ### Text messages -/

/-- The bytes of a decimal number. -/
def decimalBytes (n : ℕ) : List UInt8 := (decimal n).map fun ch => UInt8.ofNat ch.toNat

/-- The character `#`. -/
def hashByte : UInt8 := 35

/-- `sendallPrefixed`, l.76-91. -/
def sendallPrefixed (seg : ℕ → ℕ) (mesg : List UInt8) : List UInt8 :=
  sendall seg (decimalBytes mesg.length ++ [hashByte] ++ mesg)

/-- `std::isdigit` -/
def isDigitByte (b : UInt8) : Bool := 48 ≤ b.toNat && b.toNat ≤ 57

/-- `isInteger` (l.413-418, without signs, which no sender uses) and `std::stoi`, which throws if the
number is not representable as `int`. An assertion that fails is `stuck`. -/
def parseLength (lenstr : List UInt8) : Outcome ℕ :=
  if lenstr = [] ∨ ¬ lenstr.all isDigitByte then .stuck
  else
    let n := lenstr.foldl (fun acc b => 10 * acc + (b.toNat - 48)) 0
    if 2 ^ 31 ≤ n then .error else .ok n

/-- The loop of `recvLength`, l.177-182: characters are received one by one until `#`; the result is
without the `#`. -/
def recvLengthLoop (lenstr : List UInt8) (s : Stream) : Outcome (List UInt8 × Stream) :=
  match _hb : s.bytes with
  | [] => .error
  | b :: _ =>
    if b = hashByte then .ok (lenstr, (s.recv 1).2)
    else recvLengthLoop (lenstr ++ [b]) (s.recv 1).2
termination_by s.bytes.length
decreasing_by
  simp only [Stream.recv, Stream.recvCount, _hb, List.length_drop, List.length_cons]
  omega

/-- `recvLength`, l.172-198. -/
def recvLength (s : Stream) : Outcome (ℕ × Stream) :=
  (recvLengthLoop [] s).bind fun r =>
    (parseLength r.1).bind fun n => if n = 0 then .stuck else .ok (n, r.2)

/-- `recvallPrefixed`, l.200-218. -/
def recvallPrefixed (s : Stream) : Outcome (List UInt8 × Stream) :=
  (recvLength s).bind fun r => recvall r.1 r.2

/-- Receiving several messages, one after the other. -/
def recvMessages : ℕ → Stream → Outcome (List (List UInt8) × Stream)
  | 0, s => .ok ([], s)
  | n + 1, s => (recvallPrefixed s).bind fun r =>
      (recvMessages n r.2).bind fun rs => .ok (r.1 :: rs.1, rs.2)

/-! ### Binary data -/

/-- `reverseEndianness`, `NetworkUtils.hpp` l.157-169, on the bytes of a value of size
`value.length`: byte `j` of the result is byte `sizeof(T) - j` of the value. Reading outside of the
value is undefined (`stuck`). -/
def reverseEndianness (value : List UInt8) : Outcome (List UInt8) :=
  if ∀ j ∈ List.range value.length, value.length - j < value.length then
    .ok ((List.range value.length).map fun j => value.getD (value.length - j) 0)
  else .stuck

/-- State of the loops of `recvallBinaryAndCorrectInPlace` (l.212-261) and
`recvallBinaryAndReduceInPlace` (l.322-381): the receive buffer, the bytes of a partly received
element, `head_k1`, `totalRecvd`, and the elements (as bytes) stored or reduced so far, in order. -/
structure RecvState where
  recvBuff : List UInt8
  remaining : List UInt8
  headK1 : ℕ
  total : ℕ
  elements : List (List UInt8)

/-- The elements of `size` bytes at the positions `i, i + size, …` below `stop` of a buffer. Reading
past the buffer is undefined (`stuck`). -/
def blocks (size : ℕ) (buf : List UInt8) (i stop : ℕ) : Outcome (List (List UInt8)) :=
  if _h : i < stop ∧ 0 < size then
    if buf.length < i + size then .stuck
    else (blocks size buf (i + size) stop).bind fun bs => .ok ((buf.drop i).take size :: bs)
  else .ok []
termination_by stop - i

/-- Convert an element to the byte order of the receiving system. -/
def correctEndianness (same : Bool) (value : List UInt8) : Outcome (List UInt8) :=
  if same then .ok value else reverseEndianness value

/-- Convert several elements. -/
def correctAll (same : Bool) : List (List UInt8) → Outcome (List (List UInt8))
  | [] => .ok []
  | v :: vs => (correctEndianness same v).bind fun w =>
      (correctAll same vs).bind fun ws => .ok (w :: ws)

/-- The body of the loops, `NetworkUtils.hpp` l.213-260 and l.323-380, after `recvd` bytes have arrived
in `recvBuff`. `recvd - tail_k` is a signed difference that is converted to `size_t` (64 bit) for the
remainder. Both functions form the same elements in the same order. Reading the tail past the receive
buffer, or the head before it, is undefined. -/
def recvBody (size : ℕ) (same : Bool) (st : RecvState) (recvd : ℕ) (recvBuff : List UInt8) :
    Outcome RecvState :=
  let tailK := (size - st.headK1) % size
  let headK := (((recvd : ℤ) - tailK) % 2 ^ 64 % size).toNat
  if recvBuff.length < tailK ∨ recvd < headK then .stuck
  else
    let remaining := st.remaining ++ recvBuff.take tailK
    let first := if remaining.length = size then [remaining] else []
    let remaining' := if remaining.length = size then [] else remaining
    (blocks size recvBuff tailK (recvd - headK)).bind fun bs =>
      (correctAll same (first ++ bs)).bind fun vals =>
        .ok ⟨recvBuff, remaining' ++ (recvBuff.take recvd).drop (recvd - headK), headK,
          st.total + recvd, st.elements ++ vals⟩

/-- The loops of `recvallBinaryAndCorrectInPlace` and `recvallBinaryAndReduceInPlace`; `error` is the
result `false`. -/
def recvBinaryLoop (size chunksize rawSize : ℕ) (same : Bool) (fuel : ℕ) (st : RecvState)
    (s : Stream) : Outcome (RecvState × Stream) :=
  if st.total < rawSize then
    match fuel with
    | 0 => .stuck
    | fuel + 1 =>
      let recvd := s.recvCount (min (rawSize - st.total) chunksize)
      if recvd = 0 then .error
      else
        let r := s.recv (min (rawSize - st.total) chunksize)
        (recvBody size same st recvd (r.1 ++ st.recvBuff.drop recvd)).bind fun st' =>
          recvBinaryLoop size chunksize rawSize same fuel st' r.2
  else .ok (st, s)

/-- The elements received by `recvallBinaryAndCorrectInPlace` (l.186-274) and
`recvallBinaryAndReduceInPlace` (l.295-394) from a stream, in order: `size` is `sizeof(FG_ELEMENT)`,
`n` is `buffSize`, `little` is `isLittleEndian()`. Each pass of the loop receives at least one byte, so
that `n * size` passes suffice. For `buffSize` zero, `recvd` is -1 at the end and the result is
`false`. -/
def recvBinary (size chunksize n : ℕ) (little : Bool) (s : Stream) :
    Outcome (List (List UInt8) × Stream) :=
  (recvall 1 s).bind fun e =>
    let same := (e.1.getD 0 0 != 0) == little
    if n * size = 0 then .error
    else
      (recvBinaryLoop size chunksize (n * size) same (n * size)
        ⟨List.replicate chunksize 0, [], 0, 0, []⟩ e.2).bind fun r => .ok (r.1.elements, r.2)

/-- `recvallBinaryAndCorrectInPlace`: element `i` of the stream goes to `buff[i]`; more elements than
`buff` has are undefined. -/
def recvallBinaryAndCorrectInPlace (size chunksize : ℕ) (little : Bool) (buff : List (List UInt8))
    (s : Stream) : Outcome (List (List UInt8) × Stream) :=
  (recvBinary size chunksize buff.length little s).bind fun r =>
    if buff.length < r.1.length then .stuck else .ok (r.1 ++ buff.drop r.1.length, r.2)

/-- `recvallBinaryAndReduceInPlace`: element `i` of the stream is combined with `buff[i]`. -/
def recvallBinaryAndReduceInPlace (size chunksize : ℕ) (little : Bool)
    (reduceOp : List UInt8 → List UInt8 → List UInt8) (buff : List (List UInt8)) (s : Stream) :
    Outcome (List (List UInt8) × Stream) :=
  (recvBinary size chunksize buff.length little s).bind fun r =>
    if buff.length < r.1.length then .stuck
    else .ok (List.zipWith reduceOp buff r.1 ++ buff.drop r.1.length, r.2)

/-- `sendallBinary`, `NetworkUtils.hpp` l.400-410; `buff` are the elements as bytes. -/
def sendallBinary (seg1 seg2 : ℕ → ℕ) (little : Bool) (buff : List (List UInt8)) : List UInt8 :=
  sendall seg1 [if little then 1 else 0] ++ sendall seg2 buff.flatten

/-! ### Forwarding -/

/-- How many bytes `forward` asks for, l.385-389. -/
def forwardLimit (chunksize size total : ℕ) : ℕ :=
  if size - total < chunksize then size - total else chunksize

/-- The loop of `NetworkUtils::forward`, `NetworkUtils.cpp` l.383-406, after `total` bytes; the results
are the bytes sent to the receiver and the stream of the sender. `sendSeg k` is how the network takes
the bytes of the `k`-th call of `sendall`. -/
def forwardLoop (chunksize size : ℕ) (sendSeg : ℕ → ℕ → ℕ) (total : ℕ) (s : Stream) :
    Outcome (List UInt8 × Stream) :=
  if _h : total < size then
    if _hr : s.recvCount (forwardLimit chunksize size total) = 0 then .error
    else
      (forwardLoop chunksize size (fun k => sendSeg (k + 1))
        (total + s.recvCount (forwardLimit chunksize size total))
        (s.recv (forwardLimit chunksize size total)).2).bind fun r =>
          .ok (sendall (sendSeg 0) (s.recv (forwardLimit chunksize size total)).1 ++ r.1, r.2)
  else .ok ([], s)
termination_by size - total
decreasing_by omega

/-- `NetworkUtils::forward`, l.373-408. -/
def forward (chunksize size : ℕ) (sendSeg : ℕ → ℕ → ℕ) (s : Stream) : Outcome (List UInt8 × Stream) :=
  forwardLoop chunksize size sendSeg 0 s

end Verif

import Verif.Model.FileIO

/-!
# Compressed files

`/repo/src/io/MPICompression.hpp` (with `DISCOTEC_USE_LZ4`). LZ4 itself is a parameter, see `Lz4`.

Simplifications: errors that LZ4 reports for frames that are not valid are `stuck` (the code looks for the
error in the wrong variable, so it does not see them). `LZ4F_compressFrame` writes the frame and nothing
else. If one process throws, the outcome is `error`, although others may wait for it.
-/

namespace Verif.Compression

/-- LZ4 as far as its documentation promises: `compress` and `compressHeader` are `LZ4F_compressFrame` with
the preferences for the data and for the header; `content` is what a valid frame contains.

`answer f r o cap` is how `LZ4F_decompress` answers on the frame `f` when `r` bytes of it have been consumed,
`o` bytes of output have been produced, it gets all the bytes that have not been consumed, and there is room
for `cap` bytes: the number of bytes that it consumes and the number of bytes that it produces. It may consume
and produce less than it could, but it makes progress, and it does not consume the end of the frame (the end
mark) before all output is produced. -/
structure Lz4 where
  compress : List UInt8 → List UInt8
  compressHeader : List UInt8 → List UInt8
  content : List UInt8 → Option (List UInt8)
  answer : List UInt8 → ℕ → ℕ → ℕ → ℕ × ℕ
  compress_content : ∀ x, content (compress x) = some x
  header_content : ∀ x, content (compressHeader x) = some x
  frame_pos : ∀ f x, content f = some x → 0 < f.length
  consumed_le : ∀ f r o cap, r < f.length → (answer f r o cap).1 ≤ f.length - r
  produced_le : ∀ f x r o cap, content f = some x → r < f.length →
    (answer f r o cap).2 ≤ min cap (x.length - o)
  progress : ∀ f r o cap, r < f.length → 0 < cap →
    0 < (answer f r o cap).1 ∨ 0 < (answer f r o cap).2
  finish : ∀ f x r o cap, content f = some x → r < f.length → o ≤ x.length →
    r + (answer f r o cap).1 = f.length → o + (answer f r o cap).2 = x.length

variable {α : Type}

/-- The bytes of values in memory. -/
def toBytes (c : Codec α) (vals : List α) : List UInt8 :=
  vals.flatMap fun x => (List.range c.size).map (c.enc x)

/-- Bytes in memory as values (`reinterpret_cast`); an incomplete value at the end does not count. -/
def ofBytes (c : Codec α) (bs : List UInt8) : List α :=
  (List.range (bs.length / c.size)).map fun i => c.dec fun j => bs.getD (i * c.size + j) 0

/-- `char` as type of the values in a file. -/
def byteCodec : Codec UInt8 where
  size := 1
  enc x _ := x
  dec b := b 0
  size_pos := by decide
  dec_enc x b h := h 0 (by decide)

/-- `compressBufferToLZ4Frame`, l.36-62, for a vector that is to be appended to: the frame that is appended.
`LZ4_compressBound` of more than `0x7E000000` bytes or of a number that wraps is too small for the frame, which
LZ4 reports. -/
def compressBuffer (lz : Lz4) (c : Codec α) (vals : List α) : Outcome (List UInt8) :=
  if 0x7E000000 < vals.length * c.size then .error else .ok (lz.compress (toBytes c vals))

/-- `decompressLZ4FrameToBuffer` with `FrameDecompressor`, l.136-210: the `n` values in the frame `f`. The second
call of `LZ4F_decompress` gets the bytes from the beginning of the frame (l.166, `readCompressedByNow_` is not
added), which makes no sense unless there are no bytes left. In the end there are an assertion that all values
have been read (l.202), an exception if there were not two rounds (l.203), and an assertion that the whole
frame was consumed (l.157). The loop ends when a round gives no complete value. -/
def decompressFrame (lz : Lz4) (c : Codec α) (f : List UInt8) (n : ℕ) : Outcome (List α) :=
  match lz.content f with
  | none => .stuck
  | some x =>
    let consumed := (lz.answer f 0 0 (n * c.size)).1
    let produced := (lz.answer f 0 0 (n * c.size)).2
    if produced / c.size = 0 then
      -- one round
      if n ≠ 0 ∨ consumed ≠ f.length then .stuck else .error
    else if consumed ≠ f.length then .stuck
    else if n - produced / c.size ≠ 0 then .stuck
    else .ok (ofBytes c (x.take produced))

/-- `getSizeOfHeaderFrame`, l.221-242: the frame of a vector of zeros. -/
def headerSize (lz : Lz4) (co : Codec UInt64) (commSize : ℕ) : ℕ :=
  (lz.compressHeader (List.replicate (commSize * co.size) 0)).length

/-- A step for the values of each process. -/
def mapAll {β γ : Type} (f : β → Outcome γ) : List β → Outcome (List γ)
  | [] => .ok []
  | x :: xs => (f x).bind fun y => (mapAll f xs).bind fun ys => .ok (y :: ys)

/-- `compressBufferToLZ4FrameAndGatherHeader`, l.244-290, on all processes: what each process writes. On the
process 0 a header with the numbers of bytes of all processes comes first; its size must be the one that was
expected (assertion l.282). -/
def compressAll (lz : Lz4) (c : Codec α) (co : Codec UInt64) (data : List (List α)) :
    Outcome (List (List UInt8)) :=
  (mapAll (compressBuffer lz c) data).bind fun frames =>
    let hs := headerSize lz co data.length
    let sizes := frames.mapIdx fun r f => if r = 0 then hs + f.length else f.length
    let header := lz.compressHeader (toBytes co (sizes.map UInt64.ofNat))
    if header.length ≠ hs then .stuck
    else .ok (frames.mapIdx fun r f => if r = 0 then header ++ f else f)

/-- `writeCompressedValuesConsecutive`, l.292-307: an existing file is always replaced. -/
def writeCompressed (lz : Lz4) (c : Codec α) (co : Codec UInt64) (prev : Option DiskFile)
    (order : List ℕ) (data : List (List α)) : Outcome DiskFile :=
  (compressAll lz c co data).bind fun payloads =>
    .ok (writeValuesConsecutive byteCodec prev true order payloads)

/-- `getFrameSizeAndPosFromHeader`, l.309-346, on all processes: the size and the position of the frame of each
process. -/
def frameSizesAndPositions (lz : Lz4) (co : Codec UInt64) (f : DiskFile) (commSize : ℕ) :
    Outcome (List (ℕ × ℕ)) :=
  let hs := headerSize lz co commSize
  let headerFrame := readValuesFromFileAtPosition byteCodec f hs 0
  if headerFrame.length ≠ hs then .stuck
  else
    (decompressFrame lz co headerFrame commSize).bind fun sizes64 =>
      let sizes := sizes64.map UInt64.toNat
      if sizes.getD 0 0 < hs then .stuck
      else if !checkFileSizeConsecutive byteCodec f sizes then .error
      else .ok (sizes.mapIdx fun r s =>
        if r = 0 then (s - hs, hs) else (s, getPositionFromNumValues sizes r))

/-- The first part of `readCompressedValuesConsecutive` and `readReduceCompressedValuesConsecutive`, l.353-361
and l.378-386: the frames of all processes. -/
def readFrames (lz : Lz4) (co : Codec UInt64) (file : Option DiskFile) (commSize : ℕ) :
    Outcome (List (List UInt8)) :=
  match file with
  | none => .error
  | some f =>
    (frameSizesAndPositions lz co f commSize).bind fun sp =>
      mapAll (fun s : ℕ × ℕ =>
        let frame := readValuesFromFileAtPosition byteCodec f s.1 s.2
        if frame.length ≠ s.1 then .stuck else .ok frame) sp

/-- `readCompressedValuesConsecutive`, l.349-370, on all processes; `counts` are the numbers of values that
they expect. -/
def readCompressed (lz : Lz4) (c : Codec α) (co : Codec UInt64) (file : Option DiskFile)
    (counts : List ℕ) : Outcome (List (List α)) :=
  (readFrames lz co file counts.length).bind fun frames =>
    mapAll (fun p : List UInt8 × ℕ => decompressFrame lz c p.1 p.2) (frames.zip counts)

/-- The size of the buffer of `VectorStream`, l.67-71: `LZ4_compressBound` of 4 MiB and the size of `size_t`. -/
def bufferSize : ℕ := 4194304 + 4194304 / 255 + 16 + 8

/-- The loop of `readReduceCompressedValuesConsecutive`, l.394-412, on one process, `fuel` times at most. `r` and
`o` are the numbers of bytes consumed and produced, `rest` are the bytes of an incomplete value that were moved
to the beginning of the buffer, `w` is the position of `writePointer`. LZ4 is told that there is room for
`bufferSize` bytes (l.109), also if `rest` is not empty: what it produces may not fit. -/
def reduceLoop (lz : Lz4) (c : Codec α) (op : α → α → α) (f x : List UInt8) :
    ℕ → ℕ → ℕ → List UInt8 → ℕ → List α → Outcome (List α)
  | 0, _, _, _, _, _ => .stuck
  | fuel + 1, r, o, rest, w, vals =>
    let consumed := (lz.answer f r o bufferSize).1
    let produced := (lz.answer f r o bufferSize).2
    if bufferSize < rest.length + produced then .stuck
    else
      let bytes := rest ++ (x.drop o).take produced
      let full := bytes.length / c.size
      if vals.length < w + full then .stuck
      else
        let vals' := vals.take w ++
          List.zipWith op (ofBytes c bytes) (vals.drop w) ++ vals.drop (w + full)
        if r + consumed = f.length then
          if w + full = vals.length then .ok vals' else .stuck
        else
          reduceLoop lz c op f x fuel (r + consumed) (o + produced) (bytes.drop (full * c.size)) (w + full)
            vals'

/-- `readReduceCompressedValuesConsecutive`, l.372-419, on all processes. -/
def readReduceCompressed (lz : Lz4) (c : Codec α) (co : Codec UInt64) (op : α → α → α)
    (file : Option DiskFile) (old : List (List α)) : Outcome (List (List α)) :=
  (readFrames lz co file old.length).bind fun frames =>
    mapAll (fun p : List UInt8 × List α =>
      match lz.content p.1 with
      | none => .stuck
      | some x => reduceLoop lz c op p.1 x (p.1.length + x.length + 1) 0 0 [] 0 p.2) (frames.zip old)

end Verif.Compression
